import Verif.Gimbal.TextModel
import Verif.Text.CProps

/-! The files of the gimbal program, as they are meant to be written. -/

namespace Yac.Gimbal
open Yac.Text

/-- `key: value` after `i` blanks. -/
def kv (i : Nat) (key value : Str) : Str := List.replicate i ' ' ++ key ++ ':' :: ' ' :: value ++ ['\n']

/-- The rest of a vector after the bracket: cells separated by a comma and a blank. -/
def cells : List Str → Str
  | [] => [']']
  | [c] => c ++ [']']
  | c :: cs => c ++ ',' :: ' ' :: cells cs

/-- `[a, b, c]`. -/
def vec (cs : List Str) : Str := '[' :: cells cs

/-- A number of a vector: text without separators, at most 99 characters. -/
structure NumOk (c : Str) : Prop where
  plain : ∀ x ∈ c, x ≠ ',' ∧ x ≠ ']' ∧ x ≠ '[' ∧ x ≠ ':' ∧ x ≠ '\n' ∧ x ≠ nul
  short : (squeeze c).length ≤ 99

/-- A line that fits the buffer. -/
def Fits (i : Nat) (key value : Str) : Prop := (kv i key value).length ≤ 1023

/-- The text of a vector of `n` numbers that fits its line. -/
def VecOk (n i : Nat) (key : Str) (cs : List Str) : Prop := cs.length = n ∧ (∀ c ∈ cs, NumOk c) ∧ Fits i key (vec cs)

/-- `"name"`. -/
def quoted (name : Str) : Str := '"' :: name ++ ['"']

/-- A model name that fits its buffer. -/
def NameOk (name : Str) : Prop :=
  name.length < 30 ∧ ∀ x ∈ name, x ≠ '"' ∧ x ≠ ':' ∧ x ≠ '\n' ∧ x ≠ nul

/-- The section of a camera. -/
structure CamText where
  head : Str
  indent : Nat
  res : List Str
  projModel : Str
  distModel : Str
  proj : List Str
  dist : List Str

/-- The lines of a camera. -/
def CamText.text (c : CamText) : Str :=
  c.head ++ ['\n'] ++ kv c.indent "resolution".toList (vec c.res) ++ kv c.indent "proj_model".toList (quoted c.projModel) ++
    kv c.indent "dist_model".toList (quoted c.distModel) ++ kv c.indent "proj_params".toList (vec c.proj) ++
    kv c.indent "dist_params".toList (vec c.dist) ++ ['\n']

/-- A well-formed section, with the resolution `w x h`. -/
structure CamText.Ok (c : CamText) (w h : ℤ) : Prop where
  head : '\n' ∉ c.head ∧ c.head.length < 9045
  indent : c.indent ≤ 100
  res : VecOk 2 c.indent "resolution".toList c.res
  size : c.res.map (fun x => toInt32 (number x)) = [.ok w, .ok h]
  projModel : NameOk c.projModel
  distModel : NameOk c.distModel
  proj : VecOk 4 c.indent "proj_params".toList c.proj
  dist : VecOk 4 c.indent "dist_params".toList c.dist

/-- A configuration file. -/
structure ConfText where
  links : Nat
  cams : List CamText
  cam0 : List Str
  cam1 : List Str
  effector : List Str
  link0 : List Str
  link1 : List Str
  gimbal : List Str

/-- Its text. -/
def ConfText.text (c : ConfText) : Str :=
  kv 0 "num_cams".toList (natText c.cams.length) ++ kv 0 "num_links".toList (natText c.links) ++ ['\n'] ++
    c.cams.flatMap CamText.text ++ kv 0 "cam0_ext".toList (vec c.cam0) ++ kv 0 "cam1_ext".toList (vec c.cam1) ++
    kv 0 "end_ext".toList (vec c.effector) ++ kv 0 "link0_ext".toList (vec c.link0) ++
    kv 0 "link1_ext".toList (vec c.link1) ++ kv 0 "gimbal_ext".toList (vec c.gimbal)

/-- A well-formed file. -/
structure ConfText.Ok (c : ConfText) (sizes : List (ℤ × ℤ)) : Prop where
  few : c.cams.length < 2 ^ 31
  links : c.links < 2 ^ 31
  cams : List.Forall₂ (fun (t : CamText) (s : ℤ × ℤ) => t.Ok s.1 s.2) c.cams sizes
  cam0 : VecOk 7 0 "cam0_ext".toList c.cam0
  cam1 : VecOk 7 0 "cam1_ext".toList c.cam1
  effector : VecOk 7 0 "end_ext".toList c.effector
  link0 : VecOk 7 0 "link0_ext".toList c.link0
  link1 : VecOk 7 0 "link1_ext".toList c.link1
  gimbal : VecOk 7 0 "gimbal_ext".toList c.gimbal

/-- A row of the joint file: timestamp and the cells of the angles. -/
structure RowText where
  ts : ℤ
  angles : List Str

/-- `ts,a,b,c`. -/
def RowText.text (r : RowText) : Str := fmtLd r.ts ++ r.angles.flatMap (fun a => ',' :: a) ++ ['\n']

/-- A well-formed row with `n` angles. -/
structure RowText.Ok (n : Nat) (r : RowText) : Prop where
  ts : -2 ^ 63 ≤ r.ts ∧ r.ts < 2 ^ 63
  count : r.angles.length = n
  cells : ∀ a ∈ r.angles, a ≠ [] ∧ ∀ x ∈ a, x ≠ ',' ∧ x ≠ '\n' ∧ x ≠ nul
  fits : r.text.length ≤ 1023

/-- The joint file: the two counts, two lines that are skipped and a row per view. -/
def jointText (joints : Nat) (note0 note1 : Str) (rows : List RowText) : Str :=
  kv 0 "num_views".toList (natText rows.length) ++ kv 0 "num_joints".toList (natText joints) ++ note0 ++ ['\n'] ++ note1 ++
    ['\n'] ++ rows.flatMap RowText.text

/-- The camera a section describes. -/
def CamText.camera (c : CamText) (s : ℤ × ℤ) : Camera :=
  ⟨[s.1, s.2], c.projModel, c.distModel, c.proj.map number, c.dist.map number⟩

/-- The configuration a file describes. -/
def ConfText.config (c : ConfText) (sizes : List (ℤ × ℤ)) : Config :=
  ⟨c.cams.length, c.links, List.zipWith CamText.camera c.cams sizes, c.cam0.map number, c.cam1.map number,
   c.effector.map number, c.link0.map number, c.link1.map number, c.gimbal.map number⟩

/-- The file `save_results` writes, calib_gimbal.cpp:965-1016, with the texts `vec2str` (util/core.cpp:234-261) and
`printf` make of the numbers: the sections are headed by the camera and its index and indented by two blanks. -/
def resultsText (cam0 cam1 : CamText) (gimbal link0 link1 effector ext0 ext1 fiducial : List Str) : Str :=
  kv 0 "num_cams".toList (natText 2) ++ kv 0 "num_links".toList (natText 2) ++ ['\n'] ++
    ({ cam0 with head := "cam0:".toList, indent := 2 } : CamText).text ++
    ({ cam1 with head := "cam1:".toList, indent := 2 } : CamText).text ++
    kv 0 "gimbal_ext".toList (vec gimbal) ++ kv 0 "link0_ext".toList (vec link0) ++ kv 0 "link1_ext".toList (vec link1) ++
    kv 0 "end_ext".toList (vec effector) ++ kv 0 "cam0_ext".toList (vec ext0) ++ kv 0 "cam1_ext".toList (vec ext1) ++
    kv 0 "fiducial_pose".toList (vec fiducial)

/-- The angles of a row. -/
def RowText.angle (r : RowText) : ℚ × ℚ × ℚ := (atof (r.angles.getD 0 []), atof (r.angles.getD 1 []), atof (r.angles.getD 2 []))

end Yac.Gimbal
