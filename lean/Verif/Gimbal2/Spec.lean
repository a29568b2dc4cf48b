import Verif.Gimbal2.Model
import Verif.Gimbal.Spec
import Verif.Gimbal.TextSpec

/-! What the second gimbal program is meant to compute, without matrices. -/

namespace Yac.Gimbal2
open Yac.Geom Yac.Gimbal Yac.Text

/-- All six poses have unit quaternions. -/
structure Params.Ok (P : Params) : Prop where
  gimbal : IsUnit7 P.gimbal
  link0 : IsUnit7 P.link0
  link1 : IsUnit7 P.link1
  effector : IsUnit7 P.effector
  cam : IsUnit7 P.cam
  target : IsUnit7 P.target

/-- The point `x` of the frame of a moving camera, in the frame of the first fixed camera: through the third camera, the end
effector, the three joints with the two links between them and the mount of the gimbal. -/
noncomputable def inFirst (P : Params) (x : Vec3 ℝ) : Vec3 ℝ :=
  place P.gimbal (turn P.joint0 (place P.link0 (turn P.joint1 (place P.link1 (turn P.joint2
    (place P.effector (place P.cam x)))))))

/-- A view from which the program estimates the target pose. -/
def View.Used (v : View) : Prop := 20 ≤ v.corners ∧ v.pnp ≠ none

/-- The pose of the target that was estimated from view `v` is `t`. -/
def View.Exact (t : Fin 7 → ℝ) (v : View) : Prop := ∀ T, v.pnp = some T → Rigid T ∧ ∀ x, tfPoint T x = place t x

/-- What `ceres::Solve` guarantees: constant blocks keep their value, and so do the components the manifold of a block
holds. -/
def Solved (s s' : State) : Prop :=
  (∀ b, isConstant b = true → s'.value b = s.value b) ∧
  ∀ b v v', s.value b = some v → s'.value b = some v' → ∀ i ∈ keeps b, v' i = v i

/-- All poses of a state have unit quaternions. -/
def State.Ok (s : State) : Prop := ∀ b v, s.value b = some v → IsUnit7 v

/-- The squared distance between a corner (undistorted) and the projection of its point on the target; `cam` is the pose of
the camera in the frame of camera 2. -/
def PixelSq (k : Cam.Params) (s : State) (ts : ℤ) (cam : Fin 7 → ℝ) (c : (ℝ × ℝ) × Vec3 ℝ) (v : ℝ) : Prop :=
  ∃ z x, undistortKp k c.1 = some z ∧ inFirst (s.params ts cam) x = place s.target c.2 ∧ x 2 ≠ 0 ∧
    v = (z.1 - (pinhole ![k 0, k 1, k 2, k 3] x).1) ^ 2 + (z.2 - (pinhole ![k 0, k 1, k 2, k 3] x).2) ^ 2

/-- A configuration file. -/
structure ConfText where
  links : Nat
  cams : List CamText
  gimbal : List Str
  link0 : List Str
  link1 : List Str
  effector : List Str
  cam01 : List Str
  cam23 : List Str

/-- Its text. -/
def ConfText.text (c : ConfText) : Str :=
  kv 0 "num_cams".toList (natText c.cams.length) ++ kv 0 "num_links".toList (natText c.links) ++ ['\n'] ++
    c.cams.flatMap CamText.text ++ kv 0 "gimbal_ext".toList (vec c.gimbal) ++ kv 0 "link0_ext".toList (vec c.link0) ++
    kv 0 "link1_ext".toList (vec c.link1) ++ kv 0 "end_ext".toList (vec c.effector) ++
    kv 0 "cam0_cam1_ext".toList (vec c.cam01) ++ kv 0 "cam2_cam3_ext".toList (vec c.cam23)

/-- A well-formed file. -/
structure ConfText.Ok (c : ConfText) (sizes : List (ℤ × ℤ)) : Prop where
  few : c.cams.length < 2 ^ 31
  links : c.links < 2 ^ 31
  cams : List.Forall₂ (fun (t : CamText) (s : ℤ × ℤ) => t.Ok s.1 s.2) c.cams sizes
  gimbal : VecOk 7 0 "gimbal_ext".toList c.gimbal
  link0 : VecOk 7 0 "link0_ext".toList c.link0
  link1 : VecOk 7 0 "link1_ext".toList c.link1
  effector : VecOk 7 0 "end_ext".toList c.effector
  cam01 : VecOk 7 0 "cam0_cam1_ext".toList c.cam01
  cam23 : VecOk 7 0 "cam2_cam3_ext".toList c.cam23

/-- The configuration a file describes: the poses of cameras 1 and 3 are relative to cameras 0 and 2, which are the origins. -/
def ConfText.config (c : ConfText) (sizes : List (ℤ × ℤ)) : Config :=
  ⟨c.cams.length, c.links, List.zipWith CamText.camera c.cams sizes, c.gimbal.map number, c.link0.map number,
   c.link1.map number, c.effector.map number, [0, 0, 0, 1, 0, 0, 0], c.cam01.map number, [0, 0, 0, 1, 0, 0, 0], c.cam23.map number⟩

/-- The file `save_results` writes, calib_gimbal2.cpp:920-977, with the texts `vec2str` (util/core.cpp:234-261) and `printf`
make of the numbers. -/
def resultsText (cams : Fin 4 → CamText) (gimbal link0 link1 effector ext0 ext1 ext2 ext3 fiducial : List Str) : Str :=
  kv 0 "num_cams".toList (natText 4) ++ kv 0 "num_links".toList (natText 2) ++ ['\n'] ++
    ({ cams 0 with head := "cam0:".toList, indent := 2 } : CamText).text ++
    ({ cams 1 with head := "cam1:".toList, indent := 2 } : CamText).text ++
    ({ cams 2 with head := "cam2:".toList, indent := 2 } : CamText).text ++
    ({ cams 3 with head := "cam3:".toList, indent := 2 } : CamText).text ++
    kv 0 "gimbal_ext".toList (vec gimbal) ++ kv 0 "link0_ext".toList (vec link0) ++ kv 0 "link1_ext".toList (vec link1) ++
    kv 0 "end_ext".toList (vec effector) ++ kv 0 "cam0_ext".toList (vec ext0) ++ kv 0 "cam1_ext".toList (vec ext1) ++
    kv 0 "cam2_ext".toList (vec ext2) ++ kv 0 "cam3_ext".toList (vec ext3) ++ kv 0 "fiducial_pose".toList (vec fiducial)

end Yac.Gimbal2
