import Verif.Text.CModel
import Verif.AprilGrid.Lemmas
import Verif.Containers.SMap

/-! The text files of the gimbal calibration program, yac/demo/calib_gimbal.cpp:124-485.  C strings are lists of
characters without the terminating NUL; `chk` says whether `assert` is compiled in.  Numbers are read as in
`Text.atof` (plain decimals). -/

namespace Yac.Gimbal
open Yac.Text

abbrev Str := List Char

/-- `string_copy` into a buffer of `n` bytes, calib_gimbal.cpp:127-132. -/
def stringCopy (n : Nat) (src : Str) : Except Fault Str := if src.length < n then .ok src else .error .oob

/-- The trailing loop of `string_strip` and `string_strip_char`: the first character is never dropped,
calib_gimbal.cpp:150-156, 177-183. -/
def trimEnd (p : Char → Bool) : Str → Str
  | [] => []
  | c :: cs => c :: (cs.reverse.dropWhile p).reverse

/-- `string_strip`, calib_gimbal.cpp:137-159. -/
def strip (s : Str) : Str := trimEnd (fun c => c = ' ' || c = '\n') (s.dropWhile (fun c => c = ' '))

/-- `string_strip_char`, calib_gimbal.cpp:164-186. -/
def stripChar (q : Char) (s : Str) : Str := trimEnd (fun c => c = q) (s.dropWhile (fun c => c = q))

/-- All tokens `strtok` delivers: the non-empty pieces between delimiters. -/
def tokens (d : Char) (s : Str) : List Str := (getAll d s).filter (fun t => t ≠ [])

/-- `string_split`, calib_gimbal.cpp:191-236: the count left in `n` and the strings. -/
def split (chk : Bool) (d : Char) (s : Str) : Except Fault (Nat × List Str) :=
  let n := s.count d + (if s.getLast? = some d then 0 else 1)
  let ts := tokens d s
  if chk = true ∧ ts.length ≠ n then .error .fatal
  else if n < ts.length then .error .oob
  else .ok (n, ts)

/-- Reading the string `s[i]` of a split, calib_gimbal.cpp:463-477: the entry after the last token is a null
pointer, those after it are not set. -/
def splitAt (s : Nat × List Str) (i : Nat) : Except Fault Str :=
  match s.2[i]? with
  | some t => .ok t
  | none => .error .oob

/-- The loop of `parse_vector_line`, calib_gimbal.cpp:261-282; `cap` is the number of elements of the array, `conv`
the conversion of an entry.  Entries are written before they are counted. -/
def vectorLoop {α : Type} (cap : Nat) (conv : ℚ → Except Fault α) : Str → Str → List α → Except Fault (List α)
  | [], _, out => .ok out
  | c :: cs, buf, out =>
    if c = '[' ∨ c = ' ' then vectorLoop cap conv cs buf out
    else if c = ',' ∨ c = ']' ∨ c = '\n' then
      readEntry buf >>= fun e => conv (atof e) >>= fun v =>
        if out.length < cap then vectorLoop cap conv cs (clearEntry buf) (out ++ [v]) else .error .oob
    else pushEntry buf c >>= fun b => vectorLoop cap conv cs b out

/-- `parse_vector_line`, calib_gimbal.cpp:253-289, for an array of zeros of `n` elements: the elements written.
The return value (-1 when the number of entries is not `n`) is not used by the caller, calib_gimbal.cpp:343-356. -/
def vectorLine {α : Type} (n : Nat) (zero : α) (conv : ℚ → Except Fault α) (line : Str) : Except Fault (List α) :=
  vectorLoop n conv line (List.replicate 1024 nul) [] >>= fun out => .ok (out ++ List.replicate (n - out.length) zero)

/-- `fgets (buf, n + 1, fp)` into a zeroed buffer, as a C string, and the rest of the file. -/
def getLine (n : Nat) (f : Str) : Option (Str × Str) := (fgets n f).map fun p => (cstr p.1, p.2)

/-- `parse_skip_line`, calib_gimbal.cpp:241-247. -/
def skip (f : Str) : Str := match getLine 9045 f with
  | some p => p.2
  | none => f

/-- The first part of `parse_key_value`, calib_gimbal.cpp:303-324: the value string of the next line. -/
def keyValue (key : Str) (f : Str) : Except Fault (Str × Str) :=
  match getLine 1023 f with
  | none => .error .fatal
  | some (buf, rest) => match tokens ':' buf with
    | k :: v :: _ => if strip k = key then .ok (strip v, rest) else .error .fatal
    | _ => .error .fatal

/-- `atoi`: glibc converts the `long`. -/
def atoi (s : Str) : ℤ := match parseInt s with
  | some (neg, n, _) =>
    let u := toLong neg n % 2 ^ 32
    if u < 2 ^ 31 then u else u - 2 ^ 32
  | none => 0

/-- `strtol (s, NULL, 10)`. -/
def strtol (s : Str) : ℤ := match parseInt s with
  | some (neg, n, _) => toLong neg n
  | none => 0

/-- `parse_key_value (.., "int", ..)`, calib_gimbal.cpp:332-333. -/
def keyInt (key : Str) (f : Str) : Except Fault (ℤ × Str) := keyValue key f >>= fun p => .ok (atoi p.1, p.2)

/-- `parse_key_value (.., "string", ..)` into a buffer of 30 bytes, calib_gimbal.cpp:340-342, 408-409. -/
def keyString (key : Str) (f : Str) : Except Fault (Str × Str) :=
  keyValue key f >>= fun p => stringCopy 30 (stripChar '"' p.1) >>= fun s => .ok (s, p.2)

/-- `parse_key_value (.., "vec2i", ..)`, calib_gimbal.cpp:343-344. -/
def keyInts (n : Nat) (key : Str) (f : Str) : Except Fault (List ℤ × Str) :=
  keyValue key f >>= fun p => vectorLine n 0 toInt32 p.1 >>= fun v => .ok (v, p.2)

/-- `parse_key_value (.., "vec4d" or "pose", ..)`, calib_gimbal.cpp:347-356. -/
def keyReals (n : Nat) (key : Str) (f : Str) : Except Fault (List ℚ × Str) :=
  keyValue key f >>= fun p => vectorLine n 0 (fun x => .ok x) p.1 >>= fun v => .ok (v, p.2)

/-- A camera, `camera_params_t`, calib_gimbal.cpp:421-424. -/
structure Camera where
  res : List ℤ
  projModel : Str
  distModel : Str
  proj : List ℚ
  dist : List ℚ
deriving DecidableEq

/-- One camera of `load_config`, calib_gimbal.cpp:405-425. -/
def loadCamera (f : Str) : Except Fault (Camera × Str) :=
  keyInts 2 "resolution".toList (skip f) >>= fun a =>
  keyString "proj_model".toList a.2 >>= fun b =>
  keyString "dist_model".toList b.2 >>= fun c =>
  keyReals 4 "proj_params".toList c.2 >>= fun d =>
  keyReals 4 "dist_params".toList d.2 >>= fun e =>
  .ok (⟨a.1, "pinhole".toList, "radtan4".toList, d.1, e.1⟩, skip e.2)

/-- The loop over the cameras, calib_gimbal.cpp:405-425. -/
def loadCameras : Nat → Str → Except Fault (List Camera × Str)
  | 0, f => .ok ([], f)
  | n + 1, f => loadCamera f >>= fun c => loadCameras n c.2 >>= fun cs => .ok (c.1 :: cs.1, cs.2)

/-- What `load_config` sets. -/
structure Config where
  numCams : ℤ
  numLinks : ℤ
  cams : List Camera
  cam0 : List ℚ
  cam1 : List ℚ
  effector : List ℚ
  link0 : List ℚ
  link1 : List ℚ
  gimbal : List ℚ
deriving DecidableEq

/-- `load_config`, calib_gimbal.cpp:391-438; `none`: the file cannot be opened. -/
def loadConfig (file : Option Str) : Except Fault Config :=
  match file with
  | none => .error .fatal
  | some f =>
    keyInt "num_cams".toList f >>= fun a =>
    keyInt "num_links".toList a.2 >>= fun b =>
    loadCameras a.1.toNat (skip b.2) >>= fun c =>
    keyReals 7 "cam0_ext".toList c.2 >>= fun e0 =>
    keyReals 7 "cam1_ext".toList e0.2 >>= fun e1 =>
    keyReals 7 "end_ext".toList e1.2 >>= fun e2 =>
    keyReals 7 "link0_ext".toList e2.2 >>= fun e3 =>
    keyReals 7 "link1_ext".toList e3.2 >>= fun e4 =>
    keyReals 7 "gimbal_ext".toList e4.2 >>= fun e5 =>
    .ok ⟨a.1, b.1, c.1, e0.1, e1.1, e2.1, e3.1, e4.1, e5.1⟩

/-- What `load_joints` sets: the timestamps in the order of the file and the angles by timestamp. -/
structure Joints where
  numViews : ℤ
  numJoints : ℤ
  timestamps : List ℤ
  angles : List (ℤ × (ℚ × ℚ × ℚ))

/-- One view, calib_gimbal.cpp:455-481. -/
def loadView (chk : Bool) (numJoints : ℤ) (f : Str) : Except Fault ((ℤ × (ℚ × ℚ × ℚ)) × Str) :=
  match getLine 1023 f with
  | none => .error .fatal
  | some (buf, rest) =>
    split chk ',' buf >>= fun s =>
    splitAt s 0 >>= fun s0 =>
    if chk = true ∧ (s.1 : ℤ) ≠ numJoints + 1 then .error .fatal
    else
      splitAt s 1 >>= fun s1 => splitAt s 2 >>= fun s2 => splitAt s 3 >>= fun s3 =>
      .ok ((strtol s0, (atof s1, atof s2, atof s3)), rest)

/-- The loop over the views, calib_gimbal.cpp:455-481. -/
def loadViews (chk : Bool) (numJoints : ℤ) : Nat → Joints → Str → Except Fault Joints
  | 0, j, _ => .ok j
  | n + 1, j, f => loadView chk numJoints f >>= fun v =>
    loadViews chk numJoints n { j with timestamps := j.timestamps ++ [v.1.1], angles := SMap.set v.1.1 v.1.2 j.angles } v.2

/-- `load_joints`, calib_gimbal.cpp:440-485; the three maps of joint angles have the same keys and are modelled as
one. -/
def loadJoints (chk : Bool) (file : Option Str) : Except Fault Joints :=
  match file with
  | none => .error .fatal
  | some f =>
    keyInt "num_views".toList f >>= fun a =>
    keyInt "num_joints".toList a.2 >>= fun b =>
    loadViews chk b.1 a.1.toNat ⟨a.1, b.1, [], []⟩ (skip (skip b.2))

end Yac.Gimbal
