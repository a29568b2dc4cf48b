import Verif.Basic
import Verif.Num.Float
import Verif.Geom.Rot
import Mathlib.Data.Nat.Digits.Defs

/-!
# Model of the text files read and written by util/data.cpp and calib_data.cpp

A file is a list of characters.  Numbers are rationals (finite doubles); NaN, infinities and the
sign of zero are not modelled.  `printf`, `fscanf`, `atof`, `std::getline` and `fgets` are modelled
as far as the code uses them.
-/

namespace Yac.Text
open Yac.Num Yac.Geom

/-! ### Printing (C library) -/

/-- The character of a decimal digit. -/
def digitChar (d : Nat) : Char := Char.ofNat (48 + d)

/-- A natural number in decimal. -/
def natText (n : Nat) : List Char :=
  if n = 0 then ['0'] else (Nat.digits 10 n).reverse.map digitChar

/-- The last `w` decimal digits, with leading zeros. -/
def fixedDigits : Nat → Nat → List Char
  | 0, _ => []
  | w + 1, n => fixedDigits w (n / 10) ++ [digitChar (n % 10)]

/-- `printf("%ld")`. -/
def fmtLd (n : ℤ) : List Char := (if n < 0 then ['-'] else []) ++ natText n.natAbs

/-- `printf("%f")`: six decimals, round to nearest, ties to even. -/
def fmtF (x : ℚ) : List Char :=
  let u := (rneInt (|x| * 10 ^ 6)).natAbs
  (if x < 0 then ['-'] else []) ++ natText (u / 10 ^ 6) ++ '.' :: fixedDigits 6 (u % 10 ^ 6)

/-! ### Reading (C library) -/

/-- `isspace`. -/
def isSpace (c : Char) : Bool := c = ' ' || c = '\t' || c = '\n' || c = '\r' || c.toNat = 11 || c.toNat = 12

/-- `isdigit`. -/
def isDig (c : Char) : Bool := 48 ≤ c.toNat && c.toNat ≤ 57

/-- The value of a string of digits. -/
def natOf (l : List Char) : Nat := l.foldl (fun v c => 10 * v + (c.toNat - 48)) 0

/-- An optional sign: whether negative, and the rest. -/
def sign : List Char → Bool × List Char
  | '-' :: l => (true, l)
  | '+' :: l => (false, l)
  | l => (false, l)

/-- Sign applied to a magnitude. -/
def signed (neg : Bool) (x : ℚ) : ℚ := if neg then -x else x

/-- `strtod` / `%lf` on plain decimals: leading white space, sign, digits, fraction; the value
rounded to double, and the rest of the input.  Exponents, hexadecimal numbers, `inf` and `nan` are
not modelled (they end the number). -/
def parseReal (l : List Char) : Option (ℚ × List Char) :=
  let s := sign (l.dropWhile isSpace)
  let ip := s.2.takeWhile isDig
  match s.2.dropWhile isDig with
  | '.' :: r =>
    let fp := r.takeWhile isDig
    if ip = [] ∧ fp = [] then none
    else some (f64 (signed s.1 ((natOf ip : ℚ) + (natOf fp : ℚ) / 10 ^ fp.length)), r.dropWhile isDig)
  | r => if ip = [] then none else some (f64 (signed s.1 (natOf ip : ℚ)), r)

/-- `atof`: zero if there is no number. -/
def atof (l : List Char) : ℚ := match parseReal l with
  | some (x, _) => x
  | none => 0

/-- Sign, digits and rest of an integer. -/
def parseInt (l : List Char) : Option (Bool × Nat × List Char) :=
  let s := sign (l.dropWhile isSpace)
  let ds := s.2.takeWhile isDig
  if ds = [] then none else some (s.1, natOf ds, s.2.dropWhile isDig)

/-- `%ld`: saturating. -/
def toLong (neg : Bool) (n : Nat) : ℤ :=
  if neg then max (-(n : ℤ)) (-2 ^ 63) else min (n : ℤ) (2 ^ 63 - 1)

/-- `%lu` stored in a signed 64-bit integer: saturating, a minus sign negates modulo 2^64. -/
def toULong (neg : Bool) (n : Nat) : ℤ :=
  let m : ℤ := if n < 2 ^ 64 then n else 2 ^ 64 - 1
  let u := if neg ∧ n < 2 ^ 64 then (-m) % 2 ^ 64 else m
  if u < 2 ^ 63 then u else u - 2 ^ 64

/-- A conversion of a `fscanf` format: `%ld`, `%lu`, `%lf` or an ordinary character. -/
inductive Conv where
  | ld | lu | lf
  | lit (c : Char)
deriving DecidableEq

/-- A converted value. -/
inductive Val where
  | int (n : ℤ)
  | real (x : ℚ)
deriving DecidableEq

/-- `fscanf`: the values assigned before the first failure, and the rest of the input. -/
def scanf : List Conv → List Char → List Val × List Char
  | [], l => ([], l)
  | .lit c :: f, l => match l with
    | d :: l' => if d = c then scanf f l' else ([], l)
    | [] => ([], l)
  | .ld :: f, l => match parseInt l with
    | some (neg, n, r) => let s := scanf f r; (.int (toLong neg n) :: s.1, s.2)
    | none => ([], l)
  | .lu :: f, l => match parseInt l with
    | some (neg, n, r) => let s := scanf f r; (.int (toULong neg n) :: s.1, s.2)
    | none => ([], l)
  | .lf :: f, l => match parseReal l with
    | some (x, r) => let s := scanf f r; (.real x :: s.1, s.2)
    | none => ([], l)

/-- The pieces `std::getline(stream, piece, d)` delivers until it fails. -/
def getAll (d : Char) : List Char → List (List Char)
  | [] => []
  | c :: cs => if c = d then [] :: getAll d cs else
    match getAll d cs with
    | [] => [[c]]
    | l :: ls => (c :: l) :: ls

/-- The lines of a file. -/
def getLines (l : List Char) : List (List Char) := getAll '\n' l

/-- `fgets(buf, n + 1, fp)`: up to `n` characters, to the end of the line; `none` at the end of the
file. -/
def fgets (n : Nat) (l : List Char) : Option (List Char × List Char) :=
  if l = [] then none
  else
    let k := min n (if '\n' ∈ l then l.idxOf '\n' + 1 else l.length)
    some (l.take k, l.drop k)

/-! ### CSV matrices -/

/-- A dense matrix (`matx_t`), by rows. -/
structure Table where
  rows : Nat
  cols : Nat
  data : List (List ℚ)
deriving DecidableEq

/-- `csv_rows(const std::string &)`, data.cpp:307-324 (the file exists). -/
def csvRows (file : List Char) : Nat := (getLines file).length

/-- `csv_cols(const std::string &)`, data.cpp:326-345 (the file exists). -/
def csvCols (file : List Char) : Nat :=
  let n := (((getLines file).head?.getD []).filter (· = ',')).length
  if n > 0 then n + 1 else 0

/-- One `std::getline(ss, element, ',')`: on a stream at its end the element is left alone. -/
def nextField : Option (List Char) × List Char → Option (List Char) × List Char
  | (none, e) => (none, e)
  | (some l, _) =>
    if ',' ∈ l then (some ((l.dropWhile (· ≠ ',')).tail), l.takeWhile (· ≠ ','))
    else (none, l)

/-- The inner loop of `csv2mat`, data.cpp:374-379. -/
def readRow : Nat → Option (List Char) × List Char → List ℚ
  | 0, _ => []
  | n + 1, s => let s' := nextField s; atof s'.2 :: readRow n s'

/-- `csv2mat`, data.cpp:347-385 (the file exists).  A negative number of rows is an Eigen
assertion. -/
def csv2mat (header : Bool) (file : List Char) : Except Fault Table :=
  let cols := csvCols file
  let lines := getLines file
  if header ∧ lines = [] then .error .fatal
  else
    let body := if header then lines.drop 1 else lines
    .ok ⟨if header then csvRows file - 1 else csvRows file, cols,
      body.map (fun l => readRow cols (some l, []))⟩

/-- One row of `mat2csv`, data.cpp:396-402. -/
def rowText : List ℚ → List Char
  | [] => []
  | [x] => fmtF x
  | x :: xs => fmtF x ++ ',' :: rowText xs

/-- `mat2csv`, data.cpp:387-410 (the file can be opened). -/
def mat2csv (m : Table) : List Char :=
  m.data.flatMap (fun r => rowText r ++ ['\n'])

/-! ### IMU files -/

/-- `save_imu_data`, data.cpp:567-590.  The assertions are `fatal`. -/
def saveImu (ts : List ℤ) (acc gyr : List (ℚ × ℚ × ℚ)) : Except Fault (List Char) :=
  if ts.length = acc.length ∧ ts.length = gyr.length then
    .ok ((ts.zip (acc.zip gyr)).flatMap (fun e =>
      fmtLd e.1 ++ ',' :: fmtF e.2.1.1 ++ ',' :: fmtF e.2.1.2.1 ++ ',' :: fmtF e.2.1.2.2 ++
        ',' :: fmtF e.2.2.1 ++ ',' :: fmtF e.2.2.2.1 ++ ',' :: fmtF e.2.2.2.2 ++ ['\n']))
  else .error .fatal

/-- The format of `load_imu_data`. -/
def imuFmt : List Conv :=
  [.lu, .lit ',', .lf, .lit ',', .lf, .lit ',', .lf, .lit ',', .lf, .lit ',', .lf, .lit ',', .lf]

/-- Timestamps, accelerations and angular velocities. -/
abbrev ImuRow := ℤ × (ℚ × ℚ × ℚ) × (ℚ × ℚ × ℚ)

/-- One row of `load_imu_data`, calib_data.cpp:86-104. -/
def imuRow (l : List Char) : Except Fault (ImuRow × List Char) :=
  match scanf imuFmt l with
  | ([.int t, .real wx, .real wy, .real wz, .real ax, .real ay, .real az], r) =>
    .ok ((t, (ax, ay, az), (wx, wy, wz)), r)
  | _ => .error .fatal

/-- `n` rows. -/
def rowsM {α : Type} (f : List Char → Except Fault (α × List Char)) :
    Nat → List Char → Except Fault (List α)
  | 0, _ => .ok []
  | n + 1, l => f l >>= fun a => rowsM f n a.2 >>= fun as => .ok (a.1 :: as)

/-- `skip_line`, fs.cpp:24-30 (`BUFSIZ` is 8192). -/
def skipLine (l : List Char) : Except Fault (List Char) :=
  match fgets 8191 l with
  | some (_, r) => .ok r
  | none => .error .fatal

/-- The loop over the rows shared by `load_imu_data`, `load_poses`: `nb_rows` is the number of lines
(`file_rows`, fs.cpp:32-47), the first one is skipped. -/
def loadRows {α : Type} (f : List Char → Except Fault (α × List Char)) (file : List Char) :
    Except Fault (List α) :=
  match (getLines file).length with
  | 0 => .ok []
  | n + 1 => skipLine file >>= fun l => rowsM f n l

/-- `load_imu_data`, calib_data.cpp:66-108 (the file exists). -/
def loadImu (file : List Char) : Except Fault (List ImuRow) := loadRows imuRow file

/-! ### Poses -/

/-- The header of `save_poses`. -/
def poseHeader : List Char := "#ts,rx,ry,rz,qx,qy,qz,qw\n".toList

/-- A row of `save_poses`, data.cpp:532-543. -/
def poseText (ts : ℤ) (r : Vec3 ℚ) (q : Quat ℚ) : List Char :=
  fmtLd ts ++ ',' :: fmtF (r 0) ++ ',' :: fmtF (r 1) ++ ',' :: fmtF (r 2) ++
    ',' :: fmtF q.x ++ ',' :: fmtF q.y ++ ',' :: fmtF q.z ++ ',' :: fmtF q.w ++ ['\n']

/-- `save_poses`, data.cpp:525-547; `quatOf` is `tf_quat` (in floating point).  Fewer poses than
timestamps is a read past the end. -/
def savePoses (quatOf : Mat4 ℚ → Quat ℚ) (ts : List ℤ) (poses : List (Mat4 ℚ)) :
    Except Fault (List Char) :=
  if ts.length ≤ poses.length then
    .ok (poseHeader ++ (ts.zip poses).flatMap (fun e => poseText e.1 (tfTrans e.2) (quatOf e.2)))
  else .error .oob

/-- The format of `load_pose` and `load_poses`. -/
def poseFmt : List Conv :=
  [.ld, .lit ',', .lf, .lit ',', .lf, .lit ',', .lf, .lit ',', .lf, .lit ',', .lf, .lit ',', .lf,
    .lit ',', .lf]

/-- One row of `load_poses`, data.cpp:657-673 (the product of the matrix entries in exact
arithmetic). -/
def poseRow (l : List Char) : Except Fault ((ℤ × Mat4 ℚ) × List Char) :=
  match scanf poseFmt l with
  | ([.int t, .real rx, .real ry, .real rz, .real qx, .real qy, .real qz, .real qw], r) =>
    .ok ((t, tfQuat ⟨qw, qx, qy, qz⟩ ![rx, ry, rz]), r)
  | _ => .error .fatal

/-- `load_poses`, data.cpp:635-675 (the file exists). -/
def loadPoses (file : List Char) : Except Fault (List (ℤ × Mat4 ℚ)) := loadRows poseRow file

/-- `load_pose`, data.cpp:592-633 (the file exists): the first pose, or the identity. -/
def loadPose (file : List Char) : Except Fault (Mat4 ℚ) :=
  match (getLines file).length with
  | 0 => .ok 1
  | 1 => skipLine file >>= fun _ => .ok 1
  | _ => skipLine file >>= fun l => poseRow l >>= fun a => .ok a.1.2

end Yac.Text
