import Verif.Euroc.Model
import Verif.Ctor.Spec
import Mathlib.Data.List.OfFn

/-!
# EuRoC files (independent of the code that reads them)
-/

namespace Yac.Euroc
open Yac.Config Yac.Num Yac.Ctor
open Yac.Text (isDig natOf isSpace fmtLd)

/-- A decimal number as it is written: sign, digits, and digits after a point. -/
structure Dcm where
  neg : Bool
  ip : Str
  fp : Option Str

/-- The digits are digits. -/
def Dcm.Ok (x : Dcm) : Prop := x.ip ≠ [] ∧ (∀ c ∈ x.ip, isDig c = true) ∧ ∀ f, x.fp = some f → ∀ c ∈ f, isDig c = true

/-- How it is written. -/
def Dcm.text (x : Dcm) : Str := (if x.neg then ['-'] else []) ++ x.ip ++ (match x.fp with
  | none => []
  | some f => '.' :: f)

/-- The digits after the point, as a fraction. -/
def Dcm.frac (x : Dcm) : ℚ := match x.fp with
  | none => 0
  | some f => (natOf f : ℚ) / 10 ^ f.length

/-- The double nearest to the number. -/
def Dcm.value (x : Dcm) : ℚ := f64 ((if x.neg then -1 else 1) * ((natOf x.ip : ℚ) + x.frac))

/-- A line: a timestamp and numbers, separated by commas. -/
structure Line (n : ℕ) where
  t : ℤ
  x : Fin n → Dcm

/-- The timestamp has 63 bits, and the numbers are numbers. -/
def Line.Ok {n : ℕ} (s : Line n) : Prop := 0 ≤ s.t ∧ s.t < 2 ^ 63 ∧ ∀ i, (s.x i).Ok

/-- How the line is written. -/
def Line.text {n : ℕ} (s : Line n) : Str := fmtLd s.t ++ (List.ofFn s.x).flatMap (fun x => ',' :: x.text)

/-- Three consecutive numbers. -/
def Line.three {n : ℕ} (s : Line n) (i j k : Fin n) : V3 := ((s.x i).value, (s.x j).value, (s.x k).value)

/-- A file: a header line and lines, each of which ends with a line feed, or (`cr`) with carriage return and line feed. -/
def csv (cr : Bool) (hd : Str) (lines : List Str) : Str :=
  hd ++ eol ++ lines.flatMap (fun l => l ++ eol)
where eol : Str := if cr then ['\r', '\n'] else ['\n']

/-- A header. -/
def HeaderOk (hd : Str) : Prop := '\n' ∉ hd ∧ hd.length < 8190

/-- A line of the list of images. -/
structure Shot where
  t : ℤ
  name : Str

/-- The name is a word. -/
def Shot.Ok (s : Shot) : Prop := 0 ≤ s.t ∧ s.t < 2 ^ 63 ∧ s.name ≠ [] ∧ ∀ c ∈ s.name, isSpace c = false

/-- How the line is written. -/
def Shot.text (s : Shot) : Str := fmtLd s.t ++ ',' :: s.name

/-- The values of the variables of a table at the top of a document. -/
def TopIs (D : Dec) (doc : Y) (optional : Bool) (t : List (String × Val)) (vals : List (Str × Val)) : Prop :=
  List.Forall₂ (fun d v => v.1 = d.1.toList ∧ (GivesScalar doc [d.1.toList] (D.like d.2) v.2 ∨
    optional = true ∧ Absent doc [d.1.toList] ∧ v.2 = d.2)) t vals

/-- A vector of numbers that may be missing. -/
def VecIs (D : Dec) (doc : Y) (optional : Bool) (k : String) (n : ℕ) (v : List ℝ) : Prop :=
  Gives doc [k.toList] (readVec D.real n) v ∨ optional = true ∧ Absent doc [k.toList] ∧ v = List.replicate n 0

/-- What `sensor.yaml` says of an IMU. -/
structure ImuSensor (D : Dec) (doc : Y) (i : Imu) : Prop where
  kind : TopIs D doc false [("sensor_type", .text []), ("comment", .text [])] i.kind
  pose : Gives doc ["T_BS".toList] (readMat D.int D.real 4) i.T_BS
  noise : TopIs D doc false [("rate_hz", .real 0), ("gyroscope_noise_density", .real 0), ("gyroscope_random_walk", .real 0),
    ("accelerometer_noise_density", .real 0), ("accelerometer_random_walk", .real 0)] i.noise

/-- What `sensor.yaml` says of a camera. -/
structure CamSensor (D : Dec) (doc : Y) (calib : Bool) (c : Camera) : Prop where
  kind : TopIs D doc false [("sensor_type", .text []), ("comment", .text [])] c.kind
  pose : Gives doc ["T_BS".toList] (readMat D.int D.real 4) c.T_BS
  rate : TopIs D doc false [("rate_hz", .real 0)] c.rate
  resolution : Gives doc ["resolution".toList] (readVec D.int 2) c.resolution
  camModel : TopIs D doc calib [("camera_model", .text [])] c.camModel
  intrinsics : VecIs D doc calib "intrinsics" 4 c.intrinsics
  distModel : TopIs D doc calib [("distortion_model", .text [])] c.distModel
  distortion : VecIs D doc calib "distortion_coefficients" 4 c.distortion

/-- The events of IMU samples. -/
def imuEvents (d : Imu) : List (ℤ × Event) := (d.timestamps.zip (d.acc.zip d.gyr)).map (fun e => (e.1, .imu e.2.1 e.2.2))

/-- The events of images. -/
def camEvents (idx : ℤ) (c : Camera) : List (ℤ × Event) := (c.timestamps.zip c.paths).map (fun e => (e.1, .cameraPath idx e.2))

/-- The events at a time. -/
def atTime (ts : ℤ) (l : List (ℤ × Event)) : List Event := (l.filter (fun a => a.1 = ts)).map Prod.snd

/-- The first `n` images. -/
def first (n : ℕ) (c : Camera) : Camera := { c with timestamps := c.timestamps.take n, paths := c.paths.take n }

end Yac.Euroc
