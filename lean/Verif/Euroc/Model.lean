import Verif.Ctor.Model
import Verif.Timeline.Model
import Verif.Text.Model

/-!
# Model of util/euroc.hpp: the EuRoC datasets

A disk gives the text of the files that can be opened, the documents of the YAML files that can be parsed, and the files
that exist.  Numbers of the CSV files are rationals (see `Text/Model.lean`).  Not modelled: the size of the first image,
the output operators, NUL characters in a file name.
-/

namespace Yac.Euroc
open Yac.Config Yac.Num
open Yac.Ctor (Val Dec)
open Yac.Text (imuRow loadRows parseInt toULong isSpace scanf Conv)

/-- A file system. -/
structure Disk where
  text : Str → Option Str
  doc : Str → Option Y
  isFile : Str → Bool

/-- Three numbers. -/
abbrev V3 := ℚ × ℚ × ℚ

/-- `parse(config, name, variable, optional)` for a list of variables with their initial values. -/
noncomputable def readTop (D : Dec) (optional : Bool) : List (Str × Val) → Y → Except Fault (List (Str × Val) × Y)
  | [], y => .ok ([], y)
  | (k, d) :: t, y => parseT (D.like d) y k optional d >>= fun r =>
    readTop D optional t r.2 >>= fun q => .ok ((k, r.1.2) :: q.1, q.2)

/-! ### IMU -/

/-- `euroc_imu_t`, euroc.hpp:21-39. -/
structure Imu where
  timestamps : List ℤ
  gyr : List V3
  acc : List V3
  kind : List (Str × Val)
  T_BS : List (List ℝ)
  noise : List (Str × Val)

/-- `sensor_type` and `comment`, euroc.hpp:90-91 and 198-199. -/
def kindFields : List (Str × Val) := [("sensor_type".toList, .text []), ("comment".toList, .text [])]

/-- The rate and the noise of an IMU, euroc.hpp:93-97. -/
noncomputable def noiseFields : List (Str × Val) := [
  ("rate_hz".toList, .real 0),
  ("gyroscope_noise_density".toList, .real 0),
  ("gyroscope_random_walk".toList, .real 0),
  ("accelerometer_noise_density".toList, .real 0),
  ("accelerometer_random_walk".toList, .real 0)]

/-- "Load calibration data", euroc.hpp:85-97. -/
noncomputable def imuSensor (D : Dec) (disk : Disk) (dir : Str) :
    Except Fault (List (Str × Val) × List (List ℝ) × List (Str × Val)) :=
  match disk.doc (dir ++ "/sensor.yaml".toList) with
  | none => .error .fatal
  | some y =>
    readTop D false kindFields y >>= fun k =>
    parseWith (readMat D.int D.real 4) k.2 "T_BS".toList false Ctor.identity4 >>= fun m =>
    readTop D false noiseFields m.2 >>= fun n => .ok (k.1, m.1.2, n.1)

/-- `euroc_imu_t(data_dir)`, euroc.hpp:43-100. -/
noncomputable def imu (D : Dec) (disk : Disk) (dir : Str) : Except Fault Imu :=
  match disk.text (dir ++ "/data.csv".toList) with
  | none => .error .fatal
  | some file =>
    loadRows imuRow file >>= fun rows =>
    imuSensor D disk dir >>= fun s =>
    .ok ⟨rows.map (fun r => r.1), rows.map (fun r => r.2.2), rows.map (fun r => r.2.1), s.1, s.2.1, s.2.2⟩

/-! ### Camera -/

/-- `fscanf("%lu,%s")` into a timestamp and a buffer of 50 characters, euroc.hpp:174-177. -/
def camRow (l : Str) : Except Fault ((ℤ × Str) × Str) :=
  match parseInt l with
  | some (neg, n, ',' :: r) =>
    let w := (r.dropWhile isSpace).takeWhile (fun c => !isSpace c)
    if w = [] then .error .fatal
    else if 50 ≤ w.length then .error .oob
    else .ok ((toULong neg n, w), (r.dropWhile isSpace).dropWhile (fun c => !isSpace c))
  | _ => .error .fatal

/-- One row with the test that the image exists, euroc.hpp:172-191. -/
def camEntry (disk : Disk) (dir : Str) (l : Str) : Except Fault ((ℤ × Str) × Str) :=
  camRow l >>= fun r =>
  if disk.isFile (dir ++ "/data/".toList ++ r.1.2) then .ok ((r.1.1, dir ++ "/data/".toList ++ r.1.2), r.2) else .error .fatal

/-- `euroc_camera_t`, euroc.hpp:130-148. -/
structure Camera where
  timestamps : List ℤ
  paths : List Str
  kind : List (Str × Val)
  T_BS : List (List ℝ)
  rate : List (Str × Val)
  resolution : List ℤ
  camModel : List (Str × Val)
  intrinsics : List ℝ
  distModel : List (Str × Val)
  distortion : List ℝ

/-- The part of a camera that is read from `sensor.yaml`, euroc.hpp:194-209. -/
noncomputable def camSensor (D : Dec) (disk : Disk) (dir : Str) (calib : Bool) (ts : List ℤ) (paths : List Str) :
    Except Fault Camera :=
  match disk.doc (dir ++ "/sensor.yaml".toList) with
  | none => .error .fatal
  | some y =>
    readTop D false kindFields y >>= fun k =>
    parseWith (readMat D.int D.real 4) k.2 "T_BS".toList false Ctor.identity4 >>= fun m =>
    readTop D false [("rate_hz".toList, .real 0)] m.2 >>= fun r =>
    parseWith (readVec D.int 2) r.2 "resolution".toList false [] >>= fun res =>
    readTop D calib [("camera_model".toList, .text [])] res.2 >>= fun cm =>
    parseWith (readVec D.real 4) cm.2 "intrinsics".toList calib [0, 0, 0, 0] >>= fun i =>
    readTop D calib [("distortion_model".toList, .text [])] i.2 >>= fun dm =>
    parseWith (readVec D.real 4) dm.2 "distortion_coefficients".toList calib [0, 0, 0, 0] >>= fun d =>
    .ok ⟨ts, paths, k.1, m.1.2, r.1, res.1.2, cm.1, i.1.2, dm.1, d.1.2⟩

/-- `euroc_camera_t(data_dir, is_calib_data)`, euroc.hpp:152-212. -/
noncomputable def camera (D : Dec) (disk : Disk) (dir : Str) (calib : Bool) : Except Fault Camera :=
  match disk.text (dir ++ "/data.csv".toList) with
  | none => .error .fatal
  | some file =>
    loadRows (camEntry disk dir) file >>= fun rows =>
    camSensor D disk dir calib (rows.map (fun r => r.1)) (rows.map (fun r => r.2))

/-! ### Ground truth -/

/-- A row: position, quaternion (w, x, y, z), velocity, gyroscope bias, accelerometer bias. -/
structure Truth where
  ts : ℤ
  p : V3
  q : ℚ × ℚ × ℚ × ℚ
  v : V3
  bw : V3
  ba : V3

/-- `str_format`, euroc.hpp:269-275. -/
def truthFmt : List Conv := .lu :: (List.replicate 16 [Conv.lit ',', Conv.lf]).flatten

/-- One row, euroc.hpp:284-319. -/
def truthRow (l : Str) : Except Fault (Truth × Str) :=
  match scanf truthFmt l with
  | ([.int t, .real px, .real py, .real pz, .real qx, .real qy, .real qz, .real qw, .real vx, .real vy, .real vz,
      .real wx, .real wy, .real wz, .real ax, .real ay, .real az], r) =>
    .ok (⟨t, (px, py, pz), (qw, qx, qy, qz), (vx, vy, vz), (wx, wy, wz), (ax, ay, az)⟩, r)
  | _ => .error .fatal

/-- `euroc_ground_truth_t(data_dir)`, euroc.hpp:259-324. -/
def truth (disk : Disk) (dir : Str) : Except Fault (List Truth) :=
  match disk.text (dir ++ "/data.csv".toList) with
  | none => .error .fatal
  | some file => loadRows truthRow file

/-! ### A whole dataset -/

/-- The events of a dataset. -/
abbrev Event := Timeline.Event Str Unit V3 Unit Unit

/-- `timeline.add(ts, acc, gyr)` for all samples, euroc.hpp:363-369 and 577-582. -/
def addImu (t : Timeline.T Event) (d : Imu) : Timeline.T Event :=
  (d.timestamps.zip (d.acc.zip d.gyr)).foldl (fun t e => Timeline.add t e.1 (.imu e.2.1 e.2.2)) t

/-- `timeline.add(ts, cam_idx, image_path)` for all images, euroc.hpp:375-379, 383-387, 565-569 and 571-575. -/
def addCam (idx : ℤ) (t : Timeline.T Event) (c : Camera) : Timeline.T Event :=
  (c.timestamps.zip c.paths).foldl (fun t e => Timeline.add t e.1 (.cameraPath idx e.2)) t

/-- `min_timestamp`, euroc.hpp:428-437: `front()` of an empty vector is undefined. -/
def minTimestamp (c : Camera) (d : Imu) : Except Fault ℤ :=
  match c.timestamps, d.timestamps with
  | a :: _, b :: _ => .ok (min a b)
  | _, _ => .error .oob

/-- `max_timestamp`, euroc.hpp:439-450. -/
def maxTimestamp (c : Camera) (d : Imu) : Except Fault ℤ :=
  match c.timestamps.getLast?, d.timestamps.getLast? with
  | some a, some b => .ok (max a b)
  | _, _ => .error .oob

/-- `do { ++it; } while (ts == *it);`, euroc.hpp:409-411, with the elements after `it`.  At the end of the set `*it` is
undefined behaviour (`past = none`), or a value `past = some g` that happens to be there. -/
def advance (past : Option ℤ) (ts : ℤ) : List ℤ → Except Fault (List ℤ)
  | [] => match past with
    | none => .error .oob
    | some g => if g = ts then .error .oob else .ok []
  | x :: l => if x = ts then advance past ts l else .ok (x :: l)

/-- `((double)ts - ts_start) * 1e-9`, euroc.hpp:406. -/
def relative (start ts : ℤ) : ℚ := f64 (f64 (f64 ts - f64 start) * f64 (1 / 10 ^ 9))

/-- The loop over the timestamps, euroc.hpp:402-412 (`n` iterations suffice). -/
def timeLoop (past : Option ℤ) (start : ℤ) : Nat → List ℤ → List (ℤ × ℚ) → Except Fault (List (ℤ × ℚ))
  | _, [], m => .ok m
  | 0, _ :: _, _ => .error .diverge
  | n + 1, ts :: l, m => advance past ts l >>= fun l' => timeLoop past start n l' (SMap.set ts (relative start ts) m)

/-- `euroc_data_t`, euroc.hpp:336-356. -/
structure Data where
  imu : Imu
  cam0 : Camera
  cam1 : Camera
  truth : List Truth
  start : ℤ
  stop : ℤ
  timeline : Timeline.T Event
  time : List (ℤ × ℚ)

/-- `euroc_data_t(data_path)`, euroc.hpp:360-415.  The second camera is read from the directory of the first. -/
noncomputable def data (D : Dec) (past : Option ℤ) (disk : Disk) (path : Str) : Except Fault Data :=
  imu D disk (path ++ "/mav0/imu0".toList) >>= fun i =>
  camera D disk (path ++ "/mav0/cam0".toList) false >>= fun c0 =>
  camera D disk (path ++ "/mav0/cam0".toList) false >>= fun c1 =>
  if c0.paths = [] then .error .oob else
  truth disk (path ++ "/mav0/state_groundtruth_estimate0".toList) >>= fun g =>
  minTimestamp c0 i >>= fun a =>
  maxTimestamp c0 i >>= fun b =>
  timeLoop past a (allEvents i c0 c1).timestamps.length (allEvents i c0 c1).timestamps [] >>= fun t =>
  .ok ⟨i, c0, c1, g, a, b, allEvents i c0 c1, t⟩
where
  /-- The timeline, euroc.hpp:363-387. -/
  allEvents (i : Imu) (c0 c1 : Camera) : Timeline.T Event := addCam 1 (addCam 0 (addImu Timeline.empty i) c0) c1

/-! ### Calibration data -/

/-- `euroc_target_t`, euroc.hpp:464-468. -/
noncomputable def targetFields : List (Str × Val) := [
  ("target_type".toList, .text []),
  ("tagRows".toList, .int 0),
  ("tagCols".toList, .int 0),
  ("tagSize".toList, .real 0),
  ("tagSpacing".toList, .real 0)]

/-- `euroc_target_t(target_file)`, euroc.hpp:472-484. -/
noncomputable def target (D : Dec) (disk : Disk) (file : Str) : Except Fault (List (Str × Val)) :=
  match disk.doc file with
  | none => .error .fatal
  | some y => readTop D false targetFields y >>= fun r => .ok r.1

/-- `euroc_calib_t`, euroc.hpp:506-518. -/
structure Calib where
  imu : Imu
  cam0 : Camera
  cam1 : Camera
  target : List (Str × Val)

/-- `pop_back` of timestamps and paths. -/
def dropLast (c : Camera) : Camera := { c with timestamps := c.timestamps.dropLast, paths := c.paths.dropLast }

/-- "Check if cam0 has same amount of images as cam1", euroc.hpp:534-545. -/
def evenOut (c0 c1 : Camera) : Camera × Camera :=
  if c1.paths.length < c0.paths.length then (dropLast c0, c1)
  else if c0.paths.length < c1.paths.length then (c0, dropLast c1)
  else (c0, c1)

/-- `euroc_calib_t(data_path)`, euroc.hpp:520-556. -/
noncomputable def calib (D : Dec) (disk : Disk) (path : Str) : Except Fault Calib :=
  imu D disk (path ++ "/mav0/imu0".toList) >>= fun i =>
  camera D disk (path ++ "/mav0/cam0".toList) true >>= fun c0 =>
  camera D disk (path ++ "/mav0/cam1".toList) true >>= fun c1 =>
  if (evenOut c0 c1).1.paths = [] then .error .oob else
  target D disk (path ++ "/april_6x6.yaml".toList) >>= fun t =>
  .ok ⟨i, (evenOut c0 c1).1, (evenOut c0 c1).2, t⟩

/-- `euroc_calib_t::timeline`, euroc.hpp:560-585. -/
def calibTimeline (c : Calib) : Timeline.T Event := addImu (addCam 1 (addCam 0 Timeline.empty c.cam0) c.cam1) c.imu

end Yac.Euroc
