import Verif.Euroc.DataProps
import Verif.Ctor.Witness

/-! # C122: a concrete dataset -/

namespace Yac.Euroc
open Yac.Config Yac.Num Yac.Ctor
open Yac.Text (isDig natOf isSpace fmtLd)

/-- `-0.5`, `9.81`, `0`. -/
def dA : Dcm := ⟨true, ['0'], some ['5']⟩
def dB : Dcm := ⟨false, ['9'], some ['8', '1']⟩
def dC : Dcm := ⟨false, ['0'], none⟩

theorem dA_ok : dA.Ok := ⟨by decide, by decide, by decide⟩
theorem dB_ok : dB.Ok := ⟨by decide, by decide, by decide⟩
theorem dC_ok : dC.Ok := ⟨by decide, by decide, by simp [dC]⟩

example : dA.text = "-0.5".toList ∧ dB.text = "9.81".toList ∧ dC.text = "0".toList := by decide
example : dA.value = -1 / 2 := by decide +kernel

/-- Two samples. -/
def exLines : List (Line 6) := [⟨1403636579758555392, ![dA, dC, dC, dB, dC, dA]⟩, ⟨1403636579763555584, ![dC, dA, dB, dB, dC, dC]⟩]

theorem exLines_ok : ∀ s ∈ exLines, s.Ok := by
  have h := dA_ok
  have h' := dB_ok
  have h'' := dC_ok
  intro s hs
  simp only [exLines, List.mem_cons, List.not_mem_nil, or_false] at hs
  rcases hs with rfl | rfl
  · refine ⟨by decide, by decide, fun i => ?_⟩
    fin_cases i <;> simp_all
  · refine ⟨by decide, by decide, fun i => ?_⟩
    fin_cases i <;> simp_all

example : exLines.map Line.text = ["1403636579758555392,-0.5,0,0,9.81,0,-0.5".toList, "1403636579763555584,0,-0.5,9.81,9.81,0,0".toList] := by
  decide

/-- Ground truth: a pose. -/
def exTruth : List (Line 16) := [⟨1403636579758555392, ![dA, dC, dC, dB, dC, dA, dA, dC, dC, dB, dC, dA, dC, dA, dC, dB]⟩]

theorem exTruth_ok : ∀ s ∈ exTruth, s.Ok := by
  have h := dA_ok
  have h' := dB_ok
  have h'' := dC_ok
  intro s hs
  simp only [exTruth, List.mem_cons, List.not_mem_nil, or_false] at hs
  subst hs
  refine ⟨by decide, by decide, fun i => ?_⟩
  fin_cases i <;> simp_all

/-- Three images and two images. -/
def exShots : List Shot := [⟨1403636579758555392, "1403636579758555392.png".toList⟩, ⟨1403636579763555584, "1403636579763555584.png".toList⟩,
  ⟨1403636579863555584, "1403636579863555584.png".toList⟩]

theorem exShots_ok : ∀ s ∈ exShots, s.Ok := by
  intro s hs
  simp only [exShots, List.mem_cons, List.not_mem_nil, or_false] at hs
  rcases hs with rfl | rfl | rfl <;> exact ⟨by decide, by decide, by decide, by decide⟩

theorem exShots_short : ∀ s ∈ exShots, s.name.length < 50 := by decide

def exHeader : Str := "#timestamp [ns],data".toList
theorem exHeader_ok : HeaderOk exHeader := by unfold HeaderOk; decide

def exPose : Y := matNode "4".toList "4".toList ([1, 0, 0, 0, 0, 1, 0, 0, 0, 0, 1, 0, 0, 0, 0, 1].map (fun i => if i = 0 then sc "0" else sc "1"))

def exImuDoc : Y := .map [("sensor_type".toList, sc "imu"), ("comment".toList, sc "MAV"), ("T_BS".toList, exPose), ("rate_hz".toList, sc "2"),
  ("gyroscope_noise_density".toList, sc "1"), ("gyroscope_random_walk".toList, sc "1"), ("accelerometer_noise_density".toList, sc "1"),
  ("accelerometer_random_walk".toList, sc "1")]

def exCamDoc : Y := .map [("sensor_type".toList, sc "camera"), ("comment".toList, sc "MAV"), ("T_BS".toList, exPose), ("rate_hz".toList, sc "2"),
  ("resolution".toList, .seq [sc "8", sc "6"])]

def exCamFullDoc : Y := .map [("sensor_type".toList, sc "camera"), ("comment".toList, sc "MAV"), ("T_BS".toList, exPose), ("rate_hz".toList, sc "2"),
  ("resolution".toList, .seq [sc "8", sc "6"]), ("camera_model".toList, sc "pinhole"), ("intrinsics".toList, .seq [sc "1", sc "1", sc "2", sc "2"]),
  ("distortion_model".toList, sc "radial-tangential"), ("distortion_coefficients".toList, .seq [sc "0", sc "0", sc "0", sc "0"])]

def exTargetDoc : Y := .map [("target_type".toList, sc "aprilgrid"), ("tagRows".toList, sc "6"), ("tagCols".toList, sc "6"), ("tagSize".toList, sc "1"),
  ("tagSpacing".toList, sc "1")]

/-- A disk with calibration data below `c` (three and two images) and a dataset below `d`. -/
def exDisk : Disk where
  text f :=
    if f = "d/mav0/imu0/data.csv".toList ∨ f = "c/mav0/imu0/data.csv".toList then some (csv true exHeader (exLines.map Line.text))
    else if f = "d/mav0/cam0/data.csv".toList ∨ f = "c/mav0/cam0/data.csv".toList then some (csv true exHeader (exShots.map Shot.text))
    else if f = "c/mav0/cam1/data.csv".toList then some (csv false exHeader ((exShots.take 2).map Shot.text))
    else if f = "d/mav0/state_groundtruth_estimate0/data.csv".toList then some (csv false exHeader (exTruth.map Line.text))
    else none
  doc f :=
    if f = "d/mav0/imu0/sensor.yaml".toList ∨ f = "c/mav0/imu0/sensor.yaml".toList then some exImuDoc
    else if f = "d/mav0/cam0/sensor.yaml".toList then some exCamFullDoc
    else if f = "c/mav0/cam0/sensor.yaml".toList ∨ f = "c/mav0/cam1/sensor.yaml".toList then some exCamDoc
    else if f = "c/april_6x6.yaml".toList then some exTargetDoc
    else none
  isFile _ := true

/-- The hypotheses of `C122_imu`, and its conclusion. -/
example : ∃ i, imu exDec exDisk "d/mav0/imu0".toList = .ok i ∧ i.timestamps = [1403636579758555392, 1403636579763555584] ∧
    i.gyr = [(dA.value, dC.value, dC.value), (dC.value, dA.value, dB.value)] ∧
    i.acc = [(dB.value, dC.value, dA.value), (dB.value, dC.value, dC.value)] := by
  have h : built (imu exDec exDisk "d/mav0/imu0".toList) = true := by decide +kernel
  obtain ⟨i, hi⟩ := (built_iff _).mp h
  obtain ⟨h1, h2, h3, -⟩ := (C122_imu exDec exDisk _ true exHeader exHeader_ok exLines exLines_ok (by decide +kernel) _ (by rfl) i).mp hi
  exact ⟨i, hi, h1, h2, h3⟩

example : ∃ g, truth exDisk "d/mav0/state_groundtruth_estimate0".toList = .ok g ∧ g.map Truth.q = [(dA.value, dB.value, dC.value, dA.value)] := by
  obtain ⟨g, h, -, -, h1, -⟩ := C122_truth exDisk "d/mav0/state_groundtruth_estimate0".toList false exHeader exHeader_ok exTruth exTruth_ok (by decide +kernel)
  exact ⟨g, h, h1⟩

theorem exCam (dir : Str) (b cr : Bool) (shots : List Shot) (h1 : ∀ s ∈ shots, s.Ok) (h2 : ∀ s ∈ shots, s.name.length < 50)
    (ht : exDisk.text (dir ++ "/data.csv".toList) = some (csv cr exHeader (shots.map Shot.text)))
    (m : List (Str × Y)) (hm : exDisk.doc (dir ++ "/sensor.yaml".toList) = some (.map m))
    (h : built (camera exDec exDisk dir b) = true) : ∃ c, camera exDec exDisk dir b = .ok c ∧ c.timestamps = shots.map (fun s => s.t) ∧
      c.paths = shots.map (fun s => dir ++ "/data/".toList ++ s.name) := by
  obtain ⟨c, hc⟩ := (built_iff _).mp h
  obtain ⟨a, b, -⟩ := (C122_camera_partial exDec exDisk dir b cr exHeader exHeader_ok shots h1 h2 (fun _ _ => rfl) ht m hm c).mp hc
  exact ⟨c, hc, a, b⟩

/-- The hypotheses of `C122_data_partial` (a value 0 behind the end of the set). -/
example : ∃ d, data exDec (some 0) exDisk "d".toList = .ok d ∧ d.cam1 = d.cam0 ∧ d.start = 1403636579758555392 ∧ d.stop = 1403636579863555584 ∧
    SMap.find 1403636579763555584 d.time = some (relative d.start 1403636579763555584) := by
  obtain ⟨i, hi⟩ := (built_iff _).mp (show built (imu exDec exDisk ("d".toList ++ "/mav0/imu0".toList)) = true by decide +kernel)
  obtain ⟨i1, -⟩ := (C122_imu exDec exDisk _ true exHeader exHeader_ok exLines exLines_ok (by decide +kernel) _ (by rfl) i).mp hi
  obtain ⟨c, hc, c1, -⟩ := exCam ("d".toList ++ "/mav0/cam0".toList) false true exShots exShots_ok exShots_short (by decide +kernel) _
    (by rfl) (by decide +kernel)
  obtain ⟨g, hg, -⟩ := C122_truth exDisk ("d".toList ++ "/mav0/state_groundtruth_estimate0".toList) false exHeader exHeader_ok exTruth exTruth_ok (by decide +kernel)
  have e1 : i.timestamps = [1403636579758555392, 1403636579763555584] := i1
  have e2 : c.timestamps = [1403636579758555392, 1403636579763555584, 1403636579863555584] := c1
  obtain ⟨d, h1, h2, h3, h4, -, ⟨h5, h6⟩, ⟨h7, h8⟩, -, h9⟩ := C122_data_partial exDec 0 exDisk "d".toList i c g hi hc hg (by rw [e1]; decide) (by rw [e2]; decide)
    (by rw [e1]; decide) (by rw [e2]; decide) (by rw [e1, e2]; decide)
  rw [e1, e2] at h5 h6 h7 h8 h9
  refine ⟨d, h1, h4.trans h3.symm, ?_, ?_, ?_⟩
  · have := h6 1403636579758555392 (by decide)
    simp only [List.cons_append, List.nil_append, List.mem_cons, List.not_mem_nil, or_false] at h5
    omega
  · have := h8 1403636579863555584 (by decide)
    simp only [List.cons_append, List.nil_append, List.mem_cons, List.not_mem_nil, or_false] at h7
    omega
  · rw [h9, if_pos (by decide)]

/-- The hypotheses of `C122_calib_partial`: the third image of camera 0 is dropped. -/
example : ∃ k, calib exDec exDisk "c".toList = .ok k ∧ k.cam0.timestamps = [1403636579758555392, 1403636579763555584] ∧
    k.cam1.timestamps = [1403636579758555392, 1403636579763555584] := by
  obtain ⟨i, hi⟩ := (built_iff _).mp (show built (imu exDec exDisk ("c".toList ++ "/mav0/imu0".toList)) = true by decide +kernel)
  obtain ⟨c, hc, c1, c2⟩ := exCam ("c".toList ++ "/mav0/cam0".toList) true true exShots exShots_ok exShots_short (by decide +kernel) _
    (by rfl) (by decide +kernel)
  obtain ⟨c', hc', c1', c2'⟩ := exCam ("c".toList ++ "/mav0/cam1".toList) true false (exShots.take 2) (fun s hs => exShots_ok s (List.mem_of_mem_take hs))
    (fun s hs => exShots_short s (List.mem_of_mem_take hs)) (by decide +kernel) _ (by rfl) (by decide +kernel)
  obtain ⟨t, ht⟩ := (built_iff _).mp (show built (target exDec exDisk ("c".toList ++ "/april_6x6.yaml".toList)) = true by decide +kernel)
  have l1 : c.paths.length = 3 := by rw [c2]; rfl
  have l2 : c'.paths.length = 2 := by rw [c2']; rfl
  refine ⟨_, C122_calib_partial exDec exDisk "c".toList i c c' t hi hc hc' ht (by omega) (by omega) (by omega), ?_, ?_⟩
  · show c.timestamps.take _ = _
    rw [c1, l1, l2]; rfl
  · show c'.timestamps.take _ = _
    rw [c1', l1, l2]; rfl

/-- An image with a name of 50 characters. -/
example : (⟨1, List.replicate 50 'a'⟩ : Shot).Ok := ⟨by decide, by decide, by decide, by decide⟩

end Yac.Euroc
