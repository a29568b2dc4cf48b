import Verif.Calib.CameraModel
import Verif.VI.LoadModel
import Verif.VI.Recover
import Verif.Csv.Model
import Mathlib.Analysis.SpecialFunctions.Log.Basic
import Mathlib.Analysis.SpecialFunctions.Trigonometric.Basic

/-!
# Model of the tool `calib_info`, yac/demo/calib_info.cpp

The calibrators are the models of C53 and C58, the grids those of C95.  The estimate of the information after a view is a
function of the calibrator (`none`: it fails).
-/

namespace Yac.Tool

open Yac.AprilGrid (Grid)
open Yac.Fmt Yac.Text

/-- `calib_info` and `calib_entropy`, calib_info.cpp:163-164: ordered by time. -/
structure Maps (K : Type) where
  info : List (ℤ × K)
  entropy : List (ℤ × K)

/-- `calib_info[ts] = info_k; calib_entropy[ts] = entropy_k;`, calib_info.cpp:52-53 and 121-122, if there is an estimate. -/
def Maps.put {K : Type} (m : Maps K) (ts : ℤ) : Option (K × K) → Maps K
  | none => m
  | some ie => ⟨SMap.set ts ie.1 m.info, SMap.set ts ie.2 m.entropy⟩

/-- `camera_data[grid.timestamp][cam_idx] = grid`, calib_info.cpp:25. -/
def addShot {K : Type} (cam : ℤ) (m : List (ℤ × List (ℤ × Grid K))) (g : Grid K) : List (ℤ × List (ℤ × Grid K)) :=
  SMap.set g.timestamp (SMap.set cam g ((SMap.find g.timestamp m).getD [])) m

/-- `load_camera_data`, calib_info.cpp:14-30: the grids of every camera (in the order of `calib_data_preprocess`) by time. -/
def cameraData {K : Type} (d : List (ℤ × List (Grid K))) : List (ℤ × List (ℤ × Grid K)) :=
  d.foldl (fun m cg => cg.2.foldl (addShot cg.1) m) []

section
variable {K V : Type} [Field K] [LinearOrder K]

/-- One time, calib_info.cpp:39-54. -/
def camStep (env : Calib.Env K V) (acc : Calib.Cal K V × Maps K) (tv : ℤ × List (ℤ × Grid K)) :
    Except Fault (Calib.Cal K V × Maps K) :=
  Calib.addView env acc.1 tv.2 >>= fun r => .ok (r.1, acc.2.put tv.1 (env.info r.1))

/-- `eval_camera_info`, calib_info.cpp:32-57, for the calibrator `s` that the configuration gives. -/
def camInfo (env : Calib.Env K V) (s : Calib.Cal K V) (d : List (ℤ × List (Grid K))) :
    Except Fault (Calib.Cal K V × Maps K) :=
  (cameraData d).foldlM (camStep env) (s, ⟨[], []⟩)

end

section
variable {K D R : Type} [DecidableEq K]

/-- One event at the time `ts`, calib_info.cpp:98-125; `est` is the estimate after a new view. -/
def viStep (env : VI.VEnv K D) (est : VI.St K D → Option (R × R)) (acc : VI.St K D × Maps R) (te : ℤ × VI.Ev K D) :
    Except Fault (VI.St K D × Maps R) :=
  match te.2 with
  | .grid c g => .ok (VI.addGrid acc.1 c g, acc.2)
  | .imu t a w => VI.addImu env acc.1 t a w >>= fun r =>
      .ok (r.1, if r.2 then acc.2.put te.1 (est r.1) else acc.2)

/-- The loop over the timeline, calib_info.cpp:92-127. -/
def viInfo (env : VI.VEnv K D) (est : VI.St K D → Option (R × R)) (s : VI.St K D) (d : VI.LoadIn K D) :
    Except Fault (VI.St K D × Maps R) :=
  let tl := Timeline.run (VI.entries (s.cams.map Prod.fst) d)
  (tl.timestamps.flatMap (fun ts => (Timeline.getEvents tl ts).map (fun e => (ts, e)))).foldlM (viStep env est) (s, ⟨[], []⟩)

end

/-- Information and entropy of a covariance matrix, calib_info.cpp:117-120. -/
noncomputable def viValues (C : Matrix (Fin 6) (Fin 6) ℝ) : ℝ × ℝ :=
  (Real.log C.det / Real.log 2, 1 / 2 * Real.log ((2 * Real.pi * Real.exp 1) ^ 6 * C.det))

/-- The estimate of the visual-inertial mode, calib_info.cpp:114-123; `cov` is `ceres::Covariance`. -/
noncomputable def viEstimate {K D : Type} (cov : VI.St K D → VI.Recover.Cov) (s : VI.St K D) : Option (ℝ × ℝ) :=
  (VI.Recover.recoverCovar (cov s)).map viValues

/-- The header, calib_info.cpp:141. -/
def header : List Char := "view_idx,ts,info,entropy\n".toList

/-- One line, calib_info.cpp:144-147; `operator[]` of a time that is not there gives zero. -/
def infoRow (m : Maps ℚ) (i : ℕ) (ts : ℤ) : List Char :=
  natText i ++ ',' :: (fmtLd ts ++ ',' :: (fmtF ((SMap.find ts m.info).getD 0) ++ ',' ::
    (fmtF ((SMap.find ts m.entropy).getD 0) ++ ['\n'])))

/-- `save_results`, calib_info.cpp:130-150; it exits if the file cannot be opened. -/
def saveInfo (opened : Bool) (m : Maps ℚ) : Except Fault (List Char) :=
  if opened then .ok (header ++ (m.info.zipIdx).flatMap (fun t => infoRow m t.2 t.1.1)) else .error .fatal

/-- `main`, calib_info.cpp:152-181: the text of the file, `none`: -1 is returned.  `cam` and `vi` are the two evaluations. -/
def infoMain (args : List (List Char)) (cam vi : Except Fault (Maps ℚ)) (opened : Bool) : Except Fault (Option (List Char)) :=
  match args with
  | [_, mode, _, _, _] =>
    (if mode = "camera".toList then cam else if mode = "camera-imu".toList then vi else .ok ⟨[], []⟩) >>= fun m =>
    saveInfo opened m >>= fun f => .ok (some f)
  | _ => .ok none

end Yac.Tool
