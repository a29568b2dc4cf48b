import Verif.Save.CamModel
import Verif.VI.LoadModel

/-!
# Model of the EuRoC program (yac/demo/calib_euroc.cpp)

Cameras first, then IMU: the results of the camera calibration are written to a file, and the second half reads its cameras from
that file.  The camera calibration itself (C51-C53), the detection of the grids (C95) and the solver are parameters: its result is a
calibrator, the grids of the second data set come as `calib_data_preprocess` returns them.
-/

namespace Yac.Tool.Euroc
open Yac.Save Yac.Ctor Yac.Config Yac.VI
open Yac.AprilGrid (Grid)

/-- The end of `calibrate_cameras`, calib_euroc.cpp:36-37: the file afterwards.  Nobody looks at what `save_results` returns when
the file cannot be opened. -/
noncomputable def calibrateCameras (writable : Bool) (old : Option Y) (c : CamCalib) (total : Y) (each : List (ℤ × Y)) :
    Except Fault (Option Y) :=
  if writable then saveCam c total each >>= fun doc => .ok (some doc) else .ok old

/-- The cameras of `calibrate_imu`, calib_euroc.cpp:96-130: the body of the loop is that of `calib_vi_t(config_file)`.  Without a
file `config_t` fails. -/
noncomputable def imuCameras (D : Dec) (file : Option Y) : Except Fault (List (ℤ × Camera)) :=
  match file with
  | none => .error .fatal
  | some doc => (List.range 100).foldlM (readViCamera D) ([], doc) >>= fun r => .ok r.1

/-- `main`, calib_euroc.cpp:161-167, up to the cameras of the second half. -/
noncomputable def main (D : Dec) (writable : Bool) (old : Option Y) (c : CamCalib) (total : Y) (each : List (ℤ × Y)) :
    Except Fault (List (ℤ × Camera)) :=
  calibrateCameras writable old c total each >>= fun file => imuCameras D file

variable {K D : Type} [DecidableEq K]

/-- The calls of `timeline.add` in `load_calib_vi_data`, calib_euroc.cpp:42-72: cameras without grids are not in the map. -/
def events (grids : List (Int × List (Grid K))) (imu : List (Int × D × D)) : List (Int × Ev K D) :=
  grids.flatMap (fun cg => cg.2.map (fun g => (g.timestamp, Ev.grid cg.1 g))) ++ imu.map (fun r => (r.1, Ev.imu r.1 r.2.1 r.2.2))

/-- The loop over the timeline, calib_euroc.cpp:132-154. -/
def feedAll (env : VEnv K D) (grids : List (Int × List (Grid K))) (imu : List (Int × D × D)) (s : St K D) : Except Fault (St K D) :=
  (Timeline.run (events grids imu)).timestamps.foldlM (feedAt env (Timeline.run (events grids imu))) s

end Yac.Tool.Euroc
