import Verif.Save.ViModel

/-!
# Model of `calib_camera_t::save_results` and `calib_mocap_t::save_results`

calib_camera.cpp:379-387 (print_calib_target), 389-406 (print_camera_params), 408-442 (print_estimates), 1980-2003
(print_settings), 2005-2037 (print_metrics), 2263-2277 (print_imu), 2290-2314 (save_results); calib_mocap.cpp:603-619
(print_settings), 621-629 (print_calib_target), 631-641 (print_metrics), 643-655 (print_fiducial_pose), 657-670
(print_mocap_camera_extrinsics), 672-690 (print_camera_params), 692-722 (print_mocap_poses), 735-757 (save_results).

Conventions as in `ViModel.lean`.
-/

namespace Yac.Save
open Yac.Config Yac.Text Yac.Fmt Yac.Ctor

/-- Parameters of an IMU. -/
structure ImuNums where
  rate : ℚ
  sigma_a_c : ℚ
  sigma_g_c : ℚ
  sigma_aw_c : ℚ
  sigma_gw_c : ℚ
  sigma_ba : ℚ
  sigma_bg : ℚ
  g : ℚ

/-- A target, calib_data.hpp:29-33. -/
structure TargetNums where
  targetType : Str
  tagRows : ℤ
  tagCols : ℤ
  tagSize : ℚ
  tagSpacing : ℚ

/-- A camera calibrator: settings (calib_camera.hpp:106-123), target, cameras and extrinsics (each with whether it is
fixed), IMU parameters. -/
structure CamCalib where
  verbose : Bool
  solver : Str
  maxNumThreads : ℤ
  nbv : Bool
  shuffleViews : Bool
  nbvFilter : Bool
  outlierFilter : Bool
  earlyStopping : Bool
  marginalization : Bool
  lossOn : Bool
  lossType : Str
  lossParam : ℚ
  minNbvViews : ℤ
  outlierThreshold : ℚ
  infoGainThreshold : ℚ
  earlyStopThreshold : ℤ
  slidingWindowSize : ℤ
  formatV2 : Bool
  target : TargetNums
  cams : List (ℤ × Bool × ViCam)
  exts : List (ℤ × Bool × M4)
  imu : Option ImuNums

/-- `calib_camera_t::print_settings`, calib_camera.cpp:1980-2003. -/
def camSettingsNode (c : CamCalib) : Y := .map [
  ("verbose".toList, .scalar (boolText c.verbose)),
  ("solver".toList, .scalar c.solver),
  ("max_num_threads".toList, .scalar (fmtLd c.maxNumThreads)),
  ("enable_nbv".toList, .scalar (boolText c.nbv)),
  ("enable_shuffle_views".toList, .scalar (boolText c.shuffleViews)),
  ("enable_nbv_filter".toList, .scalar (boolText c.nbvFilter)),
  ("enable_outlier_filter".toList, .scalar (boolText c.outlierFilter)),
  ("enable_early_stopping".toList, .scalar (boolText c.earlyStopping)),
  ("enable_marginalization".toList, .scalar (boolText c.marginalization)),
  ("enable_loss_fn".toList, .scalar (boolText c.lossOn)),
  ("loss_fn_type".toList, .scalar c.lossType),
  ("loss_fn_param".toList, .scalar (fmtF c.lossParam)),
  ("min_nbv_views".toList, .scalar (fmtLd c.minNbvViews)),
  ("outlier_threshold".toList, .scalar (fmtF c.outlierThreshold)),
  ("info_gain_threshold".toList, .scalar (fmtF c.infoGainThreshold)),
  ("early_stop_threshold".toList, .scalar (fmtLd c.earlyStopThreshold)),
  ("sliding_window_size".toList, .scalar (fmtLd c.slidingWindowSize)),
  ("format_v2".toList, .scalar (boolText c.formatV2))]

/-- `print_calib_target`, calib_camera.cpp:379-387, calib_mocap.cpp:621-629. -/
def targetNode' (t : TargetNums) : Y := .map [
  ("target_type".toList, .scalar t.targetType),
  ("tag_rows".toList, .scalar (fmtLd t.tagRows)),
  ("tag_cols".toList, .scalar (fmtLd t.tagCols)),
  ("tag_size".toList, .scalar (fmtF t.tagSize)),
  ("tag_spacing".toList, .scalar (fmtF t.tagSpacing))]

/-- `print_camera_params`, calib_camera.cpp:389-406, calib_mocap.cpp:672-690; the brackets that `vec2str` prints make the
sequence. -/
def camNode' (fixed : Bool) (c : ViCam) : Y := .map [
  ("fixed".toList, .scalar (boolText fixed)),
  ("resolution".toList, .seq [.scalar (fmtLd c.w), .scalar (fmtLd c.h)]),
  ("proj_model".toList, .scalar c.proj),
  ("dist_model".toList, .scalar c.dist),
  ("proj_params".toList, flow (vec2str c.k false true)),
  ("dist_params".toList, flow (vec2str c.d false true))]

/-- A pose with `fixed`, calib_camera.cpp:432-440, calib_mocap.cpp:646-654, 661-669. -/
def poseNode' (fixed : Bool) (M : M4) : Y := .map [
  ("fixed".toList, .scalar (boolText fixed)),
  ("rows".toList, .scalar "4".toList), ("cols".toList, .scalar "4".toList),
  ("data".toList, flow ("\n".toList ++ mat2str "    ".toList true (rowsOf M) ++ "\n  ".toList))]

/-- `print_estimates`, calib_camera.cpp:408-442: the cameras, and the extrinsics of those but camera 0. -/
noncomputable def estimateNodes (cams : List (ℤ × Bool × ViCam)) (exts : List (ℤ × Bool × M4)) : Except Fault (List (Str × Y)) :=
  match SMap.find 0 exts with
  | none => .error .exn
  | some e0 => .ok (cams.map (fun e => (camKey e.1, camNode' e.2.1 e.2.2)) ++
      (exts.filter (fun e => decide (e.1 ≠ 0))).map (fun e => ("T_cam0_cam".toList ++ fmtLd e.1, poseNode' e.2.1 (e0.2⁻¹ * e.2.2))))

/-- `calib_camera_t::print_imu`, calib_camera.cpp:2263-2277. -/
def camImuNodes : Option ImuNums → List (Str × Y)
  | none => []
  | some i => [("imu0".toList, .map [
      ("rate".toList, .scalar (fmtF i.rate)),
      ("sigma_a_c".toList, .scalar (fmtE 6 i.sigma_a_c)),
      ("sigma_g_c".toList, .scalar (fmtE 6 i.sigma_g_c)),
      ("sigma_aw_c".toList, .scalar (fmtE 6 i.sigma_aw_c)),
      ("sigma_gw_c".toList, .scalar (fmtE 6 i.sigma_gw_c)),
      ("sigma_ba".toList, .scalar (fmtE 6 i.sigma_ba)),
      ("sigma_bg".toList, .scalar (fmtE 6 i.sigma_bg)),
      ("g".toList, .scalar (fmtF i.g))])]

/-- `calib_camera_t::save_results`, calib_camera.cpp:2290-2314; `total` and `each` are what `print_metrics` prints
(2005-2037). -/
noncomputable def saveCam (c : CamCalib) (total : Y) (each : List (ℤ × Y)) : Except Fault Y :=
  estimateNodes c.cams c.exts >>= fun es => .ok (.map (
    [("settings".toList, camSettingsNode c), ("calib_target".toList, targetNode' c.target), ("total_reproj_error".toList, total)] ++
    each.map (fun e => (camKey e.1 ++ "_reproj_error".toList, e.2)) ++ es ++ camImuNodes c.imu))

/-- A calibrator against motion capture: settings (calib_mocap.hpp:81-91), target, camera, extrinsics, pose of the target,
and the poses that were measured. -/
structure MocapCalib where
  fixIntrinsics : Bool
  fixMocapPoses : Bool
  fixFiducialPose : Bool
  outlierThreshold : ℚ
  infoGainThreshold : ℚ
  lossOn : Bool
  lossType : Str
  lossParam : ℚ
  shuffleViews : Bool
  showProgress : Bool
  maxIter : ℤ
  target : TargetNums
  cam : ViCam
  camFixed : Bool
  T_MC : M4
  extFixed : Bool
  T_WF : M4
  fiducialFixed : Bool

/-- `calib_mocap_t::print_settings`, calib_mocap.cpp:603-619. -/
def mocapSettingsNode (c : MocapCalib) : Y := .map [
  ("fix_intrinsics".toList, .scalar (boolText c.fixIntrinsics)),
  ("fix_mocap_poses".toList, .scalar (boolText c.fixMocapPoses)),
  ("fix_fiducial_pose".toList, .scalar (boolText c.fixFiducialPose)),
  ("outlier_threshold".toList, .scalar (fmtF c.outlierThreshold)),
  ("info_gain_threshold".toList, .scalar (fmtF c.infoGainThreshold)),
  ("enable_loss_fn".toList, .scalar (boolText c.lossOn)),
  ("loss_fn_type".toList, .scalar c.lossType),
  ("loss_fn_param".toList, .scalar (fmtF c.lossParam)),
  ("enable_shuffle_views".toList, .scalar (boolText c.shuffleViews)),
  ("show_progress".toList, .scalar (boolText c.showProgress)),
  ("max_iter".toList, .scalar (fmtLd c.maxIter))]

/-- `calib_mocap_t::save_results`, calib_mocap.cpp:735-757; the metrics (631-641) and the table of poses (692-722), which
nothing reads, are arbitrary. -/
def saveMocap (c : MocapCalib) (total poses : Y) : Y := .map [
  ("settings".toList, mocapSettingsNode c),
  ("calib_target".toList, targetNode' c.target),
  ("total_reproj_error".toList, total),
  ("T_mocap_camera".toList, poseNode' c.extFixed c.T_MC),
  (camKey 0, camNode' c.camFixed c.cam),
  ("T_world_fiducial".toList, poseNode' c.fiducialFixed c.T_WF),
  ("mocap_poses".toList, poses)]

end Yac.Save
