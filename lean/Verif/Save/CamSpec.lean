import Verif.Save.CamModel
import Verif.Save.ViSpec

/-! # C128, C129: what a calibrator made from a results file must be like (specification) -/

namespace Yac.Save
open Yac.Config Yac.Text Yac.Fmt Yac.Ctor

/-- A camera that exists: known models, `int` resolution, parameters that are doubles. -/
def CamOk (c : ViCam) : Prop := ModelsOk c.proj c.dist ∧ IsInt c.w ∧ IsInt c.h ∧ (∀ x ∈ c.k, Double x) ∧ ∀ x ∈ c.d, Double x

/-- A camera calibrator that has camera 0 (any other indices below 100, with gaps or not). -/
structure CompleteCam (c : CamCalib) : Prop where
  cams_map : SMap.Sorted c.cams
  exts : c.exts.map Prod.fst = c.cams.map Prod.fst
  index : ∀ e ∈ c.cams, 0 ≤ e.1 ∧ e.1 < 100
  zero : (SMap.find 0 c.cams).isSome = true
  models : ∀ e ∈ c.cams, CamOk e.2.2
  ints : IsInt c.maxNumThreads ∧ IsInt c.minNbvViews ∧ IsInt c.earlyStopThreshold ∧ IsInt c.slidingWindowSize ∧
    IsInt c.target.tagRows ∧ IsInt c.target.tagCols

/-- The target is kept (sizes to six decimals). -/
def TargetKept (t : TargetNums) (b : List (Str × Ctor.Val)) : Prop :=
  ∃ size spacing : ℝ, NearF t.tagSize size ∧ NearF t.tagSpacing spacing ∧ b = keys [
    ("target_type", .text t.targetType), ("tag_rows", .int t.tagRows), ("tag_cols", .int t.tagCols),
    ("tag_size", .real size), ("tag_spacing", .real spacing)]

/-- The parameters of the IMU are kept to seven digits (rate and gravity: to six decimals). -/
def ImuKept (i : ImuNums) (b : List (Str × Ctor.Val)) : Prop :=
  ∃ rate gc ac gw aw bg ba g : ℝ, NearF i.rate rate ∧ NearE i.sigma_g_c gc ∧ NearE i.sigma_a_c ac ∧ NearE i.sigma_gw_c gw ∧
    NearE i.sigma_aw_c aw ∧ NearE i.sigma_bg bg ∧ NearE i.sigma_ba ba ∧ NearF i.g g ∧ b = keys [("rate", .real rate),
      ("sigma_g_c", .real gc), ("sigma_a_c", .real ac), ("sigma_gw_c", .real gw), ("sigma_aw_c", .real aw),
      ("sigma_bg", .real bg), ("sigma_ba", .real ba), ("g", .real g)]

/-- The same cameras with the same models and parameters; the pose of every camera is that with respect to camera 0. -/
def CamerasKept (c : CamCalib) (cams : List (ℤ × Camera)) : Prop :=
  cams.map Prod.fst = c.cams.map Prod.fst ∧
  (∀ i f cam, SMap.find i c.cams = some (f, cam) → ∃ cam', SMap.find i cams = some cam' ∧
    cam'.res = [cam.w, cam.h] ∧ cam'.proj = cam.proj ∧ cam'.dist = cam.dist ∧ cam'.k = cam.k.map (fun x : ℚ => (x : ℝ)) ∧
    cam'.d = cam.d.map (fun x : ℚ => (x : ℝ))) ∧
  ∃ f0 T_BC0, SMap.find 0 c.exts = some (f0, T_BC0) ∧ ∀ i f T_BCi, SMap.find i c.exts = some (f, T_BCi) →
    ∃ cam', SMap.find i cams = some cam' ∧ (i = 0 → cam'.ext = identity4) ∧ (i ≠ 0 → ∃ N, PoseNear (T_BC0⁻¹ * T_BCi) cam'.ext N)

/-- What the camera calibrator made from the results of `c` must be like. -/
structure ReloadedCam (c : CamCalib) (b : Built) : Prop where
  settings : ∃ loss outlier gain : ℝ, NearF c.lossParam loss ∧ NearF c.outlierThreshold outlier ∧ NearF c.infoGainThreshold gain ∧
    b.settings = keys [("verbose", .flag c.verbose), ("max_num_threads", .int c.maxNumThreads), ("enable_nbv", .flag c.nbv),
      ("enable_shuffle_views", .flag c.shuffleViews), ("enable_nbv_filter", .flag c.nbvFilter),
      ("enable_outlier_filter", .flag c.outlierFilter), ("enable_early_stopping", .flag c.earlyStopping),
      ("enable_marginalization", .flag c.marginalization), ("enable_loss_fn", .flag c.lossOn), ("loss_fn_type", .text c.lossType),
      ("loss_fn_param", .real loss), ("min_nbv_views", .int c.minNbvViews), ("outlier_threshold", .real outlier),
      ("info_gain_threshold", .real gain), ("early_stop_threshold", .int c.earlyStopThreshold),
      ("sliding_window_size", .int c.slidingWindowSize), ("format_v2", .flag c.formatV2)]
  target : TargetKept c.target b.target
  cameras : CamerasKept c b.cams
  imu : (c.imu = none → b.imu = none) ∧ ∀ i, c.imu = some i → ∃ v, b.imu = some v ∧ ImuKept i v

/-- What the visual-inertial calibrator made from the results of a camera calibration must be like: cameras, target, IMU and
the settings that both have are taken over, everything else has its default. -/
structure StartsVi (c : CamCalib) (i : ImuNums) (b : BuiltVi) : Prop where
  settings : ∃ outlier : ℝ, NearF c.outlierThreshold outlier ∧ b.settings = keys [("verbose", .flag c.verbose),
      ("max_num_threads", .int c.maxNumThreads), ("max_iter", .int 100),
      ("enable_outlier_rejection", .flag false), ("enable_marginalization", .flag c.marginalization),
      ("enable_vision_loss_fn", .flag false), ("vision_loss_fn_type", .text "CAUCHY".toList),
      ("vision_loss_fn_param", .real 1), ("enable_imu_loss_fn", .flag false),
      ("imu_loss_fn_type", .text "HUBER".toList), ("imu_loss_fn_param", .real 1), ("outlier_threshold", .real outlier),
      ("window_size", .int 5), ("estimate_time_delay", .flag true), ("time_delay_jac_step", .real 1e-8),
      ("format_v2", .flag c.formatV2)]
  target : TargetKept c.target b.target
  imu : ImuKept i b.imu
  cameras : CamerasKept c b.cams
  fixed : ∀ e ∈ b.cams, e.2.fixed = true ∧ e.2.fixedExt = true
  rest : b.T_BS = 1 ∧ b.fixedDelay = false ∧ b.fiducial = none ∧ b.visionLoss = none ∧ b.imuLoss = none

/-- A loss function that `calib_mocap_t` has. -/
def MocapLossOk (on : Bool) (type : Str) : Prop := on = true → type = "BLAKE-ZISSERMAN".toList ∨ type = "CAUCHY".toList

/-- What the calibrator made from the results of `c` must be like. -/
structure ReloadedMocap (c : MocapCalib) (b : BuiltMocap) : Prop where
  settings : ∃ outlier gain loss : ℝ, NearF c.outlierThreshold outlier ∧ NearF c.infoGainThreshold gain ∧ NearF c.lossParam loss ∧
    b.settings = keys [("fix_intrinsics", .flag c.fixIntrinsics), ("fix_mocap_poses", .flag c.fixMocapPoses),
      ("fix_fiducial_pose", .flag c.fixFiducialPose), ("outlier_threshold", .real outlier), ("info_gain_threshold", .real gain),
      ("enable_loss_fn", .flag c.lossOn), ("loss_fn_type", .text c.lossType), ("loss_fn_param", .real loss),
      ("enable_shuffle_views", .flag c.shuffleViews), ("show_progress", .flag c.showProgress), ("max_iter", .int c.maxIter)]
  target : TargetKept c.target b.target
  /-- The camera exactly; its intrinsics are not calibrated again. -/
  camera : b.res = [c.cam.w, c.cam.h] ∧ b.proj = c.cam.proj ∧ b.dist = c.cam.dist ∧ b.k = c.cam.k.map (fun x : ℚ => (x : ℝ)) ∧
    b.d = c.cam.d.map (fun x : ℚ => (x : ℝ)) ∧ b.calibrate = false
  loss : LossIs b.settings ["BLAKE-ZISSERMAN", "CAUCHY"] "enable_loss_fn".toList "loss_fn_type".toList "loss_fn_param".toList b.loss

end Yac.Save
