import Verif.Save.ViModel
import Verif.Ctor.ViMain

/-!
# C127: what a calibrator made from a results file must be like (specification)
-/

namespace Yac.Save
open Yac.Config Yac.Text Yac.Fmt Yac.Ctor

/-- The conversions of scalars of the YAML library: the two truth values as they are printed, `int`, and decimal numbers. -/
structure Reads (D : Dec) : Prop where
  flag_true : D.flag "true".toList = some true
  flag_false : D.flag "false".toList = some false
  int : ∀ n : ℤ, -2 ^ 31 ≤ n → n < 2 ^ 31 → D.int (fmtLd n) = some n
  real : ∀ (s : Str) (q : ℚ), asDouble s = some q → D.real s = some (q : ℝ)

/-- The value of an `int`. -/
def IsInt (n : ℤ) : Prop := -2 ^ 31 ≤ n ∧ n < 2 ^ 31

/-- `y` is `x` up to six decimals (and the rounding to double). -/
def NearF (x : ℚ) (y : ℝ) : Prop := |y - x| ≤ 5.0001 / 10 ^ 7 + |(x : ℝ)| / 2 ^ 53

/-- `y` is `x` up to seven significant digits. -/
def NearE (x : ℚ) (y : ℝ) : Prop := |y - x| ≤ 5.0001 / 10 ^ 7 * |(x : ℝ)|

/-- `y` is `x` up to 17 significant digits, and exactly if `x` is a double. -/
def NearG (x : ℚ) (y : ℝ) : Prop := |y - x| ≤ 1.7 / 10 ^ 16 * |(x : ℝ)| ∧ (Double x → y = x)

/-- The rows are those of a matrix near `M`. -/
def PoseNear (M : M4) (rows : List (List ℝ)) (N : Matrix (Fin 4) (Fin 4) ℝ) : Prop :=
  rows = List.ofFn (fun i => List.ofFn (N i)) ∧ ∀ i j, NearG (M i j) (N i j)

/-- A loss function that exists. -/
def LossOk (on : Bool) (type : Str) : Prop :=
  on = true → type = "BLAKE-ZISSERMAN".toList ∨ type = "CAUCHY".toList ∨ type = "HUBER".toList

/-- A calibrator as `calib_vi_t` has it after `add_camera` for the cameras 0 ... `N - 1` and initialisation. -/
structure Complete (c : ViCalib) (N : ℕ) (T_WF : M4) : Prop where
  some_camera : 1 ≤ N
  few : N ≤ 100
  cams : c.cams.map Prod.fst = (List.range N).map (fun i : ℕ => (i : ℤ))
  exts : c.exts.map Prod.fst = (List.range N).map (fun i : ℕ => (i : ℤ))
  models : ∀ e ∈ c.cams, ModelsOk e.2.proj e.2.dist ∧ IsInt e.2.w ∧ IsInt e.2.h ∧ (∀ x ∈ e.2.k, Double x) ∧ ∀ x ∈ e.2.d, Double x
  fiducial : c.fiducial = some T_WF
  ints : IsInt c.maxNumThreads ∧ IsInt c.maxIter ∧ IsInt c.windowSize ∧ IsInt c.tagRows ∧ IsInt c.tagCols
  vision : LossOk c.visionLossOn c.visionLossType
  imu : LossOk c.imuLossOn c.imuLossType

/-- What the calibrator made from the results of `c` must be like. -/
structure Reloaded (c : ViCalib) (T_WF : M4) (b : BuiltVi) : Prop where
  /-- All settings are kept (real values up to six decimals), but `verbose` and `estimate_time_delay` are on again. -/
  settings : ∃ vision imu outlier step : ℝ, NearF c.visionLossParam vision ∧ NearF c.imuLossParam imu ∧
    NearF c.outlierThreshold outlier ∧ NearE c.timeDelayJacStep step ∧ b.settings = keys [("verbose", .flag true),
      ("max_num_threads", .int c.maxNumThreads), ("max_iter", .int c.maxIter),
      ("enable_outlier_rejection", .flag c.outlierRejection), ("enable_marginalization", .flag c.marginalization),
      ("enable_vision_loss_fn", .flag c.visionLossOn), ("vision_loss_fn_type", .text c.visionLossType),
      ("vision_loss_fn_param", .real vision), ("enable_imu_loss_fn", .flag c.imuLossOn),
      ("imu_loss_fn_type", .text c.imuLossType), ("imu_loss_fn_param", .real imu), ("outlier_threshold", .real outlier),
      ("window_size", .int c.windowSize), ("estimate_time_delay", .flag true), ("time_delay_jac_step", .real step),
      ("format_v2", .flag c.formatV2)]
  target : ∃ size spacing : ℝ, NearF c.tagSize size ∧ NearF c.tagSpacing spacing ∧ b.target = keys [
    ("target_type", .text c.targetType), ("tag_rows", .int c.tagRows), ("tag_cols", .int c.tagCols),
    ("tag_size", .real size), ("tag_spacing", .real spacing)]
  imu : ∃ rate gc ac gw aw bg ba g : ℝ, NearF c.rate rate ∧ NearE c.sigma_g_c gc ∧ NearE c.sigma_a_c ac ∧ NearE c.sigma_gw_c gw ∧
    NearE c.sigma_aw_c aw ∧ NearE c.sigma_bg bg ∧ NearE c.sigma_ba ba ∧ NearF c.g g ∧ b.imu = keys [("rate", .real rate),
      ("sigma_g_c", .real gc), ("sigma_a_c", .real ac), ("sigma_gw_c", .real gw), ("sigma_aw_c", .real aw),
      ("sigma_bg", .real bg), ("sigma_ba", .real ba), ("g", .real g)]
  /-- The cameras are the same: resolution, models and parameters exactly. -/
  cameras : b.cams.map Prod.fst = c.cams.map Prod.fst ∧ ∀ i cam, SMap.find i c.cams = some cam → ∃ cam', SMap.find i b.cams = some cam' ∧
    cam'.res = [cam.w, cam.h] ∧ cam'.proj = cam.proj ∧ cam'.dist = cam.dist ∧ cam'.k = cam.k.map (fun x : ℚ => (x : ℝ)) ∧
    cam'.d = cam.d.map (fun x : ℚ => (x : ℝ))
  /-- The extrinsics are now those with respect to camera 0. -/
  extrinsics : ∃ T_BC0, SMap.find 0 c.exts = some T_BC0 ∧ (∃ rows N, PoseNear (c.T_BS⁻¹ * T_BC0) rows N ∧ b.T_BS = N⁻¹) ∧
    ∀ i T_BCi, SMap.find i c.exts = some T_BCi → ∃ cam', SMap.find i b.cams = some cam' ∧ (i = 0 → cam'.ext = identity4) ∧
      (i ≠ 0 → ∃ N, PoseNear (T_BC0⁻¹ * T_BCi) cam'.ext N)
  fiducial : ∃ rows N, PoseNear T_WF rows N ∧ b.fiducial = some rows
  losses : LossIs b.settings ["BLAKE-ZISSERMAN", "CAUCHY", "HUBER"] "enable_vision_loss_fn".toList
      "vision_loss_fn_type".toList "vision_loss_fn_param".toList b.visionLoss ∧
    LossIs b.settings ["BLAKE-ZISSERMAN", "CAUCHY", "HUBER"] "enable_imu_loss_fn".toList
      "imu_loss_fn_type".toList "imu_loss_fn_param".toList b.imuLoss
  /-- The time delay is estimated. -/
  delay : b.fixedDelay = false

end Yac.Save
