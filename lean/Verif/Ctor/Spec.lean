import Verif.Ctor.Model
import Verif.Config.Props

/-!
# What a configuration file says (independent of the constructors)

`Reach doc path node` (Config/Props.lean) is the node at a path of keys; `readVec`, `readVecX` and `readMat` are
characterised by C22.
-/

namespace Yac.Ctor
open Yac.Config

/-- There is nothing at the path. -/
def Absent (doc : Y) (ks : List Str) : Prop := ¬ ∃ n, Reach doc ks n

/-- A section of a configuration file. -/
def IsSection (s : Str) : Prop :=
  s = "settings".toList ∨ s = "calib_target".toList ∨ s = "imu0".toList ∨ ∃ n, s = camName n

/-- The file is a map and its sections, those that are there, are maps. -/
def Sections (doc : Y) : Prop := ∃ m, doc = .map m ∧ ∀ s y, IsSection s → First m s y → ∃ l, y = .map l

/-- The file gives the value at the path. -/
def Gives {V : Type} (doc : Y) (ks : List Str) (read : Y → Except Fault V) (v : V) : Prop := ∃ n, Reach doc ks n ∧ read n = .ok v

/-- The file gives a plain value at the path. -/
def GivesScalar {V : Type} (doc : Y) (ks : List Str) (dec : Str → Option V) (v : V) : Prop :=
  ∃ s, Reach doc ks (.scalar s) ∧ dec s = some v

/-- The values of the variables of a table: those of the file, and the default where it has none (if that is allowed). -/
def TableIs (D : Dec) (doc : Y) (sec : Str) (optional : Bool) (t vals : List (Str × Val)) : Prop :=
  List.Forall₂ (fun d v => v.1 = d.1 ∧ (GivesScalar doc [sec, d.1] (D.like d.2) v.2 ∨
    optional = true ∧ Absent doc [sec, d.1] ∧ v.2 = d.2)) t vals

/-- The projection and distortion models that are supported. -/
def ModelsOk (proj dist : Str) : Prop :=
  proj = "pinhole".toList ∧ (dist = "radtan4".toList ∨ dist = "equi4".toList)

/-- The intrinsics of a camera: those of the file, or a field of view of 120 degrees, the image centre and no
distortion. -/
def IntrinsicsAre (D : Dec) (doc : Y) (n : ℕ) (res : List ℤ) (k d : List ℝ) : Prop :=
  (Gives doc [camName n, "proj_params".toList] (readVecX D.real) k ∧ Gives doc [camName n, "dist_params".toList] (readVecX D.real) d) ∨
  (Absent doc [camName n, "proj_params".toList] ∧ d = [0, 0, 0, 0] ∧ ∃ w h f : ℝ, w = res.getD 0 0 ∧ h = res.getD 1 0 ∧
    f = w / 2 / Real.tan (120 * (Real.pi / 180) / 2) ∧ k = [f, f, (w - 1) / 2, (h - 1) / 2])

/-- The resolution and models of a camera. -/
def ModelIs (D : Dec) (doc : Y) (n : ℕ) (c : Camera) : Prop :=
  Gives doc [camName n, "resolution".toList] (readVec D.int 2) c.res ∧
  GivesScalar doc [camName n, "proj_model".toList] some c.proj ∧
  GivesScalar doc [camName n, "dist_model".toList] some c.dist ∧ ModelsOk c.proj c.dist

/-- The pose of a camera: that of the file, or the identity. -/
def ExtIs (D : Dec) (doc : Y) (n : ℕ) (e : List (List ℝ)) : Prop :=
  Gives doc [extName n] (readMat D.int D.real 4) e ∨ Absent doc [extName n] ∧ e = identity4

/-- Camera `n` of the file for `calib_camera_t`. -/
def CameraIs (D : Dec) (doc : Y) (n : ℕ) (c : Camera) : Prop :=
  ModelIs D doc n c ∧ IntrinsicsAre D doc n c.res c.k c.d ∧ ExtIs D doc n c.ext ∧ c.fixed = false ∧ (c.fixedExt = true ↔ n = 0)

/-- Camera `n` of the file for `calib_vi_t`: everything must be given (but the pose of camera 0, which is the identity) and
is held fixed. -/
def ViCameraIs (D : Dec) (doc : Y) (n : ℕ) (c : Camera) : Prop :=
  ModelIs D doc n c ∧ Gives doc [camName n, "proj_params".toList] (readVecX D.real) c.k ∧
  Gives doc [camName n, "dist_params".toList] (readVecX D.real) c.d ∧
  (n ≠ 0 → Gives doc [extName n] (readMat D.int D.real 4) c.ext) ∧ (n = 0 → c.ext = identity4) ∧ c.fixed = true ∧ c.fixedExt = true

/-- The cameras are those of the sections `cam0` ... `cam99`. -/
def CamerasAre (doc : Y) (is : ℕ → Camera → Prop) (cams : List (ℤ × Camera)) : Prop :=
  SMap.Sorted cams ∧
  (∀ n < 100, (Absent doc [camName n] ∧ SMap.find (n : ℤ) cams = none) ∨
    (¬ Absent doc [camName n] ∧ ∃ c, SMap.find (n : ℤ) cams = some c ∧ is n c)) ∧
  ∀ i : ℤ, (∀ n : ℕ, n < 100 → i ≠ n) → SMap.find i cams = none

/-- A pose that may be missing. -/
def PoseIs (D : Dec) (doc : Y) (key : Str) (o : Option (List (List ℝ))) : Prop :=
  (∃ m, o = some m ∧ Gives doc [key] (readMat D.int D.real 4) m) ∨ o = none ∧ Absent doc [key]

/-- Keys as text. -/
def keys (t : List (String × Val)) : List (Str × Val) := t.map (fun e => (e.1.toList, e.2))

/-- The settings of a camera calibration and their defaults. -/
noncomputable def cameraTable : List (String × Val) := [("verbose", .flag true), ("max_num_threads", .int 8), ("enable_nbv", .flag false),
  ("enable_shuffle_views", .flag false), ("enable_nbv_filter", .flag true), ("enable_outlier_filter", .flag true),
  ("enable_early_stopping", .flag false), ("enable_marginalization", .flag false), ("enable_loss_fn", .flag false),
  ("loss_fn_type", .text "CAUCHY".toList), ("loss_fn_param", .real 1.5), ("min_nbv_views", .int 40),
  ("outlier_threshold", .real 4), ("info_gain_threshold", .real 0.2), ("early_stop_threshold", .int 10),
  ("sliding_window_size", .int 10), ("format_v2", .flag false)]

/-- The settings of a visual-inertial calibration and their defaults. -/
noncomputable def viTable : List (String × Val) := [("verbose", .flag true), ("max_num_threads", .int 2), ("max_iter", .int 100),
  ("enable_outlier_rejection", .flag false), ("enable_marginalization", .flag false),
  ("enable_vision_loss_fn", .flag false), ("vision_loss_fn_type", .text "CAUCHY".toList), ("vision_loss_fn_param", .real 1),
  ("enable_imu_loss_fn", .flag false), ("imu_loss_fn_type", .text "HUBER".toList), ("imu_loss_fn_param", .real 1),
  ("outlier_threshold", .real 4), ("window_size", .int 5), ("estimate_time_delay", .flag true),
  ("time_delay_jac_step", .real 1e-8), ("format_v2", .flag false)]

/-- The settings of a calibration against motion capture and their defaults. -/
noncomputable def mocapTable : List (String × Val) := [("fix_intrinsics", .flag false), ("fix_mocap_poses", .flag true),
  ("fix_fiducial_pose", .flag false), ("outlier_threshold", .real 3), ("info_gain_threshold", .real 0.2),
  ("enable_loss_fn", .flag true), ("loss_fn_type", .text "CAUCHY".toList), ("loss_fn_param", .real 1),
  ("enable_shuffle_views", .flag true), ("show_progress", .flag true), ("max_iter", .int 50)]

/-- A target: all of it must be given (the values here say of which type they are). -/
noncomputable def targetTable : List (String × Val) := [("target_type", .text "aprilgrid".toList), ("tag_rows", .int 6), ("tag_cols", .int 6),
  ("tag_size", .real 0.088), ("tag_spacing", .real 0.3)]

/-- The parameters of an IMU for `calib_camera_t` and their defaults. -/
noncomputable def imuTable : List (String × Val) := [("rate", .real 0), ("sigma_g_c", .real 0), ("sigma_a_c", .real 0), ("sigma_gw_c", .real 0),
  ("sigma_aw_c", .real 0), ("sigma_bg", .real 0), ("sigma_ba", .real 0), ("g", .real 9.81)]

/-- What the file says to `calib_camera_t`. -/
structure CameraFile (D : Dec) (doc : Y) (b : Built) : Prop where
  settings : TableIs D doc "settings".toList true (keys cameraTable) b.settings
  target : TableIs D doc "calib_target".toList false (keys targetTable) b.target
  cameras : CamerasAre doc (CameraIs D doc) b.cams
  some_camera : ∃ n < 100, ¬ Absent doc [camName n]
  imu : (b.imu = none ∧ Absent doc ["imu0".toList]) ∨
    (¬ Absent doc ["imu0".toList] ∧ ∃ v, b.imu = some v ∧ TableIs D doc "imu0".toList true (keys imuTable) v)
  data_path : Absent doc ["settings".toList, "data_path".toList] ∨ ∃ s, GivesScalar doc ["settings".toList, "data_path".toList] some s

/-- The loss function asked for: none unless enabled; the type must be among `allowed`. -/
def LossIs (t : List (Str × Val)) (allowed : List String) (enable kind param : Str) (o : Option Loss) : Prop :=
  ∃ on type x, (enable, .flag on) ∈ t ∧ (kind, .text type) ∈ t ∧ (param, .real x) ∈ t ∧
    ((on = false ∧ o = none) ∨ (on = true ∧ (∃ a ∈ allowed, type = a.toList) ∧
      ((type = "BLAKE-ZISSERMAN".toList → ∃ n : ℤ, o = some (.blakeZisserman n) ∧ ((0 ≤ x ∧ n = ⌊x⌋) ∨ (x < 0 ∧ n = ⌈x⌉))) ∧
       (type = "CAUCHY".toList → o = some (.cauchy x)) ∧ (type = "HUBER".toList → o = some (.huber x)))))

/-- What the file says to `calib_vi_t`. -/
structure ViFile (D : Dec) (doc : Y) (b : BuiltVi) : Prop where
  settings : TableIs D doc "settings".toList true (keys viTable) b.settings
  target : TableIs D doc "calib_target".toList false (keys targetTable) b.target
  imu : ∃ v1 v2 v3, b.imu = v1 ++ v2 ++ v3 ∧ TableIs D doc "imu0".toList false (keys (imuTable.take 5)) v1 ∧
    TableIs D doc "imu0".toList true (keys ((imuTable.drop 5).take 2)) v2 ∧
    TableIs D doc "imu0".toList false (keys (imuTable.drop 7)) v3
  extrinsics : ∃ o, PoseIs D doc "T_imu0_cam0".toList o ∧ (o = none → b.T_BS = 1) ∧ ∀ m, o = some m → b.T_BS = (matOf m)⁻¹
  delay : ∃ e, ("estimate_time_delay".toList, .flag e) ∈ b.settings ∧ b.fixedDelay = !e
  cameras : CamerasAre doc (ViCameraIs D doc) b.cams
  some_camera : ∃ n < 100, ¬ Absent doc [camName n]
  fiducial : PoseIs D doc "T_WF".toList b.fiducial
  vision_loss : LossIs b.settings ["BLAKE-ZISSERMAN", "CAUCHY", "HUBER"] "enable_vision_loss_fn".toList
    "vision_loss_fn_type".toList "vision_loss_fn_param".toList b.visionLoss
  imu_loss : LossIs b.settings ["BLAKE-ZISSERMAN", "CAUCHY", "HUBER"] "enable_imu_loss_fn".toList
    "imu_loss_fn_type".toList "imu_loss_fn_param".toList b.imuLoss

/-- Parameters that may be missing: those of the file, or none. -/
def ParamsAre (D : Dec) (doc : Y) (name : String) (v : List ℝ) : Prop :=
  Gives doc ["cam0".toList, name.toList] (readVecX D.real) v ∨ Absent doc ["cam0".toList, name.toList] ∧ v = []

/-- What the file says to `calib_mocap_t`. -/
structure MocapFile (D : Dec) (doc : Y) (b : BuiltMocap) : Prop where
  settings : TableIs D doc "settings".toList true (keys mocapTable) b.settings
  target : TableIs D doc "calib_target".toList false (keys targetTable) b.target
  resolution : Gives doc ["cam0".toList, "resolution".toList] (readStd D.int []) b.res
  proj : GivesScalar doc ["cam0".toList, "proj_model".toList] some b.proj
  dist : GivesScalar doc ["cam0".toList, "dist_model".toList] some b.dist
  models : ModelsOk b.proj b.dist
  proj_params : ParamsAre D doc "proj_params" b.k
  dist_params : ParamsAre D doc "dist_params" b.d
  calibrate : b.calibrate = true ↔ Absent doc ["cam0".toList, "proj_params".toList]
  loss : LossIs b.settings ["BLAKE-ZISSERMAN", "CAUCHY"] "enable_loss_fn".toList "loss_fn_type".toList "loss_fn_param".toList b.loss

end Yac.Ctor
