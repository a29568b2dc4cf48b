import Verif.Config.Model
import Verif.Cam.Model
import Verif.Containers.SMap
import Mathlib.LinearAlgebra.Matrix.NonsingularInverse

/-!
# Model of the constructors that read a configuration file

`calib_camera_t(config_path)` calib_camera.cpp:565-687, `calib_vi_t(config_file)` calib_vi.cpp:284-397, the
configuration part of `calib_mocap_t` calib_mocap.cpp:169-229 and `calib_target_t::load` calib_data.cpp:121-137.

`config_t` shares its nodes, so that every look-up may change the document (see `Config/Model.lean`): the document is
threaded through.  `calib_target_t::load` and `yaml_has_key(path, key)` load the file again.  Not modelled: registration
with the solver, the detector, the assertions of `add_imu` (removed in release builds), a file that cannot be read.
The conversions of scalars (`as<bool>`, `as<int>`, `as<double>`) are arbitrary functions.
-/

namespace Yac.Ctor
open Yac.Config
open Yac.Text (natText)

/-- A setting. -/
inductive Val where
  | flag (b : Bool)
  | int (i : ℤ)
  | real (r : ℝ)
  | text (s : Str)

/-- `YAML::Node::as<bool>`, `as<int>`, `as<double>` for scalars. -/
structure Dec where
  flag : Str → Option Bool
  int : Str → Option ℤ
  real : Str → Option ℝ

/-- The conversion to the type of a variable that holds `old`. -/
def Dec.like (D : Dec) (old : Val) (s : Str) : Option Val :=
  match old with
  | .flag _ => (D.flag s).map .flag
  | .int _ => (D.int s).map .int
  | .real _ => (D.real s).map .real
  | .text _ => some (.text s)

/-- `parse(config, "section.name", variable, optional)` for a list of variables with their initial values. -/
noncomputable def readTable (D : Dec) (sec : Str) (optional : Bool) : List (Str × Val) → Y → Except Fault (List (Str × Val) × Y)
  | [], y => .ok ([], y)
  | (k, d) :: t, y => parseT (D.like d) y (sec ++ '.' :: k) optional d >>= fun r =>
    readTable D sec optional t r.2 >>= fun q => .ok ((k, r.1.2) :: q.1, q.2)

/-- The settings of `calib_camera_t` with their defaults, calib_camera.hpp:106-123, in the order of
calib_camera.cpp:581-597. -/
noncomputable def cameraSettings : List (Str × Val) := [
  ("verbose".toList, .flag true),
  ("max_num_threads".toList, .int 8),
  ("enable_nbv".toList, .flag false),
  ("enable_shuffle_views".toList, .flag false),
  ("enable_nbv_filter".toList, .flag true),
  ("enable_outlier_filter".toList, .flag true),
  ("enable_early_stopping".toList, .flag false),
  ("enable_marginalization".toList, .flag false),
  ("enable_loss_fn".toList, .flag false),
  ("loss_fn_type".toList, .text "CAUCHY".toList),
  ("loss_fn_param".toList, .real 1.5),
  ("min_nbv_views".toList, .int 40),
  ("outlier_threshold".toList, .real 4),
  ("info_gain_threshold".toList, .real 0.2),
  ("early_stop_threshold".toList, .int 10),
  ("sliding_window_size".toList, .int 10),
  ("format_v2".toList, .flag false)]

/-- The settings of `calib_vi_t` with their defaults, calib_vi.hpp:89-105, in the order of calib_vi.cpp:296-312. -/
noncomputable def viSettings : List (Str × Val) := [
  ("verbose".toList, .flag true),
  ("max_num_threads".toList, .int 2),
  ("max_iter".toList, .int 100),
  ("enable_outlier_rejection".toList, .flag false),
  ("enable_marginalization".toList, .flag false),
  ("enable_vision_loss_fn".toList, .flag false),
  ("vision_loss_fn_type".toList, .text "CAUCHY".toList),
  ("vision_loss_fn_param".toList, .real 1),
  ("enable_imu_loss_fn".toList, .flag false),
  ("imu_loss_fn_type".toList, .text "HUBER".toList),
  ("imu_loss_fn_param".toList, .real 1),
  ("outlier_threshold".toList, .real 4),
  ("window_size".toList, .int 5),
  ("estimate_time_delay".toList, .flag true),
  ("time_delay_jac_step".toList, .real 1e-8),
  ("format_v2".toList, .flag false)]

/-- The settings of `calib_mocap_t` with their defaults, calib_mocap.hpp:81-91, in the order of calib_mocap.cpp:180-190. -/
noncomputable def mocapSettings : List (Str × Val) := [
  ("fix_intrinsics".toList, .flag false),
  ("fix_mocap_poses".toList, .flag true),
  ("fix_fiducial_pose".toList, .flag false),
  ("outlier_threshold".toList, .real 3),
  ("info_gain_threshold".toList, .real 0.2),
  ("enable_loss_fn".toList, .flag true),
  ("loss_fn_type".toList, .text "CAUCHY".toList),
  ("loss_fn_param".toList, .real 1),
  ("enable_shuffle_views".toList, .flag true),
  ("show_progress".toList, .flag true),
  ("max_iter".toList, .int 50)]

/-- The fields of `calib_target_t` with their defaults, calib_data.hpp:29-33, in the order of calib_data.cpp:129-133. -/
noncomputable def targetFields : List (Str × Val) := [
  ("target_type".toList, .text "aprilgrid".toList),
  ("tag_rows".toList, .int 6),
  ("tag_cols".toList, .int 6),
  ("tag_size".toList, .real 0.088),
  ("tag_spacing".toList, .real 0.3)]

/-- `calib_target_t::load(file, prefix)` with a prefix, calib_data.cpp:121-137. -/
noncomputable def loadTarget (D : Dec) (file : Y) (pre : Str) : Except Fault (List (Str × Val)) :=
  readTable D pre false targetFields file >>= fun r => .ok r.1

/-- `"cam" + std::to_string(cam_idx)`, calib_camera.cpp:606, calib_vi.cpp:338. -/
def camName (n : ℕ) : Str := "cam".toList ++ natText n

/-- A camera: resolution, models, projection and distortion parameters, pose, and what is held fixed. -/
structure Camera where
  res : List ℤ
  proj : Str
  dist : Str
  k : List ℝ
  d : List ℝ
  ext : List (List ℝ)
  fixed : Bool
  fixedExt : Bool

/-- `I(4)`. -/
def identity4 : List (List ℝ) := [[1, 0, 0, 0], [0, 1, 0, 0], [0, 0, 1, 0], [0, 0, 0, 1]]

/-- The models of `add_camera`, calib_camera.cpp:865-871, calib_vi.cpp:456-464. -/
def supported (proj dist : Str) : Bool := decide (proj = "pinhole".toList) && (decide (dist = "radtan4".toList) || decide (dist = "equi4".toList))

/-- `add_camera` with intrinsics for a calibrator without focal length estimates, calib_camera.cpp:846-880. -/
def addCamera (cams : List (ℤ × Camera)) (n : ℕ) (res : List ℤ) (proj dist : Str) (k d : List ℝ) :
    Except Fault (List (ℤ × Camera)) :=
  if supported proj dist then .ok (SMap.set (n : ℤ) ⟨res, proj, dist, k, d, identity4, false, decide (n = 0)⟩ cams)
  else .error .fatal

/-- `add_camera` without intrinsics for a calibrator without focal length estimates, calib_camera.cpp:882-924. -/
noncomputable def addCameraDefault (cams : List (ℤ × Camera)) (n : ℕ) (res : List ℤ) (proj dist : Str) :
    Except Fault (List (ℤ × Camera)) :=
  if proj = "pinhole".toList then
    if dist = "radtan4".toList ∨ dist = "equi4".toList then
      addCamera cams n res proj dist [Cam.pinholeFocal (res.getD 0 0) 120, Cam.pinholeFocal (res.getD 0 0) 120,
        ((res.getD 0 0 : ℝ) - 1) / 2, ((res.getD 1 0 : ℝ) - 1) / 2] [0, 0, 0, 0]
    else .error .fatal
  else .error .fatal

/-- `parse(config, key, std::string)`. -/
def parseText (y : Y) (key : Str) : Except Fault ((ℤ × Str) × Y) := parseT some y key false []

/-- Body of the loop "Parse camera settings", calib_camera.cpp:604-626. -/
noncomputable def readCamera (D : Dec) (s : List (ℤ × Camera) × Y) (n : ℕ) : Except Fault (List (ℤ × Camera) × Y) :=
  hasKey s.2 (camName n) >>= fun h =>
  if h.1 = false then .ok (s.1, h.2) else
  parseWith (readVec D.int 2) h.2 (camName n ++ ".resolution".toList) false [] >>= fun res =>
  parseText res.2 (camName n ++ ".proj_model".toList) >>= fun pm =>
  parseText pm.2 (camName n ++ ".dist_model".toList) >>= fun dm =>
  hasKey dm.2 (camName n ++ ".proj_params".toList) >>= fun hp =>
  if hp.1 then
    parseWith (readVecX D.real) hp.2 (camName n ++ ".proj_params".toList) false [] >>= fun k =>
    parseWith (readVecX D.real) k.2 (camName n ++ ".dist_params".toList) false [] >>= fun d =>
    addCamera s.1 n res.1.2 pm.1.2 dm.1.2 k.1.2 d.1.2 >>= fun c => .ok (c, d.2)
  else addCameraDefault s.1 n res.1.2 pm.1.2 dm.1.2 >>= fun c => .ok (c, hp.2)

/-- `"T_cam0_" + cam_str`. -/
def extName (n : ℕ) : Str := "T_cam0_".toList ++ camName n

/-- Body of the loop "Parse camera extrinsics", calib_camera.cpp:632-644. -/
noncomputable def readExt (D : Dec) (s : List (ℤ × Camera) × Y) (i : ℤ) : Except Fault (List (ℤ × Camera) × Y) :=
  hasKey s.2 (extName i.toNat) >>= fun h =>
  if h.1 = false then .ok (s.1, h.2) else
  parseWith (readMat D.int D.real 4) h.2 (extName i.toNat) false [] >>= fun m =>
  match SMap.find i s.1 with
  | none => .error .exn
  | some c => .ok (SMap.set i { c with ext := m.1.2 } s.1, m.2)

/-- The IMU parameters with their defaults, core.hpp:2111-2122, in the order of calib_camera.cpp:648-655. -/
noncomputable def imuFields : List (Str × Val) := [
  ("rate".toList, .real 0),
  ("sigma_g_c".toList, .real 0),
  ("sigma_a_c".toList, .real 0),
  ("sigma_gw_c".toList, .real 0),
  ("sigma_aw_c".toList, .real 0),
  ("sigma_bg".toList, .real 0),
  ("sigma_ba".toList, .real 0),
  ("g".toList, .real 9.81)]

/-- The calibrator that is constructed. -/
structure Built where
  settings : List (Str × Val)
  target : List (Str × Val)
  cams : List (ℤ × Camera)
  imu : Option (List (Str × Val))

/-- "Parse IMU settings (if it exists)", calib_camera.cpp:646-656: the key is looked for in the file. -/
noncomputable def readImu (D : Dec) (file y : Y) : Except Fault (Option (List (Str × Val)) × Y) :=
  hasKey file "imu0".toList >>= fun h =>
  if h.1 then readTable D "imu0".toList true imuFields y >>= fun r => .ok (some r.1, r.2) else .ok (none, y)

/-- "Load calibration data", calib_camera.cpp:659-671 (the rest of it is commented out). -/
def readDataPath (y : Y) : Except Fault Y :=
  hasKey y "settings.data_path".toList >>= fun h =>
  if h.1 then parseText h.2 "settings.data_path".toList >>= fun r => .ok r.2 else .ok h.2

/-- `calib_camera_t(config_path)`, calib_camera.cpp:565-687. -/
noncomputable def cameraCtor (D : Dec) (file : Y) : Except Fault Built :=
  readTable D "settings".toList true cameraSettings file >>= fun st =>
  loadTarget D file "calib_target".toList >>= fun tg =>
  (List.range 100).foldlM (readCamera D) ([], st.2) >>= fun cs =>
  if cs.1.length = 0 then .error .fatal else
  (cs.1.map Prod.fst).foldlM (readExt D) cs >>= fun es =>
  readImu D file es.2 >>= fun im =>
  readDataPath im.2 >>= fun _ => .ok ⟨st.1, tg, es.1, im.1⟩

/-! ### Visual-inertial -/

/-- The IMU parameters that `calib_vi_t` requires, calib_vi.cpp:320-324. -/
noncomputable def imuNeeded : List (Str × Val) := [
  ("rate".toList, .real 0),
  ("sigma_g_c".toList, .real 0),
  ("sigma_a_c".toList, .real 0),
  ("sigma_gw_c".toList, .real 0),
  ("sigma_aw_c".toList, .real 0)]

/-- Those that are optional, calib_vi.cpp:325-326. -/
noncomputable def imuOptional : List (Str × Val) := [("sigma_bg".toList, .real 0), ("sigma_ba".toList, .real 0)]

/-- A matrix from its rows. -/
def matOf (l : List (List ℝ)) : Matrix (Fin 4) (Fin 4) ℝ := fun i j => (l.getD i []).getD j 0

/-- Body of the loop "Parse camera settings" with `add_camera`, calib_vi.cpp:336-369 and 431-473. -/
noncomputable def readViCamera (D : Dec) (s : List (ℤ × Camera) × Y) (n : ℕ) : Except Fault (List (ℤ × Camera) × Y) :=
  hasKey s.2 (camName n) >>= fun h =>
  if h.1 = false then .ok (s.1, h.2) else
  parseWith (readVec D.int 2) h.2 (camName n ++ ".resolution".toList) false [] >>= fun res =>
  parseText res.2 (camName n ++ ".proj_model".toList) >>= fun pm =>
  parseText pm.2 (camName n ++ ".dist_model".toList) >>= fun dm =>
  parseWith (readVecX D.real) dm.2 (camName n ++ ".proj_params".toList) false [] >>= fun k =>
  parseWith (readVecX D.real) k.2 (camName n ++ ".dist_params".toList) false [] >>= fun d =>
  (if n ≠ 0 then parseWith (readMat D.int D.real 4) d.2 (extName n) false identity4 >>= fun m => .ok (m.1.2, m.2)
    else .ok (identity4, d.2)) >>= fun e =>
  if supported pm.1.2 dm.1.2 then
    .ok (SMap.set (n : ℤ) ⟨res.1.2, pm.1.2, dm.1.2, k.1.2, d.1.2, e.1, true, true⟩ s.1, e.2)
  else .error .fatal

/-- A loss function. -/
inductive Loss where
  | blakeZisserman (n : ℤ)
  | cauchy (s : ℝ)
  | huber (s : ℝ)

/-- `(int) x`. -/
noncomputable def toInt (x : ℝ) : ℤ := if 0 ≤ x then ⌊x⌋ else ⌈x⌉

/-- `_create_loss_fn`, calib_vi.cpp:968-979. -/
noncomputable def viLoss (kind : Str) (x : ℝ) : Except Fault Loss :=
  if kind = "BLAKE-ZISSERMAN".toList then .ok (.blakeZisserman (toInt x))
  else if kind = "CAUCHY".toList then .ok (.cauchy x)
  else if kind = "HUBER".toList then .ok (.huber x)
  else .error .fatal

/-- The value of a setting. -/
def setting (t : List (Str × Val)) (name : Str) : Option Val := (t.find? (fun e => e.1 = name)).map Prod.snd

/-- `if (enable) loss = _create_loss_fn(type, param)`, calib_vi.cpp:385-390. -/
noncomputable def lossIf (t : List (Str × Val)) (enable kind param : Str) : Except Fault (Option Loss) :=
  match setting t enable, setting t kind, setting t param with
  | some (.flag true), some (.text s), some (.real x) => viLoss s x >>= fun l => .ok (some l)
  | _, _, _ => .ok none

/-- The visual-inertial calibrator that is constructed: settings, target, IMU parameters, the extrinsics of the IMU,
whether the time delay is fixed, cameras, the pose of the target, loss functions. -/
structure BuiltVi where
  settings : List (Str × Val)
  target : List (Str × Val)
  imu : List (Str × Val)
  T_BS : Matrix (Fin 4) (Fin 4) ℝ
  fixedDelay : Bool
  cams : List (ℤ × Camera)
  fiducial : Option (List (List ℝ))
  visionLoss : Option Loss
  imuLoss : Option Loss

/-- An optional pose, calib_vi.cpp:328-332 and 375-377. -/
noncomputable def readPose (D : Dec) (y : Y) (key : Str) : Except Fault (Option (List (List ℝ)) × Y) :=
  hasKey y key >>= fun h =>
  if h.1 then parseWith (readMat D.int D.real 4) h.2 key false [] >>= fun m => .ok (some m.1.2, m.2) else .ok (none, h.2)

/-- `T_BS`: the inverse of `T_imu0_cam0`, or the identity, calib_vi.cpp:327-332. -/
noncomputable def imuPose : Option (List (List ℝ)) → Matrix (Fin 4) (Fin 4) ℝ
  | some m => (matOf m)⁻¹
  | none => 1

/-- Whether the time delay is held fixed, calib_vi.cpp:333, 499-503. -/
def delayFixed (t : List (Str × Val)) : Bool :=
  match setting t "estimate_time_delay".toList with
  | some (.flag b) => !b
  | _ => false

/-- `calib_vi_t(config_file)`, calib_vi.cpp:284-397. -/
noncomputable def viCtor (D : Dec) (file : Y) : Except Fault BuiltVi :=
  readTable D "settings".toList true viSettings file >>= fun st =>
  loadTarget D file "calib_target".toList >>= fun tg =>
  readTable D "imu0".toList false imuNeeded st.2 >>= fun i1 =>
  readTable D "imu0".toList true imuOptional i1.2 >>= fun i2 =>
  readTable D "imu0".toList false [("g".toList, .real 9.81)] i2.2 >>= fun i3 =>
  readPose D i3.2 "T_imu0_cam0".toList >>= fun tsc =>
  (List.range 100).foldlM (readViCamera D) ([], tsc.2) >>= fun cs =>
  if cs.1.length = 0 then .error .fatal else
  readPose D cs.2 "T_WF".toList >>= fun fid =>
  lossIf st.1 "enable_vision_loss_fn".toList "vision_loss_fn_type".toList "vision_loss_fn_param".toList >>= fun vl =>
  lossIf st.1 "enable_imu_loss_fn".toList "imu_loss_fn_type".toList "imu_loss_fn_param".toList >>= fun il =>
  .ok ⟨st.1, tg, i1.1 ++ i2.1 ++ i3.1, imuPose tsc.1, delayFixed st.1, cs.1, fid.1, vl, il⟩

/-! ### Motion capture -/

/-- The configuration part of `calib_mocap_t`: settings, target, camera (without parameters if the intrinsics are to be
calibrated first), loss function. -/
structure BuiltMocap where
  settings : List (Str × Val)
  target : List (Str × Val)
  res : List ℤ
  proj : Str
  dist : Str
  k : List ℝ
  d : List ℝ
  calibrate : Bool
  loss : Option Loss

/-- "Setup loss function", calib_mocap.cpp:211-219. -/
noncomputable def mocapLoss (t : List (Str × Val)) : Except Fault (Option Loss) :=
  match setting t "enable_loss_fn".toList, setting t "loss_fn_type".toList, setting t "loss_fn_param".toList with
  | some (.flag true), some (.text s), some (.real x) =>
    if s = "BLAKE-ZISSERMAN".toList then .ok (some (.blakeZisserman (toInt x)))
    else if s = "CAUCHY".toList then .ok (some (.cauchy x))
    else .error .fatal
  | _, _, _ => .ok none

/-- `parse(config, "cam0.proj_params", proj_params, true)`, calib_mocap.cpp:194-195. -/
noncomputable def readParams (D : Dec) (y : Y) (key : Str) : Except Fault (List ℝ × Y) :=
  parseWith (readVecX D.real) y key true [] >>= fun k => .ok (k.1.2, k.2)

/-- `calib_mocap_t`, calib_mocap.cpp:169-229 and the test of 235, without the data. -/
noncomputable def mocapCtor (D : Dec) (file : Y) : Except Fault BuiltMocap :=
  readTable D "settings".toList true mocapSettings file >>= fun st =>
  parseStd D.int st.2 "cam0.resolution".toList false [] >>= fun res =>
  parseText res.2 "cam0.proj_model".toList >>= fun pm =>
  parseText pm.2 "cam0.dist_model".toList >>= fun dm =>
  readParams D dm.2 "cam0.proj_params".toList >>= fun k =>
  readParams D k.2 "cam0.dist_params".toList >>= fun d =>
  loadTarget D file "calib_target".toList >>= fun tg =>
  mocapLoss st.1 >>= fun loss =>
  if supported pm.1.2 dm.1.2 then
    hasKey d.2 "cam0.proj_params".toList >>= fun h =>
    .ok ⟨st.1, tg, res.1.2, pm.1.2, dm.1.2, k.1, d.1, !h.1, loss⟩
  else .error .fatal

end Yac.Ctor
