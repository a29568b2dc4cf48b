import Verif.Fmt.Props
import Verif.Ctor.Model
import Verif.Num.Model

/-!
# Model of `calib_vi_t::save_results`

calib_vi.cpp:1481-1501 (print_settings), 1503-1511 (print_calib_target), 1513-1541 (print_stats), 1543-1566 (print_imu),
1568-1590 (print_cameras), 1592-1625 (print_extrinsics), 1627-1636 (print_fiducial_pose), 1638-1661 (print_imu_poses),
1663-1688 (print_speed_biases), 1690-1695 (print_time_delay) and 1708-1729 (save_results).

The result is the document that the file is: maps, and texts of numbers as they are printed.  Doubles are rationals; the
products and inverses of poses are exact here, and printed with 17 digits.  The statistics and the mean biases, which
nothing reads, are arbitrary.  Texts are taken to be without quotes and escapes.
-/

namespace Yac.Save
open Yac.Config Yac.Text Yac.Fmt Yac.Ctor

/-- A 4 by 4 matrix. -/
abbrev M4 := Matrix (Fin 4) (Fin 4) ℚ

/-- A camera: resolution, models, projection and distortion parameters. -/
structure ViCam where
  w : ℤ
  h : ℤ
  proj : Str
  dist : Str
  k : List ℚ
  d : List ℚ

/-- A view: time, position, rotation (x, y, z, w), speed and biases. -/
structure ViView where
  ts : ℤ
  r : Fin 3 → ℚ
  q : Fin 4 → ℚ
  sb : Fin 9 → ℚ

/-- A calibrator: settings, target, IMU, cameras and extrinsics, target pose, views (calib_vi.hpp:89-133). -/
structure ViCalib where
  verbose : Bool
  maxNumThreads : ℤ
  maxIter : ℤ
  outlierRejection : Bool
  marginalization : Bool
  visionLossOn : Bool
  visionLossType : Str
  visionLossParam : ℚ
  imuLossOn : Bool
  imuLossType : Str
  imuLossParam : ℚ
  outlierThreshold : ℚ
  windowSize : ℤ
  imgScale : ℚ
  estimateTimeDelay : Bool
  timeDelayJacStep : ℚ
  formatV2 : Bool
  targetType : Str
  tagRows : ℤ
  tagCols : ℤ
  tagSize : ℚ
  tagSpacing : ℚ
  rate : ℚ
  sigma_a_c : ℚ
  sigma_g_c : ℚ
  sigma_aw_c : ℚ
  sigma_gw_c : ℚ
  sigma_ba : ℚ
  sigma_bg : ℚ
  g : ℚ
  timeDelay : ℚ
  cams : List (ℤ × ViCam)
  exts : List (ℤ × M4)
  T_BS : M4
  /-- `fiducial->estimate()`; `none`: not initialised. -/
  fiducial : Option M4
  views : List ViView

/-- What is printed but never read: statistics (in total and for each camera that has errors) and mean biases. -/
structure Extra where
  total : Y
  each : List (ℤ × Y)
  ba : Y
  bg : Y

/-- `b ? "true" : "false"`. -/
def boolText (b : Bool) : Str := if b then "true".toList else "false".toList

/-- `print_settings`, calib_vi.cpp:1481-1501. -/
def settingsNode (c : ViCalib) : Y := .map [
  ("max_num_threads".toList, .scalar (fmtLd c.maxNumThreads)),
  ("max_iter".toList, .scalar (fmtLd c.maxIter)),
  ("enable_outlier_rejection".toList, .scalar (boolText c.outlierRejection)),
  ("enable_marginalization".toList, .scalar (boolText c.marginalization)),
  ("enable_vision_loss_fn".toList, .scalar (boolText c.visionLossOn)),
  ("vision_loss_fn_type".toList, .scalar c.visionLossType),
  ("vision_loss_fn_param".toList, .scalar (fmtF c.visionLossParam)),
  ("enable_imu_loss_fn".toList, .scalar (boolText c.imuLossOn)),
  ("imu_loss_fn_type".toList, .scalar c.imuLossType),
  ("imu_loss_fn_param".toList, .scalar (fmtF c.imuLossParam)),
  ("outlier_threshold".toList, .scalar (fmtF c.outlierThreshold)),
  ("window_size".toList, .scalar (fmtLd c.windowSize)),
  ("img_scale".toList, .scalar (fmtF c.imgScale)),
  ("time_delay_jac_step".toList, .scalar (fmtE 6 c.timeDelayJacStep)),
  ("format_v2".toList, .scalar (boolText c.formatV2))]

/-- `print_calib_target`, calib_vi.cpp:1503-1511. -/
def targetNode (c : ViCalib) : Y := .map [
  ("target_type".toList, .scalar c.targetType),
  ("tag_rows".toList, .scalar (fmtLd c.tagRows)),
  ("tag_cols".toList, .scalar (fmtLd c.tagCols)),
  ("tag_size".toList, .scalar (fmtF c.tagSize)),
  ("tag_spacing".toList, .scalar (fmtF c.tagSpacing))]

/-- `print_imu`, calib_vi.cpp:1543-1566. -/
def imuNode (c : ViCalib) (x : Extra) : Y := .map [
  ("rate".toList, .scalar (fmtF c.rate)),
  ("sigma_a_c".toList, .scalar (fmtE 6 c.sigma_a_c)),
  ("sigma_g_c".toList, .scalar (fmtE 6 c.sigma_g_c)),
  ("sigma_aw_c".toList, .scalar (fmtE 6 c.sigma_aw_c)),
  ("sigma_gw_c".toList, .scalar (fmtE 6 c.sigma_gw_c)),
  ("sigma_ba".toList, .scalar (fmtE 6 c.sigma_ba)),
  ("sigma_bg".toList, .scalar (fmtE 6 c.sigma_bg)),
  ("g".toList, .scalar (fmtF c.g)),
  ("ba".toList, x.ba),
  ("bg".toList, x.bg)]

/-- A sequence `[a, b, ...]` of plain scalars. -/
def flow (body : List Char) : Y := .seq ((items body).map .scalar)

/-- `"cam%d"`. -/
def camKey (i : ℤ) : Str := "cam".toList ++ fmtLd i

/-- One camera of `print_cameras`, calib_vi.cpp:1568-1590. -/
def camNode (c : ViCam) : Y := .map [
  ("resolution".toList, .seq [.scalar (fmtLd c.w), .scalar (fmtLd c.h)]),
  ("proj_model".toList, .scalar c.proj),
  ("dist_model".toList, .scalar c.dist),
  ("proj_params".toList, flow (vec2str c.k false true)),
  ("dist_params".toList, flow (vec2str c.d false true))]

/-- The rows of a matrix. -/
def rowsOf (M : M4) : List (List ℚ) := List.ofFn (fun i => List.ofFn (M i))

/-- `rows: 4`, `cols: 4`, `data: [ ... ]`, calib_vi.cpp:1603-1609, 1618-1624, 1629-1635. -/
def poseNode (M : M4) : Y := .map [
  ("rows".toList, .scalar "4".toList), ("cols".toList, .scalar "4".toList),
  ("data".toList, flow ("\n".toList ++ mat2str "    ".toList true (rowsOf M) ++ "\n  ".toList))]

/-- `get_camera_extrinsics`, calib_vi.cpp:533-535. -/
def extOf (c : ViCalib) (i : ℤ) : Except Fault M4 :=
  match SMap.find i c.exts with
  | some M => .ok M
  | none => .error .exn

/-- The extrinsics of camera `i` in camera 0, calib_vi.cpp:1596-1611. -/
noncomputable def extNode (c : ViCalib) (T_BC0 : M4) (i : ℕ) : Except Fault (Str × Y) :=
  extOf c i >>= fun T_BCi => .ok ("T_cam0_cam".toList ++ fmtLd i, poseNode (T_BC0⁻¹ * T_BCi))

/-- One line of a table: `%ld,%ld,` and values with `%f,`, calib_vi.cpp:1645-1657 and 1670-1684. -/
def tableLine (ts : ℤ) (vals : List ℚ) : List Char :=
  "    ".toList ++ fmtLd (Num.tsdecomp Num.f64 ts).1 ++ ",".toList ++ fmtLd (Num.tsdecomp Num.f64 ts).2 ++ ",".toList ++
    vals.flatMap (fun v => fmtF v ++ ",".toList) ++ "\n".toList

/-- A table, calib_vi.cpp:1638-1661 and 1663-1688. -/
def tableNode (cols : ℤ) (lines : List (ℤ × List ℚ)) : Y := .map [
  ("rows".toList, .scalar (fmtLd lines.length)), ("cols".toList, .scalar (fmtLd cols)),
  ("data".toList, flow ("\n".toList ++ lines.flatMap (fun l => tableLine l.1 l.2) ++ "  ".toList))]

/-- Position and rotation of a view, calib_vi.cpp:1650-1656. -/
def poseCols (v : ViView) : ℤ × List ℚ := (v.ts, List.ofFn v.r ++ List.ofFn v.q)

/-- Speed and biases of a view, calib_vi.cpp:1675-1683. -/
def sbCols (v : ViView) : ℤ × List ℚ := (v.ts, List.ofFn v.sb)

/-- `save_results`, calib_vi.cpp:1708-1729; on an error what was printed before it stays in the file. -/
noncomputable def saveVi (c : ViCalib) (x : Extra) : Except Fault Y :=
  extOf c 0 >>= fun T_BC0 =>
  (List.range (c.cams.length - 1)).mapM (fun i => extNode c T_BC0 (i + 1)) >>= fun es =>
  match c.fiducial with
  | none => .error .oob
  | some T_WF => .ok (.map (
    [("settings".toList, settingsNode c), ("total_reproj_error".toList, x.total)] ++
    x.each.map (fun e => (camKey e.1 ++ "_reproj_error".toList, e.2)) ++
    [("calib_target".toList, targetNode c), ("imu0".toList, imuNode c x),
      ("time_delay".toList, .scalar (fmtE 6 c.timeDelay))] ++
    c.cams.map (fun e => (camKey e.1, camNode e.2)) ++ es ++
    [("T_imu0_cam0".toList, poseNode (c.T_BS⁻¹ * T_BC0)), ("T_WF".toList, poseNode T_WF),
      ("imu_poses".toList, tableNode 9 (c.views.map poseCols)),
      ("speed_biases".toList, tableNode 11 (c.views.map sbCols))]))

end Yac.Save
