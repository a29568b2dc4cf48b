import Verif.Calib.CameraModel
import Verif.Num.Model
import Verif.Geom.Rot

/-!
# Model of `calib_camera_t::inspect` (yac/lib/calib_camera.cpp:2316-2415)

Exact real arithmetic.  Pose estimation and projection of a camera are arbitrary functions.  The
printing of statistics is not modelled.
-/

namespace Yac.Setup

open Yac.AprilGrid (Grid Meas)
open Yac.Calib
open Yac.Geom (Mat4 Vec3 tfInv tfPoint)

variable {V : Type}

/-- The parts that are not modelled. -/
structure InspEnv (V : Type) where
  /-- `grid.estimate` for a camera and its intrinsics (`none`: it fails). -/
  estimate : Int → V → Grid ℝ → Option (Mat4 ℝ)
  /-- `tf()` of extrinsics. -/
  tf : V → Mat4 ℝ
  /-- `cam_geom->project` (`none`: non-zero return value). -/
  project : Int → V → Vec3 ℝ → Option (ℝ × ℝ)

/-- One grid of the first loop, calib_camera.cpp:2334-2354. -/
noncomputable def inspPose (env : InspEnv V) (cam : Int) (p e : V) (poses : List (Int × Mat4 ℝ)) (g : Grid ℝ) :
    List (Int × Mat4 ℝ) :=
  if g.detected = false then poses
  else if (SMap.find g.timestamp poses).isSome then poses
  else
    match env.estimate cam p g with
    | none => poses
    | some T => SMap.set g.timestamp (env.tf e * T) poses

/-- One camera: its parameters, extrinsics and grids, calib_camera.cpp:2329-2335 and 2362-2368.
`cam_exts[cam]` dereferences a null pointer if there are no extrinsics; `at` throws if there are no
data. -/
def inspCam (s : Cal ℝ V) (valid : List (Int × List (Grid ℝ))) (cam : Int) :
    Except Fault (V × V × List (Grid ℝ)) :=
  match SMap.find cam s.params, SMap.find cam s.exts, SMap.find cam valid with
  | some p, some e, some gs => .ok (p.val, e.val, gs)
  | some _, some _, none => .error .exn
  | _, _, _ => .error .oob

/-- The first loop, calib_camera.cpp:2327-2355. -/
noncomputable def inspPoses (env : InspEnv V) (s : Cal ℝ V) (valid : List (Int × List (Grid ℝ))) :
    Except Fault (List (Int × Mat4 ℝ)) :=
  (camIdxs s).foldlM (fun poses cam =>
    inspCam s valid cam >>= fun c => .ok (c.2.2.foldl (inspPose env cam c.1 c.2.1) poses)) []

/-- One measurement, calib_camera.cpp:2386-2400. -/
noncomputable def inspMeas (env : InspEnv V) (cam : Int) (p : V) (T_CiF : Mat4 ℝ) (g : Grid ℝ)
    (errs : List ℝ) (m : (Int × Int) × (ℝ × ℝ)) : Except Fault (List ℝ) :=
  AprilGrid.objectPoint g m.1.1 m.1.2 >>= fun q =>
    match env.project cam p (tfPoint T_CiF ![q.1, q.2.1, q.2.2]) with
    | none => .ok errs
    | some zh => .ok (errs ++ [Real.sqrt ((m.2.1 - zh.1) ^ 2 + (m.2.2 - zh.2) ^ 2)])

/-- One grid of the second loop, calib_camera.cpp:2368-2402.  `fiducial_poses[ts]` inserts a matrix
that is not initialised if there is none. -/
noncomputable def inspGrid (env : InspEnv V) (cam : Int) (p e : V) (poses : List (Int × Mat4 ℝ))
    (errs : List ℝ) (g : Grid ℝ) : Except Fault (List ℝ) :=
  if g.detected = false then .ok errs
  else
    match SMap.find g.timestamp poses with
    | none => .error .uninit
    | some T =>
      AprilGrid.getMeasurements g Meas.empty >>= fun m =>
      ((m.tagIds.zip m.corners).zip m.keypoints).foldlM
        (inspMeas env cam p (tfInv (env.tf e) * T) g) errs

/-- The second loop, calib_camera.cpp:2357-2404: all errors. -/
noncomputable def inspErrors (env : InspEnv V) (s : Cal ℝ V) (valid : List (Int × List (Grid ℝ)))
    (poses : List (Int × Mat4 ℝ)) : Except Fault (List ℝ) :=
  (camIdxs s).foldlM (fun errs cam =>
    inspCam s valid cam >>= fun c => c.2.2.foldlM (inspGrid env cam c.1 c.2.1 poses) errs) []

/-- `return rmse(reproj_errors_all)`, calib_camera.cpp:2414. -/
noncomputable def inspRmse (errs : List ℝ) : Except Fault ℝ :=
  match Num.rmse errs with
  | none => .error .divZero
  | some r => .ok r

/-- `inspect`, calib_camera.cpp:2316-2415.  `divZero`: 0 / 0 in `rmse`. -/
noncomputable def inspect (env : InspEnv V) (s : Cal ℝ V) (valid : List (Int × List (Grid ℝ))) :
    Except Fault ℝ :=
  if s.params.length = 0 then .error .fatal
  else if s.exts.length = 0 then .error .fatal
  else if s.exts.length ≠ s.params.length then .error .fatal
  else
    inspPoses env s valid >>= fun poses =>
    inspErrors env s valid poses >>= fun errs => inspRmse errs

end Yac.Setup
