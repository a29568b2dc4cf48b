import Verif.Geom.Rot
import Verif.Rand.Model
import Verif.Num.Model
import Mathlib.LinearAlgebra.Matrix.NonsingularInverse

/-! The gimbal calibration program, yac/demo/calib_gimbal.cpp: kinematic chain, residuals, initial guess of the
target pose and report.  Real arithmetic is exact. -/

namespace Yac.Gimbal
open Yac.Geom Matrix

/-- `ROTZ`, calib_gimbal.cpp:13-30. -/
noncomputable def rotZ (a : ℝ) : Mat3 ℝ :=
  !![Real.cos a, -Real.sin a, 0;
     Real.sin a, Real.cos a, 0;
     0, 0, 1]

/-- `quat2rot`, calib_gimbal.cpp:35-62. -/
def rotOf (qw qx qy qz : ℝ) : Mat3 ℝ :=
  let qx2 := qx * qx
  let qy2 := qy * qy
  let qz2 := qz * qz
  let qw2 := qw * qw
  !![qw2 + qx2 - qy2 - qz2, 2 * (qx * qy - qw * qz), 2 * (qx * qz + qw * qy);
     2 * (qx * qy + qw * qz), qw2 - qx2 + qy2 - qz2, 2 * (qy * qz - qw * qx);
     2 * (qx * qz - qw * qy), 2 * (qy * qz + qw * qx), qw2 - qx2 - qy2 + qz2]

/-- `transform`, calib_gimbal.cpp:67-78: seven numbers `(rx, ry, rz, qw, qx, qy, qz)`. -/
def transform (p : Fin 7 → ℝ) : Mat4 ℝ := tf (rotOf (p 3) (p 4) (p 5) (p 6)) ![p 0, p 1, p 2]

/-- `transform_vector`, calib_gimbal.cpp:83-90. -/
noncomputable def transformVector (T : Mat4 ℝ) : Fin 7 → ℝ :=
  let r := tfTrans T
  let q := tfQuatOf T
  ![r 0, r 1, r 2, q.w, q.x, q.y, q.z]

/-- `pose_perturb`, calib_gimbal.cpp:95-102, with the six results of `rand ()`. -/
noncomputable def posePerturb (randMax : Nat) (r : Fin 6 → Nat) (pose : Fin 7 → ℝ) (dr drot : ℝ) : Fin 7 → ℝ :=
  transformVector (Rand.tfPerturb randMax r (transform pose) dr drot)

/-- `gimbal_joint_transform`, calib_gimbal.cpp:116-122. -/
noncomputable def jointTf (a : ℝ) : Mat4 ℝ := tf (rotZ a) 0

/-- The parameter blocks of a reprojection error, calib_gimbal.cpp:706-715. -/
structure Params where
  body : Fin 7 → ℝ
  gimbal : Fin 7 → ℝ
  link0 : Fin 7 → ℝ
  link1 : Fin 7 → ℝ
  joint0 : ℝ
  joint1 : ℝ
  joint2 : ℝ
  effector : Fin 7 → ℝ
  cam : Fin 7 → ℝ
  target : Fin 7 → ℝ

/-- `T_WCi`, calib_gimbal.cpp:718-739; the same product is formed in lines 550-575 and 945-957. -/
noncomputable def camPose (P : Params) : Mat4 ℝ :=
  transform P.body * transform P.gimbal * jointTf P.joint0 * transform P.link0 * jointTf P.joint1 *
    transform P.link1 * jointTf P.joint2 * transform P.effector * transform P.cam

/-- `p_Ci`, calib_gimbal.cpp:741-742; `inverse ()` of a 4x4 matrix is the inverse matrix (the modelled value is
zero if there is none, Eigen's is not finite). -/
noncomputable def pointInCam (P : Params) (p : Vec3 ℝ) : Vec3 ℝ :=
  let T := (camPose P)⁻¹ * transform P.target
  let h := T *ᵥ ![p 0, p 1, p 2, 1]
  ![h 0, h 1, h 2]

open Classical in
/-- `GimbalReprojError::operator ()`, calib_gimbal.cpp:705-758; `none`: the division by the depth is not finite. -/
noncomputable def reprojError (proj : Fin 4 → ℝ) (z : ℝ × ℝ) (p : Vec3 ℝ) (P : Params) : Option (ℝ × ℝ) :=
  let x := pointInCam P p
  if x 2 = 0 then none
  else
    let u := proj 0 * (x 0 / x 2) + proj 2
    let v := proj 1 * (x 1 / x 2) + proj 3
    some (z.1 - u, z.2 - v)

/-- `GimbalJointError`, calib_gimbal.cpp:764-787: measured angle, variance, estimated angle. -/
noncomputable def jointError (measured covar est : ℝ) : ℝ :=
  let sqrtInfo := Real.sqrt (1 / covar)
  sqrtInfo * (measured - est)

/-- `pose_diff` of the report, with `rad2deg`, calib_gimbal.cpp:862-872. -/
noncomputable def reportRow (est gnd : Fin 7 → ℝ) : ℝ × ℝ :=
  let d := poseDiff est gnd
  (d.1, Num.rad2deg d.2)

/-- The six extrinsics of `CalibData` and of `CalibEval`, calib_gimbal.cpp:367-373, 792-798. -/
structure Ext where
  gimbal : Fin 7 → ℝ
  link0 : Fin 7 → ℝ
  link1 : Fin 7 → ℝ
  effector : Fin 7 → ℝ
  cam0 : Fin 7 → ℝ
  cam1 : Fin 7 → ℝ

/-- `pose_copy` of each array, calib_gimbal.cpp:107-111, 803-809. -/
def snapshot (d : Ext) : Ext :=
  { gimbal := fun i => d.gimbal i, link0 := fun i => d.link0 i, link1 := fun i => d.link1 i,
    effector := fun i => d.effector i, cam0 := fun i => d.cam0 i, cam1 := fun i => d.cam1 i }

/-- The last five lines `CalibEval::compare` prints, calib_gimbal.cpp:862-879: label, distance in metres,
rotation in degrees. -/
noncomputable def compare (gnd data : Ext) : List (String × (ℝ × ℝ)) :=
  let g := reportRow data.gimbal gnd.gimbal
  let l0 := reportRow data.link0 gnd.link0
  let l1 := reportRow data.link1 gnd.link1
  let c0 := reportRow data.effector gnd.effector
  let c1 := reportRow data.cam0 gnd.cam0
  [("gimbal", g), ("link0", l0), ("link1", l1), ("cam0", c0), ("cam1", c1)]

/-! ## Initial target pose, calib_gimbal.cpp:541-632 -/

/-- One timestamp as `init_fiducial_pose` sees it: joint angles, number of corners of the target detected by camera
0 (0 if there is no grid: `cam0_grids [ts]` inserts an empty one) and what `solvepnp` returns for them
(`none`: non-zero return value). -/
structure View where
  joint0 : ℝ
  joint1 : ℝ
  joint2 : ℝ
  corners : Nat
  pnp : Option (Mat4 ℝ)

/-- `pose`, calib_gimbal.cpp:543-549. -/
def bodyPose : Fin 7 → ℝ := ![0, 0, 0, 1, 0, 0, 0]

/-- `T_WF` of one timestamp, calib_gimbal.cpp:565-602; `none`: `continue`. -/
noncomputable def viewTarget (e : Ext) (v : View) : Option (Mat4 ℝ) :=
  let T_WC0 := transform bodyPose * transform e.gimbal * jointTf v.joint0 * transform e.link0 * jointTf v.joint1 *
    transform e.link1 * jointTf v.joint2 * transform e.effector * transform e.cam0
  if v.corners < 20 then none
  else match v.pnp with
    | none => none
    | some T => some (T_WC0 * T)

/-- `init_fiducial_pose`, calib_gimbal.cpp:541-632. -/
noncomputable def initTarget (e : Ext) (views : List View) : Except Fault (Fin 7 → ℝ) := do
  let Ts := views.filterMap (viewTarget e)
  let rs := Ts.map tfTrans
  let as := Ts.map (fun T => quat2euler (tfQuatOf T))
  let x ← Num.median (rs.map fun r => r 0)
  let y ← Num.median (rs.map fun r => r 1)
  let z ← Num.median (rs.map fun r => r 2)
  let rr ← Num.median (as.map fun a => a 0)
  let rp ← Num.median (as.map fun a => a 1)
  let ry ← Num.median (as.map fun a => a 2)
  let q := rotToQuat (euler321 rr rp ry)
  pure (transformVector (tfQuat q ![x, y, z]))

end Yac.Gimbal
