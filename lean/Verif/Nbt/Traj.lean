import Verif.Geom.Pose
import Verif.Nbv.Model
import Verif.Stream.ImuModel
import Mathlib.Analysis.SpecialFunctions.Pow.Real

/-!
# Model of the Lissajous trajectories, yac/lib/calib_nbt.cpp:7-313 and 382-414

Exact real arithmetic; the literals `1.5707963267948966` and `6.2831853071795862` of the generated
formulas are the doubles nearest to `π/2` and `2π` and stand for these.  A result that is NaN or
infinite (period zero, square root of a negative number, quotient by zero) is the fault `divZero`.
-/

namespace Yac.Nbt
open Matrix Yac.Geom
open Real (sin cos pi sqrt)

/-- `lissajous_traj_t`, calib_nbt.hpp:17-61. -/
structure Traj where
  ts_start : ℤ
  T_WF : Mat4 ℝ
  T_FO : Mat4 ℝ
  R : ℝ
  A : ℝ
  B : ℝ
  a : ℝ
  b : ℝ
  delta : ℝ
  T : ℝ
  yaw_scale : ℝ
  pitch_scale : ℝ
  yaw_bound : ℝ
  pitch_bound : ℝ

/-- Member `f`, calib_nbt.cpp:17. -/
noncomputable def Traj.f (tr : Traj) : ℝ := 1 / tr.T

/-- Member `w`, calib_nbt.cpp:17, and the local `w` of 119, 151, 170. -/
noncomputable def Traj.w (tr : Traj) : ℝ := 2 * pi * tr.f

/-- The constructor, calib_nbt.cpp:7-111. -/
noncomputable def create (name : String) (ts : ℤ) (T_WF T_FO : Mat4 ℝ) (R width height T : ℝ) :
    Except Fault Traj :=
  if name = "fig8-horiz" then
    .ok ⟨ts, T_WF, T_FO, R, width * 0.3, height * 0.3, 2 * pi * 1, 2 * pi * 2, pi, T, 1, 2,
      -atan2 (width * 0.3) R, -atan2 (height * 0.3) R⟩
  else if name = "fig8-vert" then
    .ok ⟨ts, T_WF, T_FO, R, width * 0.3, height * 0.3, 2 * pi * 2, 2 * pi * 1, pi, T, 2, 1,
      -atan2 (width * 0.3) R, -atan2 (height * 0.3) R⟩
  else if name = "s-horiz" then
    .ok ⟨ts, T_WF, T_FO, R, width * 0.5, height * 0.5, 2 * pi * 1, 2 * pi * 3, pi, T, 1, 0,
      -atan2 (width * 0.5) R, -atan2 (height * 0.5) R⟩
  else if name = "s-vert" then
    .ok ⟨ts, T_WF, T_FO, R, width * 0.55, height * 0.55, 2 * pi * 3, 2 * pi * 1, pi, T, 0, 1,
      -atan2 (width * 0.55) R, -atan2 (height * 0.55) R⟩
  else if name = "pan-vert" then
    .ok ⟨ts, T_WF, T_FO, R, width * 0.95, height * 0.95, 2 * pi * 0, 2 * pi * 1, 0, T, 1, 1,
      0, -atan2 (height * 0.95) R⟩
  else if name = "pan-horiz" then
    .ok ⟨ts, T_WF, T_FO, R, width * 0.95, height * 0.95, 2 * pi * 1, 2 * pi * 0, 0, T, 1, 1,
      atan2 (width * 0.95) R, 0⟩
  else if name = "diag0" then
    .ok ⟨ts, T_WF, T_FO, R, width * 0.6, height * 0.6, 2 * pi * 1, 2 * pi * 1, 0, T, 1, 1,
      atan2 (width * 0.6) R, -atan2 (height * 0.6) R⟩
  else if name = "diag1" then
    .ok ⟨ts, T_WF, T_FO, R, width * 0.6, height * 0.6, 2 * pi * 1, 2 * pi * 1, pi, T, 1, 1,
      -atan2 (width * 0.6) R, -atan2 (height * 0.6) R⟩
  else .error .exn

/-- `ts2sec`, core.cpp:1532, on the reals. -/
noncomputable def sec (ts : ℤ) : ℝ := (ts : ℝ) * (1 / 1000000000)

/-- The time since the start and its check, calib_nbt.cpp:114-117, 146-149, 163-166, 193-196,
220-223, 297-300. -/
noncomputable def elapsed (tr : Traj) (ts : ℤ) : Except Fault ℝ :=
  let t := sec ts - sec tr.ts_start
  open Classical in
  if t < 0 ∨ t > tr.T then .error .fatal
  else if tr.T = 0 then .error .divZero
  else .ok t

/-- Path parameter `sin(w t / 4)²`, calib_nbt.cpp:120 and 171. -/
noncomputable def phase (tr : Traj) (t : ℝ) : ℝ := sin (0.25 * tr.w * t) ^ 2

/-- `get_q_OS`, calib_nbt.cpp:119-143. -/
noncomputable def attitude (tr : Traj) (t : ℝ) : Quat ℝ :=
  let k := phase tr t
  let phi := pi + tr.pitch_bound * sin (2 * pi * tr.pitch_scale * k)
  let theta := tr.yaw_bound * sin (2 * pi * tr.yaw_scale * k)
  let psi : ℝ := 0
  let cphi := cos (phi / 2)
  let cth := cos (theta / 2)
  let cpsi := cos (psi / 2)
  let sphi := sin (phi / 2)
  let sth := sin (theta / 2)
  let spsi := sin (psi / 2)
  let qw := cpsi * cth * cphi + spsi * sth * sphi
  let qx := cpsi * cth * sphi - spsi * sth * cphi
  let qy := cpsi * sth * cphi + spsi * cth * sphi
  let qz := spsi * cth * cphi - cpsi * sth * sphi
  let mag := sqrt (qw * qw + qx * qx + qy * qy + qz * qz)
  ⟨qw / mag, qx / mag, qy / mag, qz / mag⟩

/-- `get_q_OS_dot`, calib_nbt.cpp:151-159.  The shared subterms of the generated expressions are
named. -/
noncomputable def attitudeDot (tr : Traj) (t : ℝ) : Quat ℝ :=
  let s := sin (0.25 * t * tr.w)
  let c := cos (0.25 * t * tr.w)
  let P := 2 * pi * tr.pitch_scale * s ^ 2
  let Y := 2 * pi * tr.yaw_scale * s ^ 2
  let sp := sin (0.5 * tr.pitch_bound * sin P + pi / 2)
  let cp := cos (0.5 * tr.pitch_bound * sin P + pi / 2)
  let sy := sin (0.5 * tr.yaw_bound * sin Y)
  let cy := cos (0.5 * tr.yaw_bound * sin Y)
  let n := sqrt (sy ^ 2 * sp ^ 2 + sy ^ 2 * cp ^ 2 + sp ^ 2 * cy ^ 2 + cy ^ 2 * cp ^ 2)
  ⟨-(pi / 2) * tr.pitch_bound * tr.pitch_scale * tr.w * s * sp * cos P * c * cy / n
      - pi / 2 * tr.w * tr.yaw_bound * tr.yaw_scale * s * sy * c * cos Y * cp / n,
   pi / 2 * tr.pitch_bound * tr.pitch_scale * tr.w * s * cos P * c * cy * cp / n
      - pi / 2 * tr.w * tr.yaw_bound * tr.yaw_scale * s * sy * sp * c * cos Y / n,
   -(pi / 2) * tr.pitch_bound * tr.pitch_scale * tr.w * s * sy * sp * cos P * c / n
      + pi / 2 * tr.w * tr.yaw_bound * tr.yaw_scale * s * c * cy * cos Y * cp / n,
   -(pi / 2) * tr.pitch_bound * tr.pitch_scale * tr.w * s * sy * cos P * c * cp / n
      - pi / 2 * tr.w * tr.yaw_bound * tr.yaw_scale * s * sp * c * cy * cos Y / n⟩

/-- Sensor position `x`, calib_nbt.cpp:180. -/
noncomputable def posX (tr : Traj) (t : ℝ) : ℝ := tr.A * sin (tr.a * phase tr t + tr.delta)
/-- Sensor position `y`, calib_nbt.cpp:181. -/
noncomputable def posY (tr : Traj) (t : ℝ) : ℝ := tr.B * sin (tr.b * phase tr t)
/-- Argument of the square root in calib_nbt.cpp:182. -/
noncomputable def under (tr : Traj) (t : ℝ) : ℝ :=
  tr.R * tr.R - posX tr t * posX tr t - posY tr t * posY tr t

/-- Rotation `C_OS`, calib_nbt.cpp:174-177. -/
noncomputable def rotation (tr : Traj) (t : ℝ) : Mat3 ℝ :=
  let pitch := tr.pitch_bound * sin (tr.w * tr.T * tr.pitch_scale * phase tr t)
  let yaw := tr.yaw_bound * sin (tr.w * tr.T * tr.yaw_scale * phase tr t)
  euler321 (pi + pitch) yaw 0

/-- The pose computed at `t`, calib_nbt.cpp:169-189. -/
noncomputable def poseAt (tr : Traj) (t : ℝ) : Mat4 ℝ :=
  tr.T_WF * tr.T_FO * tf (rotation tr t) ![posX tr t, posY tr t, sqrt (under tr t)]

/-- Rotation of `T_WO`, calib_nbt.cpp:213-214, 288-289, 308-309. -/
def Traj.rotWO (tr : Traj) : Mat3 ℝ := tfRot (tr.T_WF * tr.T_FO)

/-- `v_OS`, calib_nbt.cpp:198-210. -/
noncomputable def velO (tr : Traj) (t : ℝ) : Vec3 ℝ :=
  let s := sin (0.25 * t * tr.w)
  let c := cos (0.25 * t * tr.w)
  let vx := 0.5 * tr.A * tr.a * tr.w * s * c * cos (tr.a * s ^ 2 + tr.delta)
  let vy := 0.5 * tr.B * tr.b * tr.w * s * cos (tr.b * s ^ 2) * c
  let vz := (-0.5 * tr.A ^ 2 * tr.a * tr.w * s * sin (tr.a * s ^ 2 + tr.delta) * c
        * cos (tr.a * s ^ 2 + tr.delta)
      - 0.5 * tr.B ^ 2 * tr.b * tr.w * sin (tr.b * s ^ 2) * s * cos (tr.b * s ^ 2) * c)
    / sqrt (-tr.A ^ 2 * sin (tr.a * s ^ 2 + tr.delta) ^ 2 - tr.B ^ 2 * sin (tr.b * s ^ 2) ^ 2
        + tr.R ^ 2)
  ![vx, vy, vz]

/-- The velocity computed at `t`, calib_nbt.cpp:198-217. -/
noncomputable def velocityAt (tr : Traj) (t : ℝ) : Vec3 ℝ := tr.rotWO *ᵥ velO tr t

/-- `a_OS`, calib_nbt.cpp:225-285. -/
noncomputable def accelO (tr : Traj) (t : ℝ) : Vec3 ℝ :=
  let s := sin (0.25 * t * tr.w)
  let c := cos (0.25 * t * tr.w)
  let sx := sin (tr.a * s ^ 2 + tr.delta)
  let cx := cos (tr.a * s ^ 2 + tr.delta)
  let sy := sin (tr.b * s ^ 2)
  let cy := cos (tr.b * s ^ 2)
  let A := tr.A
  let B := tr.B
  let a := tr.a
  let b := tr.b
  let w := tr.w
  let rad := -A ^ 2 * sx ^ 2 - B ^ 2 * sy ^ 2 + tr.R ^ 2
  let ax := A * a * w ^ 2 * (-0.03125 * a * (1 - cos (1.0 * t * w))
        * sin (-1.0 / 2.0 * a * cos (0.5 * t * w) + 1.0 / 2.0 * a + tr.delta)
      - 0.125 * s ^ 2 * cx + 0.125 * c ^ 2 * cx)
  let ay := -0.25 * B * b ^ 2 * w ^ 2 * sy * s ^ 2 * c ^ 2 - 0.125 * B * b * w ^ 2 * s ^ 2 * cy
      + 0.125 * B * b * w ^ 2 * cy * c ^ 2
  let az := (-0.5 * A ^ 2 * a * w * s * sx * c * cx - 0.5 * B ^ 2 * b * w * sy * s * cy * c)
        * (0.5 * A ^ 2 * a * w * s * sx * c * cx + 0.5 * B ^ 2 * b * w * sy * s * cy * c)
        / rad ^ ((3.0 : ℝ) / 2.0)
      + (0.25 * A ^ 2 * a ^ 2 * w ^ 2 * s ^ 2 * sx ^ 2 * c ^ 2
        - 0.25 * A ^ 2 * a ^ 2 * w ^ 2 * s ^ 2 * c ^ 2 * cx ^ 2
        + 0.125 * A ^ 2 * a * w ^ 2 * s ^ 2 * sx * cx
        - 0.125 * A ^ 2 * a * w ^ 2 * sx * c ^ 2 * cx
        + 0.25 * B ^ 2 * b ^ 2 * w ^ 2 * sy ^ 2 * s ^ 2 * c ^ 2
        - 0.25 * B ^ 2 * b ^ 2 * w ^ 2 * s ^ 2 * cy ^ 2 * c ^ 2
        + 0.125 * B ^ 2 * b * w ^ 2 * sy * s ^ 2 * cy
        - 0.125 * B ^ 2 * b * w ^ 2 * sy * cy * c ^ 2) / sqrt rad
  ![ax, ay, az]

/-- The acceleration computed at `t`, calib_nbt.cpp:225-293. -/
noncomputable def accelAt (tr : Traj) (t : ℝ) : Vec3 ℝ := tr.rotWO *ᵥ accelO tr t

/-- The angular velocity computed at `t`, calib_nbt.cpp:303-312. -/
noncomputable def angVelAt (tr : Traj) (t : ℝ) : Vec3 ℝ :=
  let d := (attitudeDot tr t).mul (attitude tr t).inverse
  tr.rotWO *ᵥ ![2 * d.x, 2 * d.y, 2 * d.z]

/-- `get_q_OS`, calib_nbt.cpp:113-143. -/
noncomputable def getQ (tr : Traj) (ts : ℤ) : Except Fault (Quat ℝ) :=
  elapsed tr ts >>= fun t => .ok (attitude tr t)

/-- `get_q_OS_dot`, calib_nbt.cpp:145-160. -/
noncomputable def getQDot (tr : Traj) (ts : ℤ) : Except Fault (Quat ℝ) :=
  elapsed tr ts >>= fun t => .ok (attitudeDot tr t)

/-- `get_pose`, calib_nbt.cpp:162-190. -/
noncomputable def getPose (tr : Traj) (ts : ℤ) : Except Fault (Mat4 ℝ) :=
  elapsed tr ts >>= fun t =>
    open Classical in if under tr t < 0 then .error .divZero else .ok (poseAt tr t)

/-- `get_velocity`, calib_nbt.cpp:192-218. -/
noncomputable def getVelocity (tr : Traj) (ts : ℤ) : Except Fault (Vec3 ℝ) :=
  elapsed tr ts >>= fun t =>
    open Classical in if under tr t ≤ 0 then .error .divZero else .ok (velocityAt tr t)

/-- `get_acceleration`, calib_nbt.cpp:220-294. -/
noncomputable def getAccel (tr : Traj) (ts : ℤ) : Except Fault (Vec3 ℝ) :=
  elapsed tr ts >>= fun t =>
    open Classical in if under tr t ≤ 0 then .error .divZero else .ok (accelAt tr t)

/-- `get_angular_velocity`, calib_nbt.cpp:296-313. -/
noncomputable def getAngVel (tr : Traj) (ts : ℤ) : Except Fault (Vec3 ℝ) :=
  elapsed tr ts >>= fun _ => getQ tr ts >>= fun _ => getQDot tr ts >>= fun _ =>
    elapsed tr ts >>= fun t => .ok (angVelAt tr t)

/-- The names in the order of calib_nbt.cpp:406-413. -/
def names : List String :=
  ["fig8-horiz", "fig8-vert", "s-horiz", "s-vert", "pan-vert", "pan-horiz", "diag0", "diag1"]

/-- `nbt_lissajous_trajs`, calib_nbt.cpp:382-414; the result is `trajs` after the call. -/
noncomputable def lissajousTrajs (ts_start ts_end : ℤ) (tg : Nbv.Target) (T_WF : Mat4 ℝ)
    (trajs : List Traj) : Except Fault (List Traj) :=
  let T_FO := tf 1 ![tg.width / 2, tg.height / 2, 0]
  let R := max tg.width tg.height * 1.2
  let T := sec ts_end - sec ts_start
  names.foldlM (fun (l : List Traj) (n : String) =>
    create n ts_start T_WF T_FO R tg.width tg.height T >>= fun tr => .ok (l ++ [tr])) trajs

end Yac.Nbt
