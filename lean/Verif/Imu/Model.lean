import Verif.Geom.Pose
import Verif.Stream.ImuModel
import Mathlib.LinearAlgebra.Matrix.NonsingularInverse

/-!
# Model of `imu_residual_t` (yac/lib/calib_residuals.cpp:1000-1796)

Exact real arithmetic.  The 15 error states are indexed by block and coordinate: block 0 position,
1 orientation, 2 velocity, 3 gyroscope bias, 4 accelerometer bias, so that row `3 * i + a` of the
code is `(i, a)` here.  A division by a zero time interval is an error.
-/

namespace Yac.Imu
open Yac.Geom Yac.Stream Matrix

/-- `imu_params_t`: the fields read here. -/
structure Params where
  sigma_a_c : ℝ
  sigma_g_c : ℝ
  sigma_aw_c : ℝ
  sigma_gw_c : ℝ
  g : ℝ

/-- `sb_params_t`: velocity, gyroscope bias, accelerometer bias. -/
@[ext] structure SB where
  v : Vec3 ℝ
  bg : Vec3 ℝ
  ba : Vec3 ℝ

/-- A 15 by 15 matrix in blocks. -/
abbrev Mat15 := Matrix (Fin 5 × Fin 3) (Fin 5 × Fin 3) ℝ

/-- The matrix with the given 3 by 3 blocks. -/
def ofBlocks (B : Fin 5 → Fin 5 → Mat3 ℝ) : Mat15 := fun i j => B i.1 j.1 i.2 j.2

/-- `ns2sec`, core.cpp:1543. -/
noncomputable def ns2sec (n : ℤ) : ℝ := (n : ℝ) / 10 ^ 9

/-- `rightJacobian`, ceres_utils.cpp:40-54. -/
noncomputable def rightJacobian (v : Vec3 ℝ) : Mat3 ℝ :=
  let phi := norm3 v
  let X := skew v
  if phi < 1 / 10 ^ 4 then 1 + (-(1 / 2 : ℝ)) • X + (1 / 6 : ℝ) • (X * X)
  else 1 + (-(1 - Real.cos phi) / phi ^ 2) • X + ((phi - Real.sin phi) / phi ^ 3) • (X * X)

/-- The increments, calib_residuals.cpp:1080-1096 and 1326-1342. -/
structure Integ where
  q : Quat ℝ := ⟨1, 0, 0, 0⟩
  C_int : Mat3 ℝ := 0
  C_dbl : Mat3 ℝ := 0
  acc_int : Vec3 ℝ := 0
  acc_dbl : Vec3 ℝ := 0
  cross : Mat3 ℝ := 0
  dalpha : Mat3 ℝ := 0
  dv : Mat3 ℝ := 0
  dp : Mat3 ℝ := 0
  P : Mat15 := 0
  dt : ℝ := 0

/-- The measurements at both ends of an integration step and its duration. -/
structure Seg where
  w0 : Vec3 ℝ
  w1 : Vec3 ℝ
  a0 : Vec3 ℝ
  a1 : Vec3 ℝ
  dt : ℝ

/-- The quaternion `dq` of a step, calib_residuals.cpp:1179-1185 and 1417-1423. -/
noncomputable def stepQuat (w : Vec3 ℝ) (dt : ℝ) : Quat ℝ :=
  let h := norm3 w * (1 / 2) * dt
  ⟨Real.cos h, sinc h * w 0 * (1 / 2) * dt, sinc h * w 1 * (1 / 2) * dt, sinc h * w 2 * (1 / 2) * dt⟩

/-- `F_delta`, calib_residuals.cpp:1208-1217 and 1447-1456. -/
noncomputable def fDelta (I : Integ) (C C1 : Mat3 ℝ) (a : Vec3 ℝ) (cross1 : Mat3 ℝ) (dt : ℝ) : Mat15 :=
  let X := skew a
  ofBlocks fun i j =>
    if i = 0 ∧ j = 1 then -skew (dt • I.acc_int + ((1 / 4 : ℝ) * dt * dt) • ((C + C1) *ᵥ a))
    else if i = 0 ∧ j = 2 then dt • 1
    else if i = 0 ∧ j = 3 then
      dt • I.dv + ((1 / 4 : ℝ) * dt * dt) • (C * X * I.cross + C1 * X * cross1)
    else if i = 0 ∧ j = 4 then -(dt • I.C_int) + ((1 / 4 : ℝ) * dt * dt) • (C + C1)
    else if i = 1 ∧ j = 3 then -(dt • C1)
    else if i = 2 ∧ j = 1 then -skew (((1 / 2 : ℝ) * dt) • ((C + C1) *ᵥ a))
    else if i = 2 ∧ j = 3 then ((1 / 2 : ℝ) * dt) • (C * X * I.cross + C1 * X * cross1)
    else if i = 2 ∧ j = 4 then -(((1 / 2 : ℝ) * dt) • (C + C1))
    else if i = j then 1 else 0

/-- The variances added in a step, calib_residuals.cpp:1222-1241 and 1461-1480. -/
noncomputable def noise (p : Params) (dt : ℝ) : Fin 5 → ℝ :=
  let v := dt * p.sigma_a_c * p.sigma_a_c
  ![(1 / 2) * dt * dt * v, dt * p.sigma_g_c * p.sigma_g_c, v, dt * p.sigma_gw_c * p.sigma_gw_c,
    dt * p.sigma_aw_c * p.sigma_aw_c]

/-- One integration step, calib_residuals.cpp:1176-1250 (`redo = false`) and 1414-1488
(`redo = true`), which differ in the update of `dalpha_db_g`.  The covariance is always computed
(`propagation` computes it on request; nothing else depends on it). -/
noncomputable def integrate (redo : Bool) (p : Params) (sb : SB) (I : Integ) (s : Seg) : Integ :=
  let w := (1 / 2 : ℝ) • (s.w0 + s.w1) - sb.bg
  let dq := stepQuat w s.dt
  let q1 := I.q.mul dq
  let C := I.q.toRot
  let C1 := q1.toRot
  let a := (1 / 2 : ℝ) • (s.a0 + s.a1) - sb.ba
  let J := rightJacobian (s.dt • w)
  let cross1 := dq.inverse.toRot * I.cross + s.dt • J
  let X := skew a
  let Y := C * X * I.cross + C1 * X * cross1
  let F := fDelta I C C1 a cross1 s.dt
  { q := q1
    C_int := I.C_int + ((1 / 2 : ℝ) * s.dt) • (C + C1)
    C_dbl := I.C_dbl + (s.dt • I.C_int + ((1 / 4 : ℝ) * s.dt * s.dt) • (C + C1))
    acc_int := I.acc_int + ((1 / 2 : ℝ) * s.dt) • ((C + C1) *ᵥ a)
    acc_dbl := I.acc_dbl + (s.dt • I.acc_int + ((1 / 4 : ℝ) * s.dt * s.dt) • ((C + C1) *ᵥ a))
    cross := cross1
    dalpha := I.dalpha + s.dt • (if redo then C1 * J else C1)
    dv := I.dv + ((1 / 2 : ℝ) * s.dt) • Y
    dp := I.dp + (s.dt • I.dv + ((1 / 4 : ℝ) * s.dt * s.dt) • Y)
    P := F * I.P * Fᵀ + diagonal (fun i => noise p s.dt i.1)
    dt := I.dt + s.dt }

/-- The variables of the loop. -/
structure Loop where
  I : Integ := {}
  time : ℤ
  started : Bool := false
  count : Nat := 0

/-- A straight line between two measurements. -/
noncomputable def lerp (r : ℝ) (x y : Vec3 ℝ) : Vec3 ℝ := (1 - r) • x + r • y

/-- The measurements at the end of a step, calib_residuals.cpp:1128-1137 and 1367-1375: `r` of the
way from `x` to `y` if the next timestamp `t1` is after the end. -/
noncomputable def atEnd (capped : Bool) (r : ℝ) (x y : Vec3 ℝ) : Vec3 ℝ :=
  if capped then lerp r x y else y

/-- The measurements at the start of the first step, calib_residuals.cpp:1145-1150 and
1383-1389. -/
noncomputable def atStart (started : Bool) (r : ℝ) (x y : Vec3 ℝ) : Vec3 ℝ :=
  if started then x else r • x + (1 - r) • y

/-- The interval `r` is divided by at the start: `propagation` uses the step itself, calib_residuals.cpp:1147,
`redoPreintegration` the distance to the sample, calib_residuals.cpp:1386. -/
def startInterval (redo : Bool) (next time t0 : ℤ) : ℤ := if redo then next - t0 else next - time

/-- The body of the loop with its measurements read, calib_residuals.cpp:1122-1257 and 1360-1494:
`t0` and `t1` are the timestamps of samples `k` and `k + 1`.  The flag is the `break`. -/
noncomputable def body (redo : Bool) (p : Params) (sb : SB) (tend : ℤ) (s : Loop)
    (w0 w1 a0 a1 : Vec3 ℝ) (t0 t1 : ℤ) : Except Fault (Loop × Bool) :=
  let capped := decide (tend < t1)
  let next := if tend < t1 then tend else t1
  let dt := ns2sec (next - s.time)
  let r := dt / ns2sec (t1 - t0)
  let u := dt / ns2sec (startInterval redo next s.time t0)
  let w1' := atEnd capped r w0 w1
  let a1' := atEnd capped r a0 a1
  if t1 - s.time < 0 then .ok (s, false)
  else if dt ≤ 0 then .ok (s, false)
  else if tend < t1 ∧ t1 = t0 then .error .divZero
  else if s.started = false ∧ startInterval redo next s.time t0 = 0 then .error .divZero
  else .ok (⟨integrate redo p sb s.I ⟨atStart s.started u w0 w1', w1', atStart s.started u a0 a1', a1', dt⟩,
    next, true, s.count + 1⟩, decide (next = tend))

/-- Samples `k` and `k + 1`, calib_residuals.cpp:1103-1106 and 1348-1351. -/
def samples (d : Imu (Vec3 ℝ)) (k : Nat) :
    Except Fault (Vec3 ℝ × Vec3 ℝ × Vec3 ℝ × Vec3 ℝ) :=
  at? d.gyr k >>= fun w0 => at? d.acc k >>= fun a0 => at? d.gyr (k + 1) >>= fun w1 =>
  at? d.acc (k + 1) >>= fun a1 => .ok (w0, w1, a0, a1)

/-- The timestamp after sample `k`, calib_residuals.cpp:1112-1118 and 1353-1359: the end of the
interval if there is no further sample. -/
def nextTime (d : Imu (Vec3 ℝ)) (tend : ℤ) (k : Nat) : Except Fault ℤ :=
  if k + 1 = d.size then .ok tend else at? d.ts (k + 1)

/-- The loop over samples `k, ..., k + n - 1`. -/
noncomputable def loop (redo : Bool) (p : Params) (sb : SB) (d : Imu (Vec3 ℝ)) (tend : ℤ) :
    Nat → Nat → Loop → Except Fault Loop
  | 0, _, s => .ok s
  | n + 1, k, s =>
    samples d k >>= fun m => at? d.ts k >>= fun t0 => nextTime d tend k >>= fun t1 =>
    body redo p sb tend s m.1 m.2.1 m.2.2.1 m.2.2.2 t0 t1 >>= fun b =>
    if b.2 then .ok b.1 else loop redo p sb d tend n (k + 1) b.1

/-- `propagation` up to the end of its loop, calib_residuals.cpp:1049-1258. -/
noncomputable def preint (p : Params) (sb : SB) (d : Imu (Vec3 ℝ)) (tstart tend : ℤ) :
    Except Fault Loop :=
  match d.ts.head?, d.ts.getLast? with
  | some f, some b =>
    if tstart < f then .error .fatal
    else if b < tend then .error .fatal
    else loop false p sb d tend (d.size - 1) 0 { time := tstart }
  | _, _ => .error .oob

/-- Gravity, calib_residuals.cpp:1262 and 1600. -/
noncomputable def gW (p : Params) : Vec3 ℝ := p.g • normalized ![0, 0, 6371009]

/-- The new state, calib_residuals.cpp:1262-1270. -/
noncomputable def moved (p : Params) (T : Mat4 ℝ) (sb : SB) (I : Integ) : Mat4 ℝ × SB :=
  let r := tfTrans T + I.dt • sb.v + tfRot T *ᵥ I.acc_dbl - ((1 / 2 : ℝ) * I.dt * I.dt) • gW p
  (tfQuat ((tfQuatOf T).mul I.q) r, ⟨sb.v + (tfRot T *ᵥ I.acc_int - I.dt • gW p), sb.bg, sb.ba⟩)

/-- The Jacobian, calib_residuals.cpp:1272-1285. -/
noncomputable def jacobian (T : Mat4 ℝ) (I : Integ) : Mat15 :=
  let C := tfRot T
  ofBlocks fun i j =>
    if i = 0 ∧ j = 1 then -skew (C *ᵥ I.acc_dbl)
    else if i = 0 ∧ j = 2 then I.dt • 1
    else if i = 0 ∧ j = 3 then C * I.dp
    else if i = 0 ∧ j = 4 then -(C * I.C_dbl)
    else if i = 1 ∧ j = 3 then -(C * I.dalpha)
    else if i = 2 ∧ j = 1 then -skew (C *ᵥ I.acc_int)
    else if i = 2 ∧ j = 3 then C * I.dv
    else if i = 2 ∧ j = 4 then -(C * I.C_int)
    else if i = j then 1 else 0

/-- The covariance, calib_residuals.cpp:1287-1296. -/
def covariance (T : Mat4 ℝ) (I : Integ) : Mat15 :=
  let R := ofBlocks fun i j => if i = j then (if i.val < 3 then tfRot T else 1) else 0
  R * I.P * Rᵀ

/-- What `propagation` delivers. -/
structure Output where
  T : Mat4 ℝ
  sb : SB
  cov : Mat15
  jac : Mat15
  count : Nat

/-- `imu_residual_t::propagation`, calib_residuals.cpp:1049-1299. -/
noncomputable def propagation (p : Params) (d : Imu (Vec3 ℝ)) (T : Mat4 ℝ) (sb : SB)
    (tstart tend : ℤ) : Except Fault Output :=
  preint p sb d tstart tend >>= fun s =>
  .ok ⟨(moved p T sb s.I).1, (moved p T sb s.I).2, covariance T s.I, jacobian T s.I, s.count⟩

/-- `redoPreintegration` up to the end of its loop, calib_residuals.cpp:1301-1495. -/
noncomputable def redo (p : Params) (sb : SB) (d : Imu (Vec3 ℝ)) (tstart tend : ℤ) :
    Except Fault Loop := loop true p sb d tend d.size 0 { time := tstart }

/-- `information_`, calib_residuals.cpp:1500-1507 (the inverse of a singular matrix is not a number:
an error here). -/
noncomputable def information (P : Mat15) : Except Fault Mat15 :=
  let S := (1 / 2 : ℝ) • P + (1 / 2 : ℝ) • Pᵀ
  if S.det = 0 then .error .divZero
  else .ok ((1 / 2 : ℝ) • S⁻¹ + (1 / 2 : ℝ) • (S⁻¹)ᵀ)

/-- A 15 vector in blocks. -/
def vecBlocks (v : Fin 5 → Vec3 ℝ) : Fin 5 × Fin 3 → ℝ := fun i => v i.1 i.2

/-- Vector part of a quaternion. -/
def Quat.vec (q : Quat ℝ) : Vec3 ℝ := ![q.x, q.y, q.z]

/-- `delta_p_est_W`, calib_residuals.cpp:1606. -/
noncomputable def dpW (p : Params) (T0 T1 : Mat4 ℝ) (sb0 : SB) (Dt : ℝ) : Vec3 ℝ :=
  tfTrans T0 - tfTrans T1 + Dt • sb0.v - ((1 / 2 : ℝ) * Dt * Dt) • gW p

/-- `delta_v_est_W`, calib_residuals.cpp:1607. -/
noncomputable def dvW (p : Params) (sb0 sb1 : SB) (Dt : ℝ) : Vec3 ℝ := sb0.v - sb1.v - Dt • gW p

/-- `error`, calib_residuals.cpp:1632-1640, with `Delta_b` zero (calib_residuals.cpp:1592): `Dq` is
`Delta_q_` because `deltaQ(0)` is the identity. -/
noncomputable def error (p : Params) (T0 T1 : Mat4 ℝ) (sb0 sb1 : SB) (Dt : ℝ) (I : Integ) :
    Fin 5 × Fin 3 → ℝ :=
  let C := (tfRot T0)ᵀ
  vecBlocks ![C *ᵥ dpW p T0 T1 sb0 Dt + I.acc_dbl,
    (2 : ℝ) • Quat.vec (I.q.mul ((tfQuatOf T1).inverse.mul (tfQuatOf T0))),
    C *ᵥ dvW p sb0 sb1 Dt + I.acc_int, sb0.bg - sb1.bg, sb0.ba - sb1.ba]

/-- Top left 3 by 3 corner. -/
def corner (Q : Mat4 ℝ) : Mat3 ℝ := fun i j => Q i.castSucc j.castSucc

/-- `F0`, calib_residuals.cpp:1605-1619. -/
noncomputable def F0 (p : Params) (T0 T1 : Mat4 ℝ) (sb0 sb1 : SB) (Dt : ℝ) (I : Integ) : Mat15 :=
  let C := (tfRot T0)ᵀ
  let q0 := tfQuatOf T0
  let q1i := (tfQuatOf T1).inverse
  ofBlocks fun i j =>
    if i = 0 ∧ j = 0 then C
    else if i = 0 ∧ j = 1 then C * skew (dpW p T0 T1 sb0 Dt)
    else if i = 0 ∧ j = 2 then Dt • C
    else if i = 0 ∧ j = 3 then I.dp
    else if i = 0 ∧ j = 4 then -I.C_dbl
    else if i = 1 ∧ j = 1 then corner (plusMat (I.q.mul q1i) * oplusMat q0)
    else if i = 1 ∧ j = 3 then corner (oplusMat (q1i.mul q0) * oplusMat I.q) * (-I.dalpha)
    else if i = 2 ∧ j = 1 then C * skew (dvW p sb0 sb1 Dt)
    else if i = 2 ∧ j = 2 then C
    else if i = 2 ∧ j = 3 then I.dv
    else if i = 2 ∧ j = 4 then -I.C_int
    else if i = j then 1 else 0

/-- `F1`, calib_residuals.cpp:1624-1627. -/
noncomputable def F1 (T0 T1 : Mat4 ℝ) (I : Integ) : Mat15 :=
  let C := (tfRot T0)ᵀ
  let q0 := tfQuatOf T0
  let q1i := (tfQuatOf T1).inverse
  ofBlocks fun i j =>
    if i = 0 ∧ j = 0 then -C
    else if i = 1 ∧ j = 1 then -corner (plusMat I.q * oplusMat q0 * plusMat q1i)
    else if i = 2 ∧ j = 2 then -C
    else if i = j then -1 else 0

/-- The result of an evaluation: the unweighted and the weighted error, and the minimal Jacobians of
pose i, speed and bias i, pose j, speed and bias j.  The pose Jacobians are 15 by 6, those of speed
and bias 15 by 9. -/
structure Eval where
  raw : Fin 5 × Fin 3 → ℝ
  weighted : Fin 5 × Fin 3 → ℝ
  J0 : Matrix (Fin 5 × Fin 3) (Fin 2 × Fin 3) ℝ
  J1 : Matrix (Fin 5 × Fin 3) (Fin 3 × Fin 3) ℝ
  J2 : Matrix (Fin 5 × Fin 3) (Fin 2 × Fin 3) ℝ
  J3 : Matrix (Fin 5 × Fin 3) (Fin 3 × Fin 3) ℝ

/-- Columns of the two pose blocks. -/
def poseCols (F : Mat15) : Matrix (Fin 5 × Fin 3) (Fin 2 × Fin 3) ℝ :=
  fun i j => F i (⟨j.1, by omega⟩, j.2)

/-- Columns of the blocks of speed and biases. -/
def sbCols (F : Mat15) : Matrix (Fin 5 × Fin 3) (Fin 3 × Fin 3) ℝ :=
  fun i j => F i (⟨j.1 + 2, by omega⟩, j.2)

/-- `EvaluateWithMinimalJacobians`, calib_residuals.cpp:1522-1796.  `delay` is `sec2ts(time_delay)`;
`llt` is `LLT(information).matrixU()`.  The minimal pose Jacobians are those written before `valid` is
applied; with no step at all the covariance is zero and has no inverse.  The numerical Jacobian of the
time delay is not modelled. -/
noncomputable def evaluate (llt : Mat15 → Mat15) (p : Params) (d : Imu (Vec3 ℝ)) (t0 t1 delay : ℤ)
    (x0 x1 : Fin 7 → ℝ) (sb0 sb1 : SB) : Except Fault Eval :=
  let T0 := tfParams x0
  let T1 := tfParams x1
  let Dt := ns2sec (t1 - t0)
  redo p sb0 d (t0 + delay) (t1 + delay) >>= fun s =>
  information s.I.P >>= fun W =>
  let U := llt W
  let e := error p T0 T1 sb0 sb1 Dt s.I
  let A := U * F0 p T0 T1 sb0 sb1 Dt s.I
  let B := U * F1 T0 T1 s.I
  .ok ⟨e, U *ᵥ e, poseCols A, sbCols A, poseCols B, sbCols B⟩

end Yac.Imu
