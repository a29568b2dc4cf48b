import Verif.Nbt.Traj
import Verif.Containers.SMap
import Verif.Timeline.Model
import Mathlib.Analysis.SpecialFunctions.Log.Basic
import Mathlib.LinearAlgebra.Matrix.NonsingularInverse

/-!
# Model of the simulators, yac/lib/calib_nbt.cpp:418-611 and 718-788, and of the simulated IMU,
yac/lib/util/core.cpp:2071-2128

Exact real arithmetic; timestamps do not overflow.  The loops over time have a fuel argument: a loop
that has not stopped when the fuel is used up is the fault `diverge`.  The random engine is an arbitrary
stream of vectors.  `nbt_eval` (613-716), which solves a problem with Ceres, is not modelled: its
results are an input of `nbtFind`.
-/

namespace Yac.Nbt
open Matrix Yac.Geom

/-- `sec2ts`, core.cpp:1530: the double product is truncated towards zero. -/
noncomputable def secToTs (s : ℝ) : ℤ :=
  open Classical in if 0 ≤ s * 1000000000 then ⌊s * 1000000000⌋ else ⌈s * 1000000000⌉

/-- `while (ts_k <= ts_end) { body; ts_k += dt; }`, calib_nbt.cpp:469-490 and 516-541. -/
def ticks {S : Type} (body : ℤ → S → Except Fault S) (te dt : ℤ) : ℕ → ℤ → S → Except Fault S
  | 0, _, _ => .error .diverge
  | n + 1, t, s => if t ≤ te then body t s >>= fun s' => ticks body te dt n (t + dt) s' else .ok s

/-- `sim_imu_t`, core.hpp:1505-1521. -/
structure SimImu where
  rate : ℝ
  tau_a : ℝ
  tau_g : ℝ
  sigma_g_c : ℝ
  sigma_a_c : ℝ
  sigma_gw_c : ℝ
  sigma_aw_c : ℝ
  g : ℝ
  started : Bool
  b_g : Vec3 ℝ
  b_a : Vec3 ℝ
  ts_prev : ℤ

/-- `sim_imu_reset`, core.cpp:2071-2076. -/
def SimImu.reset (s : SimImu) : SimImu :=
  { s with started := false, b_g := 0, b_a := 0, ts_prev := 0 }

/-- A simulated measurement: the accelerometer and gyroscope values. -/
structure Reading where
  acc : Vec3 ℝ
  gyr : Vec3 ℝ

/-- The biases after a measurement, core.cpp:2099-2112; the noise is `noise n, noise (n + 1)`. -/
noncomputable def SimImu.drift (s : SimImu) (noise : ℕ → Vec3 ℝ) (n : ℕ) : Vec3 ℝ × Vec3 ℝ :=
  let dt := 1 / s.rate
  if s.started = false then
    ((s.sigma_gw_c * Real.sqrt (s.tau_g / 2)) • noise n, (s.sigma_aw_c * Real.sqrt (s.tau_a / 2)) • noise (n + 1))
  else
    (s.b_g + (-(dt / s.tau_g)) • s.b_g + (s.sigma_gw_c * Real.sqrt dt) • noise n,
     s.b_a + (-(dt / s.tau_a)) • s.b_a + (s.sigma_aw_c * Real.sqrt dt) • noise (n + 1))

/-- `sim_imu_measurement`, core.cpp:2078-2128.  Four vectors are drawn; the two drawn for the
measurement itself are not used. -/
noncomputable def SimImu.measure (s : SimImu) (noise : ℕ → Vec3 ℝ) (n : ℕ) (ts : ℤ) (T_WS : Mat4 ℝ)
    (w_WS a_WS : Vec3 ℝ) : Except Fault (SimImu × ℕ × Reading) :=
  open Classical in
  if s.rate = 0 then .error .divZero
  else if s.started = false ∧ |sec (ts - s.ts_prev) - 1 / s.rate| < 1 / s.rate / 2 then .error .fatal
  else
    let b := s.drift noise n
    let C := (tfRot T_WS)ᵀ
    .ok (⟨s.rate, s.tau_a, s.tau_g, s.sigma_g_c, s.sigma_a_c, s.sigma_gw_c, s.sigma_aw_c, s.g, true, b.1, b.2, ts⟩,
      n + 4, ⟨C *ᵥ (a_WS + ![0, 0, s.g]), C *ᵥ w_WS⟩)

/-- The five output vectors of `simulate_imu`. -/
structure ImuOut where
  time : List ℤ
  accel : List (Vec3 ℝ)
  gyro : List (Vec3 ℝ)
  poses : List (Mat4 ℝ)
  vels : List (Vec3 ℝ)

/-- The parameters read by `simulate_imu`, calib_nbt.cpp:505-510. -/
structure ImuParams where
  rate : ℝ
  sigma_g_c : ℝ
  sigma_a_c : ℝ
  sigma_gw_c : ℝ
  sigma_aw_c : ℝ
  g : ℝ

/-- Loop body of `simulate_imu`, calib_nbt.cpp:517-540. -/
noncomputable def imuStep (tr : Traj) (noise : ℕ → Vec3 ℝ) (ts : ℤ) (st : SimImu × ℕ × ImuOut) :
    Except Fault (SimImu × ℕ × ImuOut) :=
  getPose tr ts >>= fun T => getVelocity tr ts >>= fun v => getAccel tr ts >>= fun a =>
    getAngVel tr ts >>= fun w => st.1.measure noise st.2.1 ts T w a >>= fun r =>
      .ok (r.1, r.2.1, ⟨st.2.2.time ++ [ts], st.2.2.accel ++ [r.2.2.acc], st.2.2.gyro ++ [r.2.2.gyr],
        st.2.2.poses ++ [T], st.2.2.vels ++ [v]⟩)

/-- `simulate_imu`, calib_nbt.cpp:493-542; `sim_imu` starts with the defaults of core.hpp:1505-1521. -/
noncomputable def simulateImu (fuel : ℕ) (ts te : ℤ) (tr : Traj) (p : ImuParams) (noise : ℕ → Vec3 ℝ)
    (out : ImuOut) : Except Fault ImuOut :=
  open Classical in
  if p.rate = 0 then .error .divZero
  else
    ticks (imuStep tr noise) te (secToTs (1 / p.rate)) fuel ts
      (⟨p.rate, 3600, 3600, p.sigma_g_c, p.sigma_a_c, p.sigma_gw_c, p.sigma_aw_c, p.g, false, 0, 0, 0⟩, 0, out)
      >>= fun st => .ok st.2.2

/-- Loop body of `simulate_aprilgrid`, calib_nbt.cpp:441-448. -/
noncomputable def addSeenFrom (cam : Nbv.Camera) (T_CiC0 T_C0F : Mat4 ℝ) (g : AprilGrid.Grid ℝ) (tc : Nat × Nat) :
    Except Fault (AprilGrid.Grid ℝ) :=
  AprilGrid.objectPoint g tc.1 tc.2 >>= fun p =>
    let r := cam.project (tfPoint T_CiC0 (tfPoint T_C0F (Nbv.vec p)))
    let z := r.zhat.getD ![0, 0]
    if r.code = 0 then AprilGrid.add g tc.1 tc.2 (z 0, z 1) else .ok g

/-- `simulate_aprilgrid`, calib_nbt.cpp:418-453; `ext` is `cam_exts->tf()`. -/
noncomputable def simulateGrid (ts : ℤ) (tg : Nbv.Target) (T_FC0 : Mat4 ℝ) (cam : Nbv.Camera) (ext : Mat4 ℝ) :
    Except Fault (AprilGrid.Grid ℝ) :=
  Nbv.inverse ext >>= fun T_CiC0 => Nbv.inverse T_FC0 >>= fun T_C0F =>
    (Nbv.corners (tg.rows * tg.cols)).foldlM (addSeenFrom cam T_CiC0 T_C0F) (Nbv.emptyGrid ts tg)

/-- The three maps of cameras, calib_nbt.cpp:459-461. -/
structure Rig where
  geoms : List (ℤ × Nbv.Lens)
  params : List (ℤ × (Fin 2 → ℤ) × Cam.Params)
  exts : List (ℤ × Mat4 ℝ)

/-- `map.at(key)`: throws when the key is missing. -/
def atKey {V : Type} (m : List (ℤ × V)) (k : ℤ) : Except Fault V :=
  match SMap.find k m with
  | some v => .ok v
  | none => .error .exn

/-- `camera_data_t`. -/
abbrev CamData := List (ℤ × List (ℤ × AprilGrid.Grid ℝ))

/-- Body of the loop over cameras, calib_nbt.cpp:477-485. -/
noncomputable def cameraStep (rig : Rig) (tg : Nbv.Target) (ts : ℤ) (T_FC0 : Mat4 ℝ) (d : CamData)
    (ci : ℤ × Nbv.Lens) : Except Fault CamData :=
  atKey rig.geoms ci.1 >>= fun lens => atKey rig.params ci.1 >>= fun pr => atKey rig.exts ci.1 >>= fun ext =>
    simulateGrid ts tg T_FC0 ⟨lens, pr.1, pr.2⟩ ext >>= fun g =>
      .ok (SMap.set ts (SMap.set ci.1 g ((SMap.find ts d).getD [])) d)

/-- Body of the loop over time, calib_nbt.cpp:470-489. -/
noncomputable def frameStep (tr : Traj) (tg : Nbv.Target) (rig : Rig) (T_WF : Mat4 ℝ) (ts : ℤ)
    (st : CamData × List (ℤ × Mat4 ℝ)) : Except Fault (CamData × List (ℤ × Mat4 ℝ)) :=
  getPose tr ts >>= fun T_WC0 => Nbv.inverse T_WC0 >>= fun Ti => Nbv.inverse (Ti * T_WF) >>= fun T_FC0 =>
    rig.geoms.foldlM (cameraStep rig tg ts T_FC0) st.1 >>= fun d =>
      .ok (d, SMap.set ts T_WC0 st.2)

/-- `simulate_cameras`, calib_nbt.cpp:455-491. -/
noncomputable def simulateCameras (fuel : ℕ) (ts te : ℤ) (tr : Traj) (tg : Nbv.Target) (rig : Rig) (rate : ℝ)
    (T_WF : Mat4 ℝ) (st : CamData × List (ℤ × Mat4 ℝ)) : Except Fault (CamData × List (ℤ × Mat4 ℝ)) :=
  open Classical in
  if rate = 0 then .error .divZero
  else ticks (frameStep tr tg rig T_WF) te (secToTs (1 / rate)) fuel ts st

/-- The two kinds of events added to the timeline. -/
inductive Event where
  | imu (acc gyr : Vec3 ℝ)
  | grid (cam : ℤ) (g : AprilGrid.Grid ℝ)

/-- The loop over IMU samples, calib_nbt.cpp:596-601; reading past the end of a shorter vector is
`oob`. -/
def addImu (acc gyr : List (Vec3 ℝ)) : ℕ → List ℤ → Timeline.T Event → Except Fault (Timeline.T Event)
  | _, [], t => .ok t
  | i, ts :: l, t =>
    match acc[i]?, gyr[i]? with
    | some a, some w => addImu acc gyr (i + 1) l (Timeline.add t ts (.imu a w))
    | _, _ => .error .oob

/-- The loops over grids, calib_nbt.cpp:604-610. -/
def addGrids (d : CamData) (t : Timeline.T Event) : Timeline.T Event :=
  d.foldl (fun t (p : ℤ × List (ℤ × AprilGrid.Grid ℝ)) =>
    p.2.foldl (fun t (q : ℤ × AprilGrid.Grid ℝ) =>
      if q.2.detected then Timeline.add t p.1 (.grid q.1 q.2) else t) t) t

/-- `nbt_create_timeline`, calib_nbt.cpp:590-611. -/
def createTimeline (d : CamData) (ts : List ℤ) (acc gyr : List (Vec3 ℝ)) (t : Timeline.T Event) :
    Except Fault (Timeline.T Event) :=
  addImu acc gyr 0 ts t >>= fun t => .ok (addGrids d t)

/-- `log(covar.determinant()) / log(2)` with `covar = H.inverse()`, calib_nbt.cpp:725-726, 745-746;
`none` is a result that is not a number. -/
noncomputable def entropy {n : Type} [Fintype n] [DecidableEq n] (H : Matrix n n ℝ) : Option ℝ :=
  open Classical in
  if H.det = 0 then none else if H⁻¹.det < 0 then none else some (Real.log H⁻¹.det / Real.log 2)

/-- One entry of `info_kp1`, calib_nbt.cpp:733-746: a failed evaluation is `none` and counts as 0. -/
noncomputable def entry {n : Type} [Fintype n] [DecidableEq n] : Option (Matrix n n ℝ) → Option ℝ
  | none => some 0
  | some H => entropy H

/-- The loop of calib_nbt.cpp:729-747: `info_kp1`. -/
noncomputable def entropies {n : Type} [Fintype n] [DecidableEq n] (evals : List (Option (Matrix n n ℝ))) :
    List (Option ℝ) := evals.map entry

/-- `info_gain`, calib_nbt.cpp:753. -/
noncomputable def gain (k kp1 : Option ℝ) : Option ℝ :=
  match k, kp1 with
  | some a, some b => some (0.5 * (a - b))
  | _, _ => none

/-- One turn of the search, calib_nbt.cpp:752-757; comparing with NaN is false. -/
noncomputable def pick (k : Option ℝ) (best : ℤ × ℝ) (e : Option ℝ × ℕ) : ℤ × ℝ :=
  match gain k e.1 with
  | none => best
  | some g => open Classical in if g > best.2 then ((e.2 : ℤ), g) else best

/-- `nbt_find`, calib_nbt.cpp:718-788: the index returned and the values written to `calib_info_k` and
`calib_info_kp1`; `info_kp1[-1]` creates a zero entry. -/
noncomputable def nbtFind {n : Type} [Fintype n] [DecidableEq n] (H : Matrix n n ℝ)
    (evals : List (Option (Matrix n n ℝ))) : ℤ × Option ℝ × Option ℝ :=
  let k := entropy H
  let l := entropies evals
  let best := (l.zipIdx).foldl (pick k) (-1, 0)
  (best.1, k, if best.1 < 0 then some 0 else (l[best.1.toNat]?).getD none)

end Yac.Nbt
