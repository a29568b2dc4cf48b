import Verif.Nbt.SimLemmas
import Mathlib.Analysis.SpecialFunctions.Log.Base

/-!
# C78, C79: simulated measurements and the choice of the next trajectory
-/

namespace Yac.Nbt
open Matrix Yac.Geom Yac.Residual

/-! ## Rigid transforms -/

/-- A rotation and a translation. -/
def Rigid (M : Mat4 ℝ) : Prop := ∃ C r, IsRot C ∧ M = tf C r

theorem Rigid.mul {A B : Mat4 ℝ} (ha : Rigid A) (hb : Rigid B) : Rigid (A * B) := by
  obtain ⟨C, r, hC, rfl⟩ := ha
  obtain ⟨D, s, hD, rfl⟩ := hb
  exact ⟨C * D, _, hC.mul hD, tf_mul C D r s⟩

theorem Rigid.inv {A : Mat4 ℝ} (ha : Rigid A) : Rigid A⁻¹ := by
  obtain ⟨C, r, hC, rfl⟩ := ha
  rw [Residual.tf_inverse _ _ (Nbv.rot_det_ne hC)]
  exact ⟨C⁻¹, _, by rw [isRot_inv hC]; exact hC.transpose, rfl⟩

theorem Rigid.inverse {A : Mat4 ℝ} (ha : Rigid A) : Nbv.inverse A = .ok A⁻¹ := by
  obtain ⟨C, r, hC, rfl⟩ := ha
  exact Nbv.inverse_tf hC r

theorem Rigid.unit {A : Mat4 ℝ} (ha : Rigid A) : IsUnit A.det := by
  obtain ⟨C, r, hC, rfl⟩ := ha
  exact isUnit_iff_ne_zero.mpr (Nbv.tf_det_ne hC r)

theorem Rigid.point {A B : Mat4 ℝ} (ha : Rigid A) (hb : Rigid B) (p : Vec3 ℝ) :
    tfPoint A (tfPoint B p) = tfPoint (A * B) p := by
  obtain ⟨C, r, -, rfl⟩ := ha
  obtain ⟨D, s, -, rfl⟩ := hb
  rw [tf_mul, tfPoint_tf, tfPoint_tf, tfPoint_tf, mulVec_add, mulVec_mulVec, add_assoc]

/-- The poses of a trajectory in rigid frames are rigid. -/
theorem poseAt_rigid (tr : Traj) (h : Rigid (tr.T_WF * tr.T_FO)) (t : ℝ) : Rigid (poseAt tr t) :=
  h.mul ⟨_, _, (C34_rotations _ _ _ 0).2.2.2.2, rfl⟩

/-! ## The simulated IMU -/

/-- The trajectories of the generator can be read over the whole interval, in rigid frames. -/
theorem generated_ready (ts te : ℤ) (hte : ts < te) (tg : Nbv.Target) (htg : Printable tg) (C : Mat3 ℝ)
    (hC : IsRot C) (r : Vec3 ℝ) (l : List Traj) :
    ∃ trs, lissajousTrajs ts te tg (tf C r) l = .ok (l ++ trs) ∧ trs.length = 8 ∧
      ∀ tr ∈ trs, Ready tr ts te ∧ Rigid (tr.T_WF * tr.T_FO) := by
  obtain ⟨trs, h1, h2, h3⟩ := generated_spec ts te hte tg htg C hC r l
  refine ⟨trs, h1, h2, fun tr htr => ?_⟩
  obtain ⟨n, s, hs, hf, hR, hTp, hT, hin, hrot⟩ := h3 tr htr
  refine ⟨⟨hT, hin, hf.hts.le, by rw [hf.hts, hf.hT]⟩, ?_⟩
  rw [hf.hWF, hf.hFO]
  refine Rigid.mul ⟨C, r, hC, rfl⟩ ⟨1, _, ?_, rfl⟩
  constructor <;> simp

/-- C78: the simulated IMU takes a sample at `ts`, `ts + dt`, … up to `te`, `dt` the period in whole
nanoseconds, and at each appends the timestamp, what an ideal accelerometer and gyroscope on the
trajectory measure, the pose and the velocity.  The first timestamp must not be within half a
period of one period after time zero. -/
theorem C78_imu_partial {tr : Traj} {ts te : ℤ} (h : Ready tr ts te) (p : ImuParams) (h0 : 0 < p.rate)
    (h1 : p.rate ≤ 1000000000) (hs : ¬ |sec ts - 1 / p.rate| < 1 / p.rate / 2) (noise : ℕ → Vec3 ℝ) (out : ImuOut)
    (fuel : ℕ) (hf : (sampleTimes ts te (secToTs (1 / p.rate))).length < fuel) :
    let times := sampleTimes ts te (secToTs (1 / p.rate))
    simulateImu fuel ts te tr p noise out = .ok ⟨out.time ++ times,
      out.accel ++ times.map (fun k => (ideal tr p.g k).acc), out.gyro ++ times.map (fun k => (ideal tr p.g k).gyr),
      out.poses ++ times.map (fun k => poseAt tr (tr.at k)),
      out.vels ++ times.map (fun k => velocityAt tr (tr.at k))⟩ := by
  have hd := secToTs_pos h0 h1
  unfold simulateImu
  rw [if_neg h0.ne', ticks_eq _ _ _ hd _ _ _ hf]
  obtain ⟨s', n', e⟩ := imu_fold h noise (sampleTimes ts te (secToTs (1 / p.rate)))
    (fun k hk => by
      obtain ⟨⟨j, rfl⟩, h2⟩ := (mem_sampleTimes hd k).mp hk
      exact ⟨by have : 0 ≤ (j : ℤ) * secToTs (1 / p.rate) := mul_nonneg (by positivity) hd.le
                linarith, h2⟩)
    ⟨p.rate, 3600, 3600, p.sigma_g_c, p.sigma_a_c, p.sigma_gw_c, p.sigma_aw_c, p.g, false, 0, 0, 0⟩ 0 out h0.ne'
    (Or.inr fun k hk => by
      by_cases hle : ts ≤ te
      · rw [sampleTimes_cons hd hle] at hk
        cases hk
        simpa using hs
      · rw [sampleTimes, if_pos (by omega)] at hk
        cases hk)
  rw [e, AprilGrid.ok_bind]

/-- C78: the instants, in increasing order: exactly the multiples of the period after the start that
are not after the end; their number. -/
theorem C78_times (ts te dt : ℤ) (hd : 0 < dt) :
    (∀ k, k ∈ sampleTimes ts te dt ↔ (∃ j : ℕ, k = ts + j * dt) ∧ k ≤ te) ∧
    (sampleTimes ts te dt).Pairwise (· < ·) ∧
    (ts ≤ te → ((sampleTimes ts te dt).length : ℤ) = (te - ts) / dt + 1) := by
  refine ⟨mem_sampleTimes hd, ?_, ?_⟩
  · unfold sampleTimes
    split_ifs
    · exact List.Pairwise.nil
    · rw [List.pairwise_map]
      refine List.Pairwise.imp ?_ (List.pairwise_lt_range (n := ((te - ts) / dt).toNat + 1))
      intro a b hab
      have : (a : ℤ) < b := by exact_mod_cast hab
      have := mul_lt_mul_of_pos_right this hd
      linarith
  · intro h
    unfold sampleTimes
    rw [if_neg (by omega), List.length_map, List.length_range]
    have : 0 ≤ (te - ts) / dt := Int.ediv_nonneg (by omega) hd.le
    omega

/-- C78: the period of the samples is the period of the rate, cut to whole nanoseconds. -/
theorem C78_period (rate : ℝ) (h0 : 0 < rate) :
    (secToTs (1 / rate) : ℝ) ≤ 1000000000 / rate ∧ 1000000000 / rate < secToTs (1 / rate) + 1 := by
  unfold secToTs
  rw [if_pos (by positivity)]
  have e : 1 / rate * 1000000000 = 1000000000 / rate := by ring
  rw [e]
  exact ⟨Int.floor_le _, Int.lt_floor_add_one _⟩

/-- C78: the ideal readings are the inputs that move the trajectory: with `C` the attitude, `ω` the
gyroscope and `α` the accelerometer reading, `Ċ = C [ω]×` and `v̇ = C α - g`. -/
theorem C78_kinematics {tr : Traj} {ts te : ℤ} (h : Ready tr ts te) (hr : Rigid (tr.T_WF * tr.T_FO)) (g : ℝ) (k : ℤ) :
    MDeriv (fun t => tfRot (poseAt tr t)) (tfRot (poseAt tr (tr.at k)) * skew (ideal tr g k).gyr) (tr.at k) ∧
    VDeriv (velocityAt tr) (tfRot (poseAt tr (tr.at k)) *ᵥ (ideal tr g k).acc - ![0, 0, g]) (tr.at k) ∧
    VDeriv (fun t => tfTrans (poseAt tr t)) (velocityAt tr (tr.at k)) (tr.at k) := by
  have hrot : IsRot (tfRot (tr.T_WF * tr.T_FO)) := by
    obtain ⟨C, r, hC, e⟩ := hr
    rw [e, tfRot_tf]; exact hC
  obtain ⟨C, r, hC, e⟩ := poseAt_rigid tr hr (tr.at k)
  have e' : tfRot (poseAt tr (tr.at k)) = C := by rw [e, tfRot_tf]
  have hi : ∀ v : Vec3 ℝ, C *ᵥ (Cᵀ *ᵥ v) = v := fun v => by rw [mulVec_mulVec, hC.1, one_mulVec]
  refine ⟨?_, ?_, C77_velocity tr _ (h.inside _)⟩
  · have := C77_angular_velocity tr h.period hrot (tr.at k)
    intro i j
    refine (this i j).congr_deriv ?_
    simp only [ideal]
    rw [e', ← skew_rot hC, hi]
  · have := C77_acceleration tr (tr.at k) (h.inside _)
    intro i
    refine (this i).congr_deriv ?_
    simp only [ideal]
    rw [e', hi, add_sub_cancel_right]

/-- C78 (limit): the noise densities and the random draws have no effect on the simulated data. -/
theorem C78_noise_refuted {tr : Traj} {ts te : ℤ} (h : Ready tr ts te) (p q : ImuParams) (h0 : 0 < p.rate)
    (h1 : p.rate ≤ 1000000000) (hs : ¬ |sec ts - 1 / p.rate| < 1 / p.rate / 2) (hr : q.rate = p.rate) (hg : q.g = p.g)
    (noise noise' : ℕ → Vec3 ℝ) (out : ImuOut) (fuel : ℕ)
    (hf : (sampleTimes ts te (secToTs (1 / p.rate))).length < fuel) :
    simulateImu fuel ts te tr p noise out = simulateImu fuel ts te tr q noise' out := by
  rw [C78_imu_partial h p h0 h1 hs noise out fuel hf,
    C78_imu_partial h q (by rw [hr]; exact h0) (by rw [hr]; exact h1) (by rw [hr]; exact hs) noise' out fuel
      (by rw [hr]; exact hf), hr, hg]

/-- C78 (limit): the check of the sample rate is the wrong way round and made on the first sample
only: a sensor whose first sample is exactly one period after time zero is rejected, on every
trajectory, and a later sample is accepted at any time. -/
theorem C78_rate_check_refuted :
    (∀ (s : SimImu) (noise : ℕ → Vec3 ℝ) (n : ℕ) (ts : ℤ) (T : Mat4 ℝ) (w a : Vec3 ℝ), s.started = false →
      s.ts_prev = 0 → 0 < s.rate → sec ts = 1 / s.rate → s.measure noise n ts T w a = .error .fatal) ∧
    (∀ (s : SimImu) (noise : ℕ → Vec3 ℝ) (n : ℕ) (ts : ℤ) (T : Mat4 ℝ) (w a : Vec3 ℝ), s.started = true →
      s.rate ≠ 0 → ∃ s' r, s.measure noise n ts T w a = .ok (s', n + 4, r)) := by
  constructor
  · intro s noise n ts T w a h1 h2 h3 h4
    unfold SimImu.measure
    rw [if_neg h3.ne', if_pos]
    refine ⟨h1, ?_⟩
    rw [h2, sub_zero, h4, sub_self, abs_zero]
    positivity
  · intro s noise n ts T w a h1 h2
    unfold SimImu.measure
    rw [if_neg h2, if_neg (by rintro ⟨h, -⟩; rw [h1] at h; cases h)]
    exact ⟨_, _, rfl⟩

/-- C78: a simulated IMU that was reset is checked and started afresh. -/
theorem C78_reset (s : SimImu) : s.reset.started = false ∧ s.reset.ts_prev = 0 ∧ s.reset.b_g = 0 ∧ s.reset.b_a = 0 ∧
    s.reset.rate = s.rate ∧ s.reset.g = s.g := ⟨rfl, rfl, rfl, rfl, rfl, rfl⟩

/-- C78: the biases of the simulated IMU: drawn once, then reverting to zero with the time
constants; without drift noise they are zero for ever. -/
theorem C78_bias (s : SimImu) (noise : ℕ → Vec3 ℝ) (n : ℕ) (ts : ℤ) (T : Mat4 ℝ) (w a : Vec3 ℝ) (s' : SimImu) (n' : ℕ) (r : Reading)
    (h : s.measure noise n ts T w a = .ok (s', n', r)) :
    s'.started = true ∧ s'.ts_prev = ts ∧
    (s.started = true → s.tau_g ≠ 0 → s.tau_a ≠ 0 →
      s'.b_g = (1 - 1 / (s.rate * s.tau_g)) • s.b_g + (s.sigma_gw_c * Real.sqrt (1 / s.rate)) • noise n ∧
      s'.b_a = (1 - 1 / (s.rate * s.tau_a)) • s.b_a + (s.sigma_aw_c * Real.sqrt (1 / s.rate)) • noise (n + 1)) ∧
    (s.sigma_gw_c = 0 → (s.started = false ∨ s.b_g = 0) → s'.b_g = 0) ∧
    (s.sigma_aw_c = 0 → (s.started = false ∨ s.b_a = 0) → s'.b_a = 0) := by
  unfold SimImu.measure at h
  split_ifs at h with h1 h2
  cases h
  refine ⟨rfl, rfl, ?_, ?_, ?_⟩
  · intro hs hg ha
    constructor
    · simp only [SimImu.drift, hs]
      ext i
      simp
      field_simp
      ring
    · simp only [SimImu.drift, hs]
      ext i
      simp
      field_simp
      ring
  · intro h0 hb
    rcases hb with hb | hb
    · simp [SimImu.drift, hb, h0]
    · by_cases hst : s.started = false <;> simp [SimImu.drift, hst, h0, hb]
  · intro h0 hb
    rcases hb with hb | hb
    · simp [SimImu.drift, hb, h0]
    · by_cases hst : s.started = false <;> simp [SimImu.drift, hst, h0, hb]

/-- C78: the first biases are drawn with the standard deviations of the stationary
Ornstein-Uhlenbeck processes, each with its own time constant. -/
theorem C78_first_bias (s : SimImu) (noise : ℕ → Vec3 ℝ) (n : ℕ) (ts : ℤ) (T : Mat4 ℝ) (w a : Vec3 ℝ)
    (s' : SimImu) (n' : ℕ) (r : Reading) (h : s.measure noise n ts T w a = .ok (s', n', r))
    (h0 : s.started = false) (hg : 0 < s.tau_g) (ha : 0 < s.tau_a) :
    (∀ i, (s'.b_g i) ^ 2 = s.sigma_gw_c ^ 2 * (s.tau_g / 2) * noise n i ^ 2) ∧
    (∀ i, (s'.b_a i) ^ 2 = s.sigma_aw_c ^ 2 * (s.tau_a / 2) * noise (n + 1) i ^ 2) ∧
    (s'.b_g = (s.sigma_gw_c * Real.sqrt (s.tau_g / 2)) • noise n) ∧
    s'.b_a = (s.sigma_aw_c * Real.sqrt (s.tau_a / 2)) • noise (n + 1) := by
  unfold SimImu.measure at h
  split_ifs at h with h1 h2
  cases h
  simp only [SimImu.drift, h0, if_true]
  refine ⟨?_, ?_, trivial, trivial⟩
  · intro i
    simp only [Pi.smul_apply, smul_eq_mul]
    rw [mul_pow, mul_pow, Real.sq_sqrt (by linarith)]
  · intro i
    simp only [Pi.smul_apply, smul_eq_mul]
    rw [mul_pow, mul_pow, Real.sq_sqrt (by linarith)]

/-- C78 (limit): with a rate above one per nanosecond the period is cut to zero and the loop never
ends. -/
theorem C78_stuck_refuted {tr : Traj} {ts te : ℤ} (h : Ready tr ts te) (hle : ts ≤ te) (p : ImuParams)
    (h1 : 1000000000 < p.rate) (hs : ¬ |sec ts - 1 / p.rate| < 1 / p.rate / 2) (noise : ℕ → Vec3 ℝ) (out : ImuOut)
    (fuel : ℕ) : simulateImu fuel ts te tr p noise out = .error .diverge := by
  have h0 : 0 < p.rate := by linarith
  unfold simulateImu
  rw [if_neg h0.ne', secToTs_zero h1]
  rw [ticks_stuck (imuStep tr noise) te ts hle (fun st => st.1.rate = p.rate ∧
    (st.1.started = true ∨ ¬ |sec (ts - st.1.ts_prev) - 1 / st.1.rate| < 1 / st.1.rate / 2)) ?_ fuel _
    ⟨rfl, Or.inr (by simpa using hs)⟩]
  · rfl
  · rintro ⟨s, n, o⟩ ⟨e1, e2⟩
    obtain ⟨s', n', e, p1, -, p3, -⟩ := imuStep_ok h noise ts le_rfl hle s n o (by rw [e1]; exact h0.ne') e2
    exact ⟨_, e, by rw [p3]; exact e1, Or.inl p1⟩

/-! ## The simulated cameras -/

/-- C78: the grid simulated for a camera with extrinsics `ext` on a rig at `T_FC0` is the one that this
camera sees from the pose `T_FC0 · ext`. -/
theorem C78_grid (ts : ℤ) (tg : Nbv.Target) (T_FC0 ext : Mat4 ℝ) (cam : Nbv.Camera) (h0 : Rigid T_FC0) (he : Rigid ext) :
    simulateGrid ts tg T_FC0 cam ext = Nbv.targetGrid tg cam ts (T_FC0 * ext) := by
  unfold simulateGrid Nbv.targetGrid
  rw [he.inverse, AprilGrid.ok_bind, h0.inverse, AprilGrid.ok_bind, (h0.mul he).inverse, AprilGrid.ok_bind,
    Matrix.mul_inv_rev]
  congr 1
  funext g tc
  unfold addSeenFrom Nbv.addSeen
  simp only [Rigid.point he.inv h0.inv]

/-- Every camera of the rig is calibrated: it has a resolution and parameters, and rigid extrinsics. -/
structure Rig.Calibrated (rig : Rig) : Prop where
  sorted : SMap.Sorted rig.geoms
  params : ∀ ci ∈ rig.geoms, ∃ pr, SMap.find ci.1 rig.params = some pr
  exts : ∀ ci ∈ rig.geoms, ∃ e, SMap.find ci.1 rig.exts = some e ∧ Rigid e

/-- The grid stored for camera `idx` at time `k`. -/
def shot (d : CamData) (k idx : ℤ) : Option (AprilGrid.Grid ℝ) := (SMap.find k d).bind (SMap.find idx)

/-- What camera `ci` of the rig sees of the target at time `k` when the rig is at `T`, in target
coordinates. -/
def Pictures (rig : Rig) (tg : Nbv.Target) (k : ℤ) (T : Mat4 ℝ) (ci : ℤ × Nbv.Lens) (g : AprilGrid.Grid ℝ) : Prop :=
  ∃ pr e, SMap.find ci.1 rig.params = some pr ∧ SMap.find ci.1 rig.exts = some e ∧
    Nbv.targetGrid tg ⟨ci.2, pr.1, pr.2⟩ k (T * e) = .ok g

theorem targetGrid_ok (tg : Nbv.Target) (cam : Nbv.Camera) (k : ℤ) {T : Mat4 ℝ} (h : Rigid T) :
    ∃ g, Nbv.targetGrid tg cam k T = .ok g ∧ g.timestamp = k := by
  obtain ⟨C, r, hC, rfl⟩ := h
  obtain ⟨g, h1, h2, -⟩ := Nbv.C56_grid tg cam k C r hC
  exact ⟨g, h1, h2⟩

theorem shot_set (d : CamData) (k idx : ℤ) (g : AprilGrid.Grid ℝ) (k' idx' : ℤ) :
    shot (SMap.set k (SMap.set idx g ((SMap.find k d).getD [])) d) k' idx' =
      if k' = k ∧ idx' = idx then some g else shot d k' idx' := by
  unfold shot
  rw [SMap.find_set]
  by_cases hk : k' = k
  · subst hk
    simp only [↓reduceIte, Option.bind_some, true_and]
    rw [SMap.find_set]
    split_ifs with hi
    · rfl
    · cases hf : SMap.find k' d with
      | none => simp [SMap.find]
      | some m => simp
  · simp [hk]

theorem camera_fold {rig : Rig} (hr : rig.Calibrated) (tg : Nbv.Target) (k : ℤ) {T : Mat4 ℝ} (hT : Rigid T)
    (l : List (ℤ × Nbv.Lens)) (hl : ∀ ci ∈ l, ci ∈ rig.geoms) (hn : l.Pairwise (fun a b => a.1 < b.1)) (d : CamData) :
    ∃ d', l.foldlM (cameraStep rig tg k T) d = .ok d' ∧
      (∀ k' idx, (k' ≠ k ∨ ∀ ci ∈ l, ci.1 ≠ idx) → shot d' k' idx = shot d k' idx) ∧
      ∀ ci ∈ l, ∃ g, shot d' k ci.1 = some g ∧ Pictures rig tg k T ci g := by
  induction l generalizing d with
  | nil => exact ⟨d, rfl, fun _ _ _ => rfl, fun ci h => by cases h⟩
  | cons ci l ih =>
    have hci := hl ci (List.mem_cons_self ..)
    obtain ⟨pr, hp⟩ := hr.params ci hci
    obtain ⟨e, he, hre⟩ := hr.exts ci hci
    obtain ⟨g, hg, -⟩ := targetGrid_ok tg ⟨ci.2, pr.1, pr.2⟩ k (hT.mul hre)
    have hgeo : SMap.find ci.1 rig.geoms = some ci.2 := (SMap.find_eq_some hr.sorted).mpr hci
    rw [List.pairwise_cons] at hn
    obtain ⟨d', h1, h2, h3⟩ := ih (fun c hc => hl c (List.mem_cons_of_mem _ hc)) hn.2
      (SMap.set k (SMap.set ci.1 g ((SMap.find k d).getD [])) d)
    have hstep : cameraStep rig tg k T d ci = .ok (SMap.set k (SMap.set ci.1 g ((SMap.find k d).getD [])) d) := by
      unfold cameraStep
      simp only [atKey, hgeo, hp, he, AprilGrid.ok_bind]
      rw [C78_grid k tg T e _ hT hre, hg, AprilGrid.ok_bind]
    refine ⟨d', by rw [List.foldlM_cons, hstep, AprilGrid.ok_bind, h1], ?_, ?_⟩
    · intro k' idx h
      rw [h2 k' idx (h.imp id fun f c hc => f c (List.mem_cons_of_mem _ hc)), shot_set, if_neg]
      rintro ⟨rfl, rfl⟩
      rcases h with h | h
      · exact h rfl
      · exact h ci (List.mem_cons_self ..) rfl
    · intro c hc
      rcases List.mem_cons.mp hc with rfl | hc
      · refine ⟨g, ?_, pr, e, hp, he, hg⟩
        rw [h2 k c.1 (Or.inr fun c' hc' => (hn.1 c' hc').ne'), shot_set, if_pos ⟨rfl, rfl⟩]
      · exact h3 c hc

theorem frame_fold {tr : Traj} {ts te : ℤ} (h : Ready tr ts te) (hp : Rigid (tr.T_WF * tr.T_FO)) {rig : Rig}
    (hr : rig.Calibrated) (tg : Nbv.Target) {T_WF : Mat4 ℝ} (hW : Rigid T_WF) (l : List ℤ)
    (hl : ∀ k ∈ l, ts ≤ k ∧ k ≤ te) (hn : l.Pairwise (· < ·)) (d : CamData) (ps : List (ℤ × Mat4 ℝ)) :
    ∃ d' ps', l.foldlM (fun s t => frameStep tr tg rig T_WF t s) (d, ps) = .ok (d', ps') ∧
      (∀ k, SMap.find k ps' = if k ∈ l then some (poseAt tr (tr.at k)) else SMap.find k ps) ∧
      (∀ k idx, (k ∉ l ∨ ∀ ci ∈ rig.geoms, ci.1 ≠ idx) → shot d' k idx = shot d k idx) ∧
      ∀ k ∈ l, ∀ ci ∈ rig.geoms, ∃ g, shot d' k ci.1 = some g ∧
        Pictures rig tg k (T_WF⁻¹ * poseAt tr (tr.at k)) ci g := by
  induction l generalizing d ps with
  | nil => exact ⟨d, ps, rfl, fun k => by simp, fun _ _ _ => rfl, fun ci h => by cases h⟩
  | cons k l ih =>
    obtain ⟨a, b⟩ := hl k (List.mem_cons_self ..)
    have hpose := (h.get k a b).1
    have hP := poseAt_rigid tr hp (tr.at k)
    have hF : Rigid (T_WF⁻¹ * poseAt tr (tr.at k)) := hW.inv.mul hP
    obtain ⟨d1, e1, f1, g1⟩ := camera_fold hr tg k hF rig.geoms (fun _ h => h) hr.sorted d
    rw [List.pairwise_cons] at hn
    obtain ⟨d', ps', e2, f2, g2, i2⟩ := ih (fun j hj => hl j (List.mem_cons_of_mem _ hj)) hn.2 d1
      (SMap.set k (poseAt tr (tr.at k)) ps)
    have hstep : frameStep tr tg rig T_WF k (d, ps) = .ok (d1, SMap.set k (poseAt tr (tr.at k)) ps) := by
      unfold frameStep
      rw [hpose, AprilGrid.ok_bind, hP.inverse, AprilGrid.ok_bind, (hP.inv.mul hW).inverse, AprilGrid.ok_bind,
        Matrix.mul_inv_rev, Matrix.nonsing_inv_nonsing_inv _ hP.unit, e1, AprilGrid.ok_bind]
    have hnot : k ∉ l := fun hk => lt_irrefl k (hn.1 k hk)
    refine ⟨d', ps', by rw [List.foldlM_cons, hstep, AprilGrid.ok_bind, e2], ?_, ?_, ?_⟩
    · intro j
      rw [f2, SMap.find_set]
      by_cases hj : j ∈ l
      · rw [if_pos hj, if_pos (List.mem_cons_of_mem _ hj)]
      · rw [if_neg hj]
        by_cases hjk : j = k
        · subst hjk; rw [if_pos rfl, if_pos (List.mem_cons_self ..)]
        · rw [if_neg hjk, if_neg (by simp [hj, hjk])]
    · intro j idx hj
      have h1 : j ∉ l ∨ ∀ ci ∈ rig.geoms, ci.1 ≠ idx := hj.imp (fun f hm => f (List.mem_cons_of_mem _ hm)) id
      rw [g2 j idx h1, f1 j idx (hj.imp (fun f hm => f (by rw [hm]; exact List.mem_cons_self ..)) id)]
    · intro j hj ci hci
      rcases List.mem_cons.mp hj with rfl | hj
      · obtain ⟨g, hg, hpic⟩ := g1 ci hci
        exact ⟨g, by rw [g2 j ci.1 (Or.inl hnot), hg], hpic⟩
      · exact i2 j hj ci hci

/-- C78: at every frame time the simulated cameras store the pose of the rig and, for every camera, the
grid which that camera sees of the target from where it is; nothing else changes. -/
theorem C78_cameras {tr : Traj} {ts te : ℤ} (h : Ready tr ts te) (hp : Rigid (tr.T_WF * tr.T_FO)) {rig : Rig}
    (hr : rig.Calibrated) (tg : Nbv.Target) {T_WF : Mat4 ℝ} (hW : Rigid T_WF) (rate : ℝ) (h0 : 0 < rate)
    (h1 : rate ≤ 1000000000) (d : CamData) (ps : List (ℤ × Mat4 ℝ)) (fuel : ℕ)
    (hf : (sampleTimes ts te (secToTs (1 / rate))).length < fuel) :
    let times := sampleTimes ts te (secToTs (1 / rate))
    ∃ d' ps', simulateCameras fuel ts te tr tg rig rate T_WF (d, ps) = .ok (d', ps') ∧
      (∀ k, SMap.find k ps' = if k ∈ times then some (poseAt tr (tr.at k)) else SMap.find k ps) ∧
      (∀ k idx, (k ∉ times ∨ ∀ ci ∈ rig.geoms, ci.1 ≠ idx) → shot d' k idx = shot d k idx) ∧
      ∀ k ∈ times, ∀ ci ∈ rig.geoms, ∃ g, shot d' k ci.1 = some g ∧
        Pictures rig tg k (T_WF⁻¹ * poseAt tr (tr.at k)) ci g := by
  have hd := secToTs_pos h0 h1
  obtain ⟨d', ps', e, rest⟩ := frame_fold h hp hr tg hW (sampleTimes ts te (secToTs (1 / rate)))
    (fun k hk => by
      obtain ⟨⟨j, rfl⟩, h2⟩ := (mem_sampleTimes hd k).mp hk
      exact ⟨by have : 0 ≤ (j : ℤ) * secToTs (1 / rate) := mul_nonneg (by positivity) hd.le
                linarith, h2⟩)
    (C78_times ts te _ hd).2.1 d ps
  refine ⟨d', ps', ?_, rest⟩
  unfold simulateCameras
  rw [if_neg h0.ne', ticks_eq _ _ _ hd _ _ _ hf, e]

/-- C78: a camera without parameters or extrinsics is an exception at the first frame. -/
theorem C78_cameras_missing {tr : Traj} {ts te : ℤ} (h : Ready tr ts te) (hp : Rigid (tr.T_WF * tr.T_FO)) (hle : ts ≤ te)
    (rig : Rig) (tg : Nbv.Target) {T_WF : Mat4 ℝ} (hW : Rigid T_WF) (rate : ℝ) (h0 : rate ≠ 0)
    (ci : ℤ × Nbv.Lens) (rest : List (ℤ × Nbv.Lens)) (hg : rig.geoms = ci :: rest)
    (hm : SMap.find ci.1 rig.params = none ∨ SMap.find ci.1 rig.exts = none) (st : CamData × List (ℤ × Mat4 ℝ)) (fuel : ℕ) :
    simulateCameras (fuel + 1) ts te tr tg rig rate T_WF st = .error .exn := by
  have hP := poseAt_rigid tr hp (tr.at ts)
  have hgeo : SMap.find ci.1 rig.geoms = some ci.2 := by rw [hg]; simp [SMap.find]
  have hc : ∀ T, cameraStep rig tg ts T st.1 ci = .error .exn := by
    intro T
    unfold cameraStep
    simp only [atKey, hgeo, AprilGrid.ok_bind]
    cases hpar : SMap.find ci.1 rig.params with
    | none => rfl
    | some pr =>
      rcases hm with hm | hm
      · rw [hpar] at hm; cases hm
      · simp only [AprilGrid.ok_bind, hm]; rfl
  unfold simulateCameras
  rw [if_neg h0]
  unfold ticks
  rw [if_pos hle]
  unfold frameStep
  rw [(h.get ts le_rfl hle).1, AprilGrid.ok_bind, hP.inverse, AprilGrid.ok_bind, (hP.inv.mul hW).inverse, AprilGrid.ok_bind,
    hg, List.foldlM_cons, hc]
  rfl

/-! ## The simulated timeline -/

/-- The events in the order in which they are added: the IMU samples, then the grids that detected
something, by time and camera. -/
def events (d : CamData) (imu : List (ℤ × Vec3 ℝ × Vec3 ℝ)) : List (ℤ × Event) :=
  imu.map (fun s => (s.1, .imu s.2.1 s.2.2)) ++
    d.flatMap fun p => (p.2.filter fun q => q.2.detected).map fun q => (p.1, .grid q.1 q.2)

theorem addImu_eq (acc gyr : List (Vec3 ℝ)) (l : List ℤ) (i : ℕ) (t : Timeline.T Event)
    (ha : i + l.length ≤ acc.length) (hg : i + l.length ≤ gyr.length) :
    addImu acc gyr i l t = .ok ((l.zip ((acc.drop i).zip (gyr.drop i))).foldl
      (fun t s => Timeline.add t s.1 (.imu s.2.1 s.2.2)) t) := by
  induction l generalizing i t with
  | nil => rfl
  | cons k l ih =>
    rw [List.length_cons] at ha hg
    have h1 : i < acc.length := by omega
    have h2 : i < gyr.length := by omega
    unfold addImu
    rw [List.getElem?_eq_getElem h1, List.getElem?_eq_getElem h2]
    simp only
    rw [ih (i + 1) _ (by omega) (by omega), List.drop_eq_getElem_cons h1, List.drop_eq_getElem_cons h2]
    rfl

theorem addImu_short (acc gyr : List (Vec3 ℝ)) (l : List ℤ) (i : ℕ) (t : Timeline.T Event)
    (h : acc.length < i + l.length ∨ gyr.length < i + l.length) (ha : i ≤ acc.length) (hg : i ≤ gyr.length) :
    addImu acc gyr i l t = .error .oob := by
  induction l generalizing i t with
  | nil => simp at h; omega
  | cons k l ih =>
    rw [List.length_cons] at h
    unfold addImu
    by_cases h1 : i < acc.length
    · by_cases h2 : i < gyr.length
      · rw [List.getElem?_eq_getElem h1, List.getElem?_eq_getElem h2]
        exact ih (i + 1) _ (by omega) h1 h2
      · rw [List.getElem?_eq_none (by omega : gyr.length ≤ i), List.getElem?_eq_getElem h1]
    · rw [List.getElem?_eq_none (by omega : acc.length ≤ i)]

theorem addGrids_eq (d : CamData) (t : Timeline.T Event) :
    addGrids d t = (d.flatMap fun p => (p.2.filter fun q => q.2.detected).map fun q => (p.1, Event.grid q.1 q.2)).foldl
      (fun t a => Timeline.add t a.1 a.2) t := by
  unfold addGrids
  rw [List.foldl_flatMap]
  congr 1
  funext t p
  rw [List.foldl_map, List.foldl_filter]

/-- C78: the timeline holds, at each instant, first the IMU sample of that instant and then the grids
detected at that instant by camera number; its timestamps are those of the samples and of the
detected grids. -/
theorem C78_timeline (d : CamData) (imu : List (ℤ × Vec3 ℝ × Vec3 ℝ)) :
    ∃ t, createTimeline d (imu.map (·.1)) (imu.map (·.2.1)) (imu.map (·.2.2)) Timeline.empty = .ok t ∧
      (∀ k, Timeline.getEvents t k = ((events d imu).filter (fun a => a.1 = k)).map Prod.snd) ∧
      ∀ k, k ∈ t.timestamps ↔ ∃ e, (k, e) ∈ events d imu := by
  refine ⟨Timeline.run (events d imu), ?_, fun k => (Timeline.C11_timeline _ k).2.2.1, (Timeline.C11_timeline _ 0).2.1⟩
  unfold createTimeline
  rw [addImu_eq _ _ _ _ _ (by simp) (by simp), AprilGrid.ok_bind, addGrids_eq, Timeline.run, events, List.foldl_append,
    List.foldl_map]
  congr 3
  rw [List.drop_zero, List.drop_zero]
  induction imu with
  | nil => rfl
  | cons s l ih => simp [ih]

/-- C78 (limit): sample vectors shorter than the list of timestamps are read past the end. -/
theorem C78_timeline_oob (d : CamData) (ts : List ℤ) (acc gyr : List (Vec3 ℝ)) (t : Timeline.T Event)
    (h : acc.length < ts.length ∨ gyr.length < ts.length) : createTimeline d ts acc gyr t = .error .oob := by
  unfold createTimeline
  rw [addImu_short acc gyr ts 0 t (by simpa using h) (by omega) (by omega)]
  rfl

/-! ## The choice of the next trajectory -/

section Find
variable {n : Type} [Fintype n] [DecidableEq n]

theorem entropy_eq (H : Matrix n n ℝ) : entropy H = if 0 < H.det then some (-(Real.log H.det / Real.log 2)) else none := by
  unfold entropy
  rw [Matrix.det_nonsing_inv, Ring.inverse_eq_inv']
  rcases lt_trichotomy H.det 0 with h | h | h
  · rw [if_neg h.ne, if_pos (inv_neg''.mpr h), if_neg (by linarith)]
  · rw [if_pos h, if_neg (by rw [h]; exact lt_irrefl 0)]
  · rw [if_neg h.ne', if_neg (not_lt.mpr (inv_pos.mpr h).le), if_pos h, Real.log_inv, neg_div]

/-- The information with which an evaluation is credited: the determinant of its information matrix. -/
noncomputable def credit : Option (Matrix n n ℝ) → ℝ
  | none => 1
  | some H => H.det

theorem entry_eq (e : Option (Matrix n n ℝ)) :
    entry e =
      if 0 < credit e then some (-(Real.log (credit e) / Real.log 2)) else none := by
  cases e with
  | none => simp [credit, entry]
  | some H => exact entropy_eq H

theorem log2_pos : 0 < Real.log 2 := Real.log_pos (by norm_num)

theorem gain_eq {H : Matrix n n ℝ} (h : 0 < H.det) (e : Option (Matrix n n ℝ)) :
    gain (entropy H) (entry e) =
      if 0 < credit e then some ((Real.log (credit e) - Real.log H.det) / Real.log 2 / 2) else none := by
  rw [entry_eq, entropy_eq, if_pos h]
  split_ifs with h'
  · simp only [gain]
    congr 1
    ring
  · rfl

theorem find_fold {H : Matrix n n ℝ} (h : 0 < H.det) (l : List (Option (Matrix n n ℝ))) :
    let best := ((entropies l).zipIdx).foldl (pick (entropy H)) (-1, 0)
    (best = (-1, 0) ∧ ∀ e ∈ l, credit e ≤ H.det) ∨
    ∃ (j : ℕ) (e : Option (Matrix n n ℝ)), best = ((j : ℤ), (Real.log (credit e) - Real.log H.det) / Real.log 2 / 2) ∧
      l[j]? = some e ∧ H.det < credit e ∧ (∀ e' ∈ l, credit e' ≤ credit e) ∧
      ∀ i e', i < j → l[i]? = some e' → credit e' < credit e := by
  induction l using List.reverseRecOn with
  | nil => exact Or.inl ⟨rfl, fun e h => by cases h⟩
  | append_singleton l a ih =>
    have hz : (entropies (l ++ [a])).zipIdx = (entropies l).zipIdx ++
        [(entry a, l.length)] := by
      unfold entropies
      rw [List.map_append, List.zipIdx_append]
      simp
    simp only [hz, List.foldl_append, List.foldl_cons, List.foldl_nil]
    have hpos : ∀ {x y : ℝ}, 0 < x → 0 < y →
        ((Real.log x - Real.log H.det) / Real.log 2 / 2 < (Real.log y - Real.log H.det) / Real.log 2 / 2 ↔ x < y) := by
      intro x y hx hy
      rw [div_lt_div_iff_of_pos_right (by norm_num), div_lt_div_iff_of_pos_right log2_pos, sub_lt_sub_iff_right,
        Real.log_lt_log_iff hx hy]
    have hzero : ∀ {y : ℝ}, 0 < y → (0 < (Real.log y - Real.log H.det) / Real.log 2 / 2 ↔ H.det < y) := by
      intro y hy
      have := hpos h hy
      rwa [sub_self, zero_div, zero_div] at this
    have hp : ∀ b : ℤ × ℝ, pick (entropy H) b (entry a, l.length) =
        if 0 < credit a ∧ b.2 < (Real.log (credit a) - Real.log H.det) / Real.log 2 / 2 then
          ((l.length : ℤ), (Real.log (credit a) - Real.log H.det) / Real.log 2 / 2) else b := by
      intro b
      unfold pick
      simp only [gain_eq h]
      by_cases hc : 0 < credit a
      · rw [if_pos hc]
        simp only [hc, true_and, gt_iff_lt]
      · rw [if_neg hc, if_neg fun h => hc h.1]
    rw [hp]
    have hlast : (l ++ [a])[l.length]? = some a := by simp
    rcases ih with ⟨e1, h1⟩ | ⟨j, e, e1, h1, h2, h3, h4⟩
    · rw [e1]
      by_cases hc : 0 < credit a ∧ (0 : ℝ) < (Real.log (credit a) - Real.log H.det) / Real.log 2 / 2
      · have hlt := (hzero hc.1).mp hc.2
        rw [if_pos hc]
        refine Or.inr ⟨l.length, a, rfl, hlast, hlt, ?_, ?_⟩
        · intro e' he'
          rcases List.mem_append.mp he' with he' | he'
          · exact (h1 e' he').trans hlt.le
          · rw [List.mem_singleton.mp he']
        · intro i e' hi hie
          rw [List.getElem?_append_left hi] at hie
          exact (h1 e' (List.mem_of_getElem? hie)).trans_lt hlt
      · rw [if_neg hc]
        refine Or.inl ⟨rfl, fun e he => ?_⟩
        rcases List.mem_append.mp he with he | he
        · exact h1 e he
        · rw [List.mem_singleton.mp he]
          by_contra hgt
          rw [not_le] at hgt
          exact hc ⟨h.trans hgt, (hzero (h.trans hgt)).mpr hgt⟩
    · rw [e1]
      have hce : 0 < credit e := h.trans h2
      have hj : j < l.length := by
        by_contra hj
        rw [List.getElem?_eq_none (by omega)] at h1
        cases h1
      by_cases hc : 0 < credit a ∧ (Real.log (credit e) - Real.log H.det) / Real.log 2 / 2 <
          (Real.log (credit a) - Real.log H.det) / Real.log 2 / 2
      · have hlt := (hpos hce hc.1).mp hc.2
        rw [if_pos hc]
        refine Or.inr ⟨l.length, a, rfl, hlast, h2.trans hlt, ?_, ?_⟩
        · intro e' he'
          rcases List.mem_append.mp he' with he' | he'
          · exact (h3 e' he').trans hlt.le
          · rw [List.mem_singleton.mp he']
        · intro i e' hi hie
          rw [List.getElem?_append_left hi] at hie
          exact (h3 e' (List.mem_of_getElem? hie)).trans_lt hlt
      · rw [if_neg hc]
        refine Or.inr ⟨j, e, rfl, by rw [List.getElem?_append_left hj]; exact h1, h2, ?_, ?_⟩
        · intro e' he'
          rcases List.mem_append.mp he' with he' | he'
          · exact h3 e' he'
          · rw [List.mem_singleton.mp he']
            by_contra hgt
            rw [not_le] at hgt
            exact hc ⟨hce.trans hgt, (hpos hce (hce.trans hgt)).mpr hgt⟩
        · intro i e' hi hie
          rw [List.getElem?_append_left (by omega)] at hie
          exact h4 i e' hi hie

/-- C79 (partial: every trajectory could be evaluated): the index returned is that of the first
trajectory with the greatest determinant of the information matrix, if that is greater than the present one,
and -1 otherwise; the values written are the entropies of the present and of the chosen estimate in bits, the
latter 0 if none is chosen. -/
theorem C79_best_partial (H : Matrix n n ℝ) (h : 0 < H.det) (Hs : List (Matrix n n ℝ)) :
    (nbtFind H (Hs.map some)).2.1 = some (-Real.logb 2 H.det) ∧
    ((nbtFind H (Hs.map some)).1 = -1 ∧ (nbtFind H (Hs.map some)).2.2 = some 0 ∧ (∀ K ∈ Hs, K.det ≤ H.det) ∨
      ∃ (j : ℕ) (K : Matrix n n ℝ), (nbtFind H (Hs.map some)).1 = j ∧
        (nbtFind H (Hs.map some)).2.2 = some (-Real.logb 2 K.det) ∧ Hs[j]? = some K ∧
        H.det < K.det ∧ (∀ K' ∈ Hs, K'.det ≤ K.det) ∧ ∀ i K', i < j → Hs[i]? = some K' → K'.det < K.det) := by
  have hk : entropy H = some (-Real.logb 2 H.det) := by rw [entropy_eq, if_pos h]; rfl
  refine ⟨hk, ?_⟩
  unfold nbtFind
  simp only
  rcases find_fold h (Hs.map some) with ⟨e1, h1⟩ | ⟨j, e, e1, h1, h2, h3, h4⟩
  · left
    rw [e1]
    exact ⟨rfl, by simp, fun K hK => h1 (some K) (List.mem_map_of_mem hK)⟩
  · right
    rw [List.getElem?_map] at h1
    obtain ⟨K, hK, rfl⟩ : ∃ K, Hs[j]? = some K ∧ some K = e := by
      cases hj : Hs[j]? with
      | none => rw [hj] at h1; cases h1
      | some K => rw [hj] at h1; exact ⟨K, rfl, by simpa using h1⟩
    refine ⟨j, K, by rw [e1], ?_, hK, h2, fun K' hK' => h3 (some K') (List.mem_map_of_mem hK'), fun i K' hi hK' =>
      h4 i (some K') hi (by rw [List.getElem?_map, hK']; rfl)⟩
    rw [e1]
    simp only
    rw [if_neg (by omega), Int.toNat_natCast]
    unfold entropies
    rw [List.map_map, List.getElem?_map, hK]
    have : 0 < K.det := h.trans h2
    simp only [Option.map_some, Function.comp, Option.getD_some]
    show entropy K = _
    rw [entropy_eq, if_pos this]
    rfl

/-- C79 (limit): a trajectory whose evaluation failed counts as one with determinant 1: it is chosen
over every other one when all determinants are below 1. -/
theorem C79_failed_refuted (H : Matrix n n ℝ) (h : 0 < H.det) (h1 : H.det < 1) (l r : List (Matrix n n ℝ))
    (hl : ∀ K ∈ l, K.det < 1) (hr : ∀ K ∈ r, K.det ≤ 1) :
    (nbtFind H (l.map some ++ none :: r.map some)).1 = l.length := by
  unfold nbtFind
  simp only
  have hmem : none ∈ l.map some ++ none :: r.map some := by simp
  have hat : (l.map some ++ none :: r.map some)[l.length]? = some none := by
    rw [List.getElem?_append_right (by simp)]; simp
  rcases find_fold h (l.map some ++ none :: r.map some) with ⟨e1, h2⟩ | ⟨j, e, e1, h2, h3, h4, h5⟩
  · have := h2 none hmem
    simp only [credit] at this
    linarith
  · rw [e1]
    simp only
    have hge : 1 ≤ credit e := h4 none hmem
    have hle : ∀ e' ∈ l.map some ++ none :: r.map some, credit e' ≤ 1 := by
      intro e' he'
      rcases List.mem_append.mp he' with he' | he'
      · obtain ⟨K, hK, rfl⟩ := List.mem_map.mp he'; exact (hl K hK).le
      · rcases List.mem_cons.mp he' with rfl | he'
        · exact le_rfl
        · obtain ⟨K, hK, rfl⟩ := List.mem_map.mp he'; exact hr K hK
    rcases lt_trichotomy j l.length with hj | hj | hj
    · rw [List.getElem?_append_left (by simpa using hj), List.getElem?_map] at h2
      cases hK : l[j]? with
      | none => rw [hK] at h2; cases h2
      | some K =>
        rw [hK] at h2
        simp only [Option.map_some, Option.some.injEq] at h2
        subst h2
        have := hl K (List.mem_of_getElem? hK)
        simp only [credit] at hge
        linarith
    · rw [hj]
    · have := h5 _ _ hj hat
      have h6 := hle e (List.mem_of_getElem? h2)
      change 1 < credit e at this
      linarith

end Find

/-! ## Witnesses -/

/-- The generated trajectories satisfy the hypotheses of the simulators: here over two seconds around a
6 by 6 target standing in the world frame. -/
example : ∃ tr, Ready tr 0 2000000000 ∧ Rigid (tr.T_WF * tr.T_FO) := by
  obtain ⟨trs, -, h2, h3⟩ := generated_ready 0 2000000000 (by norm_num) ⟨6, 6, 0.088, 0.3⟩
    ⟨by norm_num, by norm_num, by norm_num, by norm_num⟩ 1 Nbv.one_rot 0 []
  cases trs with
  | nil => cases h2
  | cons tr l => exact ⟨tr, h3 tr (List.mem_cons_self ..)⟩

/-- At 200 Hz the first sample at time 0 passes the check, and the two cameras of a rig are calibrated. -/
example : ¬ |sec 0 - 1 / 200| < 1 / 200 / 2 ∧
    Rig.Calibrated ⟨[(0, .radtan), (1, .equi)], [(0, ![640, 480], ![400, 400, 320, 240, 0, 0, 0, 0]),
      (1, ![640, 480], ![400, 400, 320, 240, 0, 0, 0, 0])], [(0, tf 1 0), (1, tf 1 ![1, 0, 0])]⟩ := by
  constructor
  · rw [not_lt, sec]
    norm_num
  · refine ⟨?_, ?_, ?_⟩
    · simp [SMap.Sorted]
    · intro ci hci
      simp only [List.mem_cons, List.not_mem_nil, or_false] at hci
      rcases hci with rfl | rfl
      · exact ⟨_, rfl⟩
      · exact ⟨_, rfl⟩
    · intro ci hci
      simp only [List.mem_cons, List.not_mem_nil, or_false] at hci
      rcases hci with rfl | rfl
      · exact ⟨_, rfl, 1, 0, Nbv.one_rot, rfl⟩
      · exact ⟨_, rfl, 1, ![1, 0, 0], Nbv.one_rot, rfl⟩

/-- Three evaluated trajectories: the second one is chosen, although the third is as good. -/
example : (nbtFind (Matrix.diagonal ![1, 2]) [some (Matrix.diagonal ![1, 3]), some (Matrix.diagonal ![2, 2]),
    some (Matrix.diagonal ![4, (1 : ℝ)])]).1 = 1 := by
  have h : (0 : ℝ) < (Matrix.diagonal ![1, (2 : ℝ)]).det := by simp
  rcases (C79_best_partial _ h [Matrix.diagonal ![1, 3], Matrix.diagonal ![2, 2], Matrix.diagonal ![4, 1]]).2 with
    ⟨-, -, h1⟩ | ⟨j, K, e, -, hj, h1, h2, h3⟩
  · have := h1 (Matrix.diagonal ![1, 3]) (by simp)
    simp at this
    norm_num at this
  · change (nbtFind _ (List.map some [Matrix.diagonal ![1, 3], Matrix.diagonal ![2, 2], Matrix.diagonal ![4, 1]])).1 = 1
    rw [e]
    match j with
    | 0 =>
      simp at hj
      subst hj
      have := h2 (Matrix.diagonal ![2, 2]) (by simp)
      simp at this
      norm_num at this
    | 1 => rfl
    | 2 =>
      simp at hj
      subst hj
      have := h3 1 (Matrix.diagonal ![2, 2]) (by norm_num) (by simp)
      simp at this
      norm_num at this
    | j + 3 => simp at hj

end Yac.Nbt
