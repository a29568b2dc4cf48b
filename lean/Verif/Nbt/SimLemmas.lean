import Verif.Nbt.Sim
import Verif.Nbt.TrajProps
import Verif.Nbv.Props
import Verif.Timeline.Props

/-!
# Lemmas about the simulators
-/

namespace Yac.Nbt
open Matrix Yac.Geom Yac.Residual

/-- The instants `ts, ts + dt, ts + 2 dt, …` that are not after `te`. -/
def sampleTimes (ts te dt : ℤ) : List ℤ :=
  if te < ts then [] else (List.range (((te - ts) / dt).toNat + 1)).map fun k : ℕ => ts + (k : ℤ) * dt

theorem mem_sampleTimes {ts te dt : ℤ} (hd : 0 < dt) (k : ℤ) :
    k ∈ sampleTimes ts te dt ↔ (∃ j : ℕ, k = ts + j * dt) ∧ k ≤ te := by
  unfold sampleTimes
  split_ifs with h
  · constructor
    · intro h'; cases h'
    · rintro ⟨⟨j, rfl⟩, h2⟩
      have : 0 ≤ (j : ℤ) * dt := mul_nonneg (by positivity) hd.le
      omega
  · simp only [List.mem_map, List.mem_range]
    have hq : 0 ≤ (te - ts) / dt := Int.ediv_nonneg (by omega) hd.le
    constructor
    · rintro ⟨j, hj, rfl⟩
      refine ⟨⟨j, rfl⟩, ?_⟩
      have h1 : (j : ℤ) ≤ (te - ts) / dt := by omega
      have h2 : (j : ℤ) * dt ≤ (te - ts) / dt * dt := mul_le_mul_of_nonneg_right h1 hd.le
      have h3 := Int.ediv_mul_le (te - ts) hd.ne'
      linarith
    · rintro ⟨⟨j, rfl⟩, h2⟩
      refine ⟨j, ?_, rfl⟩
      have h1 : (j : ℤ) ≤ (te - ts) / dt := by
        rw [Int.le_ediv_iff_mul_le hd]; linarith
      omega

theorem sampleTimes_cons {ts te dt : ℤ} (hd : 0 < dt) (h : ts ≤ te) :
    sampleTimes ts te dt = ts :: sampleTimes (ts + dt) te dt := by
  unfold sampleTimes
  rw [if_neg (by omega)]
  by_cases h2 : te < ts + dt
  · rw [if_pos h2]
    have : (te - ts) / dt = 0 := Int.ediv_eq_zero_of_lt (by omega) (by omega)
    simp [this]
  · rw [if_neg h2]
    have e : (te - ts) / dt = (te - (ts + dt)) / dt + 1 := by
      have : te - ts = te - (ts + dt) + 1 * dt := by ring
      rw [this, Int.add_mul_ediv_right _ _ hd.ne']
    have hq : 0 ≤ (te - (ts + dt)) / dt := Int.ediv_nonneg (by omega) hd.le
    have e2 : ((te - ts) / dt).toNat = ((te - (ts + dt)) / dt).toNat + 1 := by rw [e]; omega
    rw [e2, List.range_succ_eq_map, List.map_cons, List.map_map]
    congr 1
    · simp
    · apply List.map_congr_left
      intro k _
      simp only [Function.comp, Nat.succ_eq_add_one]
      push_cast
      ring

theorem ticks_eq {S : Type} (body : ℤ → S → Except Fault S) (te dt : ℤ) (hd : 0 < dt) (n : ℕ) (ts : ℤ) (s : S)
    (hn : (sampleTimes ts te dt).length < n) :
    ticks body te dt n ts s = (sampleTimes ts te dt).foldlM (fun s t => body t s) s := by
  induction n generalizing ts s with
  | zero => omega
  | succ n ih =>
    unfold ticks
    by_cases h : ts ≤ te
    · rw [if_pos h, sampleTimes_cons hd h, List.foldlM_cons]
      rw [sampleTimes_cons hd h, List.length_cons] at hn
      congr 1
      funext s'
      exact ih (ts + dt) s' (by omega)
    · rw [if_neg h, sampleTimes, if_pos (by omega)]
      rfl

theorem ticks_stuck {S : Type} (body : ℤ → S → Except Fault S) (te ts : ℤ) (h : ts ≤ te) (P : S → Prop)
    (hb : ∀ s, P s → ∃ s', body ts s = .ok s' ∧ P s') (n : ℕ) (s : S) (hs : P s) :
    ticks body te 0 n ts s = .error .diverge := by
  induction n generalizing s with
  | zero => rfl
  | succ n ih =>
    obtain ⟨s', h1, h2⟩ := hb s hs
    unfold ticks
    rw [if_pos h, h1, AprilGrid.ok_bind, add_zero]
    exact ih s' h2

theorem secToTs_pos {rate : ℝ} (h0 : 0 < rate) (h1 : rate ≤ 1000000000) : 0 < secToTs (1 / rate) := by
  unfold secToTs
  rw [if_pos (by positivity)]
  rw [Int.floor_pos, div_mul_eq_mul_div, one_mul, one_le_div h0]
  exact h1

theorem secToTs_zero {rate : ℝ} (h1 : 1000000000 < rate) : secToTs (1 / rate) = 0 := by
  have h0 : 0 < rate := by linarith
  unfold secToTs
  rw [if_pos (by positivity), Int.floor_eq_zero_iff, div_mul_eq_mul_div, one_mul]
  exact ⟨by positivity, by rw [div_lt_one h0]; exact h1⟩

/-- A trajectory that can be read from `ts` to `te`. -/
structure Ready (tr : Traj) (ts te : ℤ) : Prop where
  period : tr.T ≠ 0
  inside : ∀ t, 0 < under tr t
  start : tr.ts_start ≤ ts
  stop : sec te - sec tr.ts_start ≤ tr.T

/-- Seconds since the start of the trajectory. -/
noncomputable def Traj.at (tr : Traj) (k : ℤ) : ℝ := sec k - sec tr.ts_start

theorem Ready.get {tr : Traj} {ts te : ℤ} (h : Ready tr ts te) (k : ℤ) (h1 : ts ≤ k) (h2 : k ≤ te) :
    getPose tr k = .ok (poseAt tr (tr.at k)) ∧ getVelocity tr k = .ok (velocityAt tr (tr.at k)) ∧
    getAccel tr k = .ok (accelAt tr (tr.at k)) ∧ getAngVel tr k = .ok (angVelAt tr (tr.at k)) := by
  have a := (sec_le tr.ts_start k).mpr (le_trans h.start h1)
  have b := (sec_le k te).mpr h2
  have c := h.stop
  obtain ⟨e1, -, e3, e4, e5⟩ := (getters tr h.period h.inside k).1 ⟨by linarith, by linarith⟩
  exact ⟨e1, e3, e4, e5⟩

/-- The measurement an ideal sensor makes on the trajectory. -/
noncomputable def ideal (tr : Traj) (g : ℝ) (k : ℤ) : Reading :=
  let C := (tfRot (poseAt tr (tr.at k)))ᵀ
  ⟨C *ᵥ (accelAt tr (tr.at k) + ![0, 0, g]), C *ᵥ angVelAt tr (tr.at k)⟩

theorem imuStep_ok {tr : Traj} {ts te : ℤ} (h : Ready tr ts te) (noise : ℕ → Vec3 ℝ) (k : ℤ) (h1 : ts ≤ k) (h2 : k ≤ te)
    (s : SimImu) (n : ℕ) (out : ImuOut) (hr : s.rate ≠ 0)
    (hs : s.started = true ∨ ¬ |sec (k - s.ts_prev) - 1 / s.rate| < 1 / s.rate / 2) :
    ∃ s' n', imuStep tr noise k (s, n, out) = .ok (s', n', ⟨out.time ++ [k], out.accel ++ [(ideal tr s.g k).acc],
      out.gyro ++ [(ideal tr s.g k).gyr], out.poses ++ [poseAt tr (tr.at k)], out.vels ++ [velocityAt tr (tr.at k)]⟩) ∧
      s'.started = true ∧ s'.g = s.g ∧ s'.rate = s.rate ∧ s'.ts_prev = k := by
  obtain ⟨e1, e2, e3, e4⟩ := h.get k h1 h2
  refine ⟨⟨s.rate, s.tau_a, s.tau_g, s.sigma_g_c, s.sigma_a_c, s.sigma_gw_c, s.sigma_aw_c, s.g, true,
    (s.drift noise n).1, (s.drift noise n).2, k⟩, n + 4, ?_, rfl, rfl, rfl, rfl⟩
  unfold imuStep
  rw [e1, AprilGrid.ok_bind, e2, AprilGrid.ok_bind, e3, AprilGrid.ok_bind, e4, AprilGrid.ok_bind]
  simp only [SimImu.measure]
  rw [if_neg hr, if_neg, AprilGrid.ok_bind]
  · rfl
  · rintro ⟨a, b⟩
    rcases hs with hs | hs
    · rw [hs] at a; cases a
    · exact hs b

/-- The samples taken at a list of instants. -/
theorem imu_fold {tr : Traj} {ts te : ℤ} (h : Ready tr ts te) (noise : ℕ → Vec3 ℝ) (l : List ℤ)
    (hl : ∀ k ∈ l, ts ≤ k ∧ k ≤ te) (s : SimImu) (n : ℕ) (out : ImuOut) (hr : s.rate ≠ 0)
    (hs : s.started = true ∨ ∀ k, l.head? = some k → ¬ |sec (k - s.ts_prev) - 1 / s.rate| < 1 / s.rate / 2) :
    ∃ s' n', l.foldlM (fun s t => imuStep tr noise t s) (s, n, out) = .ok (s', n',
      ⟨out.time ++ l, out.accel ++ l.map (fun k => (ideal tr s.g k).acc), out.gyro ++ l.map (fun k => (ideal tr s.g k).gyr),
        out.poses ++ l.map (fun k => poseAt tr (tr.at k)), out.vels ++ l.map (fun k => velocityAt tr (tr.at k))⟩) := by
  induction l generalizing s n out with
  | nil => exact ⟨s, n, by simp [pure, Except.pure]⟩
  | cons k l ih =>
    obtain ⟨a, b⟩ := hl k (List.mem_cons_self ..)
    obtain ⟨s', n', e, p1, p2, p3, -⟩ := imuStep_ok h noise k a b s n out hr
      (hs.imp id fun f => f k rfl)
    obtain ⟨s'', n'', e'⟩ := ih (fun j hj => hl j (List.mem_cons_of_mem _ hj)) s' n' _ (by rw [p3]; exact hr) (Or.inl p1)
    refine ⟨s'', n'', ?_⟩
    rw [List.foldlM_cons, e, AprilGrid.ok_bind]
    rw [e', p2]
    simp

end Yac.Nbt
