import Verif.Ctraj.Props
import Mathlib.Tactic.IntervalCases

/-! C107: velocities, failures, and the table written to a file. -/

namespace Yac.Ctraj
open Yac.Geom Yac.Residual Matrix

theorem gap_pos {ts0 ts1 : ℤ} (h : ts0 < ts1) : 0 < sec ts1 - sec ts0 := by
  have : (ts0 : ℝ) < ts1 := by exact_mod_cast h
  unfold sec
  linarith

theorem frac_sec {ts0 ts1 : ℤ} (h : ts0 < ts1) (ts : ℤ) :
    frac ts0 ts1 ts = (sec ts - sec ts0) / (sec ts1 - sec ts0) := by
  have h1 := tsNormalize_ok h ts
  have h2 := gap_pos h
  unfold tsNormalize at h1
  rw [if_neg h2.ne'] at h1
  injection h1 with h1
  exact h1.symm

theorem VDeriv.scaled {f : ℝ → Vec3 ℝ} {f' : Vec3 ℝ} {c g t : ℝ}
    (h : VDeriv f f' ((t - c) / g)) : VDeriv (fun t => f ((t - c) / g)) ((1 / g) • f') t := by
  intro i
  have h1 : HasDerivAt (fun t : ℝ => (t - c) / g) (1 / g) t :=
    ((hasDerivAt_id t).sub_const c).div_const g
  have h2 := (h i).comp t h1
  refine h2.congr_deriv ?_
  simp [mul_comm]

theorem VDeriv.smul' {f : ℝ → Vec3 ℝ} {f' : Vec3 ℝ} {t : ℝ} (k : ℝ)
    (h : VDeriv f f' t) : VDeriv (fun t => k • f t) (k • f') t := by
  intro i
  exact (h i).const_mul k

/-- **C107.** Between the first and the last time the velocity returned is the derivative, with
respect to time in seconds, of the position of the poses returned (but at the ends, `C107_ends`),
and the acceleration returned that of the velocity. -/
theorem C107_velocity {interp : List (Vec3 ℝ) → List ℝ → Spline} (hi : Interpolates interp)
    {fuel : Nat} {ts0 ts1 : ℤ} {ps : List (Vec3 ℝ)} {qs : List (Quat ℝ)} {T : Traj}
    (hv : Valid ts0 ts1 ps qs) (h : init interp fuel ts0 ts1 ps qs = .ok T) :
    ∃ p v : ℝ → Vec3 ℝ,
      (∀ ts : ℤ, ¬ NearEnd ts0 ts1 ts → ∃ C, getPose T ts = .ok (tf C (p (sec ts)))) ∧
      (∀ t : ℝ, sec ts0 < t → t < sec ts1 → VDeriv p (v t) t) ∧
      ∀ ts : ℤ, ts0 < ts → ts < ts1 → getVelocity T ts = .ok (v (sec ts)) ∧
        ∃ a, getAcceleration T ts = .ok a ∧ VDeriv v a (sec ts) := by
  obtain ⟨rv, hr, rfl⟩ := init_spec hv h
  have hlt := hv.lt
  have h5 := hv.five
  have hg := gap_pos hlt
  have hpw := knots_pairwise (n := ps.length) (by omega) hv.room
  have hsm := hi.smooth ps (knots ts0 ts1 ps.length) 0 1 h5 knots_length hpw
    (knots_head (by omega)) (knots_last (by omega) hlt)
  have hin : ∀ t : ℝ, sec ts0 < t → t < sec ts1 →
      0 < (t - sec ts0) / (sec ts1 - sec ts0) ∧ (t - sec ts0) / (sec ts1 - sec ts0) < 1 := by
    intro t h1 h2
    refine ⟨div_pos (by linarith) hg, ?_⟩
    rw [div_lt_one hg]
    linarith
  have hsec : ∀ a b : ℤ, a < b → sec a < sec b := fun a b hab => by linarith [gap_pos hab]
  refine ⟨fun t => (interp ps (knots ts0 ts1 ps.length)).f ((t - sec ts0) / (sec ts1 - sec ts0)),
    fun t => (1 / (sec ts1 - sec ts0)) •
      (interp ps (knots ts0 ts1 ps.length)).d1 ((t - sec ts0) / (sec ts1 - sec ts0)), ?_, ?_, ?_⟩
  · intro ts hn
    have := getPose_mid (T := ⟨ts0, ts1, ps, qs, interp ps (knots ts0 ts1 ps.length),
      interp rv (knots ts0 ts1 ps.length)⟩) hv.lt hn
    dsimp only at this
    rw [this, frac_sec hlt]
    split_ifs
    · exact ⟨_, rfl⟩
    · exact ⟨_, rfl⟩
  · intro t h1 h2
    obtain ⟨h3, h4⟩ := hin t h1 h2
    exact (VDeriv.scaled (hsm _ h3 h4).1)
  · intro ts h1 h2
    obtain ⟨h3, h4⟩ := hin (sec ts) (hsec _ _ h1) (hsec _ _ h2)
    constructor
    · unfold getVelocity
      dsimp only
      rw [if_neg (by omega), if_neg (by omega), tsNormalize_ok hlt]
      dsimp only
      rw [frac_sec hlt]
      rfl
    · refine ⟨(1 / (sec ts1 - sec ts0)) ^ 2 •
        (interp ps (knots ts0 ts1 ps.length)).d2 ((sec ts - sec ts0) / (sec ts1 - sec ts0)), ?_, ?_⟩
      · unfold getAcceleration
        dsimp only
        rw [if_neg (by omega), if_neg (by omega), tsNormalize_ok hlt]
        dsimp only
        rw [frac_sec hlt]
        rfl
      · have := VDeriv.smul' (1 / (sec ts1 - sec ts0)) (VDeriv.scaled (hsm _ h3 h4).2)
        rw [smul_smul, ← sq] at this
        exact this

/-- **C107, partial.** Between the first and the last time the angular velocity returned is, in the
fixed frame, that of the orientation of the poses returned: the rate of the rotation is its skew
matrix times the rotation.  (Missing: times at which the rotation is within `1e-12` radians of
none.) -/
theorem C107_angular_partial {interp : List (Vec3 ℝ) → List ℝ → Spline} (hi : Interpolates interp)
    {fuel : Nat} {ts0 ts1 : ℤ} {ps : List (Vec3 ℝ)} {qs : List (Quat ℝ)} {T : Traj}
    (hv : Valid ts0 ts1 ps qs) (h : init interp fuel ts0 ts1 ps qs = .ok T) :
    ∃ r : ℝ → Vec3 ℝ,
      (∀ ts : ℤ, ¬ NearEnd ts0 ts1 ts → 1 / 1000000000000 ≤ norm3 (r (sec ts)) →
        ∃ p, getPose T ts = .ok (tf (expRot (r (sec ts))) p)) ∧
      ∀ ts : ℤ, ts0 < ts → ts < ts1 → 1 / 1000000000000 ≤ norm3 (r (sec ts)) →
        ∃ w, getAngularVelocity T ts = .ok w ∧
          MDeriv (fun t => expRot (r t)) (skew w * expRot (r (sec ts))) (sec ts) := by
  obtain ⟨rv, hr, rfl⟩ := init_spec hv h
  have hlt := hv.lt
  have h5 := hv.five
  have hlen := rvecs_length hr
  have hg := gap_pos hlt
  have hpw := knots_pairwise (n := ps.length) (by omega) hv.room
  have hsm := hi.smooth rv (knots ts0 ts1 ps.length) 0 1 (by rw [hlen, ← hv.same]; exact h5)
    (by rw [knots_length, hlen, hv.same]) hpw (knots_head (by omega)) (knots_last (by omega) hlt)
  have hsec : ∀ a b : ℤ, a < b → sec a < sec b := fun a b hab => by linarith [gap_pos hab]
  refine ⟨fun t => (interp rv (knots ts0 ts1 ps.length)).f ((t - sec ts0) / (sec ts1 - sec ts0)),
    ?_, ?_⟩
  · intro ts hn hbig
    have := getPose_mid (T := ⟨ts0, ts1, ps, qs, interp ps (knots ts0 ts1 ps.length),
      interp rv (knots ts0 ts1 ps.length)⟩) hv.lt hn
    dsimp only at this
    rw [this, frac_sec hlt, if_neg (not_lt.2 hbig)]
    exact ⟨_, rfl⟩
  · intro ts h1 h2 hbig
    have h3 : 0 < (sec ts - sec ts0) / (sec ts1 - sec ts0) :=
      div_pos (by linarith [hsec _ _ h1]) hg
    have h4 : (sec ts - sec ts0) / (sec ts1 - sec ts0) < 1 := by
      rw [div_lt_one hg]
      linarith [hsec _ _ h2]
    refine ⟨_, ?_, expRot_moves (VDeriv.scaled (hsm _ h3 h4).1) (norm3_ne (by linarith))⟩
    unfold getAngularVelocity
    dsimp only
    rw [if_neg (by omega), if_neg (by omega), tsNormalize_ok hlt]
    dsimp only
    rw [frac_sec hlt, if_neg (not_lt.2 hbig)]
    rfl

example : ∃ (T : Traj) (p v : ℝ → Vec3 ℝ),
    (∀ t : ℝ, sec 0 < t → t < sec 4000000000 → VDeriv p (v t) t) ∧
      getVelocity T 1500000000 = .ok (v (sec 1500000000)) := by
  obtain ⟨F, hF⟩ := init_ok (interp := lagrange) valid_example
  obtain ⟨T, hT⟩ := hF F le_rfl
  obtain ⟨p, v, _, h2, h3⟩ := C107_velocity lagrange_ok valid_example hT
  exact ⟨T, p, v, h2, (h3 1500000000 (by norm_num) (by norm_num)).1⟩

/-- **C107.** Numbers of positions and orientations that differ, an empty trajectory, one of no
duration are refused; so are queries of velocities outside of the trajectory. -/
theorem C107_failures (interp : List (Vec3 ℝ) → List ℝ → Spline) (fuel : Nat) :
    (∀ ts0 ts1 ps qs, ps.length ≠ qs.length → init interp fuel ts0 ts1 ps qs = .error .fatal) ∧
    (∀ ts0 ts1, init interp fuel ts0 ts1 [] [] = .error .oob) ∧
    (∀ ts0 ps qs, ps.length = qs.length → ps ≠ [] →
      init interp fuel ts0 ts0 ps qs = .error .divZero) ∧
    ∀ (T : Traj) (ts : ℤ), ts < T.ts0 ∨ T.ts1 < ts → getVelocity T ts = .error .fatal ∧
      getAcceleration T ts = .error .fatal ∧ getAngularVelocity T ts = .error .fatal := by
  refine ⟨?_, ?_, ?_, ?_⟩
  · intro ts0 ts1 ps qs h
    rw [init, if_pos h]
  · intro ts0 ts1
    rfl
  · intro ts0 ps qs h hne
    rw [init, if_neg (by simpa using h)]
    have h0 : ∃ t ts, linspaceTs ts0 ts0 ps.length = t :: ts := by
      apply List.exists_cons_of_ne_nil
      have hp : ps.length ≠ 0 := by simpa using hne
      unfold linspaceTs
      rw [if_neg hp]
      split_ifs <;> simp
    obtain ⟨t, ts, e⟩ := h0
    rw [e, normAll]
    have : tsNormalize ts0 ts0 t = .error .divZero := by
      rw [tsNormalize, if_pos (by ring)]
    rw [this]
  · intro T ts h
    unfold getVelocity getAcceleration getAngularVelocity
    by_cases h1 : ts < T.ts0
    · rw [if_pos h1, if_pos h1, if_pos h1]
      exact ⟨rfl, rfl, rfl⟩
    · rw [if_neg h1, if_neg h1, if_neg h1]
      have h2 : T.ts1 < ts := by omega
      rw [if_pos h2, if_pos h2, if_pos h2]
      exact ⟨rfl, rfl, rfl⟩

/-- **C107.** The poses are given at evenly spaced times, the first at the start, the last at the
end (truncated to nanoseconds). -/
theorem C107_times {ts0 ts1 : ℤ} {n : Nat} (hn : 2 ≤ n) (h0 : 0 ≤ ts0) (h1 : ts0 ≤ ts1) :
    (linspaceTs ts0 ts1 n).length = n ∧ knotTime ts0 ts1 n 0 = ts0 ∧
      knotTime ts0 ts1 n (n - 1) = ts1 ∧
      ∀ i < n, (knotTime ts0 ts1 n i : ℝ) ≤ ts0 + ((ts1 : ℝ) - ts0) / (n - 1) * i ∧
        (ts0 : ℝ) + ((ts1 : ℝ) - ts0) / (n - 1) * i < knotTime ts0 ts1 n i + 1 := by
  refine ⟨?_, ?_, ?_, ?_⟩
  · rw [linspaceTs_eq hn h0 h1]; simp
  · rw [knotTime_eq hn h0 h1 (by omega), timeAt_zero]
  · rw [knotTime_eq hn h0 h1 (by omega), timeAt_last _ _ hn]
  · intro i hi
    rw [knotTime_eq hn h0 h1 hi]
    exact ⟨Int.floor_le _, Int.lt_floor_add_one _⟩

example : knotTime 0 10 4 0 = 0 ∧ knotTime 0 10 4 3 = 10 :=
  ⟨(C107_times (by norm_num) (by norm_num) (by norm_num)).2.1,
    (C107_times (n := 4) (by norm_num) (by norm_num) (by norm_num)).2.2.1⟩

theorem saveLoop_ok {T : Traj} : ∀ (ts : List ℤ) (i : Nat),
    (∀ t ∈ ts, ∃ v, getVelocity T t = .ok v) → i + ts.length ≤ T.positions.length →
    i + ts.length ≤ T.orientations.length →
    ∃ rows, saveLoop T ts i = .ok rows ∧ rows.length = ts.length ∧
      ∀ (j : Nat) (hr : j < rows.length) (ht : j < ts.length) (hp : i + j < T.positions.length)
        (hq : i + j < T.orientations.length), (rows[j]).ts = ts[j] ∧
        (rows[j]).r = T.positions[i + j] ∧ (rows[j]).q = T.orientations[i + j] ∧
        getVelocity T ts[j] = .ok (rows[j]).v
  | [], i, _, _, _ => ⟨[], rfl, rfl, fun j hr => by simp at hr⟩
  | t :: ts, i, hv, hp, hq => by
      obtain ⟨v, hv0⟩ := hv t (by simp)
      rw [List.length_cons] at hp hq
      obtain ⟨rows, h1, h2, h3⟩ := saveLoop_ok ts (i + 1) (fun t ht => hv t (by simp [ht]))
        (by omega) (by omega)
      refine ⟨⟨t, T.positions[i], T.orientations[i], v⟩ :: rows, ?_, by simp [h2], ?_⟩
      · rw [saveLoop, hv0, List.getElem?_eq_getElem (by omega), List.getElem?_eq_getElem (by omega)]
        dsimp only
        rw [h1]
      · intro j hr ht hp' hq'
        cases j with
        | zero => exact ⟨rfl, rfl, rfl, hv0⟩
        | succ j =>
          have := h3 j (by simpa using hr) (by simpa using ht) (by omega) (by omega)
          simp only [List.getElem_cons_succ]
          have e : i + 1 + j = i + (j + 1) := by omega
          simp only [e] at this
          exact this

/-- **C107.** The table written to the file has one row for each pose given: its time, position and
orientation as given, and the velocity of the trajectory at this time. -/
theorem C107_save {interp : List (Vec3 ℝ) → List ℝ → Spline} {fuel : Nat} {ts0 ts1 : ℤ}
    {ps : List (Vec3 ℝ)} {qs : List (Quat ℝ)} {T : Traj} (hv : Valid ts0 ts1 ps qs)
    (h : init interp fuel ts0 ts1 ps qs = .ok T) :
    ∃ rows, save T = .ok rows ∧ rows.length = ps.length ∧
      ∀ (i : Nat) (hr : i < rows.length) (hp : i < ps.length) (hq : i < qs.length),
        (rows[i]).ts = knotTime ts0 ts1 ps.length i ∧ (rows[i]).r = ps[i] ∧ (rows[i]).q = qs[i] ∧
        getVelocity T (knotTime ts0 ts1 ps.length i) = .ok (rows[i]).v := by
  obtain ⟨rv, hr, rfl⟩ := init_spec hv h
  have hlt := hv.lt
  have h5 := hv.five
  have hl : (linspaceTs ts0 ts1 ps.length).length = ps.length := (C107_times (by omega) hv.epoch hlt.le).1
  obtain ⟨rows, h1, h2, h3⟩ := saveLoop_ok (T := ⟨ts0, ts1, ps, qs,
    interp ps (knots ts0 ts1 ps.length), interp rv (knots ts0 ts1 ps.length)⟩)
    (linspaceTs ts0 ts1 ps.length) 0 (by
      intro t ht
      rw [linspaceTs_eq (by omega) hv.epoch hlt.le, List.mem_map] at ht
      obtain ⟨i, hi, rfl⟩ := ht
      rw [List.mem_range] at hi
      have a1 : ts0 ≤ timeAt ts0 ts1 ps.length i := by
        rcases Nat.eq_zero_or_pos i with rfl | hp
        · rw [timeAt_zero]
        · have := timeAt_lt (n := ps.length) (by omega) hv.room hp
          rw [timeAt_zero] at this
          exact this.le
      have a2 : timeAt ts0 ts1 ps.length i ≤ ts1 := by
        rcases Nat.lt_or_ge i (ps.length - 1) with hp | hp
        · have := timeAt_lt (n := ps.length) (by omega) hv.room hp
          rw [timeAt_last _ _ (by omega)] at this
          exact this.le
        · rw [show i = ps.length - 1 by omega, timeAt_last _ _ (by omega)]
      unfold getVelocity
      dsimp only
      rw [if_neg (by omega), if_neg (by omega), tsNormalize_ok hlt]
      exact ⟨_, rfl⟩)
    (by dsimp only; omega) (by dsimp only; rw [← hv.same]; omega)
  refine ⟨rows, h1, by rw [h2, hl], ?_⟩
  intro i hr hp hq
  have ht : i < (linspaceTs ts0 ts1 ps.length).length := by omega
  have := h3 i hr ht (by simpa using hp) (by simpa using hq)
  have e : knotTime ts0 ts1 ps.length i = (linspaceTs ts0 ts1 ps.length)[i] := by
    rw [knotTime, List.getD_eq_getElem?_getD, List.getElem?_eq_getElem ht]
    rfl
  rw [e]
  simpa using this

example : ∃ (T : Traj) (rows : List Row), save T = .ok rows ∧ rows.length = 5 := by
  obtain ⟨F, hF⟩ := init_ok (interp := lagrange) valid_example
  obtain ⟨T, hT⟩ := hF F le_rfl
  obtain ⟨rows, h1, h2, _⟩ := C107_save valid_example hT
  exact ⟨T, rows, h1, by simpa using h2⟩

/-! ### What goes wrong -/

theorem valid_turns : Valid 0 4000000000
    [![0, 0, 0], ![1, 0, 0], ![2, 0, 0], ![3, 0, 0], ![4, 0, 0]]
    [⟨0, 1, 0, 0⟩, ⟨0, 0, 1, 0⟩, ⟨0, 0, 1, 0⟩, ⟨0, 0, 1, 0⟩, ⟨0, 0, 1, 0⟩] :=
  ⟨by simp, by simp, by norm_num, by simp⟩

theorem atan2_one_zero : atan2 1 0 = Real.pi / 2 := by
  have := atan2_polar 1 (Real.pi / 2) one_pos (by linarith [Real.pi_pos]) (by linarith [Real.pi_pos])
  simpa using this

theorem toRvec_x : toRvec ⟨0, 1, 0, 0⟩ = ![Real.pi, 0, 0] := by
  have hn : norm3 ![1, 0, 0] = 1 := by simp [norm3, dot3]
  unfold toRvec
  simp only [hn, abs_zero, atan2_one_zero, ne_eq, one_ne_zero, not_false_eq_true, if_true,
    lt_irrefl, if_false]
  funext i
  fin_cases i <;> simp
  ring

theorem toRvec_y : toRvec ⟨0, 0, 1, 0⟩ = ![0, Real.pi, 0] := by
  have hn : norm3 ![0, 1, 0] = 1 := by simp [norm3, dot3]
  unfold toRvec
  simp only [hn, abs_zero, atan2_one_zero, ne_eq, one_ne_zero, not_false_eq_true, if_true,
    lt_irrefl, if_false]
  funext i
  fin_cases i <;> simp
  ring

/-- A rotation about a horizontal axis by an angle between `π` and `3π` does not turn the vertical
upside down. -/
theorem expRot_22 {v : Vec3 ℝ} (hz : v 2 = 0) (h1 : Real.pi < norm3 v) (h2 : norm3 v < 3 * Real.pi) :
    expRot v 2 2 ≠ -1 := by
  have hp := Real.pi_pos
  have hne : v ≠ 0 := norm3_ne (by linarith)
  rw [expRot, if_neg hne]
  obtain ⟨he, hs, _⟩ := normalized_unit v hne
  have hz' : normalized v 2 = 0 := by
    have := congrFun hs 2
    rw [hz] at this
    simp only [Pi.smul_apply, smul_eq_mul, mul_eq_zero] at this
    rcases this with h | h
    · linarith
    · exact h
  simp only [dot3, hz'] at he
  have e : (aaQuat (norm3 v) (normalized v)).toRot 2 2 = 1 - 2 * Real.sin (norm3 v / 2) ^ 2 := by
    simp [aaQuat, Quat.toRot]
    linear_combination 2 * Real.sin (norm3 v / 2) ^ 2 * he
  rw [e, Real.sin_sq]
  intro hc
  have hc0 : Real.cos (norm3 v / 2) = 0 := by
    have : Real.cos (norm3 v / 2) ^ 2 = 0 := by linarith
    simpa using this
  have := Real.cos_neg_of_pi_div_two_lt_of_lt (x := norm3 v / 2) (by linarith) (by linarith)
  linarith

/-- **C107, refuted: the trajectory passes through the given orientations.** Not when consecutive
rotation vectors are more than half a turn apart: whole turns are taken off along the difference of
the two vectors, which is not the axis of either.  Half a turn about `x`, then half a turn about
`y`: at the time of the second pose the orientation is another one, for every interpolation. -/
theorem C107_orientation_refuted : ∃ (ts0 ts1 : ℤ) (ps : List (Vec3 ℝ)) (qs : List (Quat ℝ)),
    Valid ts0 ts1 ps qs ∧ (∀ q ∈ qs, q.normSq = 1) ∧ ∀ interp, Interpolates interp →
      ∀ fuel T, init interp fuel ts0 ts1 ps qs = .ok T →
        ∃ (i : Nat) (q : Quat ℝ), i + 1 < ps.length ∧ qs[i]? = some q ∧
          ¬ NearEnd ts0 ts1 (knotTime ts0 ts1 ps.length i) ∧
          ∀ r, getPose T (knotTime ts0 ts1 ps.length i) ≠ .ok (tf q.toRot r) := by
  refine ⟨_, _, _, _, valid_turns, ?_, ?_⟩
  · intro q hq
    simp only [List.mem_cons, List.not_mem_nil, or_false] at hq
    rcases hq with rfl | rfl | rfl | rfl | rfl <;> simp [Quat.normSq]
  intro interp hi fuel T h
  obtain ⟨rv, hr, _⟩ := init_spec valid_turns h
  have hl := rvecs_length hr
  have hp := Real.pi_pos
  have hk : knotTime 0 4000000000 5 1 = 1000000000 := by
    rw [knotTime_eq (by norm_num) (by norm_num) (by norm_num) (by norm_num), timeAt]
    norm_num
  have hne : ¬ NearEnd 0 4000000000 (knotTime 0 4000000000 5 1) := by
    rw [hk]
    unfold NearEnd
    norm_num
  refine ⟨1, ⟨0, 0, 1, 0⟩, by simp, by simp, hne, ?_⟩
  intro r hcon
  obtain ⟨C, h1, h2⟩ := C107_through hi valid_turns h hr 1 (by simp) (by rw [hl]; simp) hne
  simp only [List.length_cons, List.length_nil] at h1 hcon
  rw [h1] at hcon
  injection hcon with hcon
  have hC : C 2 2 = -1 := by
    have := congrFun (congrFun (congrArg tfRot hcon) 2) 2
    rw [tfRot_tf, tfRot_tf] at this
    rw [this]
    simp [Quat.toRot]
    norm_num
  rcases h2 with h2 | ⟨_, h2⟩
  swap
  · rw [h2] at hC
    norm_num at hC
  rw [h2] at hC
  obtain ⟨q, qs', l', e1, e2, h3⟩ := rvecs_follows hr
  injection e1 with e1 e1'
  subst e1 e1'
  obtain ⟨k, v, l'', rfl, hv, hle, _⟩ := h3
  subst e2
  have hC' : expRot v 2 2 = -1 := hC
  rw [toRvec_x] at hv hle
  rw [toRvec_y] at hv
  have hd : (![0, Real.pi, 0] : Vec3 ℝ) - ![Real.pi, 0, 0] = ![-Real.pi, Real.pi, 0] := by
    funext i; fin_cases i <;> simp
  have hs2 : Real.sqrt 2 * Real.sqrt 2 = 2 := Real.mul_self_sqrt (by norm_num)
  have hs1 : 1 < Real.sqrt 2 := by
    rw [Real.lt_sqrt (by norm_num)]; norm_num
  have hs3 : Real.sqrt 2 < 3 / 2 := by
    rw [Real.sqrt_lt' (by norm_num)]; norm_num
  have hn : norm3 ![-Real.pi, Real.pi, 0] = Real.sqrt 2 * Real.pi := by
    unfold norm3
    have : dot3 ![-Real.pi, Real.pi, 0] ![-Real.pi, Real.pi, 0] = 2 * (Real.pi * Real.pi) := by
      simp [dot3]; ring
    rw [this, Real.sqrt_mul (by norm_num), Real.sqrt_mul_self hp.le]
  have hdne : (![-Real.pi, Real.pi, 0] : Vec3 ℝ) ≠ 0 := norm3_ne (by rw [hn]; positivity)
  rw [hd, normalized_eq hdne, hn] at hv
  have hinv : 1 / (Real.sqrt 2 * Real.pi) * Real.pi = Real.sqrt 2 / 2 := by
    field_simp
    nlinarith
  have v0 : v 0 = Real.pi * (k * Real.sqrt 2) := by
    rw [hv]
    simp only [Pi.sub_apply, Pi.smul_apply, smul_eq_mul, Matrix.cons_val_zero]
    linear_combination (2 * Real.pi * k) * hinv
  have v1 : v 1 = Real.pi * (1 - k * Real.sqrt 2) := by
    rw [hv]
    simp only [Pi.sub_apply, Pi.smul_apply, smul_eq_mul, Matrix.cons_val_one, Matrix.cons_val_zero]
    linear_combination -(2 * Real.pi * k) * hinv
  have v2 : v 2 = 0 := by
    rw [hv]
    simp
  have hle2 : dot3 (v - ![Real.pi, 0, 0]) (v - ![Real.pi, 0, 0]) ≤ Real.pi * Real.pi := by
    by_contra hc
    rw [not_le] at hc
    have := (dot3_gt hp.le).1 hc
    linarith
  have hk1 : k = 1 := by
    have hx : (k * Real.sqrt 2 - 1) ^ 2 + (1 - k * Real.sqrt 2) ^ 2 ≤ 1 := by
      simp only [dot3, Pi.sub_apply, v0, v1, v2, Matrix.cons_val_zero, Matrix.cons_val_one,
        Matrix.cons_val] at hle2
      have hpp : 0 < Real.pi * Real.pi := by positivity
      by_contra hc
      rw [not_le] at hc
      nlinarith
    rcases Nat.lt_trichotomy k 1 with hk | hk | hk
    · have : k = 0 := by omega
      subst this
      norm_num at hx
    · exact hk
    · have : (2 : ℝ) ≤ k := by exact_mod_cast hk
      have : (2 : ℝ) < k * Real.sqrt 2 := by nlinarith
      nlinarith
  subst hk1
  have hnv : norm3 v * norm3 v = Real.pi * Real.pi * (5 - 2 * Real.sqrt 2) := by
    rw [norm3_sq]
    simp only [dot3, v0, v1, v2]
    push_cast
    linear_combination (2 * Real.pi * Real.pi) * hs2
  have hn0 := Imu.norm3_nonneg' v
  refine expRot_22 v2 ?_ ?_ hC'
  · by_contra hc
    rw [not_lt] at hc
    have : norm3 v * norm3 v ≤ Real.pi * Real.pi := by nlinarith
    have hpp : 0 < Real.pi * Real.pi := by positivity
    nlinarith
  · by_contra hc
    rw [not_lt] at hc
    have : 9 * (Real.pi * Real.pi) ≤ norm3 v * norm3 v := by nlinarith
    have hpp : 0 < Real.pi * Real.pi := by positivity
    nlinarith

theorem poly_line : poly [![0, 0, 0], ![1, 0, 0], ![2, 0, 0], ![3, 0, 0], ![4, 0, 0]]
    (knots 0 4000000000 5) 0 = Polynomial.C 4 * Polynomial.X := by
  have hk : ∀ i < 5, (knots 0 4000000000 5).getD i 0 = (i : ℝ) / 4 := by
    intro i hi
    rw [List.getD_eq_getElem?_getD, List.getElem?_eq_getElem (by rw [knots_length]; exact hi),
      knots_getElem, Option.getD_some]
    have : timeAt 0 4000000000 5 i = 1000000000 * i := by
      unfold timeAt
      rw [Int.floor_eq_iff]
      push_cast
      constructor <;> norm_num <;> linarith
    rw [this, frac]
    push_cast
    field_simp
    ring
  symm
  apply Lagrange.eq_interpolate_of_eval_eq
  · intro a ha b hb hab
    simp only [List.length_cons, List.length_nil, Finset.coe_range, Set.mem_Iio] at ha hb
    dsimp only at hab
    rw [hk a (by omega), hk b (by omega)] at hab
    have : (a : ℝ) = b := by linarith
    exact_mod_cast this
  · refine lt_of_le_of_lt (Polynomial.degree_C_mul_X_le _) ?_
    simp only [List.length_cons, List.length_nil, Finset.card_range]
    norm_num
  · intro i hi
    simp only [List.length_cons, List.length_nil, Finset.mem_range] at hi
    rw [hk i (by omega)]
    simp only [Polynomial.eval_mul, Polynomial.eval_C, Polynomial.eval_X]
    interval_cases i <;> simp <;> norm_num

/-- **C107, refuted: the pose moves with the velocity returned, up to the ends.** A body moving at
one metre per second for four seconds: the velocity returned is one metre per second at every time,
but the pose stays where it is for the first 0.4 milliseconds (and then jumps, `C107_velocity`). -/
theorem C107_snap_refuted : ∃ interp, Interpolates interp ∧ ∃ fuel ts0 ts1 ps qs T,
    Valid ts0 ts1 ps qs ∧ init interp fuel ts0 ts1 ps qs = .ok T ∧
      (∀ ts, ts0 ≤ ts → ts ≤ ts1 → ∃ v, getVelocity T ts = .ok v ∧ v 0 = 1) ∧
      ∀ ts, ts0 ≤ ts → ts ≤ ts0 + 400000 → getPose T ts = getPose T ts0 := by
  obtain ⟨F, hF⟩ := init_ok (interp := lagrange) valid_example
  obtain ⟨T, hT⟩ := hF F le_rfl
  refine ⟨lagrange, lagrange_ok, F, _, _, _, _, T, valid_example, hT, ?_, ?_⟩
  · obtain ⟨rv, hr, rfl⟩ := init_spec valid_example hT
    intro ts h0 h1
    unfold getVelocity
    dsimp only
    rw [if_neg (by omega), if_neg (by omega), tsNormalize_ok (by norm_num)]
    refine ⟨_, rfl, ?_⟩
    show _ * (poly _ (knots 0 4000000000 5) 0).derivative.eval _ = _
    rw [poly_line]
    simp only [gap, sec, Polynomial.derivative_C_mul, Polynomial.derivative_X, mul_one,
      Polynomial.eval_C]
    norm_num
  · intro ts h0 h1
    obtain ⟨he, _⟩ := C107_ends valid_example hT
    have a0 : (0 : ℝ) ≤ ts := by exact_mod_cast h0
    have a1 : (ts : ℝ) ≤ 400000 := by exact_mod_cast (by linarith : ts ≤ 400000)
    obtain ⟨q, r, e1, e2, e3⟩ := he ts (by
      push_cast
      rw [sub_zero, abs_of_nonneg a0]
      linarith)
    obtain ⟨q', r', e1', e2', e3'⟩ := he 0 (by norm_num)
    rw [e1] at e1'
    rw [e2] at e2'
    cases e1'
    cases e2'
    rw [e3, e3']

end Yac.Ctraj
