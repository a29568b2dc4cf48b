import Verif.Ctraj.Rate

/-! The times at which the poses of a trajectory are given. -/

namespace Yac.Ctraj
open Yac.Geom Yac.Residual Matrix

/-- Arguments for which a trajectory is meant to be built: at least five poses, as many
orientations as positions, times not before the epoch and at least a nanosecond between poses. -/
structure Valid (ts0 ts1 : ℤ) (ps : List (Vec3 ℝ)) (qs : List (Quat ℝ)) : Prop where
  five : 5 ≤ ps.length
  same : ps.length = qs.length
  epoch : 0 ≤ ts0
  room : ts0 + ps.length ≤ ts1 + 1

theorem Valid.lt {ts0 ts1 : ℤ} {ps : List (Vec3 ℝ)} {qs : List (Quat ℝ)} (h : Valid ts0 ts1 ps qs) :
    ts0 < ts1 := by
  have := h.five
  have := h.room
  omega

/-- The `i`-th of `n` times. -/
noncomputable def timeAt (ts0 ts1 : ℤ) (n i : Nat) : ℤ :=
  ⌊(ts0 : ℝ) + ((ts1 : ℝ) - ts0) / ((n : ℝ) - 1) * i⌋

theorem timeAt_last (ts0 ts1 : ℤ) {n : Nat} (hn : 2 ≤ n) : timeAt ts0 ts1 n (n - 1) = ts1 := by
  unfold timeAt
  have h1 : ((n - 1 : Nat) : ℝ) = (n : ℝ) - 1 := by
    rw [Nat.cast_sub (by omega)]; simp
  have h2 : (0 : ℝ) < (n : ℝ) - 1 := by
    have : (2 : ℝ) ≤ n := by exact_mod_cast hn
    linarith
  rw [h1, div_mul_cancel₀ _ h2.ne']
  have : (ts0 : ℝ) + ((ts1 : ℝ) - ts0) = (ts1 : ℝ) := by ring
  rw [this, Int.floor_intCast]

theorem timeAt_zero (ts0 ts1 : ℤ) (n : Nat) : timeAt ts0 ts1 n 0 = ts0 := by
  simp [timeAt]

theorem linspaceTs_eq {ts0 ts1 : ℤ} {n : Nat} (hn : 2 ≤ n) (h0 : 0 ≤ ts0) (h1 : ts0 ≤ ts1) :
    linspaceTs ts0 ts1 n = (List.range n).map (timeAt ts0 ts1 n) := by
  unfold linspaceTs
  rw [if_neg (by omega), if_neg (by omega)]
  dsimp only
  have hr : List.range n = List.range (n - 1) ++ [n - 1] := by
    rw [← List.range_succ]
    congr 1
    omega
  rw [hr, List.map_append, List.map_cons, List.map_nil, timeAt_last ts0 ts1 hn]
  congr 1
  apply List.map_congr_left
  intro i _
  unfold truncZ timeAt
  have h2 : (0 : ℝ) < (n : ℝ) - 1 := by
    have : (2 : ℝ) ≤ n := by exact_mod_cast hn
    linarith
  have h3 : (0 : ℝ) ≤ (ts1 : ℝ) - ts0 := by
    have : (ts0 : ℝ) ≤ ts1 := by exact_mod_cast h1
    linarith
  have h4 : (0 : ℝ) ≤ (ts0 : ℝ) := by exact_mod_cast h0
  have h5 : (0 : ℝ) ≤ (ts0 : ℝ) + ((ts1 - ts0 : ℤ) : ℝ) / ((n : ℝ) - 1) * i := by
    push_cast
    have : (0 : ℝ) ≤ ((ts1 : ℝ) - ts0) / ((n : ℝ) - 1) * i :=
      mul_nonneg (div_nonneg h3 h2.le) (Nat.cast_nonneg i)
    linarith
  rw [if_pos h5]
  push_cast
  rfl

theorem timeAt_lt {ts0 ts1 : ℤ} {n i j : Nat} (hn : 2 ≤ n) (hroom : ts0 + n ≤ ts1 + 1) (hij : i < j) :
    timeAt ts0 ts1 n i < timeAt ts0 ts1 n j := by
  unfold timeAt
  have h2 : (0 : ℝ) < (n : ℝ) - 1 := by
    have : (2 : ℝ) ≤ n := by exact_mod_cast hn
    linarith
  have hd : 1 ≤ ((ts1 : ℝ) - ts0) / ((n : ℝ) - 1) := by
    rw [le_div_iff₀ h2]
    have : (ts0 : ℝ) + n ≤ ts1 + 1 := by exact_mod_cast hroom
    linarith
  have hij' : (i : ℝ) + 1 ≤ j := by exact_mod_cast hij
  have : (ts0 : ℝ) + ((ts1 : ℝ) - ts0) / ((n : ℝ) - 1) * i + 1 ≤
      (ts0 : ℝ) + ((ts1 : ℝ) - ts0) / ((n : ℝ) - 1) * j := by nlinarith
  have h3 := Int.floor_mono this
  rw [Int.floor_add_one] at h3
  omega

/-- The fraction of the duration that has passed. -/
noncomputable def frac (ts0 ts1 ts : ℤ) : ℝ := ((ts : ℝ) - ts0) / ((ts1 : ℝ) - ts0)

theorem tsNormalize_ok {ts0 ts1 : ℤ} (h : ts0 < ts1) (ts : ℤ) :
    tsNormalize ts0 ts1 ts = .ok (frac ts0 ts1 ts) := by
  have hg : (0 : ℝ) < (ts1 : ℝ) - ts0 := by
    have : (ts0 : ℝ) < ts1 := by exact_mod_cast h
    linarith
  unfold tsNormalize frac sec
  rw [if_neg (by intro hc; linarith)]
  congr 1
  have e1 : (ts : ℝ) * (1 / 1000000000) - ts0 * (1 / 1000000000) = (1 / 1000000000) * ((ts : ℝ) - ts0) := by
    ring
  have e2 : (ts1 : ℝ) * (1 / 1000000000) - ts0 * (1 / 1000000000) = (1 / 1000000000) * ((ts1 : ℝ) - ts0) := by
    ring
  rw [e1, e2, mul_div_mul_left _ _ (by norm_num)]

theorem normAll_ok {ts0 ts1 : ℤ} (h : ts0 < ts1) : ∀ l : List ℤ,
    normAll ts0 ts1 l = .ok (l.map (frac ts0 ts1))
  | [] => rfl
  | t :: ts => by
      rw [normAll, tsNormalize_ok h]
      dsimp only
      rw [normAll_ok h ts]
      rfl

theorem frac_lt {ts0 ts1 s t : ℤ} (h : ts0 < ts1) : frac ts0 ts1 s < frac ts0 ts1 t ↔ s < t := by
  have hg : (0 : ℝ) < (ts1 : ℝ) - ts0 := by
    have : (ts0 : ℝ) < ts1 := by exact_mod_cast h
    linarith
  unfold frac
  rw [div_lt_div_iff_of_pos_right hg]
  constructor
  · intro h
    have : (s : ℝ) < t := by linarith
    exact_mod_cast this
  · intro h
    have : (s : ℝ) < t := by exact_mod_cast h
    linarith

theorem frac_start {ts0 ts1 : ℤ} : frac ts0 ts1 ts0 = 0 := by simp [frac]

theorem frac_end {ts0 ts1 : ℤ} (h : ts0 < ts1) : frac ts0 ts1 ts1 = 1 := by
  have hg : (0 : ℝ) < (ts1 : ℝ) - ts0 := by
    have : (ts0 : ℝ) < ts1 := by exact_mod_cast h
    linarith
  exact div_self hg.ne'

theorem near_iff {ts0 ts1 ts : ℤ} (h : ts0 < ts1) : NearEnd ts0 ts1 ts ↔
    (Num.fltcmp (frac ts0 ts1 ts) 0 = 0 ∨ Num.fltcmp (frac ts0 ts1 ts) 1 = 0) := by
  have hg : (0 : ℝ) < (ts1 : ℝ) - ts0 := by
    have : (ts0 : ℝ) < ts1 := by exact_mod_cast h
    linarith
  have hz : ∀ a b : ℝ, Num.fltcmp a b = 0 ↔ |a - b| ≤ 1 / 10000 := by
    intro a b
    unfold Num.fltcmp
    by_cases h1 : |a - b| ≤ 1 / 10000
    · rw [if_pos h1]; exact ⟨fun _ => h1, fun _ => rfl⟩
    · rw [if_neg h1]
      constructor
      · intro h2
        by_cases h3 : a > b
        · rw [if_pos h3] at h2; omega
        · rw [if_neg h3] at h2; omega
      · intro h2; exact absurd h2 h1
  rw [hz, hz]
  unfold NearEnd frac
  have e1 : ((ts : ℝ) - ts0) / ((ts1 : ℝ) - ts0) - 1 = ((ts : ℝ) - ts1) / ((ts1 : ℝ) - ts0) := by
    field_simp
    ring
  rw [e1, sub_zero, abs_div, abs_div, abs_of_pos hg, div_le_iff₀ hg, div_le_iff₀ hg]
  constructor <;> rintro (h | h)
  · left; linarith
  · right; linarith
  · left; linarith
  · right; linarith

/-- The knots of a valid trajectory. -/
noncomputable def knots (ts0 ts1 : ℤ) (n : Nat) : List ℝ :=
  (List.range n).map fun i => frac ts0 ts1 (timeAt ts0 ts1 n i)

theorem knots_pairwise {ts0 ts1 : ℤ} {n : Nat} (hn : 2 ≤ n) (hroom : ts0 + n ≤ ts1 + 1) :
    (knots ts0 ts1 n).Pairwise (· < ·) := by
  unfold knots
  rw [List.pairwise_map]
  apply List.Pairwise.imp _ (List.pairwise_lt_range)
  intro a b hab
  rw [frac_lt (by omega)]
  exact timeAt_lt hn hroom hab

theorem init_ok {interp : List (Vec3 ℝ) → List ℝ → Spline} {ts0 ts1 : ℤ} {ps : List (Vec3 ℝ)}
    {qs : List (Quat ℝ)} (hv : Valid ts0 ts1 ps qs) : ∃ F, ∀ fuel, F ≤ fuel →
    ∃ T, init interp fuel ts0 ts1 ps qs = .ok T := by
  have h5 := hv.five
  have hs := hv.same
  cases hq : qs with
  | nil => rw [hq, List.length_nil] at hs; omega
  | cons q qs' =>
    obtain ⟨F, l, _, h2⟩ := rvecs_ok q qs'
    refine ⟨F, fun fuel hf => ?_⟩
    unfold init
    rw [if_neg (by rw [← hq]; simpa using hs), normAll_ok hv.lt]
    dsimp only
    rw [h2 fuel hf]
    exact ⟨_, rfl⟩

/-- What the constructor builds. -/
theorem init_spec {interp : List (Vec3 ℝ) → List ℝ → Spline} {fuel : Nat} {ts0 ts1 : ℤ}
    {ps : List (Vec3 ℝ)} {qs : List (Quat ℝ)} {T : Traj} (hv : Valid ts0 ts1 ps qs)
    (h : init interp fuel ts0 ts1 ps qs = .ok T) : ∃ rv, rvecs fuel qs = .ok rv ∧
      T = { ts0 := ts0, ts1 := ts1, positions := ps, orientations := qs,
            pos := interp ps (knots ts0 ts1 ps.length), rvec := interp rv (knots ts0 ts1 ps.length) } := by
  have h5 := hv.five
  unfold init at h
  rw [if_neg (by simpa using hv.same), normAll_ok hv.lt,
    linspaceTs_eq (by omega) hv.epoch hv.lt.le, List.map_map] at h
  dsimp only at h
  cases hr : rvecs fuel qs with
  | error e => rw [hr] at h; cases h
  | ok rv =>
    rw [hr] at h
    cases h
    exact ⟨rv, rfl, rfl⟩

theorem rvecs_length {fuel : Nat} {qs : List (Quat ℝ)} {l : List (Vec3 ℝ)}
    (h : rvecs fuel qs = .ok l) : l.length = qs.length := by
  obtain ⟨q, qs', l', rfl, rfl, h3⟩ := rvecs_follows h
  rw [List.length_cons, List.length_cons, follows_length _ _ _ h3]

theorem knots_getElem {ts0 ts1 : ℤ} {n i : Nat} (h : i < (knots ts0 ts1 n).length) :
    (knots ts0 ts1 n)[i] = frac ts0 ts1 (timeAt ts0 ts1 n i) := by
  simp only [knots, List.getElem_map, List.getElem_range]

theorem knots_length {ts0 ts1 : ℤ} {n : Nat} : (knots ts0 ts1 n).length = n := by
  simp [knots]

theorem knots_head {ts0 ts1 : ℤ} {n : Nat} (hn : 2 ≤ n) : (knots ts0 ts1 n).head? = some 0 := by
  obtain ⟨m, rfl⟩ := Nat.exists_eq_add_of_le' (show 1 ≤ n by omega)
  unfold knots
  rw [List.range_succ_eq_map, List.map_cons, List.head?_cons, timeAt_zero, frac_start]

theorem knots_last {ts0 ts1 : ℤ} {n : Nat} (hn : 2 ≤ n) (h : ts0 < ts1) :
    (knots ts0 ts1 n).getLast? = some 1 := by
  have hr : List.range n = List.range (n - 1) ++ [n - 1] := by
    rw [← List.range_succ]
    congr 1
    omega
  unfold knots
  rw [hr, List.map_append, List.map_cons, List.map_nil, List.getLast?_append, timeAt_last ts0 ts1 hn,
    frac_end h]
  rfl

theorem knotTime_eq {ts0 ts1 : ℤ} {n i : Nat} (hn : 2 ≤ n) (h0 : 0 ≤ ts0) (h1 : ts0 ≤ ts1)
    (hi : i < n) : knotTime ts0 ts1 n i = timeAt ts0 ts1 n i := by
  unfold knotTime
  rw [linspaceTs_eq hn h0 h1, List.getD_eq_getElem?_getD, List.getElem?_map,
    List.getElem?_range hi]
  rfl

end Yac.Ctraj
