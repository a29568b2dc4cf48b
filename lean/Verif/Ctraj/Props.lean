import Verif.Ctraj.Knots
import Mathlib.LinearAlgebra.Lagrange
import Mathlib.Analysis.Calculus.Deriv.Polynomial

/-! C107: continuous-time trajectories, yac/lib/util/core.cpp:1900-2069. -/

namespace Yac.Ctraj
open Yac.Geom Yac.Residual Matrix

/-! ### An interpolation that meets the assumptions -/

/-- The polynomial through one coordinate of the data. -/
noncomputable def poly (data : List (Vec3 ℝ)) (knots : List ℝ) (c : Fin 3) : Polynomial ℝ :=
  Lagrange.interpolate (Finset.range data.length) (fun i => knots.getD i 0)
    (fun i => (data.getD i 0) c)

/-- Lagrange interpolation. -/
noncomputable def lagrange (data : List (Vec3 ℝ)) (knots : List ℝ) : Spline :=
  { f := fun u c => (poly data knots c).eval u,
    d1 := fun u c => (poly data knots c).derivative.eval u,
    d2 := fun u c => (poly data knots c).derivative.derivative.eval u }

theorem lagrange_ok : Interpolates lagrange := by
  refine ⟨?_, ?_⟩
  · intro data knots _ hl hp i h h'
    funext c
    have hinj : Set.InjOn (fun i => knots.getD i 0) (Finset.range data.length : Set ℕ) := by
      intro a ha b hb hab
      simp only [Finset.coe_range, Set.mem_Iio] at ha hb
      rw [← hl] at ha hb
      dsimp only at hab
      rw [List.getD_eq_getElem?_getD, List.getD_eq_getElem?_getD, List.getElem?_eq_getElem ha,
        List.getElem?_eq_getElem hb] at hab
      rw [List.pairwise_iff_getElem] at hp
      rcases lt_trichotomy a b with hlt | heq | hgt
      · exact absurd hab (hp a b ha hb hlt).ne
      · exact heq
      · exact absurd hab (hp b a hb ha hgt).ne'
    have := Lagrange.eval_interpolate_at_node (fun i => (data.getD i 0) c) hinj
      (Finset.mem_range.2 h')
    show (poly data knots c).eval knots[i] = _
    have e1 : knots[i] = knots.getD i 0 := by
      rw [List.getD_eq_getElem?_getD, List.getElem?_eq_getElem h]; rfl
    have e2 : data[i] = data.getD i 0 := by
      rw [List.getD_eq_getElem?_getD, List.getElem?_eq_getElem h']; rfl
    rw [e1, e2]
    exact this
  · intro data knots a b _ _ _ _ _ u _ _
    exact ⟨fun c => Polynomial.hasDerivAt _ u, fun c => Polynomial.hasDerivAt _ u⟩

/-! ### Poses -/

theorem getPose_mid {T : Traj} (h : T.ts0 < T.ts1) {ts : ℤ} (hn : ¬ NearEnd T.ts0 T.ts1 ts) :
    getPose T ts = .ok (if norm3 (T.rvec.f (frac T.ts0 T.ts1 ts)) < 1 / 1000000000000
      then tf 1 (T.pos.f (frac T.ts0 T.ts1 ts))
      else tf (expRot (T.rvec.f (frac T.ts0 T.ts1 ts))) (T.pos.f (frac T.ts0 T.ts1 ts))) := by
  rw [near_iff h, not_or] at hn
  unfold getPose
  rw [tsNormalize_ok h]
  dsimp only
  rw [if_neg hn.1, if_neg hn.2]
  by_cases hs : norm3 (T.rvec.f (frac T.ts0 T.ts1 ts)) < 1 / 1000000000000
  · rw [if_pos hs, if_pos hs]
  · rw [if_neg hs, if_neg hs]
    have hne : T.rvec.f (frac T.ts0 T.ts1 ts) ≠ 0 := by
      intro hc
      rw [hc] at hs
      apply hs
      simp [norm3, dot3]
    rw [expRot, if_neg hne]
    rfl

/-- **C107.** The constructor returns for every valid input: the loop that shortens the steps
between rotation vectors ends.  Each step it leaves is at most half a turn. -/
theorem C107_init {interp : List (Vec3 ℝ) → List ℝ → Spline} {ts0 ts1 : ℤ} {ps : List (Vec3 ℝ)}
    {qs : List (Quat ℝ)} (hv : Valid ts0 ts1 ps qs) : ∃ F, ∀ fuel, F ≤ fuel →
    ∃ T rv, init interp fuel ts0 ts1 ps qs = .ok T ∧ rvecs fuel qs = .ok rv ∧
      rv.length = qs.length ∧
      ∀ (i : Nat) (h : i + 1 < rv.length), norm3 (rv[i + 1] - rv[i]) ≤ Real.pi := by
  obtain ⟨F, hF⟩ := init_ok (interp := interp) hv
  refine ⟨F, fun fuel hf => ?_⟩
  obtain ⟨T, hT⟩ := hF fuel hf
  obtain ⟨rv, h1, _⟩ := init_spec hv hT
  refine ⟨T, rv, hT, h1, rvecs_length h1, ?_⟩
  obtain ⟨q, qs', l', _, rfl, h3⟩ := rvecs_follows h1
  have key : ∀ (qs : List (Quat ℝ)) (prev : Vec3 ℝ) (l : List (Vec3 ℝ)), Follows prev qs l →
      ∀ (i : Nat) (h : i + 1 < (prev :: l).length),
        norm3 ((prev :: l)[i + 1] - (prev :: l)[i]) ≤ Real.pi := by
    intro qs
    induction qs with
    | nil =>
      intro prev l hl i h
      rw [show l = [] from hl] at h
      simp at h
    | cons q qs ih =>
      intro prev l hl i h
      obtain ⟨k, v, l', rfl, _, h2, h3⟩ := hl
      cases i with
      | zero => exact h2
      | succ i => exact ih v l' h3 i (by simpa using h)
  exact fun i h => key _ _ _ h3 i h

/-- A valid trajectory for the examples: five poses, one each second, turning about the vertical. -/
theorem valid_example : Valid 0 4000000000
    [![0, 0, 0], ![1, 0, 0], ![2, 0, 0], ![3, 0, 0], ![4, 0, 0]]
    [⟨1, 0, 0, 0⟩, ⟨0, 0, 0, 1⟩, ⟨1, 0, 0, 0⟩, ⟨0, 0, 0, 1⟩, ⟨1, 0, 0, 0⟩] :=
  ⟨by simp, by simp, by norm_num, by simp⟩

example : ∃ F, ∀ fuel, F ≤ fuel → ∃ T, init lagrange fuel 0 4000000000
    [![0, 0, 0], ![1, 0, 0], ![2, 0, 0], ![3, 0, 0], ![4, 0, 0]]
    [⟨1, 0, 0, 0⟩, ⟨0, 0, 0, 1⟩, ⟨1, 0, 0, 0⟩, ⟨0, 0, 0, 1⟩, ⟨1, 0, 0, 0⟩] = .ok T :=
  init_ok valid_example

/-- **C107.** At (and within `1e-4` of the duration of) the start the pose is the first given pose,
likewise at the end the last. -/
theorem C107_ends {interp : List (Vec3 ℝ) → List ℝ → Spline} {fuel : Nat} {ts0 ts1 : ℤ}
    {ps : List (Vec3 ℝ)} {qs : List (Quat ℝ)} {T : Traj} (hv : Valid ts0 ts1 ps qs)
    (h : init interp fuel ts0 ts1 ps qs = .ok T) :
    (∀ ts : ℤ, |(ts : ℝ) - ts0| ≤ ((ts1 : ℝ) - ts0) / 10000 → ∃ q r, qs.head? = some q ∧
      ps.head? = some r ∧ getPose T ts = .ok (tf q.toRot r)) ∧
    (∀ ts : ℤ, |(ts : ℝ) - ts1| ≤ ((ts1 : ℝ) - ts0) / 10000 → ∃ q r, qs.getLast? = some q ∧
      ps.getLast? = some r ∧ getPose T ts = .ok (tf q.toRot r)) := by
  obtain ⟨rv, _, rfl⟩ := init_spec hv h
  have hlt := hv.lt
  have h5 := hv.five
  have hg : (0 : ℝ) < (ts1 : ℝ) - ts0 := by
    have : (ts0 : ℝ) < ts1 := by exact_mod_cast hlt
    linarith
  have hps : ps ≠ [] := by rintro rfl; simp at h5
  have hqs : qs ≠ [] := by rintro rfl; have := hv.same; simp at this; exact hps this
  have hz : ∀ a b : ℝ, |a - b| ≤ 1 / 10000 → Num.fltcmp a b = 0 := by
    intro a b hab
    unfold Num.fltcmp
    rw [if_pos hab]
  constructor
  · intro ts hts
    refine ⟨qs.head hqs, ps.head hps, List.head?_eq_some_head hqs, List.head?_eq_some_head hps, ?_⟩
    unfold getPose
    dsimp only
    rw [tsNormalize_ok hlt]
    dsimp only
    have hu : Num.fltcmp (frac ts0 ts1 ts) 0 = 0 := by
      apply hz
      unfold frac
      rw [sub_zero, abs_div, abs_of_pos hg, div_le_iff₀ hg]
      linarith
    rw [if_pos hu, List.head?_eq_some_head hqs, List.head?_eq_some_head hps]
    rfl
  · intro ts hts
    refine ⟨qs.getLast hqs, ps.getLast hps, List.getLast?_eq_some_getLast hqs,
      List.getLast?_eq_some_getLast hps, ?_⟩
    unfold getPose
    dsimp only
    rw [tsNormalize_ok hlt]
    dsimp only
    have e1 : frac ts0 ts1 ts - 1 = ((ts : ℝ) - ts1) / ((ts1 : ℝ) - ts0) := by
      unfold frac
      field_simp
      ring
    have habs := abs_le.1 hts
    have hu0 : ¬ Num.fltcmp (frac ts0 ts1 ts) 0 = 0 := by
      unfold Num.fltcmp frac
      have hge : (1 : ℝ) / 2 ≤ ((ts : ℝ) - ts0) / ((ts1 : ℝ) - ts0) := by
        rw [le_div_iff₀ hg]
        linarith
      rw [sub_zero, abs_of_nonneg (by linarith), if_neg (by linarith), if_pos (by linarith)]
      norm_num
    have hu : Num.fltcmp (frac ts0 ts1 ts) 1 = 0 := by
      apply hz
      rw [e1, abs_div, abs_of_pos hg, div_le_iff₀ hg]
      linarith
    rw [if_neg hu0, if_pos hu, List.getLast?_eq_some_getLast hqs, List.getLast?_eq_some_getLast hps]
    rfl

/-- **C107.** Every pose returned is a rigid transform, if the orientations given are unit
quaternions. -/
theorem C107_rigid {interp : List (Vec3 ℝ) → List ℝ → Spline} {fuel : Nat} {ts0 ts1 : ℤ}
    {ps : List (Vec3 ℝ)} {qs : List (Quat ℝ)} {T : Traj} (hv : Valid ts0 ts1 ps qs)
    (hq : ∀ q ∈ qs, q.normSq = 1) (h : init interp fuel ts0 ts1 ps qs = .ok T) (ts : ℤ) :
    ∃ C r, getPose T ts = .ok (tf C r) ∧ IsRot C := by
  by_cases hn : NearEnd ts0 ts1 ts
  · obtain ⟨h1, h2⟩ := C107_ends hv h
    rcases hn with hn | hn
    · obtain ⟨q, r, hq', _, hp⟩ := h1 ts hn
      have hu := hq q (List.mem_of_mem_head? hq')
      exact ⟨_, r, hp, toRot_mul_transpose _ hu, toRot_det _ hu⟩
    · obtain ⟨q, r, hq', _, hp⟩ := h2 ts hn
      have hu := hq q (List.mem_of_getLast? hq')
      exact ⟨_, r, hp, toRot_mul_transpose _ hu, toRot_det _ hu⟩
  · obtain ⟨rv, _, rfl⟩ := init_spec hv h
    have := getPose_mid (T := ⟨ts0, ts1, ps, qs, interp ps (knots ts0 ts1 ps.length),
      interp rv (knots ts0 ts1 ps.length)⟩) hv.lt hn
    dsimp only at this
    rw [this]
    split_ifs
    · exact ⟨1, _, rfl, by simp, by simp⟩
    · exact ⟨_, _, rfl, expRot_isRot _⟩

/-- **C107.** At the time of every given pose (but near the ends, `C107_ends`) the position is the
given one, and the orientation that of the rotation vector computed for it (up to `1e-12`
radians). -/
theorem C107_through {interp : List (Vec3 ℝ) → List ℝ → Spline} (hi : Interpolates interp)
    {fuel : Nat} {ts0 ts1 : ℤ} {ps : List (Vec3 ℝ)} {qs : List (Quat ℝ)} {T : Traj}
    (hv : Valid ts0 ts1 ps qs) (h : init interp fuel ts0 ts1 ps qs = .ok T) {rv : List (Vec3 ℝ)}
    (hr : rvecs fuel qs = .ok rv) (i : Nat) (hp : i < ps.length) (hir : i < rv.length)
    (hne : ¬ NearEnd ts0 ts1 (knotTime ts0 ts1 ps.length i)) :
    ∃ C, getPose T (knotTime ts0 ts1 ps.length i) = .ok (tf C ps[i]) ∧
      (C = expRot rv[i] ∨ (norm3 rv[i] < 1 / 1000000000000 ∧ C = 1)) := by
  obtain ⟨rv', hr', rfl⟩ := init_spec hv h
  rw [hr] at hr'
  cases hr'
  have h5 := hv.five
  have hlen := rvecs_length hr
  have hk : knotTime ts0 ts1 ps.length i = timeAt ts0 ts1 ps.length i :=
    knotTime_eq (by omega) hv.epoch hv.lt.le hp
  have hpw := knots_pairwise (n := ps.length) (by omega) hv.room
  have hki : i < (knots ts0 ts1 ps.length).length := by rw [knots_length]; exact hp
  have hf := hi.through ps (knots ts0 ts1 ps.length) h5 knots_length hpw i hki hp
  have hg := hi.through rv (knots ts0 ts1 ps.length) (by rw [hlen, ← hv.same]; exact h5)
    (by rw [knots_length, hlen, hv.same]) hpw i hki hir
  rw [knots_getElem] at hf hg
  have := getPose_mid (T := ⟨ts0, ts1, ps, qs, interp ps (knots ts0 ts1 ps.length),
    interp rv (knots ts0 ts1 ps.length)⟩) hv.lt hne
  dsimp only at this
  rw [this, hk, hf, hg]
  split_ifs with hs
  · exact ⟨1, rfl, Or.inr ⟨hs, rfl⟩⟩
  · exact ⟨_, rfl, Or.inl rfl⟩

/-- The rotation vectors of consecutive orientations are at most half a turn apart. -/
def Close : List (Quat ℝ) → Prop
  | [] => True
  | [_] => True
  | p :: q :: qs => norm3 (toRvec q - toRvec p) ≤ Real.pi ∧ Close (q :: qs)

theorem rvecLoop_close (fuel : Nat) : ∀ (qs : List (Quat ℝ)) (p : Quat ℝ), Close (p :: qs) →
    rvecLoop fuel (toRvec p) qs = .ok (qs.map toRvec)
  | [], _, _ => rfl
  | q :: qs, p, h => by
      rw [rvecLoop, unwrap_small h.1]
      dsimp only
      have e : toRvec p + (toRvec q - toRvec p) = toRvec q := by abel
      rw [e, rvecLoop_close fuel qs q h.2]
      rfl

/-- **C107, partial.** If consecutive rotation vectors are at most half a turn apart, the
trajectory has the given orientation at the time of every given pose.  (Missing: larger steps, see
`C107_orientation_refuted`; orientations within `1e-12` radians of none are replaced by none.) -/
theorem C107_orientation_partial {interp : List (Vec3 ℝ) → List ℝ → Spline}
    (hi : Interpolates interp) {fuel : Nat} {ts0 ts1 : ℤ} {ps : List (Vec3 ℝ)}
    {qs : List (Quat ℝ)} {T : Traj} (hv : Valid ts0 ts1 ps qs) (hq : ∀ q ∈ qs, q.normSq = 1)
    (hc : Close qs) (h : init interp fuel ts0 ts1 ps qs = .ok T) (i : Nat) (hp : i < ps.length)
    (hiq : i < qs.length) (hne : ¬ NearEnd ts0 ts1 (knotTime ts0 ts1 ps.length i))
    (hbig : 1 / 1000000000000 ≤ norm3 (toRvec qs[i])) :
    getPose T (knotTime ts0 ts1 ps.length i) = .ok (tf qs[i].toRot ps[i]) := by
  have hr : rvecs fuel qs = .ok (qs.map toRvec) := by
    cases qs with
    | nil => simp at hiq
    | cons q qs =>
      rw [rvecs, rvecLoop_close fuel qs q hc]
      rfl
  obtain ⟨C, h1, h2⟩ := C107_through hi hv h hr i hp (by simpa using hiq) hne
  rw [List.getElem_map] at h2
  rcases h2 with h2 | ⟨h2, _⟩
  · rw [h1, h2, expRot_toRvec (hq _ (List.getElem_mem hiq))]
  · linarith

example : Close [⟨1, 0, 0, 0⟩, ⟨0, 0, 0, 1⟩, ⟨1, 0, 0, 0⟩, ⟨0, 0, 0, 1⟩, ⟨1, 0, 0, 0⟩] := by
  have e0 : toRvec ⟨1, 0, 0, 0⟩ = 0 := by simp [toRvec, norm3, dot3]
  have e1 : toRvec ⟨0, 0, 0, 1⟩ = ![0, 0, Real.pi] := by
    have hn : norm3 ![0, 0, 1] = 1 := by simp [norm3, dot3]
    have ha : atan2 1 0 = Real.pi / 2 := by
      have := atan2_polar 1 (Real.pi / 2) one_pos (by linarith [Real.pi_pos]) (by linarith [Real.pi_pos])
      simpa using this
    unfold toRvec
    simp only [hn, abs_zero, ha, ne_eq, one_ne_zero, not_false_eq_true, if_true, lt_irrefl, if_false]
    funext i
    fin_cases i <;> simp
    ring
  have n1 : norm3 ![0, 0, Real.pi] = Real.pi := by
    simp [norm3, dot3, Real.sqrt_mul_self Real.pi_pos.le]
  have n2 : norm3 (-![0, 0, Real.pi]) = Real.pi := by
    simp [norm3, dot3, Real.sqrt_mul_self Real.pi_pos.le]
  simp only [Close, e0, e1, sub_zero, zero_sub, n1, n2, le_refl, and_self]

/-- Rotations about one axis. -/
def OneAxis (e : Vec3 ℝ) (qs : List (Quat ℝ)) : Prop := ∀ q ∈ qs, ∃ a : ℝ, toRvec q = a • e

theorem follows_axis {e : Vec3 ℝ} (he : dot3 e e = 1) : ∀ (qs : List (Quat ℝ)) (b : ℝ)
    (l : List (Vec3 ℝ)), OneAxis e qs → (∀ q ∈ qs, q.normSq = 1) → Follows (b • e) qs l →
    List.Forall₂ (fun q v => expRot v = q.toRot) qs l
  | [], _, l, _, _, h => by rw [show l = [] from h]; exact .nil
  | q :: qs, b, l, ha, hu, h => by
      obtain ⟨k, v, l', rfl, hv, _, h4⟩ := h
      obtain ⟨a, hqa⟩ := ha q (by simp)
      have hen : norm3 e = 1 := by unfold norm3; rw [he]; simp
      have hs : ∃ s : ℤ, v = (a + 2 * Real.pi * s) • e := by
        rw [hqa, ← sub_smul] at hv
        by_cases h0 : a - b = 0
        · refine ⟨0, ?_⟩
          rw [hv, h0]
          simp [normalized, dot3]
        · have he0 : e ≠ 0 := norm3_ne (by rw [hen]; norm_num)
          have hne : (a - b) • e ≠ 0 := smul_ne_zero h0 he0
          rw [normalized_eq hne, norm3_smul, hen, mul_one, smul_smul, smul_smul, ← sub_smul] at hv
          rcases lt_or_gt_of_ne h0 with hl | hl
          · refine ⟨k, ?_⟩
            rw [hv, abs_of_neg hl]
            congr 1
            have : 1 / -(a - b) * (a - b) = -1 := by field_simp
            rw [mul_assoc _ _ (a - b), this]
            push_cast
            ring
          · refine ⟨-k, ?_⟩
            rw [hv, abs_of_pos hl]
            congr 1
            have : 1 / (a - b) * (a - b) = 1 := by field_simp
            rw [mul_assoc _ _ (a - b), this]
            push_cast
            ring
      obtain ⟨s, hs⟩ := hs
      refine .cons ?_ (follows_axis he qs (a + 2 * Real.pi * s) l' (fun q hq => ha q (by simp [hq]))
        (fun q hq => hu q (by simp [hq])) (by rw [← hs]; exact h4))
      rw [hs, expRot_turns he, ← hqa, expRot_toRvec (hu q (by simp))]

/-- **C107.** For orientations about one fixed axis, whatever the size of the steps, the rotation
vectors computed stand for the given orientations (so with `C107_through` the trajectory has them at
the times of the given poses). -/
theorem C107_one_axis {fuel : Nat} {qs : List (Quat ℝ)} {rv : List (Vec3 ℝ)} {e : Vec3 ℝ}
    (he : dot3 e e = 1) (ha : OneAxis e qs) (hq : ∀ q ∈ qs, q.normSq = 1)
    (hr : rvecs fuel qs = .ok rv) : List.Forall₂ (fun q v => expRot v = q.toRot) qs rv := by
  obtain ⟨q, qs', l', rfl, rfl, h⟩ := rvecs_follows hr
  obtain ⟨a, hqa⟩ := ha q (by simp)
  refine .cons (expRot_toRvec (hq q (by simp))) ?_
  rw [hqa] at h
  exact follows_axis he qs' a l' (fun q hq' => ha q (by simp [hq'])) (fun q hq' => hq q (by simp [hq'])) h

end Yac.Ctraj
