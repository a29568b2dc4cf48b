import Verif.Rand.Model
import Verif.Geom.PoseProps
import Verif.Num.Props

/-! C111: random numbers and random poses. -/

namespace Yac.Rand
open Yac.Geom Matrix

/-- The point of the square `[-1, 1]²` given by the `k`-th pair of numbers after position `pos`. -/
noncomputable def point (randMax : Nat) (rand : Nat → Nat) (pos k : Nat) : ℝ × ℝ :=
  (2 * ((rand (pos + 2 * k) : ℝ) / randMax) - 1, 2 * ((rand (pos + 2 * k + 1) : ℝ) / randMax) - 1)

/-- The point lies inside the unit circle and is not its centre. -/
def Inside (p : ℝ × ℝ) : Prop := 0 < p.1 ^ 2 + p.2 ^ 2 ∧ p.1 ^ 2 + p.2 ^ 2 < 1

theorem reject_spec (randMax : Nat) (rand : Nat → Nat) : ∀ (fuel k : Nat) (st : St), k < fuel →
    Inside (point randMax rand st.pos k) → (∀ j < k, ¬ Inside (point randMax rand st.pos j)) →
    reject randMax rand fuel st = .ok ⟨(point randMax rand st.pos k).1, (point randMax rand st.pos k).2,
      (point randMax rand st.pos k).1 ^ 2 + (point randMax rand st.pos k).2 ^ 2, st.phase, st.pos + 2 * (k + 1)⟩ := by
  intro fuel
  induction fuel with
  | zero => intro k st hk; omega
  | succ fuel ih =>
    intro k st hk hin hout
    have hsq : ∀ p : ℝ × ℝ, (p.1 * p.1 + p.2 * p.2 ≥ 1 ∨ p.1 * p.1 + p.2 * p.2 = 0) ↔ ¬ Inside p := by
      intro p
      unfold Inside
      have e : p.1 ^ 2 + p.2 ^ 2 = p.1 * p.1 + p.2 * p.2 := by ring
      rw [e]
      have hn : 0 ≤ p.1 * p.1 + p.2 * p.2 := add_nonneg (mul_self_nonneg _) (mul_self_nonneg _)
      constructor
      · rintro (h | h) ⟨h1, h2⟩ <;> linarith
      · intro h
        by_contra hc
        rw [not_or, not_le] at hc
        exact h ⟨lt_of_le_of_ne hn (Ne.symm hc.2), hc.1⟩
    have h0 := hsq (point randMax rand st.pos 0)
    simp only [point, Nat.mul_zero, Nat.add_zero] at h0
    rw [reject]
    rcases Nat.eq_zero_or_pos k with hz | hp
    · subst hz
      rw [if_neg]
      · simp only [point, Nat.mul_zero, Nat.add_zero, Nat.zero_add, Nat.mul_one, pow_two]
      · rw [h0]
        exact not_not.2 hin
    · rw [if_pos (h0.2 (hout 0 hp))]
      obtain ⟨j, rfl⟩ : ∃ j, k = j + 1 := ⟨k - 1, by omega⟩
      have hsh : ∀ i, point randMax rand (st.pos + 2) i = point randMax rand st.pos (i + 1) := by
        intro i
        simp only [point]
        rw [show st.pos + 2 + 2 * i = st.pos + 2 * (i + 1) by ring]
      rw [ih j _ (by omega)]
      · simp only [hsh]
        congr 2
        ring
      · show Inside (point randMax rand (st.pos + 2) j)
        rw [hsh]
        exact hin
      · intro i hi
        show ¬ Inside (point randMax rand (st.pos + 2) i)
        rw [hsh]
        exact hout _ (by omega)

theorem log_nonneg {s : ℝ} (h0 : 0 < s) (h1 : s < 1) : 0 ≤ -2 * Real.log s / s := by
  have := Real.log_neg h0 h1
  apply div_nonneg _ h0.le
  linarith

/-- Two calls of `gauss_normal` when no number is left over: the pairs of numbers are taken up to the first point
inside the unit circle; the two results `x`, `y` point in the direction of that point and have
`x² + y² = -2 ln s`, where `s` is its squared distance from the centre; the second call takes no numbers, and the
state allows the next pair. -/
theorem C111_pair (randMax : Nat) (rand : Nat → Nat) (st : St) (hph : st.phase = 0) (k : Nat)
    (hin : Inside (point randMax rand st.pos k)) (hout : ∀ j < k, ¬ Inside (point randMax rand st.pos j)) :
    ∃ F, ∀ fuel, F ≤ fuel → ∀ fuel', ∃ x y st1 st2, gaussNormal randMax rand fuel st = .ok (x, st1) ∧
      gaussNormal randMax rand fuel' st1 = .ok (y, st2) ∧
      st1.pos = st.pos + 2 * (k + 1) ∧ st2.pos = st1.pos ∧ st2.phase = 0 ∧
      x ^ 2 + y ^ 2 = -2 * Real.log ((point randMax rand st.pos k).1 ^ 2 + (point randMax rand st.pos k).2 ^ 2) ∧
      ∃ c > 0, x = c * (point randMax rand st.pos k).1 ∧ y = c * (point randMax rand st.pos k).2 := by
  refine ⟨k + 1, fun fuel hf fuel' => ?_⟩
  have hr := reject_spec randMax rand fuel k st (by omega) hin hout
  generalize point randMax rand st.pos k = p at *
  obtain ⟨h0, h1⟩ := hin
  have hpos : 0 < -2 * Real.log (p.1 ^ 2 + p.2 ^ 2) / (p.1 ^ 2 + p.2 ^ 2) := by
    have := Real.log_neg h0 h1
    apply div_pos _ h0
    linarith
  refine ⟨p.1 * Real.sqrt (-2 * Real.log (p.1 ^ 2 + p.2 ^ 2) / (p.1 ^ 2 + p.2 ^ 2)),
    p.2 * Real.sqrt (-2 * Real.log (p.1 ^ 2 + p.2 ^ 2) / (p.1 ^ 2 + p.2 ^ 2)),
    ⟨p.1, p.2, p.1 ^ 2 + p.2 ^ 2, 1 - st.phase, st.pos + 2 * (k + 1)⟩,
    ⟨p.1, p.2, p.1 ^ 2 + p.2 ^ 2, 1 - (1 - st.phase), st.pos + 2 * (k + 1)⟩, ?_, ?_, rfl, rfl, ?_, ?_, ?_⟩
  · unfold gaussNormal
    rw [if_pos hph, hr]
  · unfold gaussNormal
    rw [if_neg (show ¬ 1 - st.phase = 0 by rw [hph]; decide)]
  · show 1 - (1 - st.phase) = 0
    rw [hph]; rfl
  · rw [mul_pow, mul_pow, Real.sq_sqrt hpos.le, ← add_mul]
    field_simp
  · exact ⟨_, Real.sqrt_pos.2 hpos, by ring, by ring⟩

/-- If no pair of numbers gives a point inside the circle, `gauss_normal` does not return. -/
theorem C111_diverges (randMax : Nat) (rand : Nat → Nat) (st : St) (hph : st.phase = 0)
    (h : ∀ k, ¬ Inside (point randMax rand st.pos k)) (fuel : Nat) :
    gaussNormal randMax rand fuel st = .error .diverge := by
  have key : ∀ (fuel : Nat) (st : St), (∀ k, ¬ Inside (point randMax rand st.pos k)) →
      reject randMax rand fuel st = .error .diverge := by
    intro fuel
    induction fuel with
    | zero => intro st _; rfl
    | succ fuel ih =>
      intro st h
      rw [reject]
      have h0 := h 0
      simp only [point, Nat.mul_zero, Nat.add_zero, Inside] at h0
      rw [if_pos]
      · apply ih
        intro k
        have := h (k + 1)
        simp only [point] at this ⊢
        rw [show st.pos + 2 + 2 * k = st.pos + 2 * (k + 1) by ring]
        exact this
      · by_contra hc
        rw [not_or, not_le] at hc
        apply h0
        simp only [pow_two]
        exact ⟨lt_of_le_of_ne (add_nonneg (mul_self_nonneg _) (mul_self_nonneg _)) (Ne.symm hc.2), hc.1⟩
  unfold gaussNormal
  rw [if_pos hph, key fuel st h]

/-- The rotation about a coordinate axis by the angle `h`, for every `h` that is zero or at least 1e-8. -/
theorem axis_rot (i : Fin 3) {h : ℝ} (hh : h = 0 ∨ 1 / 100000000 ≤ |h|) :
    IsRot (rvec2rot (axisStep i h) (1 / 100000000)) ∧
    (rvec2rot (axisStep i h) (1 / 100000000)).trace = 1 + 2 * Real.cos h := by
  rcases hh with rfl | hh
  · have e : axisStep i 0 = 0 := by ext j; unfold axisStep; by_cases q : j = i <;> simp [q]
    have hn : norm3 (0 : Vec3 ℝ) = 0 := by simp [norm3, dot3]
    obtain ⟨h1, -, h3⟩ := C34_rvec2rot_refuted (axisStep i 0) (1 / 100000000) (by rw [e, hn]; norm_num)
    refine ⟨h3.2 e, ?_⟩
    rw [h1, e]
    have : skew (0 : Vec3 ℝ) = 0 := by apply mat3_eq <;> simp [skew]
    rw [this, add_zero, Matrix.trace_one, Real.cos_zero]
    norm_num
  · have hn := norm3_axis i h
    obtain ⟨h1, -, h3, -⟩ := C34_rvec2rot_partial (axisStep i h) (1 / 100000000)
      (by rw [hn]; exact lt_of_lt_of_le (by norm_num) hh) (by rw [hn]; exact hh)
    refine ⟨h1, ?_⟩
    rw [h3, hn, Real.cos_abs]

/-- `tf_perturb` moves each coordinate of the position by at most `|dr|` and turns the orientation about the
fixed x, y and z axes in turn, by at most `|drot|` about each.  Where no angle is below 1e-8 and not zero, the
result of perturbing a pose is a pose. -/
theorem C111_perturb_partial (randMax : Nat) (hm : 0 < randMax) (r : Fin 6 → Nat) (hr : ∀ i, r i ≤ randMax) (T : Mat4 ℝ)
    (dr drot : ℝ) :
    ∃ d a : Vec3 ℝ, (∀ i, |d i| ≤ |dr|) ∧ (∀ i, |a i| ≤ |drot|) ∧
      tfPerturb randMax r T dr drot = tf (rvec2rot ![0, 0, a 2] (1 / 100000000) *
        (rvec2rot ![0, a 1, 0] (1 / 100000000) * (rvec2rot ![a 0, 0, 0] (1 / 100000000) * tfRot T)))
        (fun i => tfTrans T i + d i) ∧
      ((∀ i, a i = 0 ∨ 1 / 100000000 ≤ |a i|) → IsRot (tfRot T) → IsRot (tfRot (tfPerturb randMax r T dr drot))) := by
  have hb : ∀ (k : Fin 6) (x : ℝ), |Num.randf randMax (r k) x (-x)| ≤ |x| := by
    intro k x
    obtain ⟨h1, h2, -⟩ := Num.C66_randf randMax (r k) (hr k) hm x (-x)
    rw [abs_le]
    rcases le_total 0 x with h | h
    · rw [abs_of_nonneg h]
      rw [min_eq_right (by linarith)] at h1
      rw [max_eq_left (by linarith)] at h2
      exact ⟨h1, h2⟩
    · rw [abs_of_nonpos h]
      rw [min_eq_left (by linarith)] at h1
      rw [max_eq_right (by linarith)] at h2
      exact ⟨by linarith, h2⟩
  refine ⟨![Num.randf randMax (r 0) dr (-dr), Num.randf randMax (r 1) dr (-dr), Num.randf randMax (r 2) dr (-dr)],
    ![Num.randf randMax (r 3) drot (-drot), Num.randf randMax (r 4) drot (-drot), Num.randf randMax (r 5) drot (-drot)],
    ?_, ?_, ?_, ?_⟩
  · intro i; fin_cases i <;> exact hb _ _
  · intro i; fin_cases i <;> exact hb _ _
  · unfold tfPerturb
    simp only [tfPerturbTrans, tfPerturbRot, tfRot_tf, tfTrans_tf]
    have e0 : ∀ x, axisStep 0 x = ![x, 0, 0] := by intro x; ext j; fin_cases j <;> simp [axisStep]
    have e1 : ∀ x, axisStep 1 x = ![0, x, 0] := by intro x; ext j; fin_cases j <;> simp [axisStep]
    have e2 : ∀ x, axisStep 2 x = ![0, 0, x] := by intro x; ext j; fin_cases j <;> simp [axisStep]
    rw [e0, e1, e2, e0, e1, e2]
    simp only [cons_val_zero, cons_val_one, cons_val]
    congr 1
    apply vec3_ext <;> simp <;> rfl
  · intro ha hT
    unfold tfPerturb
    simp only [tfPerturbTrans, tfPerturbRot, tfRot_tf, tfTrans_tf]
    have a0 := (axis_rot 0 (ha 0)).1
    have a1 := (axis_rot 1 (ha 1)).1
    have a2 := (axis_rot 2 (ha 2)).1
    have hmul : ∀ {A B : Mat3 ℝ}, IsRot A → IsRot B → IsRot (A * B) := by
      intro A B hA hB
      refine ⟨?_, by rw [det_mul, hA.2, hB.2, one_mul]⟩
      rw [transpose_mul]
      calc A * B * (Bᵀ * Aᵀ) = A * (B * Bᵀ) * Aᵀ := by simp only [Matrix.mul_assoc]
        _ = 1 := by rw [hB.1, Matrix.mul_one, hA.1]
    exact hmul a2 (hmul a1 (hmul a0 hT))

/-- With a rotation bound that is positive but below 1e-8 the perturbed pose is not a pose: the determinant of its
rotation is above one. -/
theorem C111_perturb_refuted (randMax : Nat) (hm : 0 < randMax) (drot : ℝ) (h0 : 0 < drot)
    (h1 : drot < 1 / 100000000) : ∃ r : Fin 6 → Nat, (∀ i, r i ≤ randMax) ∧
    ¬ IsRot (tfRot (tfPerturb randMax r 1 0 drot)) := by
  refine ⟨fun _ => 0, fun _ => Nat.zero_le _, ?_⟩
  rintro ⟨-, hd⟩
  unfold tfPerturb at hd
  simp only [tfPerturbTrans, tfPerturbRot, tfRot_tf, tfTrans_tf] at hd
  have hv : Num.randf randMax 0 drot (-drot) = -drot := by simp [Num.randf]
  have hdet : ∀ i : Fin 3, (rvec2rot (axisStep i (-drot)) (1 / 100000000)).det = 1 + drot * drot := by
    intro i
    have hn := norm3_axis i (-drot)
    rw [abs_neg, abs_of_pos h0] at hn
    rw [(C34_rvec2rot_refuted (axisStep i (-drot)) (1 / 100000000) (by rw [hn]; exact h1)).2.1]
    congr 1
    fin_cases i <;> simp [dot3, axisStep]
  have hone : (tfRot (1 : Mat4 ℝ)).det = 1 := by
    have : tfRot (1 : Mat4 ℝ) = 1 := by apply mat3_eq <;> simp [tfRot]
    rw [this, det_one]
  rw [hv, det_mul, det_mul, det_mul, hdet, hdet, hdet, hone] at hd
  have : 0 < drot * drot := by positivity
  nlinarith [mul_pos this this, mul_pos (mul_pos this this) this]

/-- The error of a list of vectors is, in each component, the root of the mean of the squares; it is zero only when
the component is zero in every vector, and does not depend on the order. -/
theorem C111_rmse {n : Nat} (vecs : List (Fin n → ℝ)) (i : Fin n) :
    (rmseVec vecs i = none ↔ vecs = []) ∧
    (vecs ≠ [] → ∃ e, rmseVec vecs i = some e ∧ 0 ≤ e ∧
      e ^ 2 * (vecs.length : ℝ) = (vecs.map (fun v => v i ^ 2)).sum ∧ (e = 0 ↔ ∀ v ∈ vecs, v i = 0)) ∧
    (∀ vecs', vecs.Perm vecs' → rmseVec vecs i = rmseVec vecs' i) := by
  refine ⟨?_, ?_, ?_⟩
  · unfold rmseVec Num.rmse
    rw [List.length_map]
    by_cases h : vecs = []
    · simp [h]
    · have : vecs.length ≠ 0 := by simpa using h
      simp [h]
  · intro hne
    obtain ⟨e, h1, h2, h3, h4⟩ := (Num.C29_stddev_rmse (vecs.map (fun v => v i))).2.1 (by simpa using hne)
    refine ⟨e, h1, h2, ?_, ?_⟩
    · rw [List.length_map, List.map_map] at h3
      exact h3
    · rw [h4]
      simp
  · intro vecs' h
    exact ((Num.C29_stddev_rmse _).2.2 _ (h.map _)).2

/-! Witnesses -/

example : Inside (point 4 (fun _ => 3) 0 0) ∧ ¬ Inside (point 4 (fun _ => 0) 0 0) := by
  constructor
  · simp [Inside, point]; norm_num
  · simp [Inside, point]

/-- A generator that always returns zero keeps `gauss_normal` from returning. -/
example (fuel : Nat) : gaussNormal 4 (fun _ => 0) fuel ⟨0, 0, 0, 0, 0⟩ = .error .diverge :=
  C111_diverges 4 _ _ rfl (fun k => by simp [Inside, point]) fuel

example : IsRot (tfRot (1 : Mat4 ℝ)) := by
  have : tfRot (1 : Mat4 ℝ) = 1 := by apply mat3_eq <;> simp [tfRot]
  rw [this]
  exact ⟨by simp, by simp⟩

end Yac.Rand
