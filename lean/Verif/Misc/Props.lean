import Verif.Misc.Model
import Verif.Geom.RotProps
import Mathlib.Tactic.Linarith
import Mathlib.Tactic.LinearCombination
import Mathlib.Tactic.FieldSimp
import Mathlib.Tactic.Ring
import Mathlib.Tactic.NormNum
import Mathlib.Tactic.Positivity

/-!
# C60, C61, C62, C69, C70: helpers
-/

namespace Yac.Misc
open Matrix Yac.Geom

/-! ## C60, C70 -/

section Cmp
variable {K : Type} [Field K] [LinearOrder K]

theorem foldl_or (l : List Nat) (p : Nat → Bool) (f : Bool) :
    l.foldl (fun f j => if p j then true else f) f = (f || l.any p) := by
  induction l generalizing f with
  | nil => simp
  | cons x l ih =>
    simp only [List.foldl_cons, List.any_cons]
    rw [ih]
    cases hx : p x <;> cases f <;> simp

theorem foldl_or2 (l : List Nat) (g : Nat → Bool → Bool) (p : Nat → Bool)
    (h : ∀ i f, g i f = (f || p i)) (f : Bool) :
    l.foldl (fun f i => g i f) f = (f || l.any p) := by
  induction l generalizing f with
  | nil => simp
  | cons x l ih =>
    simp only [List.foldl_cons, List.any_cons]
    rw [h, ih, Bool.or_assoc]

theorem checkJacobian_eq (fdiff jac : DMat K) (th : K) (hr : fdiff.rows = jac.rows)
    (hc : fdiff.cols = jac.cols) (hne : 0 < jac.rows * jac.cols) :
    checkJacobian fdiff jac th =
      if (List.range fdiff.rows).any (fun i => (List.range fdiff.cols).any (fun j =>
        decide (|fdiff.e i j - jac.e i j| ≥ th))) then -1 else 0 := by
  unfold checkJacobian
  rw [if_neg (by omega), if_neg (by rw [hr, hc]; omega), if_neg (by simpa using hr),
    if_neg (by simpa using hc)]
  simp only
  congr 1
  have h2 : ∀ (i : Nat) (f : Bool), (List.range fdiff.cols).foldl (fun f j =>
        if |fdiff.e i j - jac.e i j| ≥ th then true else f) f =
      (f || (List.range fdiff.cols).any (fun j => decide (|fdiff.e i j - jac.e i j| ≥ th))) := by
    intro i f
    have := foldl_or (List.range fdiff.cols) (fun j => decide (|fdiff.e i j - jac.e i j| ≥ th)) f
    simpa only [decide_eq_true_eq] using this
  rw [foldl_or2 (List.range fdiff.rows) _ _ h2]
  simp

/-- **C60 (partial).**  For two non-empty matrices of equal shape `check_jacobian` returns 0 if
every entry differs by less than the threshold, and -1 otherwise. -/
theorem C60_check_partial (fdiff jac : DMat K) (th : K) (hr : fdiff.rows = jac.rows)
    (hc : fdiff.cols = jac.cols) (hne : 0 < jac.rows * jac.cols) :
    (checkJacobian fdiff jac th = 0 ↔
      ∀ i < jac.rows, ∀ j < jac.cols, |fdiff.e i j - jac.e i j| < th) ∧
    (checkJacobian fdiff jac th = 0 ∨ checkJacobian fdiff jac th = -1) := by
  rw [checkJacobian_eq fdiff jac th hr hc hne]
  constructor
  · split_ifs with h
    · simp only [List.any_eq_true, List.mem_range, decide_eq_true_eq] at h
      obtain ⟨i, hi, j, hj, hge⟩ := h
      refine ⟨fun h => absurd h (by decide), fun h => ?_⟩
      exact absurd (h i (hr ▸ hi) j (hc ▸ hj)) (not_lt.mpr hge)
    · refine ⟨fun _ i hi j hj => ?_, fun _ => rfl⟩
      by_contra hlt
      apply h
      simp only [List.any_eq_true, List.mem_range, decide_eq_true_eq]
      exact ⟨i, hr.symm ▸ hi, j, hc.symm ▸ hj, not_lt.mp hlt⟩
  · split_ifs <;> simp

/-- **C60 refuted.**  Empty matrices and matrices of different shapes are reported as a success,
whatever they contain. -/
theorem C60_shape_refuted (fdiff jac : DMat K) (th : K)
    (h : jac.rows * jac.cols = 0 ∨ fdiff.rows * fdiff.cols = 0 ∨ fdiff.rows ≠ jac.rows ∨
      fdiff.cols ≠ jac.cols) : checkJacobian fdiff jac th = 0 := by
  unfold checkJacobian
  by_cases h1 : jac.rows * jac.cols = 0
  · rw [if_pos h1]
  rw [if_neg h1]
  by_cases h2 : fdiff.rows * fdiff.cols = 0
  · rw [if_pos h2]
  rw [if_neg h2]
  by_cases h3 : fdiff.rows ≠ jac.rows
  · rw [if_pos h3]
  rw [if_neg h3, if_pos]
  rcases h with h | h | h | h
  · exact absurd h h1
  · exact absurd h h2
  · exact absurd h h3
  · exact h

example : checkJacobian (⟨1, 2, fun _ j => if j = 1 then 5 else 0⟩ : DMat ℚ) ⟨1, 2, fun _ _ => 0⟩ 1 = -1 ∧
    checkJacobian (⟨1, 2, fun _ j => if j = 1 then 5 else 0⟩ : DMat ℚ) ⟨1, 2, fun _ _ => 0⟩ 6 = 0 ∧
    checkJacobian (⟨1, 2, fun _ _ => 5⟩ : DMat ℚ) ⟨2, 1, fun _ _ => 0⟩ 1 = 0 := by
  decide +kernel

/-- **C70 (`equals`).**  True exactly for matrices of the same shape whose corresponding entries
differ by at most 1e-4. -/
theorem C70_equals [IsStrictOrderedRing K] (A B : DMat K) : equals A B = true ↔
    A.rows = B.rows ∧ A.cols = B.cols ∧
      ∀ i < A.rows, ∀ j < A.cols, |A.e i j - B.e i j| ≤ 1 / 10000 := by
  have hf : ∀ a b : K, Num.fltcmp a b = 0 ↔ |a - b| ≤ 1 / 10000 := by
    intro a b
    unfold Num.fltcmp
    split_ifs with h1 h2
    · exact ⟨fun _ => h1, fun _ => rfl⟩
    · exact ⟨fun h => absurd h (by decide), fun h => absurd h h1⟩
    · exact ⟨fun h => absurd h (by decide), fun h => absurd h h1⟩
  unfold equals
  by_cases h1 : A.rows ≠ B.rows
  · rw [if_pos h1]; simp [h1]
  rw [if_neg h1]
  by_cases h2 : A.cols ≠ B.cols
  · rw [if_pos h2]; simp [h2]
  rw [if_neg h2]
  simp only [List.all_eq_true, List.mem_range, decide_eq_true_eq, hf]
  exact ⟨fun h => ⟨not_not.mp h1, not_not.mp h2, h⟩, fun h => h.2.2⟩

example : equals (⟨1, 1, fun _ _ => 1⟩ : DMat ℚ) ⟨1, 1, fun _ _ => 10001 / 10000⟩ = true ∧
    equals (⟨1, 1, fun _ _ => 1⟩ : DMat ℚ) ⟨1, 1, fun _ _ => 10002 / 10000⟩ = false := by
  decide +kernel

end Cmp

/-! ## C61 -/

/-- Squared distance of two points. -/
def dsq (p q : P2) : ℝ := (p 0 - q 0) ^ 2 + (p 1 - q 1) ^ 2

theorem p2_ext {p q : P2} (h0 : p 0 = q 0) (h1 : p 1 = q 1) : p = q := by
  ext i; fin_cases i
  · exact h0
  · exact h1

theorem dsq_pos {a b : P2} (h : a ≠ b) : 0 < dsq a b := by
  unfold dsq
  rcases eq_or_ne (a 0) (b 0) with h0 | h0
  · have h1 : a 1 ≠ b 1 := fun h1 => h (p2_ext h0 h1)
    have := sq_pos_of_ne_zero (sub_ne_zero.mpr h1)
    have := sq_nonneg (a 0 - b 0)
    linarith
  · have := sq_pos_of_ne_zero (sub_ne_zero.mpr h0)
    have := sq_nonneg (a 1 - b 1)
    linarith

/-- **C61 (`closest_point`).**  For distinct `a`, `b` the point written is on the line through
them, at the returned parameter, the connection to `p` is orthogonal to the line, and no point
of the line is closer to `p`.  For `a = b` it is `a`, with return value -1. -/
theorem C61_closest_point (a b p : P2) :
    (a ≠ b → (closestPoint a b p).2 = a + (closestPoint a b p).1 • (b - a) ∧
      (p 0 - (closestPoint a b p).2 0) * (b 0 - a 0) +
        (p 1 - (closestPoint a b p).2 1) * (b 1 - a 1) = 0 ∧
      ∀ s : ℝ, dsq p (closestPoint a b p).2 ≤ dsq p (a + s • (b - a))) ∧
    (a = b → closestPoint a b p = (-1, a)) := by
  constructor
  · intro hab
    have hpos := dsq_pos hab
    have hne : ¬ Real.sqrt ((a 0 - b 0) ^ 2 + (a 1 - b 1) ^ 2) = 0 := by
      have := Real.sqrt_pos.mpr hpos
      unfold dsq at this
      exact this.ne'
    have hD : 0 < (b 0 - a 0) * (b 0 - a 0) + (b 1 - a 1) * (b 1 - a 1) := by
      unfold dsq at hpos; nlinarith
    have e : closestPoint a b p = (((p 0 - a 0) * (b 0 - a 0) + (p 1 - a 1) * (b 1 - a 1)) /
        ((b 0 - a 0) * (b 0 - a 0) + (b 1 - a 1) * (b 1 - a 1)),
        a + (((p 0 - a 0) * (b 0 - a 0) + (p 1 - a 1) * (b 1 - a 1)) /
        ((b 0 - a 0) * (b 0 - a 0) + (b 1 - a 1) * (b 1 - a 1))) • (b - a)) := by
      unfold closestPoint; rw [if_neg hne]; rfl
    rw [e]
    set t := ((p 0 - a 0) * (b 0 - a 0) + (p 1 - a 1) * (b 1 - a 1)) /
        ((b 0 - a 0) * (b 0 - a 0) + (b 1 - a 1) * (b 1 - a 1)) with ht
    have htD : t * ((b 0 - a 0) * (b 0 - a 0) + (b 1 - a 1) * (b 1 - a 1)) =
        (p 0 - a 0) * (b 0 - a 0) + (p 1 - a 1) * (b 1 - a 1) := by
      rw [ht]; exact div_mul_cancel₀ _ hD.ne'
    refine ⟨rfl, ?_, fun s => ?_⟩
    · simp only [Pi.add_apply, Pi.smul_apply, Pi.sub_apply, smul_eq_mul]
      linear_combination -htD
    · simp only [dsq, Pi.add_apply, Pi.smul_apply, Pi.sub_apply, smul_eq_mul]
      have : 0 ≤ (s - t) ^ 2 * ((b 0 - a 0) * (b 0 - a 0) + (b 1 - a 1) * (b 1 - a 1)) := by
        positivity
      have key : (p 0 - (a 0 + s * (b 0 - a 0))) ^ 2 + (p 1 - (a 1 + s * (b 1 - a 1))) ^ 2 -
          ((p 0 - (a 0 + t * (b 0 - a 0))) ^ 2 + (p 1 - (a 1 + t * (b 1 - a 1))) ^ 2) =
          (s - t) ^ 2 * ((b 0 - a 0) * (b 0 - a 0) + (b 1 - a 1) * (b 1 - a 1)) := by
        linear_combination 2 * (s - t) * htD
      linarith
  · rintro rfl
    unfold closestPoint
    rw [if_pos]
    simp

/-- **C61 (`point_left_right`).**  For distinct `a`, `b`: 1 exactly for points to the left of the
directed line from `a` to `b` (reached by going along the line and then by a positive amount
along its direction turned by 90 degrees counterclockwise), 2 exactly for points to the right, 0
exactly for points of the line. -/
theorem C61_left_right (a b c : P2) (hab : a ≠ b) :
    ∃ s u : ℝ, c = a + s • (b - a) + u • ![-(b 1 - a 1), b 0 - a 0] ∧
      (pointLeftRight a b c = 1 ↔ 0 < u) ∧ (pointLeftRight a b c = 2 ↔ u < 0) ∧
      (pointLeftRight a b c = 0 ↔ u = 0) := by
  have hD : 0 < (b 0 - a 0) ^ 2 + (b 1 - a 1) ^ 2 := by
    have := dsq_pos hab; unfold dsq at this; nlinarith
  set D := (b 0 - a 0) ^ 2 + (b 1 - a 1) ^ 2 with hDdef
  set x := (b 0 - a 0) * (c 1 - a 1) - (b 1 - a 1) * (c 0 - a 0) with hx
  refine ⟨((c 0 - a 0) * (b 0 - a 0) + (c 1 - a 1) * (b 1 - a 1)) / D, x / D, ?_, ?_⟩
  · apply p2_ext
    · simp only [Pi.add_apply, Pi.smul_apply, Pi.sub_apply, smul_eq_mul, Matrix.cons_val_zero]
      field_simp
      rw [hx, hDdef]; ring
    · simp only [Pi.add_apply, Pi.smul_apply, Pi.sub_apply, smul_eq_mul, Matrix.cons_val_one,
        Matrix.cons_val_zero]
      field_simp
      rw [hx, hDdef]; ring
  · have hpos : 0 < x / D ↔ 0 < x := by
      constructor
      · intro h; by_contra hn
        have := div_nonpos_of_nonpos_of_nonneg (not_lt.mp hn) hD.le
        linarith
      · exact fun h => div_pos h hD
    have hneg : x / D < 0 ↔ x < 0 := by
      constructor
      · intro h; by_contra hn
        have := div_nonneg (not_lt.mp hn) hD.le
        linarith
      · exact fun h => div_neg_of_neg_of_pos h hD
    have hz : x / D = 0 ↔ x = 0 := by rw [div_eq_zero_iff]; simp [hD.ne']
    have e : pointLeftRight a b c = if x > 0 then 1 else if x < 0 then 2 else if x = 0 then 0 else -1 :=
      rfl
    rw [e, hpos, hneg, hz]
    rcases lt_trichotomy x 0 with h | h | h
    · rw [if_neg (by linarith), if_pos h]
      simp [h, h.ne, not_lt.mpr h.le]
    · rw [h]; simp
    · rw [if_pos h]
      simp [h, h.ne', not_lt.mpr h.le]

/-- **C61 refuted (`cross_track_error`).**  The function reads the x coordinates of both line
points twice; its value does not depend on the line at all: it is the distance of `pos` to the
diagonal x = y (or a division by zero when both points have the same x coordinate). -/
theorem C61_cross_track_refuted (p1 p2 pos : P2) :
    (p1 0 ≠ p2 0 → crossTrackError p1 p2 pos = some (|pos 0 - pos 1| / Real.sqrt 2)) ∧
    (p1 0 = p2 0 → crossTrackError p1 p2 pos = none) := by
  have hd : Real.sqrt ((p2 0 - p1 0) ^ 2 + (p2 0 - p1 0) ^ 2) = |p2 0 - p1 0| * Real.sqrt 2 := by
    rw [← Real.sqrt_sq_eq_abs, ← Real.sqrt_mul (sq_nonneg _)]
    congr 1; ring
  have hn : (p2 0 - p1 0) * pos 0 - (p2 0 - p1 0) * pos 1 + p2 0 * p1 0 - p2 0 * p1 0 =
      (p2 0 - p1 0) * (pos 0 - pos 1) := by ring
  have h2 : Real.sqrt 2 ≠ 0 := (Real.sqrt_pos.mpr (by norm_num)).ne'
  unfold crossTrackError
  simp only [hd, hn]
  constructor
  · intro h
    have h' : |p2 0 - p1 0| ≠ 0 := abs_ne_zero.mpr (sub_ne_zero.mpr (Ne.symm h))
    rw [if_neg (mul_ne_zero h' h2), abs_mul]
    congr 1
    field_simp
  · intro h
    rw [if_pos]
    rw [h, sub_self, abs_zero, zero_mul]

/-- The point (0, 2) is at distance 2 from the x axis, the code says `2 / √2`. -/
example : crossTrackError ![0, 0] ![1, 0] ![0, 2] = some (2 / Real.sqrt 2) ∧
    (2 / Real.sqrt 2 : ℝ) ≠ 2 := by
  constructor
  · have := (C61_cross_track_refuted ![0, 0] ![1, 0] ![0, 2]).1 (by simp)
    rw [this]; simp
  · have h := Real.sq_sqrt (show (0 : ℝ) ≤ 2 by norm_num)
    intro e
    have hp : Real.sqrt 2 ≠ 0 := (Real.sqrt_pos.mpr (by norm_num)).ne'
    rw [div_eq_iff hp] at e
    have : Real.sqrt 2 = 1 := by linarith
    rw [this] at h; norm_num at h

/-- **C61 (`cross_track_error`, partial).**  For a line along the diagonal x = y, the only case
in which the misread coordinates are harmless, the result is the distance to the line: it is
attained and not exceeded by any point of the line. -/
theorem C61_cross_track_partial (p1 p2 pos : P2) (h1 : p1 1 = p1 0) (h2 : p2 1 = p2 0)
    (hne : p1 ≠ p2) : ∃ e, crossTrackError p1 p2 pos = some e ∧
      (∃ s : ℝ, e = Real.sqrt (dsq pos (p1 + s • (p2 - p1)))) ∧
      ∀ s : ℝ, e ≤ Real.sqrt (dsq pos (p1 + s • (p2 - p1))) := by
  have h0 : p1 0 ≠ p2 0 := fun h => hne (p2_ext h (by rw [h1, h2, h]))
  refine ⟨_, (C61_cross_track_refuted p1 p2 pos).1 h0, ?_⟩
  have hs : |pos 0 - pos 1| / Real.sqrt 2 = Real.sqrt ((pos 0 - pos 1) ^ 2 / 2) := by
    rw [Real.sqrt_div (sq_nonneg _), Real.sqrt_sq_eq_abs]
  rw [hs]
  have hsub : p2 0 - p1 0 ≠ 0 := sub_ne_zero.mpr (Ne.symm h0)
  have key : ∀ s : ℝ, dsq pos (p1 + s • (p2 - p1)) = (pos 0 - pos 1) ^ 2 / 2 +
      (pos 0 + pos 1 - 2 * (p1 0 + s * (p2 0 - p1 0))) ^ 2 / 2 := by
    intro s
    simp only [dsq, Pi.add_apply, Pi.smul_apply, Pi.sub_apply, smul_eq_mul, h1, h2]
    ring
  refine ⟨⟨((pos 0 + pos 1) / 2 - p1 0) / (p2 0 - p1 0), ?_⟩, fun s => ?_⟩
  · rw [key]
    congr 1
    rw [div_mul_cancel₀ _ hsub]; ring
  · rw [key]
    apply Real.sqrt_le_sqrt
    have := sq_nonneg (pos 0 + pos 1 - 2 * (p1 0 + s * (p2 0 - p1 0)))
    linarith

/-! ### Circles -/

/-- The point lies on the circle. -/
def OnCircle (cx cy r : ℝ) (p : P2) : Prop := (p 0 - cx) ^ 2 + (p 1 - cy) ^ 2 = r ^ 2

/-- The quantities computed by `intersect_circles`. -/
theorem circle_facts (cx0 cy0 r0 cx1 cy1 r1 d a : ℝ)
    (hd : d ^ 2 = (cx0 - cx1) ^ 2 + (cy0 - cy1) ^ 2) (hd0 : 0 < d)
    (ha : a = (r0 ^ 2 - r1 ^ 2 + d ^ 2) / (2 * d)) (p : P2)
    (h0 : OnCircle cx0 cy0 r0 p) (h1 : OnCircle cx1 cy1 r1 p) :
    (p 0 - cx0) * (cx1 - cx0) + (p 1 - cy0) * (cy1 - cy0) = a * d ∧
    ((p 0 - cx0) * (cy1 - cy0) - (p 1 - cy0) * (cx1 - cx0)) ^ 2 = d ^ 2 * (r0 ^ 2 - a ^ 2) := by
  unfold OnCircle at h0 h1
  have had : a * d = (r0 ^ 2 - r1 ^ 2 + d ^ 2) / 2 := by rw [ha]; field_simp
  have e1 : (p 0 - cx0) * (cx1 - cx0) + (p 1 - cy0) * (cy1 - cy0) = a * d := by
    rw [had, hd]; linear_combination (h0 - h1) / 2
  refine ⟨e1, ?_⟩
  have : ((p 0 - cx0) * (cx1 - cx0) + (p 1 - cy0) * (cy1 - cy0)) ^ 2 = a ^ 2 * d ^ 2 := by
    rw [e1]; ring
  have hl : ((p 0 - cx0) * (cx1 - cx0) + (p 1 - cy0) * (cy1 - cy0)) ^ 2 +
      ((p 0 - cx0) * (cy1 - cy0) - (p 1 - cy0) * (cx1 - cx0)) ^ 2 = r0 ^ 2 * d ^ 2 := by
    rw [← h0, hd]; ring
  linear_combination hl - this

theorem two_ne_one (x y p : P2) : [x, y] ≠ [p] := by simp

set_option maxHeartbeats 1000000 in
/-- **C61 (`intersect_circles`).**  For two circles with non-negative radii and different
centres the function returns normally, and
* an empty list only if the circles have no common point,
* two points only if these are exactly the common points,
* one point if the two common points (if any) are within 1e-10 of it; the point itself satisfies
  both circle equations up to an error below 1e-20 in the squared radius. -/
theorem C61_intersect (cx0 cy0 r0 cx1 cy1 r1 : ℝ) (hr0 : 0 ≤ r0) (hr1 : 0 ≤ r1)
    (hc : cx0 ≠ cx1 ∨ cy0 ≠ cy1) :
    ∃ l, intersectCircles cx0 cy0 r0 cx1 cy1 r1 = some l ∧
      (l = [] → ∀ p, ¬ (OnCircle cx0 cy0 r0 p ∧ OnCircle cx1 cy1 r1 p)) ∧
      (∀ p q, l = [p, q] → p ≠ q ∧
        ∀ x, (OnCircle cx0 cy0 r0 x ∧ OnCircle cx1 cy1 r1 x) ↔ (x = p ∨ x = q)) ∧
      (∀ p, l = [p] → (∃ e, 0 ≤ e ∧ e < 1 / 10 ^ 20 ∧
          (p 0 - cx0) ^ 2 + (p 1 - cy0) ^ 2 = r0 ^ 2 - e ∧
          (p 0 - cx1) ^ 2 + (p 1 - cy1) ^ 2 = r1 ^ 2 - e) ∧
        ∀ x, OnCircle cx0 cy0 r0 x → OnCircle cx1 cy1 r1 x → dsq x p < 1 / 10 ^ 20) ∧
      l.length ≤ 2 := by
  have hDpos : 0 < (cx0 - cx1) ^ 2 + (cy0 - cy1) ^ 2 := by
    rcases hc with h | h
    · have := sq_pos_of_ne_zero (sub_ne_zero.mpr h)
      have := sq_nonneg (cy0 - cy1); linarith
    · have := sq_pos_of_ne_zero (sub_ne_zero.mpr h)
      have := sq_nonneg (cx0 - cx1); linarith
  set d := Real.sqrt ((cx0 - cx1) ^ 2 + (cy0 - cy1) ^ 2) with hdd
  have hd : d ^ 2 = (cx0 - cx1) ^ 2 + (cy0 - cy1) ^ 2 := Real.sq_sqrt hDpos.le
  have hd0 : 0 < d := Real.sqrt_pos.mpr hDpos
  set a := (r0 ^ 2 - r1 ^ 2 + d ^ 2) / (2 * d) with haa
  have had : a * d = (r0 ^ 2 - r1 ^ 2 + d ^ 2) / 2 := by rw [haa]; field_simp
  have hfacts := fun p => circle_facts cx0 cy0 r0 cx1 cy1 r1 d a hd hd0 haa p
  -- the height over the line of centres
  have hh : 4 * d ^ 2 * (r0 ^ 2 - a ^ 2) =
      ((r0 + r1) ^ 2 - d ^ 2) * (d ^ 2 - (r0 - r1) ^ 2) := by
    have : (2 * (a * d)) ^ 2 = (r0 ^ 2 - r1 ^ 2 + d ^ 2) ^ 2 := by rw [had]; ring
    linear_combination -this
  have hneg : ∀ p, OnCircle cx0 cy0 r0 p → OnCircle cx1 cy1 r1 p →
      0 ≤ ((r0 + r1) ^ 2 - d ^ 2) * (d ^ 2 - (r0 - r1) ^ 2) := by
    intro p h0 h1
    rw [← hh]
    have := (hfacts p h0 h1).2
    have h2 := sq_nonneg ((p 0 - cx0) * (cy1 - cy0) - (p 1 - cy0) * (cx1 - cx0))
    linarith
  unfold intersectCircles
  simp only [← hdd, ← haa]
  by_cases c1 : d > r0 + r1
  · refine ⟨[], by rw [if_pos c1], fun _ p hp => ?_, by simp, by simp, by simp⟩
    have := hneg p hp.1 hp.2
    have k1 : (r0 + r1) ^ 2 - d ^ 2 < 0 := by nlinarith
    have k2 : 0 < d ^ 2 - (r0 - r1) ^ 2 := by nlinarith
    nlinarith
  rw [if_neg c1]
  by_cases c2 : d < |r0 - r1|
  · refine ⟨[], by rw [if_pos c2], fun _ p hp => ?_, by simp, by simp, by simp⟩
    have := hneg p hp.1 hp.2
    have hab : (r0 - r1) ^ 2 = |r0 - r1| ^ 2 := (sq_abs _).symm
    have k2 : d ^ 2 - (r0 - r1) ^ 2 < 0 := by rw [hab]; nlinarith
    have hle : |r0 - r1| ≤ r0 + r1 := abs_le.mpr ⟨by linarith, by linarith⟩
    have k1 : 0 < (r0 + r1) ^ 2 - d ^ 2 := by nlinarith
    nlinarith
  rw [if_neg c2, if_neg hd0.ne']
  have hnn : 0 ≤ r0 ^ 2 - a ^ 2 := by
    have k1 : 0 ≤ (r0 + r1) ^ 2 - d ^ 2 := by nlinarith [not_lt.mp c1]
    have k2 : 0 ≤ d ^ 2 - (r0 - r1) ^ 2 := by
      rw [← sq_abs (r0 - r1)]; nlinarith [not_lt.mp c2, abs_nonneg (r0 - r1)]
    have := mul_nonneg k1 k2
    rw [← hh] at this
    by_contra hn
    nlinarith [mul_pos hd0 hd0]
  set h := Real.sqrt (r0 ^ 2 - a ^ 2) with hhh
  have hsq : h ^ 2 = r0 ^ 2 - a ^ 2 := Real.sq_sqrt hnn
  have hh0 : 0 ≤ h := Real.sqrt_nonneg _
  -- coordinates along the line of centres
  set ux := (cx1 - cx0) / d with hux
  set uy := (cy1 - cy0) / d with huy
  have hu : ux ^ 2 + uy ^ 2 = 1 := by
    rw [hux, huy, div_pow, div_pow, ← add_div, hd, div_eq_one_iff_eq (by rw [← hd]; positivity)]
    ring
  have hdx : cx1 = cx0 + d * ux := by rw [hux]; field_simp; ring
  have hdy : cy1 = cy0 + d * uy := by rw [huy]; field_simp; ring
  have had' : 2 * a * d = r0 ^ 2 - r1 ^ 2 + d ^ 2 := by linear_combination 2 * had
  have e1 : a * (cx1 - cx0) / d = a * ux := by rw [hux]; ring
  have e2 : a * (cy1 - cy0) / d = a * uy := by rw [huy]; ring
  have e3 : h * (cy1 - cy0) / d = h * uy := by rw [huy]; ring
  have e4 : h * (cx1 - cx0) / d = h * ux := by rw [hux]; ring
  rw [e1, e2, e3, e4]
  -- every common point in these coordinates
  have hrep : ∀ x : P2, OnCircle cx0 cy0 r0 x → OnCircle cx1 cy1 r1 x →
      ∃ w, w ^ 2 = h ^ 2 ∧ x 0 = cx0 + a * ux + w * uy ∧ x 1 = cy0 + a * uy - w * ux := by
    intro x h0 h1
    obtain ⟨k1, k2⟩ := hfacts x h0 h1
    rw [hdx, hdy] at k1 k2
    have k1' : (x 0 - cx0) * ux + (x 1 - cy0) * uy = a := by
      have : d * ((x 0 - cx0) * ux + (x 1 - cy0) * uy) = d * a := by linear_combination k1
      exact mul_left_cancel₀ hd0.ne' this
    refine ⟨(x 0 - cx0) * uy - (x 1 - cy0) * ux, ?_, ?_, ?_⟩
    · rw [hsq]
      have : d ^ 2 * ((x 0 - cx0) * uy - (x 1 - cy0) * ux) ^ 2 = d ^ 2 * (r0 ^ 2 - a ^ 2) := by
        linear_combination k2
      exact mul_left_cancel₀ (by positivity) this
    · linear_combination (x 0 - cx0) * (-hu) + ux * k1'
    · linear_combination (x 1 - cy0) * (-hu) + uy * k1'
  have hon : ∀ w, w ^ 2 = h ^ 2 → ∀ x : P2, x 0 = cx0 + a * ux + w * uy →
      x 1 = cy0 + a * uy - w * ux → OnCircle cx0 cy0 r0 x ∧ OnCircle cx1 cy1 r1 x := by
    intro w hw x hx hy
    unfold OnCircle
    rw [hx, hy, hdx, hdy]
    constructor
    · linear_combination (a ^ 2 + w ^ 2) * hu + hw + hsq
    · linear_combination ((a - d) ^ 2 + w ^ 2) * hu + hw + hsq - had'
  clear_value ux uy h a d
  by_cases c3 : h < 1 / 10 ^ 10
  · rw [if_pos c3]
    have hlt : h ^ 2 < 1 / 10 ^ 20 := by
      have : (1 / 10 ^ 20 : ℝ) = (1 / 10 ^ 10) ^ 2 := by norm_num
      rw [this]; nlinarith
    refine ⟨_, rfl, (fun h => nomatch h),
      fun p q h => absurd h.symm (two_ne_one _ _ _), ?_, one_le_two⟩
    intro p hp
    simp only [List.cons.injEq, and_true] at hp
    have hp0 : p 0 = cx0 + a * ux := by exact (congrFun hp 0).symm
    have hp1 : p 1 = cy0 + a * uy := by exact (congrFun hp 1).symm
    refine ⟨⟨h ^ 2, sq_nonneg h, hlt, ?_, ?_⟩, ?_⟩
    · rw [hp0, hp1]; linear_combination a ^ 2 * hu + hsq
    · rw [hp0, hp1, hdx, hdy]; linear_combination (a - d) ^ 2 * hu + hsq - had'
    · intro x h0 h1
      obtain ⟨w, hw, hx, hy⟩ := hrep x h0 h1
      unfold dsq
      rw [hx, hy, hp0, hp1]
      have : (cx0 + a * ux + w * uy - (cx0 + a * ux)) ^ 2 +
          (cy0 + a * uy - w * ux - (cy0 + a * uy)) ^ 2 = h ^ 2 := by
        linear_combination w ^ 2 * hu + hw
      rw [this]; exact hlt
  · rw [if_neg c3]
    have hhpos : 0 < h := lt_of_lt_of_le (by norm_num) (not_lt.mp c3)
    refine ⟨_, rfl, (fun h => nomatch h), ?_,
      fun p h => absurd h (two_ne_one _ _ _), le_refl 2⟩
    intro p q hpq
    simp only [List.cons.injEq, and_true] at hpq
    obtain ⟨hp, hq⟩ := hpq
    have hp0 : p 0 = cx0 + a * ux + h * uy := (congrFun hp 0).symm
    have hp1 : p 1 = cy0 + a * uy - h * ux := (congrFun hp 1).symm
    have hq0 : q 0 = cx0 + a * ux + -h * uy :=
      (show q 0 = cx0 + a * ux - h * uy from (congrFun hq 0).symm).trans (by ring)
    have hq1 : q 1 = cy0 + a * uy - -h * ux :=
      (show q 1 = cy0 + a * uy + h * ux from (congrFun hq 1).symm).trans (by ring)
    refine ⟨fun e => ?_, fun x => ⟨fun hx => ?_, fun hx => ?_⟩⟩
    · have k0 : h * uy = 0 := by
        have : p 0 = q 0 := by rw [e]
        rw [hp0, hq0] at this; linarith
      have k1 : h * ux = 0 := by
        have : p 1 = q 1 := by rw [e]
        rw [hp1, hq1] at this; linarith
      have k0' : uy = 0 := by
        rcases mul_eq_zero.mp k0 with h | h
        · exact absurd h hhpos.ne'
        · exact h
      have k1' : ux = 0 := by
        rcases mul_eq_zero.mp k1 with h | h
        · exact absurd h hhpos.ne'
        · exact h
      rw [k0', k1'] at hu; norm_num at hu
    · obtain ⟨w, hw, h0, h1⟩ := hrep x hx.1 hx.2
      rcases sq_eq_sq_iff_eq_or_eq_neg.mp hw with rfl | rfl
      · left; exact p2_ext (by rw [h0, hp0]) (by rw [h1, hp1])
      · right; exact p2_ext (by rw [h0, hq0]) (by rw [h1, hq1])
    · rcases hx with rfl | rfl
      · exact hon h rfl _ hp0 hp1
      · exact hon (-h) (by ring) _ hq0 hq1

/-- **C61 refuted (`intersect_circles`).**  Concentric circles of equal radius: the code divides
by the distance of the centres, zero. -/
theorem C61_intersect_refuted (cx cy r : ℝ) (hr : 0 ≤ r) :
    intersectCircles cx cy r cx cy r = none := by
  unfold intersectCircles
  have : Real.sqrt ((cx - cx) ^ 2 + (cy - cy) ^ 2) = 0 := by simp
  simp only [this]
  rw [if_neg (by linarith), if_neg (by simp), if_pos trivial]

/-- Witness: the circles of radius 5 around the origin and around (6, 0) meet in two points. -/
example : ∃ p q, intersectCircles 0 0 5 6 0 5 = some [p, q] := by
  have hd : Real.sqrt (((0 : ℝ) - 6) ^ 2 + (0 - 0) ^ 2) = 6 := by
    rw [show ((0 : ℝ) - 6) ^ 2 + (0 - 0) ^ 2 = 6 ^ 2 by norm_num]; exact Real.sqrt_sq (by norm_num)
  have hh : Real.sqrt ((5 : ℝ) ^ 2 - ((5 ^ 2 - 5 ^ 2 + 6 ^ 2) / (2 * 6)) ^ 2) = 4 := by
    rw [show (5 : ℝ) ^ 2 - ((5 ^ 2 - 5 ^ 2 + 6 ^ 2) / (2 * 6)) ^ 2 = 4 ^ 2 by norm_num]
    exact Real.sqrt_sq (by norm_num)
  unfold intersectCircles
  simp only [hd, hh]
  rw [if_neg (by norm_num), if_neg (by norm_num), if_neg (by norm_num), if_neg (by norm_num)]
  exact ⟨_, _, rfl⟩

/-- Sum of the squared residuals of a linear system. -/
def ssq (rows : List ((Fin 3 → ℝ) × ℝ)) (x : Fin 3 → ℝ) : ℝ :=
  (rows.map (fun r => (r.1 0 * x 0 + r.1 1 * x 1 + r.1 2 * x 2 - r.2) ^ 2)).sum

/-- `x` minimises the squared residuals. -/
def IsLeastSquares (rows : List ((Fin 3 → ℝ) × ℝ)) (x : Fin 3 → ℝ) : Prop :=
  ∀ y, ssq rows x ≤ ssq rows y

theorem ssq_zero (rows : List ((Fin 3 → ℝ) × ℝ)) (x : Fin 3 → ℝ) (h : ssq rows x ≤ 0) :
    ∀ r ∈ rows, r.1 0 * x 0 + r.1 1 * x 1 + r.1 2 * x 2 = r.2 := by
  unfold ssq at h
  induction rows with
  | nil => simp
  | cons r rows ih =>
    simp only [List.map_cons, List.sum_cons] at h
    have hnn : 0 ≤ (rows.map (fun r => (r.1 0 * x 0 + r.1 1 * x 1 + r.1 2 * x 2 - r.2) ^ 2)).sum := by
      apply List.sum_nonneg
      intro y hy
      obtain ⟨r, -, rfl⟩ := List.mem_map.mp hy
      exact sq_nonneg _
    have h1 := sq_nonneg (r.1 0 * x 0 + r.1 1 * x 1 + r.1 2 * x 2 - r.2)
    intro q hq
    rcases List.mem_cons.mp hq with rfl | hq
    · have : (q.1 0 * x 0 + q.1 1 * x 1 + q.1 2 * x 2 - q.2) ^ 2 = 0 := by linarith
      have := pow_eq_zero_iff (two_ne_zero) |>.mp this
      linarith
    · exact ih (by linarith) q hq

/-- **C61 (`fit_circle`).**  If the points lie on a circle and three of them are not on a line,
any least-squares solver yields exactly that circle. -/
theorem C61_fit_circle (points : List P2) (cx cy r : ℝ) (hr : 0 ≤ r)
    (hon : ∀ p ∈ points, OnCircle cx cy r p)
    (a b c : P2) (ha : a ∈ points) (hb : b ∈ points) (hc : c ∈ points)
    (hncol : (b 0 - a 0) * (c 1 - a 1) - (b 1 - a 1) * (c 0 - a 0) ≠ 0)
    (solve : List ((Fin 3 → ℝ) × ℝ) → Fin 3 → ℝ)
    (hsolve : IsLeastSquares (points.map circleRow) (solve (points.map circleRow))) :
    fitCircle solve points = (cx, cy, r) := by
  set x := solve (points.map circleRow) with hx
  have hz : ssq (points.map circleRow) ![cx, cy, cx ^ 2 + cy ^ 2 - r ^ 2] = 0 := by
    unfold ssq
    rw [List.map_map]
    apply List.sum_eq_zero
    intro y hy
    obtain ⟨p, hp, rfl⟩ := List.mem_map.mp hy
    have := hon p hp
    unfold OnCircle at this
    simp [circleRow]
    linear_combination this
  have hex := ssq_zero _ x (hz ▸ hsolve _)
  have heq : ∀ p ∈ points, -2 * p 0 * x 0 + -2 * p 1 * x 1 + x 2 = -(p 0 * p 0 + p 1 * p 1) := by
    intro p hp
    have := hex (circleRow p) (List.mem_map.mpr ⟨p, hp, rfl⟩)
    simpa [circleRow] using this
  have hcirc : ∀ p ∈ points, -2 * p 0 * cx + -2 * p 1 * cy + (cx ^ 2 + cy ^ 2 - r ^ 2) =
      -(p 0 * p 0 + p 1 * p 1) := by
    intro p hp
    have := hon p hp
    unfold OnCircle at this
    linear_combination this
  -- differences to the true solution
  have hd : ∀ p ∈ points, p 0 * (x 0 - cx) + p 1 * (x 1 - cy) =
      (x 2 - (cx ^ 2 + cy ^ 2 - r ^ 2)) / 2 := by
    intro p hp
    linear_combination (hcirc p hp - heq p hp) / 2
  have h0 : x 0 - cx = 0 := by
    have : ((b 0 - a 0) * (c 1 - a 1) - (b 1 - a 1) * (c 0 - a 0)) * (x 0 - cx) = 0 := by
      linear_combination (c 1 - a 1) * (hd b hb - hd a ha) - (b 1 - a 1) * (hd c hc - hd a ha)
    exact (mul_eq_zero.mp this).resolve_left hncol
  have h1 : x 1 - cy = 0 := by
    have : ((b 0 - a 0) * (c 1 - a 1) - (b 1 - a 1) * (c 0 - a 0)) * (x 1 - cy) = 0 := by
      linear_combination (b 0 - a 0) * (hd c hc - hd a ha) - (c 0 - a 0) * (hd b hb - hd a ha)
    exact (mul_eq_zero.mp this).resolve_left hncol
  have h2 : x 2 = cx ^ 2 + cy ^ 2 - r ^ 2 := by
    have := hd a ha
    rw [h0, h1] at this; linarith
  have e0 : x 0 = cx := by linarith
  have e1 : x 1 = cy := by linarith
  unfold fitCircle
  simp only [← hx]
  rw [e0, e1, h2, show cx * cx + cy * cy - (cx ^ 2 + cy ^ 2 - r ^ 2) = r ^ 2 by ring,
    Real.sqrt_sq hr]

/-- Witness for `C61_fit_circle`: three points of the unit circle. -/
example (solve : List ((Fin 3 → ℝ) × ℝ) → Fin 3 → ℝ)
    (h : IsLeastSquares (([![1, 0], ![0, 1], ![-1, 0]] : List P2).map circleRow)
      (solve (([![1, 0], ![0, 1], ![-1, 0]] : List P2).map circleRow))) :
    fitCircle solve [![1, 0], ![0, 1], ![-1, 0]] = (0, 0, 1) :=
  C61_fit_circle _ 0 0 1 (by norm_num) (by simp [OnCircle]) ![1, 0] ![0, 1] ![-1, 0] (by simp)
    (by simp) (by simp) (by norm_num) solve h

/-- **C61 (`circle`, `sphere`).**  The points lie on the circle, resp. sphere, of that radius
around the origin. -/
theorem C61_circle_sphere (r theta phi : ℝ) : OnCircle 0 0 r (circle r theta) ∧
    dot3 (sphere r theta phi) (sphere r theta phi) = r ^ 2 ∧
    (∀ p : P2, OnCircle 0 0 1 p → ∃ th, circle 1 th = p) := by
  have h1 := Real.sin_sq_add_cos_sq theta
  have h2 := Real.sin_sq_add_cos_sq phi
  refine ⟨?_, ?_, ?_⟩
  · simp only [OnCircle, circle, Matrix.cons_val_zero, Matrix.cons_val_one]
    linear_combination r ^ 2 * h1
  · simp [dot3, sphere]
    linear_combination r ^ 2 * h1 + r ^ 2 * Real.sin theta ^ 2 * h2
  · intro p hp
    unfold OnCircle at hp
    have hx : p 0 ^ 2 + p 1 ^ 2 = 1 := by linarith
    rcases le_total 0 (p 1) with h | h
    · refine ⟨Real.arccos (p 0), p2_ext ?_ ?_⟩
      · simp [circle]
        exact Real.cos_arccos (by nlinarith) (by nlinarith)
      · simp [circle]
        rw [Real.sin_arccos, show 1 - p 0 ^ 2 = p 1 ^ 2 by linarith, Real.sqrt_sq h]
    · refine ⟨-Real.arccos (p 0), p2_ext ?_ ?_⟩
      · simp [circle]
        exact Real.cos_arccos (by nlinarith) (by nlinarith)
      · simp [circle]
        rw [Real.sin_arccos, show 1 - p 0 ^ 2 = (-p 1) ^ 2 by linarith,
          Real.sqrt_sq (by linarith)]
        ring

/-! ## C69 -/

theorem cross3_dot_left (a b : Vec3 ℝ) : dot3 a (cross3 a b) = 0 ∧ dot3 b (cross3 a b) = 0 := by
  constructor <;> simp [dot3, cross3] <;> ring

/-- **C69 (`lookat`).**  If the target is not at the camera and the viewing direction is not
along the up axis, the result is a rigid transform whose origin is the camera position, which
sees the target straight ahead on its optical (z) axis at its distance, and whose x axis is
orthogonal to the up axis. -/
theorem C69_lookat (pos target up : Vec3 ℝ) (hne : target - pos ≠ 0)
    (hup : cross3 up (target - pos) ≠ 0) :
    ∃ T, lookat pos target up = some T ∧ ∃ C, IsRot C ∧ T = tf C pos ∧
      tfPoint T ![0, 0, norm3 (target - pos)] = target ∧
      dot3 (fun i => C i 0) up = 0 ∧ (∃ k > 0, ∀ i, C i 0 = k * cross3 up (target - pos) i) := by
  obtain ⟨ud, sd, nd⟩ := normalized_unit _ hne
  set dir := normalized (target - pos) with hdir
  have hD : ∀ i, target i - pos i = norm3 (target - pos) * dir i := by
    intro i
    have := congrFun sd i
    simp only [Pi.smul_apply, Pi.sub_apply, smul_eq_mul] at this
    exact this.symm
  have hcr : ∀ i, cross3 up (target - pos) i = norm3 (target - pos) * cross3 up dir i := by
    intro i
    have h0 := hD 0
    have h1 := hD 1
    have h2 := hD 2
    fin_cases i <;> simp [cross3, h0, h1, h2] <;> ring
  have hne' : cross3 up dir ≠ 0 := by
    intro h
    apply hup
    ext i; rw [hcr, h]; simp
  obtain ⟨ur, sr, nr⟩ := normalized_unit _ hne'
  set rt := normalized (cross3 up dir) with hrt
  have hR : ∀ i, cross3 up dir i = norm3 (cross3 up dir) * rt i := by
    intro i
    have := congrFun sr i
    simp only [Pi.smul_apply, smul_eq_mul] at this
    exact this.symm
  have hrd : dot3 rt dir = 0 := by
    have h := (cross3_dot_left up dir).2
    have : norm3 (cross3 up dir) * dot3 rt dir = 0 := by
      rw [← h]; unfold dot3; rw [hR 0, hR 1, hR 2]; ring
    exact (mul_eq_zero.mp this).resolve_left nr.ne'
  have hru : dot3 rt up = 0 := by
    have h := (cross3_dot_left up dir).1
    have : norm3 (cross3 up dir) * dot3 rt up = 0 := by
      rw [← h]; unfold dot3; rw [hR 0, hR 1, hR 2]; ring
    exact (mul_eq_zero.mp this).resolve_left nr.ne'
  set cup := cross3 dir rt with hcup
  have c0 : cup 0 = dir 1 * rt 2 - dir 2 * rt 1 := by rw [hcup]; simp [cross3]
  have c1 : cup 1 = dir 2 * rt 0 - dir 0 * rt 2 := by rw [hcup]; simp [cross3]
  have c2 : cup 2 = dir 0 * rt 1 - dir 1 * rt 0 := by rw [hcup]; simp [cross3]
  unfold dot3 at ud ur hrd
  set R : Mat3 ℝ := !![rt 0, rt 1, rt 2; cup 0, cup 1, cup 2; dir 0, dir 1, dir 2] with hRdef
  have hRR : R * Rᵀ = 1 := by
    have hcc : cup 0 * cup 0 + cup 1 * cup 1 + cup 2 * cup 2 = 1 := by
      rw [c0, c1, c2]
      linear_combination (rt 0 * rt 0 + rt 1 * rt 1 + rt 2 * rt 2) * ud + ur -
        (rt 0 * dir 0 + rt 1 * dir 1 + rt 2 * dir 2) * hrd
    have hcr' : cup 0 * rt 0 + cup 1 * rt 1 + cup 2 * rt 2 = 0 := by rw [c0, c1, c2]; ring
    have hcd' : cup 0 * dir 0 + cup 1 * dir 1 + cup 2 * dir 2 = 0 := by rw [c0, c1, c2]; ring
    apply mat3_eq <;>
      simp [hRdef, Matrix.mul_apply, Fin.sum_univ_three, Matrix.transpose_apply] <;> linarith
  have hdet : R.det = 1 := by
    rw [hRdef, Matrix.det_fin_three]
    simp
    rw [c0, c1, c2]
    linear_combination (dir 0 * dir 0 + dir 1 * dir 1 + dir 2 * dir 2) * ur + ud -
      (rt 0 * dir 0 + rt 1 * dir 1 + rt 2 * dir 2) * hrd
  have hrot : IsRot R := ⟨hRR, hdet⟩
  set A : Mat4 ℝ := !![rt 0, rt 1, rt 2, 0; cup 0, cup 1, cup 2, 0;
    dir 0, dir 1, dir 2, 0; 0, 0, 0, 1] with hA
  set B : Mat4 ℝ := !![1, 0, 0, -pos 0; 0, 1, 0, -pos 1; 0, 0, 1, -pos 2; 0, 0, 0, 1] with hB
  have hAB : A * B = tf R (-(R *ᵥ pos)) := by
    ext i j
    fin_cases i <;> fin_cases j <;>
      simp [hA, hB, hRdef, tf, Matrix.mul_apply, Fin.sum_univ_four, Matrix.mulVec, dotProduct,
        Fin.sum_univ_three] <;> ring
  have hinv : (A * B) * tf Rᵀ pos = 1 := by
    rw [hAB, tf_mul, hRR]
    rw [show R *ᵥ pos + -(R *ᵥ pos) = 0 by simp]
    exact tf_one
  have hdet' : (A * B).det ≠ 0 := by
    intro h
    have := congrArg Matrix.det hinv
    rw [Matrix.det_mul, h, zero_mul, Matrix.det_one] at this
    exact zero_ne_one this
  refine ⟨tf Rᵀ pos, ?_, Rᵀ, hrot.transpose, rfl, ?_, ?_, ?_⟩
  · unfold lookat
    simp only [← hdir, ← hrt, ← hcup, ← hA, ← hB]
    rw [if_neg hdet', Matrix.inv_eq_right_inv hinv]
  · have h0 := hD 0
    have h1 := hD 1
    have h2 := hD 2
    apply vec3_ext <;>
      simp [tfPoint, tf, hRdef, Matrix.mulVec, dotProduct, Fin.sum_univ_four] <;> linarith
  · have : (fun i => Rᵀ i 0) = rt := by
      apply vec3_ext <;> simp [hRdef, Matrix.transpose_apply]
    rw [this]; exact hru
  · refine ⟨1 / (norm3 (target - pos) * norm3 (cross3 up dir)), by positivity, fun i => ?_⟩
    rw [hcr, hR]
    have : Rᵀ i 0 = rt i := by fin_cases i <;> simp [hRdef, Matrix.transpose_apply]
    rw [this]
    field_simp

/-- **C69 refuted.**  Looking exactly along the up axis the matrix is singular. -/
theorem C69_lookat_refuted (pos target up : Vec3 ℝ) (hup : cross3 up (target - pos) = 0) :
    lookat pos target up = none := by
  unfold lookat
  have h0 : cross3 up (normalized (target - pos)) = 0 := by
    by_cases hz : target - pos = 0
    · have : normalized (target - pos) = 0 := by
        rw [hz]; unfold normalized; rw [if_neg]; simp [dot3]
      rw [this]; ext i; fin_cases i <;> simp [cross3]
    · obtain ⟨-, sd, nd⟩ := normalized_unit _ hz
      have hD : ∀ i, target i - pos i = norm3 (target - pos) * normalized (target - pos) i := by
        intro i
        have := congrFun sd i
        simp only [Pi.smul_apply, Pi.sub_apply, smul_eq_mul] at this
        exact this.symm
      ext i
      have hi := congrFun hup i
      have h0 := hD 0
      have h1 := hD 1
      have h2 := hD 2
      have : norm3 (target - pos) * cross3 up (normalized (target - pos)) i = 0 := by
        rw [← show cross3 up (target - pos) i = 0 from hi]
        generalize normalized (target - pos) = w at h0 h1 h2 ⊢
        generalize norm3 (target - pos) = n at h0 h1 h2 ⊢
        fin_cases i <;> simp [cross3, h0, h1, h2] <;> ring
      exact (mul_eq_zero.mp this).resolve_left nd.ne'
  have h1 : normalized (cross3 up (normalized (target - pos))) = 0 := by
    rw [h0]; unfold normalized; rw [if_neg]; simp [dot3]
  simp only [h1]
  rw [if_pos]
  rw [Matrix.det_mul]
  have : ∀ (a b c d e f : ℝ) , Matrix.det (!![(0 : Vec3 ℝ) 0, (0 : Vec3 ℝ) 1, (0 : Vec3 ℝ) 2, 0;
      a, b, c, 0; d, e, f, 0; 0, 0, 0, 1] : Mat4 ℝ) = 0 := by
    intro a b c d e f
    apply Matrix.det_eq_zero_of_row_eq_zero 0
    intro j; fin_cases j <;> simp
  rw [this, zero_mul]

/-- Witness: the camera at (0, 0, 2) looking at the origin, with the default up axis. -/
example : ∃ T, lookat ![0, 0, 2] ![0, 0, 0] ![0, -1, 0] = some T := by
  obtain ⟨T, h, -⟩ := C69_lookat ![0, 0, 2] ![0, 0, 0] ![0, -1, 0]
    (fun h => by have := congrFun h 2; simp at this)
    (fun h => by have := congrFun h 0; simp [cross3] at this)
  exact ⟨T, h⟩

/-! ## C62 -/

/-- **C62 refuted.**  As coded, `latlon_offset` exchanges north and east and adds radians to
degrees: measured back, its north distance is the east offset scaled by π/180, so the round trip
recovers the offsets only if they happen to be in that ratio. -/
theorem C62_roundtrip_refuted (lat lon N E : ℝ) :
    (latlonDiff lat lon (latlonOffset lat lon N E).1 (latlonOffset lat lon N E).2).1 =
      E * (Real.pi / 180) ∧
    (N ≠ E * (Real.pi / 180) →
      latlonDiff lat lon (latlonOffset lat lon N E).1 (latlonOffset lat lon N E).2 ≠ (N, E)) := by
  have key : (latlonDiff lat lon (latlonOffset lat lon N E).1 (latlonOffset lat lon N E).2).1 =
      E * (Real.pi / 180) := by
    simp only [latlonDiff, latlonOffset, Num.deg2rad, earthRadius]
    ring
  refine ⟨key, fun h e => h ?_⟩
  rw [e] at key
  exact key

/-- **C62 refuted, second component.**  At the equator the east distance measured back is the
north offset times π/180 times the cosine of the new latitude. -/
theorem C62_east_refuted (lon N E : ℝ) :
    (latlonDiff 0 lon (latlonOffset 0 lon N E).1 (latlonOffset 0 lon N E).2).2 =
      N * (Real.pi / 180) * Real.cos (Num.deg2rad (E / 6378137)) := by
  simp only [latlonDiff, latlonOffset, Num.deg2rad, earthRadius]
  rw [zero_mul, Real.cos_zero]
  simp only [zero_add, div_one, add_sub_cancel_left]
  ring

/-- A metre north becomes a metre east and is then lost by a factor 57. -/
example : latlonDiff 0 0 (latlonOffset 0 0 1 0).1 (latlonOffset 0 0 1 0).2 ≠ (1, 0) :=
  (C62_roundtrip_refuted 0 0 1 0).2 (by norm_num)

/-- **C62 (partial): `latlon_diff`.**  The measuring half is right: for the position reached by
going the arc `N` along the meridian and then the arc `E` along the parallel (on a sphere of the
earth's radius, away from the poles) it returns `(N, E)`; the distance is the hypotenuse. -/
theorem C62_diff_partial (lat lon N E lat' lon' : ℝ)
    (hlat : lat' = lat + Num.rad2deg (N / 6378137))
    (hpole : Real.cos (Num.deg2rad lat') ≠ 0)
    (hlon : lon' = lon + Num.rad2deg (E / (6378137 * Real.cos (Num.deg2rad lat')))) :
    latlonDiff lat lon lat' lon' = (N, E) ∧
    latlonDist lat lon lat' lon' = Real.sqrt (N ^ 2 + E ^ 2) := by
  have hpi := Real.pi_ne_zero
  have hr : ∀ x, Num.deg2rad (Num.rad2deg x) = x := by
    intro x; unfold Num.deg2rad Num.rad2deg; field_simp
  have hd : latlonDiff lat lon lat' lon' = (N, E) := by
    unfold latlonDiff earthRadius
    simp only
    rw [show lat' - lat = Num.rad2deg (N / 6378137) by rw [hlat]; ring,
      show lon' - lon = Num.rad2deg (E / (6378137 * Real.cos (Num.deg2rad lat'))) by rw [hlon]; ring,
      hr, hr]
    congr 1
    · field_simp
    · field_simp
  refine ⟨hd, ?_⟩
  unfold latlonDist
  rw [hd]

/-- **C62 (partial): zero offset.** -/
theorem C62_zero_partial (lat lon : ℝ) : latlonOffset lat lon 0 0 = (lat, lon) ∧
    latlonDiff lat lon lat lon = (0, 0) ∧ latlonDist lat lon lat lon = 0 := by
  refine ⟨by simp [latlonOffset], by simp [latlonDiff, Num.deg2rad], ?_⟩
  simp [latlonDist, latlonDiff, Num.deg2rad]

end Yac.Misc
