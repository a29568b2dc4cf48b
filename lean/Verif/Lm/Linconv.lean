import Verif.Lm.Affine

/-! # C120: convergence for linear least squares -/

namespace Yac.Lm
open Finset
open Yac.Solver
open Yac.Sparse (Spqr Pattern IsSpqr macheps patternOf macheps_pos)

variable {P V : Type} [DecidableEq P]

/-- A small matrix between two vectors. -/
theorem small_bilinear (n : ℕ) (E : Mat ℝ) (eps : ℝ) (h0 : 0 ≤ eps) (hE : ∀ a < n, ∀ b < n, |E a b| ≤ eps) (y e : ℕ → ℝ) :
    ∑ a ∈ range n, y a * ∑ b ∈ range n, E a b * e b ≤
      n * eps * (√(∑ a ∈ range n, y a ^ 2) * √(∑ a ∈ range n, e a ^ 2)) := by
  have h1 : ∀ v : ℕ → ℝ, ∑ a ∈ range n, |v a| ≤ √n * √(∑ a ∈ range n, v a ^ 2) := by
    intro v
    rw [← Real.sqrt_mul (Nat.cast_nonneg n)]
    apply Real.le_sqrt_of_sq_le
    have := sq_sum_le_card_mul_sum_sq (s := range n) (f := fun a => |v a|)
    simpa only [card_range, sq_abs] using this
  have h2 : ∑ a ∈ range n, y a * ∑ b ∈ range n, E a b * e b ≤ eps * ((∑ a ∈ range n, |y a|) * ∑ b ∈ range n, |e b|) := by
    rw [Finset.sum_mul_sum, Finset.mul_sum]
    refine Finset.sum_le_sum (fun a ha => ?_)
    rw [Finset.mul_sum, Finset.mul_sum]
    refine Finset.sum_le_sum (fun b hb => ?_)
    refine le_trans (le_abs_self _) ?_
    rw [abs_mul, abs_mul]
    have := mul_le_mul_of_nonneg_right (hE a (mem_range.mp ha) b (mem_range.mp hb))
      (mul_nonneg (abs_nonneg (y a)) (abs_nonneg (e b)))
    linarith
  have h3 : (∑ a ∈ range n, |y a|) * ∑ b ∈ range n, |e b| ≤
      (√n * √(∑ a ∈ range n, y a ^ 2)) * (√n * √(∑ a ∈ range n, e a ^ 2)) :=
    mul_le_mul (h1 y) (h1 e) (Finset.sum_nonneg (fun _ _ => abs_nonneg _)) (by positivity)
  have h4 : (√n * √(∑ a ∈ range n, y a ^ 2)) * (√n * √(∑ a ∈ range n, e a ^ 2)) =
      n * (√(∑ a ∈ range n, y a ^ 2) * √(∑ a ∈ range n, e a ^ 2)) := by
    have : √(n : ℝ) * √n = n := Real.mul_self_sqrt (Nat.cast_nonneg n)
    linear_combination (√(∑ a ∈ range n, y a ^ 2) * √(∑ a ∈ range n, e a ^ 2)) * this
  rw [h4] at h3
  have := mul_le_mul_of_nonneg_left h3 h0
  linarith

theorem dot_bound (n : ℕ) (y e : ℕ → ℝ) :
    ∑ a ∈ range n, y a * e a ≤ √(∑ a ∈ range n, y a ^ 2) * √(∑ a ∈ range n, e a ^ 2) :=
  Real.sum_mul_le_sqrt_mul_sqrt _ _ _

/-- The error after a step that solves `(H + lam) x = -H e` up to the entries that were left out. -/
theorem contract (n : ℕ) (H : Mat ℝ) (lam mu : ℝ) (hl : 0 ≤ lam) (hmu : n * macheps < mu)
    (hH : ∀ v : ℕ → ℝ, mu * ∑ a ∈ range n, v a ^ 2 ≤ ∑ a ∈ range n, v a * ∑ b ∈ range n, H a b * v b) (e x : ℕ → ℝ)
    (hx : ∀ a < n, ∑ c ∈ range n, cleaned H lam a c * x c = -∑ c ∈ range n, H a c * e c) :
    ∑ a ∈ range n, (e a + x a) ^ 2 ≤
      ((lam + n * macheps) / (mu + lam - n * macheps)) ^ 2 * ∑ a ∈ range n, e a ^ 2 := by
  have hm := macheps_pos
  have hn : (0 : ℝ) ≤ n := Nat.cast_nonneg n
  have hA : 0 < mu + lam - n * macheps := by linarith
  -- the residual of the system for the new error
  have h1 : ∀ a < n, ∑ c ∈ range n, cleaned H lam a c * (e c + x c) =
      lam * e a + ∑ c ∈ range n, (if a = c then 0 else if |H a c| ≤ macheps then -H a c else 0) * e c := by
    intro a ha
    simp only [mul_add]
    rw [Finset.sum_add_distrib, hx a ha]
    have h2 : lam * e a = ∑ c ∈ range n, (if a = c then lam else 0) * e c := by
      simp only [ite_mul, zero_mul]
      rw [Finset.sum_ite_eq, if_pos (mem_range.mpr ha)]
    rw [h2, ← Finset.sum_add_distrib, ← Finset.sum_neg_distrib, ← Finset.sum_add_distrib]
    refine Finset.sum_congr rfl (fun c _ => ?_)
    unfold cleaned
    split_ifs <;> ring
  have h2 := cleaned_strong (n := n) H lam (fun a => e a + x a)
  have h3 := hH (fun a => e a + x a)
  beta_reduce at h2 h3
  have h4 : ∑ a ∈ range n, (e a + x a) * ∑ c ∈ range n, cleaned H lam a c * (e c + x c) =
      lam * ∑ a ∈ range n, (e a + x a) * e a +
      ∑ a ∈ range n, (e a + x a) * ∑ c ∈ range n, (if a = c then 0 else if |H a c| ≤ macheps then -H a c else 0) * e c := by
    rw [Finset.mul_sum, ← Finset.sum_add_distrib]
    refine Finset.sum_congr rfl (fun a ha => ?_)
    rw [h1 a (mem_range.mp ha)]; ring
  have h5 := small_bilinear n (fun a c => if a = c then 0 else if |H a c| ≤ macheps then -H a c else 0) macheps hm.le
    (fun a _ c _ => by
      beta_reduce
      split_ifs with k1 k2
      · simp [hm.le]
      · rw [abs_neg]; exact k2
      · simp [hm.le]) (fun a => e a + x a) e
  have h6 := dot_bound n (fun a => e a + x a) e
  beta_reduce at h5 h6
  have hY0 : 0 ≤ ∑ a ∈ range n, (e a + x a) ^ 2 := Finset.sum_nonneg (fun _ _ => sq_nonneg _)
  have hE0 : 0 ≤ ∑ a ∈ range n, e a ^ 2 := Finset.sum_nonneg (fun _ _ => sq_nonneg _)
  obtain ⟨Y, hY, hY2⟩ : ∃ Y, 0 ≤ Y ∧ √(∑ a ∈ range n, (e a + x a) ^ 2) = Y := ⟨_, Real.sqrt_nonneg _, rfl⟩
  obtain ⟨E, hE, hE2⟩ : ∃ E, 0 ≤ E ∧ √(∑ a ∈ range n, e a ^ 2) = E := ⟨_, Real.sqrt_nonneg _, rfl⟩
  have hY3 : ∑ a ∈ range n, (e a + x a) ^ 2 = Y ^ 2 := by rw [← hY2, Real.sq_sqrt hY0]
  have hE3 : ∑ a ∈ range n, e a ^ 2 = E ^ 2 := by rw [← hE2, Real.sq_sqrt hE0]
  rw [hY2, hE2] at h5 h6
  rw [hY3] at h2 h3 ⊢
  rw [hE3]
  have h7 : (mu + lam - n * macheps) * Y ^ 2 ≤ (lam + n * macheps) * (Y * E) := by
    have := mul_le_mul_of_nonneg_left h6 hl
    linarith
  have h8 : (mu + lam - n * macheps) * Y ≤ (lam + n * macheps) * E := by
    rcases eq_or_lt_of_le hY with h | h
    · rw [← h, mul_zero]; positivity
    · have : ((mu + lam - n * macheps) * Y) * Y ≤ ((lam + n * macheps) * E) * Y := by linarith
      exact le_of_mul_le_mul_right this h
  have h9 : Y ≤ (lam + n * macheps) / (mu + lam - n * macheps) * E := by
    rw [div_mul_eq_mul_div, le_div_iff₀ hA]; linarith
  rw [← mul_pow]
  exact pow_le_pow_left₀ hY h9 2

/-- The factor by which an iteration with damping `lam` reduces the error. -/
noncomputable def rate (n : ℕ) (mu lam : ℝ) : ℝ := (lam + n * macheps) / (mu + lam - n * macheps)

/-- The error after `k` iterations. -/
noncomputable def reduction (n : ℕ) (mu lambda : ℝ) (k : ℕ) : ℝ := ∏ j ∈ range k, rate n mu (lambda / 10 ^ j)

theorem rate_lt_one (n : ℕ) (mu lam : ℝ) (hl : 0 ≤ lam) (hmu : 2 * n * macheps < mu) : 0 ≤ rate n mu lam ∧ rate n mu lam < 1 := by
  have hm := macheps_pos
  have hn : (0 : ℝ) ≤ n * macheps := by positivity
  have hA : 0 < mu + lam - n * macheps := by linarith
  unfold rate
  exact ⟨div_nonneg (by linarith) hA.le, by rw [div_lt_one hA]; linarith⟩

/-- One iteration for linear least squares. -/
theorem affine_step {qr : Spqr} (hqr : IsSpqr qr) (junk : ℕ → ℝ × ℕ) {pb : Setup P V} {S : Finset P} (h : Problem pb S)
    (hA : Affine pb S) {τ : Vals P V} (hg : ∀ p ∈ S, ∀ i < (pb.info p).size, gradient pb τ p i = 0) {mu : ℝ}
    (hmu : (2 * dim pb S + 1) * macheps < mu) (hc : ∀ d, mu * sumSq pb S d ≤ predictedSq pb S τ d)
    {order : List (P × ℕ)} {n : ℕ} {H : Mat ℝ} {b0 : ℕ → ℝ} {c : P → ℕ} (ha0 : Assembled pb S τ order n H b0 c)
    (e : P → ℕ → ℝ) (lam : ℝ) (hl : 0 < lam) (cache : Option Pattern)
    (hcache : cache = none ∨ cache = some (patternOf (cleaned H 1) n n)) :
    ∃ x : P → ℕ → ℝ, sumSq pb S (fun p i => e p i + x p i) ≤ rate n mu lam ^ 2 * sumSq pb S e ∧
      step qr junk pb ⟨moved pb S τ e, cost pb.fns (moved pb S τ e), lam, cache⟩ =
        (if sumSq pb S x = 0 then
          .ok ⟨moved pb S τ e, cost pb.fns (moved pb S τ e), lam * 10, some (patternOf (cleaned H 1) n n)⟩
        else .ok ⟨moved pb S τ (fun p i => e p i + x p i), cost pb.fns (moved pb S τ (fun p i => e p i + x p i)), lam / 10,
          some (patternOf (cleaned H 1) n n)⟩) ∧ (sumSq pb S e = 0 → sumSq pb S x = 0) := by
  have hm := macheps_pos
  have hev : ∀ g ∈ pb.fns, ∃ r, g.eval (moved pb S τ e) = some r := fun g hg => hA.eval g hg _
  obtain ⟨b, ha⟩ := reassemble h hev (fun g hg p => hA.jac g hg τ (moved pb S τ e) p) ha0
  have hn : (0 : ℝ) ≤ n * macheps := by positivity
  have hmu' : (2 * n + 1) * macheps < mu := by rw [ha.dim]; exact hmu
  have hq : ∀ v : ℕ → ℝ, mu * ∑ a ∈ range n, v a ^ 2 ≤ ∑ a ∈ range n, v a * ∑ d ∈ range n, H a d * v d := by
    intro v
    rw [← predictedSq_form τ ha0 v, ha.sum]
    exact hc _
  have hsq : ∀ v : ℕ → ℝ, sumSq pb S (fun p i => v (c p + i)) = ∑ a ∈ range n, v a ^ 2 := by
    intro v; rw [ha.sum]; rfl
  have hdiag : ∀ a < n, mu ≤ H a a := by
    intro a ha'
    have := hq (fun d => if d = a then 1 else 0)
    simpa [Finset.sum_ite_eq', ha'] using this
  obtain ⟨x, hx1, hx2⟩ := spqr_exact hqr junk cache H b n ha.diag lam (fun a ha' => by have := hdiag a ha'; linarith)
    (mu + lam - n * macheps) (by linarith) (fun v => by
      have h1 := cleaned_strong (n := n) H lam v
      have h2 := hq v
      linarith) hcache
  obtain ⟨ec, hec⟩ := ha.lift e
  have hes : sumSq pb S e = ∑ a ∈ range n, ec a ^ 2 := by
    rw [← hsq]
    exact Finset.sum_congr rfl (fun p hp => Finset.sum_congr rfl (fun i hi => by
      beta_reduce
      rw [hec p hp i (mem_range.mp hi)]))
  have hb : ∀ a < n, b a = -∑ d ∈ range n, H a d * ec d := by
    intro a ha'
    obtain ⟨p, hp, i, hi, rfl⟩ := ha.split a ha'
    rw [ha.rhs p hp i hi, gradient_moved hA, hg p hp i hi, zero_add, ha.sum]
    congr 1
    refine Finset.sum_congr rfl (fun q hq' => Finset.sum_congr rfl (fun j hj => ?_))
    rw [ha0.entry p hp i hi q hq' j (mem_range.mp hj), hec q hq' j (mem_range.mp hj)]
  have hcon := contract n H lam mu hl.le (by linarith) hq ec x (fun a ha' => by rw [hx2 a ha', hb a ha'])
  have hsx := hsq x
  refine ⟨fun p i => x (c p + i), ?_, ?_, ?_⟩
  · unfold rate
    rw [hes]
    refine le_trans (le_of_eq ?_) hcon
    rw [← hsq (fun a => ec a + x a)]
    exact Finset.sum_congr rfl (fun p hp => Finset.sum_congr rfl (fun i hi => by
      beta_reduce
      rw [hec p hp i (mem_range.mp hi)]))
  · rw [step_eq h (s := ⟨moved pb S τ e, cost pb.fns (moved pb S τ e), lam, cache⟩) hev ha hx1]
    beta_reduce
    rw [← hA.add]
    have hcm := cost_moved hA (moved pb S τ e) (fun p i => x (c p + i))
    rw [predictedSq_form _ ha x] at hcm
    have hsl := ha.slope x
    beta_reduce at hcm
    rw [hsl] at hcm
    have h1 : ∑ a ∈ range n, b a * x a = ∑ a ∈ range n, x a * ∑ d ∈ range n, cleaned H lam a d * x d :=
      Finset.sum_congr rfl (fun a ha' => by rw [hx2 a (mem_range.mp ha')]; ring)
    have h2 := cleaned_strong (n := n) H lam x
    have h3 := hq x
    rw [hsx]
    by_cases hx0 : ∑ a ∈ range n, x a ^ 2 = 0
    · rw [if_pos hx0, if_neg]
      have hxa : ∀ a < n, x a = 0 := by
        intro a ha'
        have := (Finset.sum_eq_zero_iff_of_nonneg (fun a _ => sq_nonneg (x a))).mp hx0 a (mem_range.mpr ha')
        exact pow_eq_zero_iff two_ne_zero |>.mp this
      have h4 : ∀ f : ℕ → ℝ, ∑ a ∈ range n, x a * f a = 0 :=
        fun f => Finset.sum_eq_zero (fun a ha' => by rw [hxa a (mem_range.mp ha'), zero_mul])
      have h5 : ∑ a ∈ range n, b a * x a = 0 :=
        Finset.sum_eq_zero (fun a ha' => by rw [hxa a (mem_range.mp ha'), mul_zero])
      rw [h4, h5] at hcm
      show ¬ cost pb.fns (moved pb S (moved pb S τ e) (fun p i => x (c p + i))) < cost pb.fns (moved pb S τ e)
      linarith
    · rw [if_neg hx0, if_pos]
      have h4 : 0 < ∑ a ∈ range n, x a ^ 2 :=
        lt_of_le_of_ne (Finset.sum_nonneg (fun _ _ => sq_nonneg _)) (Ne.symm hx0)
      show cost pb.fns (moved pb S (moved pb S τ e) (fun p i => x (c p + i))) < cost pb.fns (moved pb S τ e)
      have h5 : 0 < (mu / 2 + lam - n * macheps) * ∑ a ∈ range n, x a ^ 2 := mul_pos (by linarith) h4
      linarith
  · intro he0
    rw [hsx]
    rw [hes] at he0
    rw [he0, mul_zero] at hcon
    have hz : ∀ v : ℕ → ℝ, ∑ a ∈ range n, v a ^ 2 = 0 → ∀ a < n, v a = 0 := fun v hv a ha' =>
      pow_eq_zero_iff two_ne_zero |>.mp
        ((Finset.sum_eq_zero_iff_of_nonneg (fun a _ => sq_nonneg (v a))).mp hv a (mem_range.mpr ha'))
    have h1 := hz ec he0
    have h2 := hz (fun a => ec a + x a) (le_antisymm hcon (Finset.sum_nonneg (fun _ _ => sq_nonneg _)))
    refine Finset.sum_eq_zero (fun a ha' => ?_)
    have := h2 a (mem_range.mp ha')
    beta_reduce at this
    rw [h1 a (mem_range.mp ha'), zero_add] at this
    rw [this]; norm_num

/-- **C120, linear least squares.**  Let the residuals be affine functions, `τ` parameters where the gradient is zero and
`mu`, above the rounding unit, a lower bound for the curvature.  Then from every initial parameters `τ + e`, for every
damping and every number of iterations, the solver returns parameters `τ + e'`, and the distance to `τ` is reduced by the
product of the rates of the iterations, each of which is less than one. -/
theorem C120_linear (qr : Spqr) (hqr : IsSpqr qr) (junk : ℕ → ℝ × ℕ) (pb : Setup P V) (S : Finset P) (h : Problem pb S)
    (hA : Affine pb S) (τ : Vals P V) (hg : ∀ p ∈ S, ∀ i < (pb.info p).size, gradient pb τ p i = 0) (mu : ℝ)
    (hmu : (2 * dim pb S + 1) * macheps < mu) (hc : ∀ d, mu * sumSq pb S d ≤ predictedSq pb S τ d)
    (e : P → ℕ → ℝ) (lambda : ℝ) (hl : 0 < lambda) (maxIter : ℕ) :
    (∃ e', solveLM qr junk pb lambda maxIter (moved pb S τ e) = .ok (moved pb S τ e') ∧
      sumSq pb S e' ≤ reduction (dim pb S) mu lambda (maxIter - 1) ^ 2 * sumSq pb S e) ∧
    ∀ k, 0 ≤ rate (dim pb S) mu (lambda / 10 ^ k) ∧ rate (dim pb S) mu (lambda / 10 ^ k) < 1 := by
  have hm := macheps_pos
  have hmu2 : 2 * (dim pb S : ℝ) * macheps < mu := by linarith
  refine ⟨?_, fun k => rate_lt_one _ _ _ (by positivity) hmu2⟩
  obtain ⟨order, n, H, b0, c, ha0⟩ := assemble h τ (fun g hg => hA.eval g hg τ)
  have main : ∀ k, ∃ e' lam cache, 0 < lam ∧ (cache = none ∨ cache = some (patternOf (cleaned H 1) n n)) ∧
      loop qr junk pb k ⟨moved pb S τ e, cost pb.fns (moved pb S τ e), lambda, none⟩ =
        .ok ⟨moved pb S τ e', cost pb.fns (moved pb S τ e'), lam, cache⟩ ∧
      (sumSq pb S e' = 0 ∨ lam = lambda / 10 ^ k) ∧
      sumSq pb S e' ≤ reduction n mu lambda k ^ 2 * sumSq pb S e := by
    intro k
    induction k with
    | zero =>
      refine ⟨e, lambda, none, hl, Or.inl rfl, rfl, Or.inr (by simp), ?_⟩
      unfold reduction
      simp
    | succ k ih =>
      obtain ⟨e', lam, cache, hlam, hcache, hlo, hor, hb⟩ := ih
      obtain ⟨x, hx1, hx2, hx3⟩ := affine_step hqr junk h hA hg hmu hc ha0 e' lam hlam cache hcache
      have hs := loop_succ qr junk pb k _ _ hlo
      rw [hx2] at hs
      have hnn : 0 ≤ reduction n mu lambda (k + 1) ^ 2 * sumSq pb S e := mul_nonneg (sq_nonneg _)
        (Finset.sum_nonneg (fun _ _ => Finset.sum_nonneg (fun _ _ => sq_nonneg _)))
      have hnew : sumSq pb S (fun p i => e' p i + x p i) ≤ reduction n mu lambda (k + 1) ^ 2 * sumSq pb S e := by
        rcases hor with hz | hlk
        · rw [hz, mul_zero] at hx1
          linarith
        · subst hlk
          refine le_trans hx1 ?_
          have hr : reduction n mu lambda (k + 1) = reduction n mu lambda k * rate n mu (lambda / 10 ^ k) := by
            unfold reduction; rw [Finset.prod_range_succ]
          rw [hr, mul_pow]
          have := mul_le_mul_of_nonneg_left hb (sq_nonneg (rate n mu (lambda / 10 ^ k)))
          linarith
      by_cases hx0 : sumSq pb S x = 0
      · rw [if_pos hx0] at hs
        have hxz : ∀ p ∈ S, ∀ i ∈ range (pb.info p).size, x p i = 0 := by
          intro p hp i hi
          have h1 := (Finset.sum_eq_zero_iff_of_nonneg (fun p _ => Finset.sum_nonneg (fun i _ => sq_nonneg (x p i)))).mp hx0 p hp
          exact pow_eq_zero_iff two_ne_zero |>.mp ((Finset.sum_eq_zero_iff_of_nonneg (fun i _ => sq_nonneg (x p i))).mp h1 i hi)
        have he : sumSq pb S (fun p i => e' p i + x p i) = sumSq pb S e' :=
          Finset.sum_congr rfl (fun p hp => Finset.sum_congr rfl (fun i hi => by
            beta_reduce
            rw [hxz p hp i hi, add_zero]))
        have hz : sumSq pb S e' = 0 := by
          have hl0 : 0 ≤ sumSq pb S e' := Finset.sum_nonneg (fun _ _ => Finset.sum_nonneg (fun _ _ => sq_nonneg _))
          rw [he] at hx1
          obtain ⟨r0, r1⟩ := rate_lt_one n mu lam hlam.le (by rw [ha0.dim]; exact hmu2)
          have : rate n mu lam ^ 2 < 1 := by nlinarith
          nlinarith
        rw [he] at hnew
        exact ⟨e', lam * 10, _, by positivity, Or.inr rfl, hs, Or.inl hz, hnew⟩
      · rw [if_neg hx0] at hs
        refine ⟨_, lam / 10, _, by positivity, Or.inr rfl, hs, Or.inr ?_, hnew⟩
        rcases hor with hz | hlk
        · exact absurd (hx3 hz) hx0
        · rw [hlk, pow_succ, div_div]
  obtain ⟨e', lam, cache, -, -, hlo, -, hb⟩ := main (maxIter - 1)
  refine ⟨e', ?_, by rw [← ha0.dim]; exact hb⟩
  unfold solveLM
  rw [hlo]
  rfl

/-- **C120, convergence.**  Hence the returned parameters come arbitrarily near `τ`. -/
theorem C120_converges (qr : Spqr) (hqr : IsSpqr qr) (junk : ℕ → ℝ × ℕ) (pb : Setup P V) (S : Finset P) (h : Problem pb S)
    (hA : Affine pb S) (τ : Vals P V) (hg : ∀ p ∈ S, ∀ i < (pb.info p).size, gradient pb τ p i = 0) (mu : ℝ)
    (hmu : (2 * dim pb S + 1) * macheps < mu) (hc : ∀ d, mu * sumSq pb S d ≤ predictedSq pb S τ d)
    (e : P → ℕ → ℝ) (lambda : ℝ) (hl : 0 < lambda) (eps : ℝ) (heps : 0 < eps) :
    ∃ N, ∀ maxIter ≥ N, ∃ e', solveLM qr junk pb lambda maxIter (moved pb S τ e) = .ok (moved pb S τ e') ∧
      sumSq pb S e' ≤ eps := by
  have hm := macheps_pos
  have hmu2 : 2 * (dim pb S : ℝ) * macheps < mu := by linarith
  have hn : (0 : ℝ) ≤ dim pb S * macheps := by positivity
  obtain ⟨r0, r1⟩ := rate_lt_one (dim pb S) mu lambda hl.le hmu2
  have hmono : ∀ k, 0 ≤ rate (dim pb S) mu (lambda / 10 ^ k) ∧
      rate (dim pb S) mu (lambda / 10 ^ k) ≤ rate (dim pb S) mu lambda := by
    intro k
    have hk : (0 : ℝ) < lambda / 10 ^ k := by positivity
    have hk1 : lambda / 10 ^ k ≤ lambda := div_le_self hl.le (one_le_pow₀ (by norm_num))
    refine ⟨(rate_lt_one _ _ _ hk.le hmu2).1, ?_⟩
    unfold rate
    rw [div_le_div_iff₀ (by linarith) (by linarith)]
    nlinarith
  have hred : ∀ k, 0 ≤ reduction (dim pb S) mu lambda k ∧ reduction (dim pb S) mu lambda k ≤ rate (dim pb S) mu lambda ^ k := by
    intro k
    unfold reduction
    refine ⟨Finset.prod_nonneg (fun j _ => (hmono j).1), ?_⟩
    calc _ ≤ ∏ _j ∈ range k, rate (dim pb S) mu lambda := Finset.prod_le_prod (fun j _ => (hmono j).1) (fun j _ => (hmono j).2)
      _ = _ := by rw [Finset.prod_const, card_range]
  have hE : 0 ≤ sumSq pb S e := Finset.sum_nonneg (fun _ _ => Finset.sum_nonneg (fun _ _ => sq_nonneg _))
  obtain ⟨K, hK⟩ := exists_pow_lt_of_lt_one (div_pos heps (by linarith : 0 < sumSq pb S e + 1)) r1
  refine ⟨K + 1, fun maxIter hmax => ?_⟩
  obtain ⟨⟨e', h1, h2⟩, -⟩ := C120_linear qr hqr junk pb S h hA τ hg mu hmu hc e lambda hl maxIter
  refine ⟨e', h1, le_trans h2 ?_⟩
  obtain ⟨k0, k1⟩ := hred (maxIter - 1)
  have k2 : rate (dim pb S) mu lambda ^ (maxIter - 1) ≤ rate (dim pb S) mu lambda ^ K :=
    pow_le_pow_of_le_one r0 r1.le (by omega)
  have k3 : reduction (dim pb S) mu lambda (maxIter - 1) ≤ 1 := le_trans k1 (pow_le_one₀ r0 r1.le)
  have k4 : reduction (dim pb S) mu lambda (maxIter - 1) ≤ eps / (sumSq pb S e + 1) := by linarith
  have k5 : reduction (dim pb S) mu lambda (maxIter - 1) ^ 2 ≤ eps / (sumSq pb S e + 1) := by nlinarith
  rw [le_div_iff₀ (by linarith)] at k5
  nlinarith [sq_nonneg (reduction (dim pb S) mu lambda (maxIter - 1))]

end Yac.Lm
