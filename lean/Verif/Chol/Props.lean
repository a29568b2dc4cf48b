import Verif.Chol.Lemmas
import Verif.Residual.PriorProps
import Verif.Imu.CovProps
import Mathlib.Analysis.Matrix.PosDef

/-!
# C116: weighting of the residuals
-/

namespace Yac.Chol
open Matrix Finset Yac.Geom Yac.Cam Yac.Residual

section general
variable {n : Nat}

theorem toArr_lt (A : Matrix (Fin n) (Fin n) ℝ) (i j : Fin n) : toArr A i j = A i j := by
  unfold toArr
  rw [dif_pos ⟨i.2, j.2⟩]

theorem quad_toArr (A : Matrix (Fin n) (Fin n) ℝ) (v : Nat → ℝ) :
    quad n (toArr A) v = (fun i : Fin n => v i) ⬝ᵥ A *ᵥ (fun i : Fin n => v i) := by
  unfold quad dotProduct mulVec
  rw [Finset.sum_range]
  refine Finset.sum_congr rfl fun i _ => ?_
  rw [Finset.sum_range, dotProduct, Finset.mul_sum]
  refine Finset.sum_congr rfl fun j _ => ?_
  rw [toArr_lt]; ring

theorem pd_iff (A : Matrix (Fin n) (Fin n) ℝ) : PD n (toArr A) ↔ A.PosDef := by
  constructor
  · intro h
    refine Matrix.PosDef.of_dotProduct_mulVec_pos ?_ fun x hx => ?_
    · ext i j
      rw [conjTranspose_apply, star_trivial, ← toArr_lt A, ← toArr_lt A, h.1 j i j.2 i.2]
    · obtain ⟨v, hv⟩ : ∃ v : Nat → ℝ, v = fun i => if h : i < n then x ⟨i, h⟩ else 0 := ⟨_, rfl⟩
      have e : (fun i : Fin n => v i) = x := by
        ext i; rw [hv]; simp
      obtain ⟨i, hi⟩ := Function.ne_iff.1 hx
      have := h.2 v ⟨i, i.2, by rw [hv]; simpa using hi⟩
      rw [quad_toArr, e] at this
      simpa using this
  · intro h
    refine ⟨fun i j hi hj => ?_, fun v hv => ?_⟩
    · have := congrFun (congrFun h.1 ⟨j, hj⟩) ⟨i, hi⟩
      rw [conjTranspose_apply, star_trivial] at this
      have e1 := toArr_lt A ⟨i, hi⟩ ⟨j, hj⟩
      have e2 := toArr_lt A ⟨j, hj⟩ ⟨i, hi⟩
      simp only at e1 e2
      rw [e1, e2, this]
    · rw [quad_toArr]
      obtain ⟨i, hi, hne⟩ := hv
      have hx : (fun i : Fin n => v i) ≠ 0 := fun h0 => hne (by
        have := congrFun h0 ⟨i, hi⟩; simpa using this)
      have := h.dotProduct_mulVec_pos hx
      simpa using this

/-- C116, factor: for every positive definite matrix the factorisation yields an upper triangular
matrix with positive diagonal whose product with its transpose gives the matrix back. -/
theorem C116_factor (A : Matrix (Fin n) (Fin n) ℝ) (h : A.PosDef) :
    (lltU A)ᵀ * lltU A = A ∧ (∀ i, 0 < lltU A i i) ∧ ∀ i j, j < i → lltU A i j = 0 := by
  have hA := (pd_iff A).2 h
  obtain ⟨M, e, hi⟩ := fold_pd hA n (le_refl _)
  have hU : ∀ i j : Fin n, lltU A i j = low M j i := by
    intro i j
    unfold lltU factor
    rw [e]
    rfl
  refine ⟨?_, ?_, ?_⟩
  · ext i j
    rw [Matrix.mul_apply, ← toArr_lt A i j, ← inv_gram hi hA.1 i j i.2 j.2, Finset.sum_range]
    refine Finset.sum_congr rfl fun l _ => ?_
    rw [transpose_apply, hU, hU]
  · intro i
    rw [hU]
    unfold low
    rw [if_pos (le_refl _)]
    exact hi.pos i i.2
  · intro i j hji
    rw [hU]
    unfold low
    exact if_neg (by simpa using hji)

/-- C116, status: the factorisation of a symmetric matrix runs to the end exactly if the matrix is
positive definite. -/
theorem C116_success (A : Matrix (Fin n) (Fin n) ℝ) (hs : Aᵀ = A) :
    (factor n (toArr A)).2 = true ↔ A.PosDef := by
  rw [← pd_iff]
  constructor
  · intro h
    obtain ⟨M, hM⟩ : ∃ M, factor n (toArr A) = (M, true) := ⟨(factor n (toArr A)).1, by rw [← h]⟩
    refine pd_of_inv (fold_inv n M hM) fun i j hi hj => ?_
    have e1 := toArr_lt A ⟨i, hi⟩ ⟨j, hj⟩
    have e2 := toArr_lt A ⟨j, hj⟩ ⟨i, hi⟩
    simp only at e1 e2
    rw [e1, e2]
    have := congrFun (congrFun hs ⟨j, hj⟩) ⟨i, hi⟩
    rw [transpose_apply] at this
    exact this
  · intro h
    obtain ⟨M, e, _⟩ := fold_pd h n (le_refl _)
    unfold factor
    rw [e]

/-- C116, weighting: for every positive definite covariance the squared length of the weighted
error is the Mahalanobis distance: `eᵀ x` for the solution `x` of `covar x = e`. -/
theorem C116_mahalanobis (covar : Matrix (Fin n) (Fin n) ℝ) (h : covar.PosDef) :
    ∃ W, sqrtInfo covar = some W ∧
      (∀ e x : Fin n → ℝ, covar *ᵥ x = e → (W *ᵥ e) ⬝ᵥ (W *ᵥ e) = e ⬝ᵥ x) ∧
      (∀ i, 0 < W i i) ∧ ∀ i j, j < i → W i j = 0 := by
  have hd : covar.det ≠ 0 := h.det_pos.ne'
  obtain ⟨h1, h2, h3⟩ := C116_factor covar⁻¹ h.inv
  refine ⟨lltU covar⁻¹, by unfold sqrtInfo; exact if_neg hd, ?_, h2, h3⟩
  rintro e x rfl
  rw [dotProduct_mulVec, vecMul_mulVec, ← mulVec_transpose, transpose_mul, transpose_transpose, h1,
    mulVec_mulVec, nonsing_inv_mul _ (isUnit_iff_ne_zero.2 hd), one_mulVec, dotProduct_comm]

theorem column_one {k : Nat} (hk : k < n) :
    column n k (toArr (1 : Matrix (Fin n) (Fin n) ℝ)) = some (toArr (1 : Matrix (Fin n) (Fin n) ℝ)) := by
  have e : ∀ i j, i < n → j < n → toArr (1 : Matrix (Fin n) (Fin n) ℝ) i j = if i = j then 1 else 0 := by
    intro i j hi hj
    have := toArr_lt (1 : Matrix (Fin n) (Fin n) ℝ) ⟨i, hi⟩ ⟨j, hj⟩
    simp only at this
    rw [this, Matrix.one_apply]
    simp
  have hz : ∀ i, i < n → ∑ l ∈ range k, toArr (1 : Matrix (Fin n) (Fin n) ℝ) i l * toArr (1 : Matrix (Fin n) (Fin n) ℝ) k l = 0 := by
    intro i hi
    refine Finset.sum_eq_zero fun l hl => ?_
    rw [Finset.mem_range] at hl
    rw [e k l hk (by omega), if_neg (by omega), mul_zero]
  unfold column
  have hx : toArr (1 : Matrix (Fin n) (Fin n) ℝ) k k -
      ∑ l ∈ range k, toArr (1 : Matrix (Fin n) (Fin n) ℝ) k l * toArr (1 : Matrix (Fin n) (Fin n) ℝ) k l = 1 := by
    rw [hz k hk, e k k hk hk]; simp
  simp only [hx]
  rw [if_neg (by norm_num)]
  congr 1
  funext i j
  by_cases h1 : j = k ∧ i = k
  · rw [if_pos h1, h1.1, h1.2, e k k hk hk]; simp
  · rw [if_neg h1]
    by_cases h2 : j = k ∧ k < i ∧ i < n
    · rw [if_pos h2, hz i h2.2.2, e i k h2.2.2 hk, h2.1, e i k h2.2.2 hk, if_neg (by omega)]; simp
    · rw [if_neg h2]

/-- C116, the covariance yac uses for pixel measurements: with the identity nothing is weighted. -/
theorem C116_identity : sqrtInfo (1 : Matrix (Fin n) (Fin n) ℝ) = some 1 := by
  have hf : ∀ k, k ≤ n → (List.range k).foldl (step n) (toArr (1 : Matrix (Fin n) (Fin n) ℝ), true) =
      (toArr (1 : Matrix (Fin n) (Fin n) ℝ), true) := by
    intro k
    induction k with
    | zero => intro _; rfl
    | succ k ih =>
      intro hk
      rw [List.range_succ, List.foldl_append, ih (by omega), List.foldl_cons, List.foldl_nil]
      simp [step, column_one (show k < n by omega)]
  unfold sqrtInfo
  rw [if_neg (by simp), inv_one]
  congr 1
  ext i j
  unfold lltU factor
  rw [hf n (le_refl _)]
  unfold matrixU
  by_cases hij : (i : Nat) ≤ j
  · rw [if_pos hij]
    show toArr (1 : Matrix (Fin n) (Fin n) ℝ) j i = _
    rw [toArr_lt, Matrix.one_apply, Matrix.one_apply]
    by_cases hh : i = j
    · rw [if_pos hh, if_pos hh.symm]
    · rw [if_neg hh, if_neg (fun h => hh h.symm)]
  · rw [if_neg hij, Matrix.one_apply_ne]
    rintro rfl; exact hij (le_refl _)

/-- C116: a singular covariance has no finite weight. -/
theorem C116_singular (covar : Matrix (Fin n) (Fin n) ℝ) (h : covar.det = 0) :
    sqrtInfo covar = none := by unfold sqrtInfo; exact if_pos h

end general

/-- C116 refuted: a covariance that is not positive definite is accepted, and the weighted error is
not its quadratic form: the factorisation stopped half way and nobody looked. -/
theorem C116_indefinite_refuted : ∃ covar W : Matrix (Fin 2) (Fin 2) ℝ, covarᵀ = covar ∧
    sqrtInfo covar = some W ∧ ∃ e, (W *ᵥ e) ⬝ᵥ (W *ᵥ e) ≠ e ⬝ᵥ covar⁻¹ *ᵥ e := by
  obtain ⟨S, hS⟩ : ∃ S : Matrix (Fin 2) (Fin 2) ℝ, S = !![1, 0; 0, -1] := ⟨_, rfl⟩
  have hinv : S⁻¹ = S := by
    refine inv_eq_right_inv ?_
    rw [hS]
    ext i j; fin_cases i <;> fin_cases j <;> simp [Matrix.mul_apply, Fin.sum_univ_two]
  have hdet : S.det ≠ 0 := by rw [hS]; simp [Matrix.det_fin_two]
  refine ⟨S, lltU S, ?_, ?_, ![0, 1], ?_⟩
  · rw [hS]; ext i j; fin_cases i <;> fin_cases j <;> rfl
  · unfold sqrtInfo; rw [if_neg hdet, hinv]
  · have a00 : toArr S 0 0 = 1 := by rw [hS]; simp [toArr]
    have a11 : toArr S 1 1 = -1 := by rw [hS]; simp [toArr]
    have a10 : toArr S 1 0 = 0 := by rw [hS]; simp [toArr]
    obtain ⟨M, hM, m00, m10, m11⟩ : ∃ M, factor 2 (toArr S) = (M, false) ∧ M 0 0 = 1 ∧ M 1 0 = 0 ∧
        M 1 1 = -1 := by
      refine ⟨fun i j => if j = 0 ∧ i = 0 then 1 else if j = 0 ∧ 0 < i ∧ i < 2 then toArr S i 0 / 1
        else toArr S i j, ?_, by simp, by simp [a10], by simp [a11]⟩
      have c0 : column 2 0 (toArr S) = some fun i j => if j = 0 ∧ i = 0 then 1
          else if j = 0 ∧ 0 < i ∧ i < 2 then toArr S i 0 / 1 else toArr S i j := by
        unfold column
        simp [a00]
      have c1 : column 2 1 (fun i j => if j = 0 ∧ i = 0 then 1
          else if j = 0 ∧ 0 < i ∧ i < 2 then toArr S i 0 / 1 else toArr S i j) = none := by
        unfold column
        simp [a10, a11]
      have hr : List.range 2 = [0, 1] := rfl
      rw [factor, hr, List.foldl_cons, List.foldl_cons, List.foldl_nil]
      have s0 : step 2 (toArr S, true) 0 = (fun i j => if j = 0 ∧ i = 0 then 1
          else if j = 0 ∧ 0 < i ∧ i < 2 then toArr S i 0 / 1 else toArr S i j, true) := by
        unfold step
        simp only [Bool.true_eq_false, if_false, c0]
      rw [s0]
      unfold step
      simp only [Bool.true_eq_false, if_false, c1]
    have hL : lltU S = !![1, 0; 0, -1] := by
      ext i j
      unfold lltU
      rw [hM]
      fin_cases i <;> fin_cases j <;> simp [matrixU, m00, m10, m11]
    rw [hL, hinv, hS]
    simp [dotProduct, Fin.sum_univ_two]
    norm_num

/-! ## The residual blocks -/

/-- C116, residuals: with the weight their constructors compute from a positive definite
covariance, the squared residual handed to the optimiser is the Mahalanobis distance of the
measurement from the image of the corner, and of the parameters from their prior. -/
theorem C116_residuals :
    (∀ (S : Mat2), S.PosDef → ∃ W, sqrtInfo S = some W ∧
      (∀ (g : CamGeom) (cres : Fin 2 → ℤ) (z : Vec2) (p : Vec3 ℝ) (x0 x1 : Fin 7 → ℝ) (k : Params)
        (r zh : Vec2) (y : Vec2), S *ᵥ y = z - zh → (reprojEval g cres W z p x0 x1 k).r = some r →
        (g.project cres k (tfPoint (tfInv (tfParams x0) * tfParams x1) p)).zhat = some zh →
        r ⬝ᵥ r = (z - zh) ⬝ᵥ y) ∧
      (∀ (g : CamGeom) (cres : Fin 2 → ℤ) (z : Vec2) (p : Vec3 ℝ) (T : Mat4 ℝ) (rp : Fin 2 → ℝ)
        (xs xi xc : Fin 7 → ℝ) (k : Params) (r zh : Vec2) (y : Vec2), S *ᵥ y = z - zh →
        (fiducialEval g cres W z p T rp xs xi xc k).r = some r →
        (g.project cres k (tfPoint (tfInv (tfParams xc) * tfParams xi * tfInv (tfParams xs) *
          fiducialTf T rp) p)).zhat = some zh → r ⬝ᵥ r = (z - zh) ⬝ᵥ y) ∧
      (∀ (g : CamGeom) (cres : Fin 2 → ℤ) (z : Vec2) (p : Vec3 ℝ) (xf xm xc : Fin 7 → ℝ) (k : Params)
        (r zh : Vec2) (y : Vec2), S *ᵥ y = z - zh → (mocapEval g cres W z p xf xm xc k).r = some r →
        (g.project cres k (tfPoint ((tfParams xc)⁻¹ * (tfParams xm)⁻¹ * tfParams xf) p)).zhat = some zh →
        r ⬝ᵥ r = (z - zh) ⬝ᵥ y)) ∧
    (∀ (n : Nat) (S : Matrix (Fin n) (Fin n) ℝ), S.PosDef → ∃ W, sqrtInfo S = some W ∧
      ∀ meas x y : Fin n → ℝ, S *ᵥ y = meas - x →
        (priorEval W meas x).1 ⬝ᵥ (priorEval W meas x).1 = (meas - x) ⬝ᵥ y) ∧
    (∀ (S : Matrix (Fin 6) (Fin 6) ℝ), S.PosDef → ∃ W, sqrtInfo S = some W ∧
      ∀ (T : Mat4 ℝ) (x : Fin 7 → ℝ) (y : Fin 6 → ℝ), S *ᵥ y = posePriorErr T x →
        (posePriorEval W T x).1 ⬝ᵥ (posePriorEval W T x).1 = posePriorErr T x ⬝ᵥ y) := by
  refine ⟨fun S hS => ?_, fun n S hS => ?_, fun S hS => ?_⟩
  · obtain ⟨W, hW, h, _⟩ := C116_mahalanobis S hS
    refine ⟨W, hW, ?_, ?_, ?_⟩
    · intro g cres z p x0 x1 k r zh y hy hr hz
      simp only [reprojEval, hz, Option.map_some, Option.some.injEq] at hr
      rw [← hr]
      exact h _ y hy
    · intro g cres z p T rp xs xi xc k r zh y hy hr hz
      simp only [fiducialEval, hz, Option.map_some, Option.some.injEq] at hr
      rw [← hr]
      exact h _ y hy
    · intro g cres z p xf xm xc k r zh y hy hr hz
      simp only [mocapEval, hz, Option.map_some, Option.some.injEq] at hr
      rw [← hr]
      exact h _ y hy
  · obtain ⟨W, hW, h, _⟩ := C116_mahalanobis S hS
    exact ⟨W, hW, fun meas x y hy => h _ y hy⟩
  · obtain ⟨W, hW, h, _⟩ := C116_mahalanobis S hS
    exact ⟨W, hW, fun T x y hy => h _ y hy⟩

/-- The factorisation with pairs of indices. -/
theorem lltPair_spec {m n : Nat} (A : Matrix (Fin m × Fin n) (Fin m × Fin n) ℝ) (h : A.PosDef) :
    (lltPair A)ᵀ * lltPair A = A := by
  have hp : (A.reindex finProdFinEquiv finProdFinEquiv).PosDef := by
    rw [reindex_apply]
    exact h.submatrix (Equiv.injective _)
  have := (C116_factor _ hp).1
  unfold lltPair
  rw [transpose_reindex]
  simp only [reindex_apply, Equiv.symm_symm] at this ⊢
  rw [submatrix_mul_equiv, this, submatrix_submatrix]
  ext i j
  simp

/-- C116, IMU: for every IMU buffer covering the interval and noise model, the residual with the
weight the code computes has the Mahalanobis length of the preintegration error under the
propagated covariance. -/
theorem C116_imu (p : Imu.Params) (d : Stream.Imu (Vec3 ℝ)) (t0 t1 delay : ℤ) (x0 x1 : Fin 7 → ℝ)
    (sb0 sb1 : Imu.SB) (hc : Imu.Covers d (t0 + delay) (t1 + delay)) (ht : t0 < t1)
    (hn : Imu.Noisy p) :
    ∃ (o : Imu.Eval) (s : Imu.Loop), Imu.evaluate lltPair p d t0 t1 delay x0 x1 sb0 sb1 = .ok o ∧
      Imu.redo p sb0 d (t0 + delay) (t1 + delay) = .ok s ∧
      ∀ y, s.I.P *ᵥ y = o.raw → o.weighted ⬝ᵥ o.weighted = o.raw ⬝ᵥ y := by
  obtain ⟨o, s, h1, h2, _, _, W, hW, hWP, hw⟩ :=
    Imu.C44_residual lltPair (fun W hW => lltPair_spec W hW) p d t0 t1 delay x0 x1 sb0 sb1 hc ht hn
  refine ⟨o, s, h1, h2, fun y hy => ?_⟩
  rw [hw, ← hy, mulVec_mulVec, hWP, one_mulVec]

/-! ## Witnesses -/

/-- A correlated covariance meets the hypotheses. -/
example : ∃ W, sqrtInfo (!![2, 1; 1, 2] : Mat2) = some W ∧
    (W *ᵥ ![3, 3]) ⬝ᵥ (W *ᵥ ![3, 3]) = 6 := by
  have hpd : (!![2, 1; 1, 2] : Mat2).PosDef := by
    refine Matrix.PosDef.of_dotProduct_mulVec_pos ?_ fun x hx => ?_
    · ext i j; fin_cases i <;> fin_cases j <;> simp
    · simp [mulVec, dotProduct, Fin.sum_univ_two]
      have h0 : x 0 ≠ 0 ∨ x 1 ≠ 0 := by
        by_contra hc
        push Not at hc
        exact hx (by ext i; fin_cases i <;> simp [hc.1, hc.2])
      have : 0 < x 0 ^ 2 + x 1 ^ 2 := by
        rcases h0 with h | h
        · have := sq_nonneg (x 1); have := pow_pos (abs_pos.2 h) 2; rw [sq_abs] at this; linarith
        · have := sq_nonneg (x 0); have := pow_pos (abs_pos.2 h) 2; rw [sq_abs] at this; linarith
      nlinarith [sq_nonneg (x 0 + x 1)]
  obtain ⟨W, hW, h, _⟩ := C116_mahalanobis _ hpd
  refine ⟨W, hW, ?_⟩
  rw [h ![3, 3] ![1, 1] (by ext i; fin_cases i <;> simp [mulVec, dotProduct, Fin.sum_univ_two] <;> norm_num)]
  simp [dotProduct, Fin.sum_univ_two]
  norm_num

end Yac.Chol
