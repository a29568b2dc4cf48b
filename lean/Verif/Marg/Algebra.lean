import Mathlib.Analysis.Matrix.Spectrum
import Mathlib.LinearAlgebra.Matrix.Symmetric
import Mathlib.LinearAlgebra.Matrix.DotProduct
import Mathlib.Analysis.SpecialFunctions.Pow.NNReal
import Mathlib.Tactic.LinearCombination

/-!
Linear algebra behind the marginalisation: partial minimisation of a linear least squares
problem, and the factorisation of a Gauss-Newton system.
-/

namespace Yac.Marg
open Matrix

set_option linter.unusedSectionVars false

variable {m r k : Type} [Fintype m] [Fintype r] [Fintype k] [DecidableEq m] [DecidableEq r]
  [DecidableEq k]

theorem mv_dot (A : Matrix k m ℝ) (x : m → ℝ) (y : k → ℝ) :
    (A *ᵥ x) ⬝ᵥ y = x ⬝ᵥ (Aᵀ *ᵥ y) := by
  rw [Matrix.dotProduct_transpose_mulVec, dotProduct_comm]

theorem transpose_mul_self_zero {E : Matrix k m ℝ} (h : Eᵀ * E = 0) : E = 0 := by
  ext a b
  have h1 := congrFun (congrFun h b) b
  rw [Matrix.mul_apply] at h1
  simp only [transpose_apply, Matrix.zero_apply] at h1 ⊢
  have h2 := (Finset.sum_eq_zero_iff_of_nonneg (fun i _ => mul_self_nonneg (E i b))).mp h1 a
    (Finset.mem_univ a)
  exact mul_self_eq_zero.mp h2

/-- A generalised inverse of `AᵀA` gives back `A`. -/
theorem ginv_left {A : Matrix k m ℝ} {P : Matrix m m ℝ} (hP : Pᵀ = P)
    (hG : Aᵀ * A * P * (Aᵀ * A) = Aᵀ * A) : A * P * (Aᵀ * A) = A := by
  have : A * P * (Aᵀ * A) - A = 0 := by
    apply transpose_mul_self_zero
    have e : (A * P * (Aᵀ * A) - A)ᵀ = Aᵀ * A * P * Aᵀ - Aᵀ := by
      simp only [transpose_sub, transpose_mul, transpose_transpose, hP, Matrix.mul_assoc]
    rw [e]
    have h1 : (Aᵀ * A * P * Aᵀ - Aᵀ) * (A * P * (Aᵀ * A) - A) =
        (Aᵀ * A * P * (Aᵀ * A)) * P * (Aᵀ * A) - Aᵀ * A * P * (Aᵀ * A)
          - Aᵀ * A * P * (Aᵀ * A) + Aᵀ * A := by
      simp only [Matrix.sub_mul, Matrix.mul_sub, Matrix.mul_assoc]
      abel
    rw [h1, hG, hG]
    abel
  exact sub_eq_zero.mp this

theorem ginv_right {A : Matrix k m ℝ} {P : Matrix m m ℝ} (hP : Pᵀ = P)
    (hG : Aᵀ * A * P * (Aᵀ * A) = Aᵀ * A) : Aᵀ * A * P * Aᵀ = Aᵀ := by
  have h := congrArg transpose (ginv_left hP hG)
  simpa only [transpose_mul, transpose_transpose, hP, Matrix.mul_assoc] using h

/-- The residual operator. -/
def resid (A : Matrix k m ℝ) (P : Matrix m m ℝ) : Matrix k k ℝ := 1 - A * P * Aᵀ

theorem resid_symm {A : Matrix k m ℝ} {P : Matrix m m ℝ} (hP : Pᵀ = P) :
    (resid A P)ᵀ = resid A P := by
  simp only [resid, transpose_sub, transpose_one, transpose_mul, transpose_transpose, hP,
    Matrix.mul_assoc]

theorem transpose_resid {A : Matrix k m ℝ} {P : Matrix m m ℝ} (hP : Pᵀ = P)
    (hG : Aᵀ * A * P * (Aᵀ * A) = Aᵀ * A) : Aᵀ * resid A P = 0 := by
  rw [resid, Matrix.mul_sub, Matrix.mul_one, ← Matrix.mul_assoc, ← Matrix.mul_assoc,
    ginv_right hP hG, sub_self]

theorem resid_idem {A : Matrix k m ℝ} {P : Matrix m m ℝ} (hP : Pᵀ = P)
    (hG : Aᵀ * A * P * (Aᵀ * A) = Aᵀ * A) : resid A P * resid A P = resid A P := by
  conv_lhs => lhs; rw [resid]
  rw [Matrix.sub_mul, Matrix.one_mul, Matrix.mul_assoc, transpose_resid hP hG, Matrix.mul_zero,
    sub_zero]

/-- Partial minimisation. -/
theorem partial_min (A : Matrix k m ℝ) {P : Matrix m m ℝ} (hP : Pᵀ = P)
    (hG : Aᵀ * A * P * (Aᵀ * A) = Aᵀ * A) (y : k → ℝ) (xm : m → ℝ) :
    (A *ᵥ xm + y) ⬝ᵥ (A *ᵥ xm + y) =
      (A *ᵥ (xm + P *ᵥ (Aᵀ *ᵥ y))) ⬝ᵥ (A *ᵥ (xm + P *ᵥ (Aᵀ *ᵥ y))) +
      (resid A P *ᵥ y) ⬝ᵥ (resid A P *ᵥ y) := by
  set s := xm + P *ᵥ (Aᵀ *ᵥ y) with hs
  have e : A *ᵥ xm + y = A *ᵥ s + resid A P *ᵥ y := by
    rw [hs, resid, Matrix.mulVec_add, Matrix.sub_mulVec, Matrix.one_mulVec, Matrix.mulVec_mulVec,
      Matrix.mulVec_mulVec]
    abel
  have h0 : (A *ᵥ s) ⬝ᵥ (resid A P *ᵥ y) = 0 := by
    rw [mv_dot, Matrix.mulVec_mulVec, transpose_resid hP hG, Matrix.zero_mulVec, dotProduct_zero]
  rw [e, add_dotProduct, dotProduct_add, dotProduct_add, h0,
    dotProduct_comm (resid A P *ᵥ y) (A *ᵥ s), h0]
  ring

theorem partial_min_isLeast (A : Matrix k m ℝ) {P : Matrix m m ℝ} (hP : Pᵀ = P)
    (hG : Aᵀ * A * P * (Aᵀ * A) = Aᵀ * A) (y : k → ℝ) :
    IsLeast {c | ∃ xm, c = (A *ᵥ xm + y) ⬝ᵥ (A *ᵥ xm + y)}
      ((resid A P *ᵥ y) ⬝ᵥ (resid A P *ᵥ y)) := by
  constructor
  · refine ⟨-(P *ᵥ (Aᵀ *ᵥ y)), ?_⟩
    rw [partial_min A hP hG]
    simp
  · rintro c ⟨xm, rfl⟩
    rw [partial_min A hP hG]
    have : 0 ≤ (A *ᵥ (xm + P *ᵥ (Aᵀ *ᵥ y))) ⬝ᵥ (A *ᵥ (xm + P *ᵥ (Aᵀ *ᵥ y))) :=
      Finset.sum_nonneg (fun i _ => mul_self_nonneg _)
    linarith

/-- The Schur complement of a Gauss-Newton system is a Gauss-Newton system. -/
theorem schur_gn (A : Matrix k m ℝ) (B : Matrix k r ℝ) {P : Matrix m m ℝ} (hP : Pᵀ = P)
    (hG : Aᵀ * A * P * (Aᵀ * A) = Aᵀ * A) (e : k → ℝ) :
    Bᵀ * B - Bᵀ * A * P * (Aᵀ * B) = (resid A P * B)ᵀ * (resid A P * B) ∧
    -(Bᵀ *ᵥ e) - (Bᵀ * A * P) *ᵥ (-(Aᵀ *ᵥ e)) = -((resid A P * B)ᵀ *ᵥ (resid A P *ᵥ e)) := by
  have h1 : (resid A P * B)ᵀ * resid A P = Bᵀ * resid A P := by
    rw [transpose_mul, resid_symm hP, Matrix.mul_assoc, resid_idem hP hG]
  constructor
  · rw [← Matrix.mul_assoc (resid A P * B)ᵀ, h1, resid]
    simp only [Matrix.sub_mul, Matrix.mul_sub, Matrix.mul_assoc, Matrix.one_mul]
  · rw [Matrix.mulVec_mulVec, h1, resid]
    simp only [Matrix.mul_sub, Matrix.sub_mulVec, Matrix.mul_one, Matrix.mulVec_neg,
      Matrix.mulVec_mulVec, Matrix.mul_assoc]
    abel

/-! ### Functions of a symmetric matrix -/

/-- `V * diag(f) * Vᵀ`. -/
def spec (V : Matrix m m ℝ) (f : m → ℝ) : Matrix m m ℝ := V * diagonal f * Vᵀ

theorem spec_symm (V : Matrix m m ℝ) (f : m → ℝ) : (spec V f)ᵀ = spec V f := by
  simp only [spec, transpose_mul, transpose_transpose, diagonal_transpose, Matrix.mul_assoc]

theorem spec_mul {V : Matrix m m ℝ} (hV : Vᵀ * V = 1) (f g : m → ℝ) :
    spec V f * spec V g = spec V (fun i => f i * g i) := by
  unfold spec
  have : V * diagonal f * Vᵀ * (V * diagonal g * Vᵀ) =
      V * diagonal f * (Vᵀ * V) * diagonal g * Vᵀ := by simp only [Matrix.mul_assoc]
  rw [this, hV, Matrix.mul_one, Matrix.mul_assoc V, diagonal_mul_diagonal]

theorem spec_one {V : Matrix m m ℝ} (hV : Vᵀ * V = 1) : spec V (fun _ => 1) = 1 := by
  unfold spec
  have : (diagonal fun _ : m => (1 : ℝ)) = 1 := diagonal_one
  rw [this, Matrix.mul_one]
  exact mul_eq_one_comm.mp hV

/-- Column `i` of `V` is an eigenvector. -/
theorem spec_eigvec {V : Matrix m m ℝ} (hV : Vᵀ * V = 1) (f : m → ℝ) (i : m) :
    spec V f *ᵥ (V *ᵥ Pi.single i 1) = f i • (V *ᵥ Pi.single i 1) := by
  unfold spec
  rw [Matrix.mulVec_mulVec, Matrix.mul_assoc, hV, Matrix.mul_one, ← Matrix.mulVec_mulVec,
    ← Matrix.mulVec_smul]
  congr 1
  ext j
  rw [Matrix.mulVec_diagonal]
  by_cases h : j = i
  · subst h; simp
  · simp [h]

theorem spec_eigvec_ne {V : Matrix m m ℝ} (hV : Vᵀ * V = 1) (i : m) :
    V *ᵥ Pi.single i 1 ≠ 0 := by
  intro h
  have : Vᵀ *ᵥ (V *ᵥ Pi.single i 1) = 0 := by rw [h, Matrix.mulVec_zero]
  rw [Matrix.mulVec_mulVec, hV, Matrix.one_mulVec] at this
  have := congrFun this i
  simp at this

/-- Factorisation of a Gauss-Newton system through the eigen decomposition. -/
theorem factor_gn {J : Matrix k r ℝ} {U : Matrix r r ℝ} {lam : r → ℝ} (hU : Uᵀ * U = 1)
    (hH : Jᵀ * J = spec U lam) (π : r → ℝ) (h : ∀ i, π i = 1 ∨ (π i = 0 ∧ lam i = 0)) :
    spec U π * Jᵀ = Jᵀ := by
  have h1 : J * spec U π = J := by
    have : J * spec U π - J = 0 := by
      apply transpose_mul_self_zero
      have e : (J * spec U π - J)ᵀ = spec U π * Jᵀ - Jᵀ := by
        rw [transpose_sub, transpose_mul, spec_symm]
      have e2 : (spec U π * Jᵀ - Jᵀ) * (J * spec U π - J) =
          spec U π * (Jᵀ * J) * spec U π - spec U π * (Jᵀ * J) - (Jᵀ * J) * spec U π + Jᵀ * J := by
        simp only [Matrix.sub_mul, Matrix.mul_sub, Matrix.mul_assoc]
        abel
      rw [e, e2, hH, spec_mul hU, spec_mul hU, spec_mul hU]
      have f1 : (fun i => π i * lam i * π i) = lam := by
        funext i; rcases h i with h | ⟨h, h'⟩
        · rw [h]; ring
        · rw [h, h']; ring
      have f2 : (fun i => π i * lam i) = lam := by
        funext i; rcases h i with h | ⟨h, h'⟩
        · rw [h]; ring
        · rw [h, h']; ring
      have f3 : (fun i => lam i * π i) = lam := by
        funext i; rcases h i with h | ⟨h, h'⟩
        · rw [h]; ring
        · rw [h, h']; ring
      rw [f1, f2, f3]
      abel
    exact sub_eq_zero.mp this
  have := congrArg transpose h1
  rwa [transpose_mul, spec_symm] at this

theorem eig_nonneg {J : Matrix k r ℝ} {U : Matrix r r ℝ} {lam : r → ℝ} (hU : Uᵀ * U = 1)
    (hH : Jᵀ * J = spec U lam) (i : r) : 0 ≤ lam i := by
  set u := U *ᵥ Pi.single i 1 with hu
  have h1 := spec_eigvec hU lam i
  rw [← hH, ← hu] at h1
  have h2 : u ⬝ᵥ ((Jᵀ * J) *ᵥ u) = (J *ᵥ u) ⬝ᵥ (J *ᵥ u) := by
    rw [mv_dot J, Matrix.mulVec_mulVec u]
  have h3 : u ⬝ᵥ u = 1 := by
    rw [hu, mv_dot, Matrix.mulVec_mulVec, hU]
    simp
  rw [h1, dotProduct_smul, h3, smul_eq_mul, mul_one] at h2
  rw [h2]
  exact Finset.sum_nonneg (fun i _ => mul_self_nonneg _)

/-- The quadratic of a factorised system. -/
theorem cost_factor {J0 : Matrix r r ℝ} {r0 : r → ℝ} {J : Matrix k r ℝ} {e : k → ℝ}
    (h1 : J0ᵀ * J0 = Jᵀ * J) (h2 : J0ᵀ *ᵥ r0 = Jᵀ *ᵥ e) (x : r → ℝ) :
    (r0 + J0 *ᵥ x) ⬝ᵥ (r0 + J0 *ᵥ x) + (e ⬝ᵥ e - r0 ⬝ᵥ r0) =
      (J *ᵥ x + e) ⬝ᵥ (J *ᵥ x + e) := by
  have a1 : (J0 *ᵥ x) ⬝ᵥ (J0 *ᵥ x) = (J *ᵥ x) ⬝ᵥ (J *ᵥ x) := by
    rw [mv_dot, mv_dot, Matrix.mulVec_mulVec, Matrix.mulVec_mulVec, h1]
  have a2 : (J0 *ᵥ x) ⬝ᵥ r0 = (J *ᵥ x) ⬝ᵥ e := by
    rw [mv_dot, mv_dot, h2]
  rw [add_dotProduct, dotProduct_add, dotProduct_add, add_dotProduct, dotProduct_add,
    dotProduct_add, dotProduct_comm r0 (J0 *ᵥ x), dotProduct_comm e (J *ᵥ x), a1, a2]
  ring

end Yac.Marg
