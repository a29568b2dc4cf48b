import Verif.Info.NbvSpec
import Verif.Marg.Algebra
import Mathlib.LinearAlgebra.Matrix.SchurComplement
import Mathlib.Data.Real.StarOrdered
import Mathlib.Analysis.Matrix.PosDef

namespace Yac.Info
open Matrix Yac.Marg

set_option linter.unusedSectionVars false

variable {k m n c q : Type} [Fintype k] [Fintype m] [Fintype n] [Fintype c] [Fintype q]
  [DecidableEq k] [DecidableEq m] [DecidableEq n] [DecidableEq c] [DecidableEq q]

/-- The projection onto a column space does not depend on how it is computed. -/
theorem proj_unique {A : Matrix k m ℝ} {B : Matrix k n ℝ} {P : Matrix m m ℝ} {Q : Matrix n n ℝ}
    (hP : Pᵀ = P) (hGP : Aᵀ * A * P * (Aᵀ * A) = Aᵀ * A)
    (hQ : Qᵀ = Q) (hGQ : Bᵀ * B * Q * (Bᵀ * B) = Bᵀ * B)
    {E : Matrix n m ℝ} {F : Matrix m n ℝ} (hE : A = B * E) (hF : B = A * F) :
    A * P * Aᵀ = B * Q * Bᵀ := by
  have h1 : A * P * Aᵀ * A = A := by rw [Matrix.mul_assoc (A * P)]; exact ginv_left hP hGP
  have h2 : B * Q * Bᵀ * B = B := by rw [Matrix.mul_assoc (B * Q)]; exact ginv_left hQ hGQ
  have h3 : A * P * Aᵀ * (B * Q * Bᵀ) = B * Q * Bᵀ := by
    have : A * P * Aᵀ * B = B := by
      conv_lhs => rw [hF, ← Matrix.mul_assoc, h1]
      exact hF.symm
    rw [Matrix.mul_assoc B, ← Matrix.mul_assoc, this]
  have h4 : B * Q * Bᵀ * (A * P * Aᵀ) = A * P * Aᵀ := by
    have : B * Q * Bᵀ * A = A := by
      conv_lhs => rw [hE, ← Matrix.mul_assoc, h2]
      exact hE.symm
    rw [Matrix.mul_assoc A, ← Matrix.mul_assoc, this]
  have h5 := congrArg transpose h3
  have e1 : (A * P * Aᵀ)ᵀ = A * P * Aᵀ := by
    simp only [transpose_mul, transpose_transpose, hP, Matrix.mul_assoc]
  have e2 : (B * Q * Bᵀ)ᵀ = B * Q * Bᵀ := by
    simp only [transpose_mul, transpose_transpose, hQ, Matrix.mul_assoc]
  rw [transpose_mul, e1, e2, h4] at h5
  exact h5

/-- The Schur complement and the inverse of a partitioned information matrix. -/
theorem schur_facts (Jc : Matrix k c ℝ) (Jq : Matrix k q ℝ) (hD : (Jqᵀ * Jq).det ≠ 0) :
    let S := Jcᵀ * Jc - Jcᵀ * Jq * (Jqᵀ * Jq)⁻¹ * (Jqᵀ * Jc)
    let L := fromBlocks (Jcᵀ * Jc) (Jcᵀ * Jq) (Jqᵀ * Jc) (Jqᵀ * Jq)
    L.det = (Jqᵀ * Jq).det * S.det ∧ 0 ≤ S.det ∧ (S.det ≠ 0 → (L⁻¹).toBlocks₁₁ = S⁻¹) := by
  intro S L
  have : Invertible (Jqᵀ * Jq) := Matrix.invertibleOfIsUnitDet _ (isUnit_iff_ne_zero.mpr hD)
  have hinv : ⅟(Jqᵀ * Jq) = (Jqᵀ * Jq)⁻¹ := Matrix.invOf_eq_nonsing_inv _
  have hS : S = Jcᵀ * Jc - Jcᵀ * Jq * ⅟(Jqᵀ * Jq) * (Jqᵀ * Jc) := by rw [hinv]
  refine ⟨?_, ?_, ?_⟩
  · rw [hS]
    exact det_fromBlocks₂₂ _ _ _ _
  · have hsym : ((Jqᵀ * Jq)⁻¹)ᵀ = (Jqᵀ * Jq)⁻¹ := by
      rw [Matrix.transpose_nonsing_inv, transpose_mul, transpose_transpose]
    have hG : Jqᵀ * Jq * (Jqᵀ * Jq)⁻¹ * (Jqᵀ * Jq) = Jqᵀ * Jq := by
      rw [Matrix.mul_nonsing_inv _ (isUnit_iff_ne_zero.mpr hD), Matrix.one_mul]
    have h1 := (schur_gn Jq Jc hsym hG (fun _ => 0)).1
    have h2 : S = (resid Jq (Jqᵀ * Jq)⁻¹ * Jc)ᵀ * (resid Jq (Jqᵀ * Jq)⁻¹ * Jc) := h1
    rw [h2]
    have h3 := Matrix.posSemidef_conjTranspose_mul_self (resid Jq (Jqᵀ * Jq)⁻¹ * Jc)
    rw [Matrix.conjTranspose_eq_transpose_of_trivial] at h3
    exact Matrix.PosSemidef.det_nonneg h3
  · intro hd
    have i2 : Invertible (Jcᵀ * Jc - Jcᵀ * Jq * ⅟(Jqᵀ * Jq) * (Jqᵀ * Jc)) :=
      Matrix.invertibleOfIsUnitDet _ (isUnit_iff_ne_zero.mpr (by rw [← hS]; exact hd))
    have : Invertible L := Matrix.fromBlocks₂₂Invertible _ _ _ _
    have h1 := Matrix.invOf_fromBlocks₂₂_eq (Jcᵀ * Jc) (Jcᵀ * Jq) (Jqᵀ * Jc) (Jqᵀ * Jq)
    have h2 : L⁻¹ = ⅟(fromBlocks (Jcᵀ * Jc) (Jcᵀ * Jq) (Jqᵀ * Jc) (Jqᵀ * Jq)) :=
      (Matrix.invOf_eq_nonsing_inv L).symm
    rw [h2, h1, toBlocks_fromBlocks₁₁, Matrix.invOf_eq_nonsing_inv, hinv]

/-- Singular values multiply to the determinant. -/
theorem svd_det {svd : Svd} (hs : IsSvd svd) {n : Nat} (A : Matrix (Fin n) (Fin n) ℝ) :
    ∏ i, svd n A i = |A.det| := by
  obtain ⟨h0, U, V, hU, hV, hA⟩ := hs n A
  have hu : |U.det| = 1 := by
    have := congrArg Matrix.det hU
    rw [det_mul, det_transpose, det_one] at this
    rcases mul_self_eq_one_iff.mp this with h | h <;> simp [h]
  have hv : |V.det| = 1 := by
    have := congrArg Matrix.det hV
    rw [det_mul, det_transpose, det_one] at this
    rcases mul_self_eq_one_iff.mp this with h | h <;> simp [h]
  conv_rhs => rw [hA]
  rw [det_mul, det_mul, det_transpose, det_diagonal, abs_mul, abs_mul, hu, hv, one_mul, mul_one,
    abs_of_nonneg (Finset.prod_nonneg (fun i _ => h0 i))]

/-- What the logarithms of the singular values add up to. -/
theorem svd_log {svd : Svd} (hs : IsSvd svd) {n : Nat} (A : Matrix (Fin n) (Fin n) ℝ) :
    ((∃ i, svd n A i = 0) ↔ A.det = 0) ∧
    (A.det ≠ 0 → ∑ i, Real.log (svd n A i) = Real.log A.det) := by
  have h := svd_det hs A
  constructor
  · rw [← abs_eq_zero, ← h, Finset.prod_eq_zero_iff]
    simp
  · intro hd
    have hne : ∀ i ∈ Finset.univ, svd n A i ≠ 0 := by
      intro i hi h0
      apply hd
      rw [← abs_eq_zero, ← h]
      exact Finset.prod_eq_zero hi h0
    rw [← Real.log_prod hne, h, Real.log_abs]

end Yac.Info
