import Verif.Sparse.SolveSpec
import Verif.Sparse.Props
import Verif.Info.NbvAlgebra

/-!
# Lemmas about the truncated solver
-/

namespace Yac.Sparse
open Matrix
open Yac.Solver (Mat)
open Yac.Marg (block)

/-! ### Singular values of positive semidefinite matrices -/

theorem dot_self_zero {k : ℕ} {v : Fin k → ℝ} (h : v ⬝ᵥ v = 0) : v = 0 := by
  funext i
  have := (Finset.sum_eq_zero_iff_of_nonneg (fun i _ => mul_self_nonneg (v i))).mp h i (Finset.mem_univ i)
  simpa using this

theorem gram_nonneg {m k : ℕ} (M : Matrix (Fin m) (Fin k) ℝ) (v : Fin k → ℝ) : v ⬝ᵥ ((Mᵀ * M) *ᵥ v) = (M *ᵥ v) ⬝ᵥ (M *ᵥ v) := by
  rw [← mulVec_mulVec, dotProduct_mulVec, vecMul_transpose]

/-- The columns of `V` are eigenvectors. -/
theorem svd_psd {m k : ℕ} {svd : Svd3} (hs : IsSvd3 svd) (M : Matrix (Fin m) (Fin k) ℝ) (i : Fin k) :
    (Mᵀ * M) *ᵥ (fun r => (svd k (Mᵀ * M)).2.2 r i) = (svd k (Mᵀ * M)).2.1 i • (fun r => (svd k (Mᵀ * M)).2.2 r i) ∧
    (Mᵀ * M) *ᵥ (fun r => (svd k (Mᵀ * M)).1 r i) = (svd k (Mᵀ * M)).2.1 i • (fun r => (svd k (Mᵀ * M)).1 r i) := by
  obtain ⟨hU, hV, hnn, -, hA⟩ := hs k (Mᵀ * M)
  set U := (svd k (Mᵀ * M)).1
  set s := (svd k (Mᵀ * M)).2.1
  set V := (svd k (Mᵀ * M)).2.2
  set S := Mᵀ * M with hSdef
  have hsym : Sᵀ = S := by rw [hSdef, transpose_mul, transpose_transpose]
  set v : Fin k → ℝ := fun r => V r i
  set u : Fin k → ℝ := fun r => U r i
  have hv : v = V *ᵥ Pi.single i 1 := by funext r; simp [v, mulVec_single]
  have hu : u = U *ᵥ Pi.single i 1 := by funext r; simp [u, mulVec_single]
  have hd : diagonal s *ᵥ Pi.single i (1 : ℝ) = s i • Pi.single i 1 := by
    funext r
    rw [mulVec_diagonal]
    by_cases h : r = i
    · subst h; simp
    · simp [h]
  have h1 : S *ᵥ v = s i • u := by
    rw [hv, hu, hA, mulVec_mulVec, Matrix.mul_assoc, hV, Matrix.mul_one, ← mulVec_mulVec, hd, mulVec_smul]
  have h2 : S *ᵥ u = s i • v := by
    have : S = V * diagonal s * Uᵀ := by
      conv_lhs => rw [← hsym, hA]
      simp only [transpose_mul, transpose_transpose, diagonal_transpose, Matrix.mul_assoc]
    rw [hv, hu, this, mulVec_mulVec, Matrix.mul_assoc, hU, Matrix.mul_one, ← mulVec_mulVec, hd, mulVec_smul]
  by_cases h0 : s i = 0
  · rw [h1, h2, h0]; simp
  · have hpos : 0 < s i := lt_of_le_of_ne (hnn i) (Ne.symm h0)
    have h3 : S *ᵥ (u - v) = (-s i) • (u - v) := by
      rw [mulVec_sub, h1, h2, neg_smul, smul_sub, neg_sub]
    have h4 := gram_nonneg M (u - v)
    rw [← hSdef, h3, dotProduct_smul, smul_eq_mul] at h4
    have h5 : 0 ≤ (M *ᵥ (u - v)) ⬝ᵥ (M *ᵥ (u - v)) := Finset.sum_nonneg (fun i _ => mul_self_nonneg _)
    have h6 : 0 ≤ (u - v) ⬝ᵥ (u - v) := Finset.sum_nonneg (fun i _ => mul_self_nonneg _)
    have h7 : (u - v) ⬝ᵥ (u - v) = 0 := by nlinarith
    have h8 : u = v := sub_eq_zero.mp (dot_self_zero h7)
    rw [h1, h2, h8]
    exact ⟨rfl, rfl⟩

theorem svd_col_ne {k : ℕ} {V : Matrix (Fin k) (Fin k) ℝ} (h : Vᵀ * V = 1) (i : Fin k) : (fun r => V r i) ≠ 0 := by
  intro h0
  have := congrFun (congrFun h i) i
  rw [mul_apply, one_apply_eq] at this
  have hz : ∀ r, V r i = 0 := fun r => congrFun h0 r
  simp [transpose_apply, hz] at this

theorem svd_eig {m k : ℕ} {svd : Svd3} (hs : IsSvd3 svd) (M : Matrix (Fin m) (Fin k) ℝ) (i : Fin k) :
    Eig (Mᵀ * M) ((svd k (Mᵀ * M)).2.1 i) :=
  ⟨_, svd_col_ne (hs k (Mᵀ * M)).2.1 i, (svd_psd hs M i).1⟩

/-! ### The rank -/

theorem ext_lt {k : ℕ} (s : Fin k → ℝ) (i : Fin k) : ext s i.val = s i := by
  unfold ext; rw [dif_pos i.isLt]

theorem rank_spec {k : ℕ} (s : Fin k → ℝ) (tol : ℝ) (ht : 0 ≤ tol) (hs : Antitone s) (hp : ∀ i, 0 ≤ s i) :
    numRank (ext s) tol k ≤ k ∧ ∀ i : Fin k, i.val < numRank (ext s) tol k ↔ tol < s i := by
  have h := C103_rank (ext s) k tol ht (fun i j hij hj => by
    have a := ext_lt s ⟨i, by omega⟩
    have b := ext_lt s ⟨j, hj⟩
    simp only at a b
    rw [a, b]
    exact hs (by simpa using hij)) (fun i hi => by
    have a := ext_lt s ⟨i, hi⟩
    simp only at a
    rw [a]; exact hp _)
  exact ⟨h.1, fun i => by rw [h.2.1 i i.isLt, ext_lt]⟩

/-- The pseudo-inverse applied to a vector in the range. -/
theorem svd_apply {m k : ℕ} {svd : Svd3} (hs : IsSvd3 svd) (M : Matrix (Fin m) (Fin k) ℝ) (b : Fin m → ℝ)
    (rank : ℕ) (h0 : ∀ i : Fin k, ¬ i.val < rank → (svd k (Mᵀ * M)).2.1 i = 0)
    (h1 : ∀ i : Fin k, i.val < rank → (svd k (Mᵀ * M)).2.1 i ≠ 0) :
    (Mᵀ * M) *ᵥ ((svd k (Mᵀ * M)).2.2 *ᵥ (fun i => if i.val < rank then ((svd k (Mᵀ * M)).2.1 i)⁻¹ *
      ((svd k (Mᵀ * M)).1ᵀ *ᵥ (Mᵀ *ᵥ b)) i else 0)) = Mᵀ *ᵥ b := by
  have hu := fun i => (svd_psd hs M i).2
  obtain ⟨hU, hV, hnn, -, hA⟩ := hs k (Mᵀ * M)
  set U := (svd k (Mᵀ * M)).1
  set s := (svd k (Mᵀ * M)).2.1
  set V := (svd k (Mᵀ * M)).2.2
  have hz : ∀ i : Fin k, ¬ i.val < rank → (Uᵀ *ᵥ (Mᵀ *ᵥ b)) i = 0 := by
    intro i hi
    have hi0 := hu i
    rw [h0 i hi, zero_smul] at hi0
    have hq := gram_nonneg M (fun r => U r i)
    rw [hi0, dotProduct_zero] at hq
    have hm : M *ᵥ (fun r => U r i) = 0 := dot_self_zero hq.symm
    have e : (Uᵀ *ᵥ (Mᵀ *ᵥ b)) i = (fun r => U r i) ⬝ᵥ (Mᵀ *ᵥ b) := rfl
    rw [e, dotProduct_mulVec, vecMul_transpose, hm, zero_dotProduct]
  have hUU : U * Uᵀ = 1 := mul_eq_one_comm.mp hU
  have e1 : diagonal s *ᵥ (fun i : Fin k => if i.val < rank then (s i)⁻¹ * (Uᵀ *ᵥ (Mᵀ *ᵥ b)) i else 0) = Uᵀ *ᵥ (Mᵀ *ᵥ b) := by
    funext i
    rw [mulVec_diagonal]
    by_cases hi : i.val < rank
    · rw [if_pos hi, ← mul_assoc, mul_inv_cancel₀ (h1 i hi), one_mul]
    · rw [if_neg hi, mul_zero, hz i hi]
  have e2 : Mᵀ * M * V = U * diagonal s := by
    conv_lhs => rw [hA]
    rw [Matrix.mul_assoc, hV, Matrix.mul_one]
  rw [mulVec_mulVec, e2, ← mulVec_mulVec, e1, mulVec_mulVec, hUU, one_mulVec]

/-! ### Orthogonal columns -/

theorem cols_orth {m n : ℕ} {Q : Matrix (Fin m) (Fin m) ℝ} (hQ : Qᵀ * Q = 1) (h : n ≤ m) :
    (Q.submatrix id (Fin.castLE h))ᵀ * Q.submatrix id (Fin.castLE h) = 1 := by
  have := congrArg (fun X => X.submatrix (Fin.castLE h) (Fin.castLE h)) hQ
  rw [submatrix_one _ (Fin.castLE_injective h)] at this
  rw [← this]
  ext i j
  simp [mul_apply]

theorem reduced_factor {m j k : ℕ} {Q1 : Matrix (Fin m) (Fin j) ℝ} (hQ : Q1ᵀ * Q1 = 1) (As : Matrix (Fin m) (Fin k) ℝ) :
    Asᵀ * As - (Asᵀ * Q1) * (Asᵀ * Q1)ᵀ = (As - Q1 * (Q1ᵀ * As))ᵀ * (As - Q1 * (Q1ᵀ * As)) := by
  have h : Q1ᵀ * (Q1 * (Q1ᵀ * As)) = Q1ᵀ * As := by rw [← Matrix.mul_assoc, hQ, Matrix.one_mul]
  simp only [transpose_sub, transpose_mul, transpose_transpose, Matrix.sub_mul, Matrix.mul_sub, Matrix.mul_assoc, h]
  abel

theorem fromUpper_symm {n : ℕ} {M : Matrix (Fin n) (Fin n) ℝ} (h : Mᵀ = M) : fromUpper M = M := by
  ext i j
  unfold fromUpper
  split_ifs
  · rfl
  · exact congrFun (congrFun h i) j

/-- The projection onto the columns, whatever the basis. -/
theorem proj_eq {m j : ℕ} {Al Q1 : Matrix (Fin m) (Fin j) ℝ} {R : Matrix (Fin j) (Fin j) ℝ} {E : Equiv.Perm (Fin j)}
    (hQ : Q1ᵀ * Q1 = 1) (hR : R.det ≠ 0) (hA : Al.submatrix id E = Q1 * R) :
    (Alᵀ * Al).det ≠ 0 ∧ Al * (Alᵀ * Al)⁻¹ * Alᵀ = Q1 * Q1ᵀ := by
  have hu : IsUnit R.det := isUnit_iff_ne_zero.mpr hR
  have hB : Al = Q1 * (R.submatrix id E.symm) := by
    have : (Al.submatrix id E).submatrix id E.symm = Al := by
      ext a b; simp
    rw [← this, hA]
    ext a b; simp [mul_apply]
  set T := R.submatrix id E.symm with hT
  have hTd : T.det ≠ 0 := by
    rw [hT]
    have : (R.submatrix id E.symm).det = Equiv.Perm.sign E.symm * R.det := det_permute' _ _
    rw [this]
    apply mul_ne_zero _ hR
    rcases Int.units_eq_one_or (Equiv.Perm.sign E.symm) with h | h <;> rw [h] <;> simp
  have hTu : IsUnit T.det := isUnit_iff_ne_zero.mpr hTd
  have hG : Alᵀ * Al = Tᵀ * T := by
    rw [hB, transpose_mul, Matrix.mul_assoc, ← Matrix.mul_assoc Q1ᵀ, hQ, Matrix.one_mul]
  constructor
  · rw [hG, det_mul, det_transpose]; exact mul_ne_zero hTd hTd
  · rw [hG, Matrix.mul_inv_rev, ← transpose_nonsing_inv, hB, transpose_mul]
    have h1 : T * T⁻¹ = 1 := mul_nonsing_inv T hTu
    have h2 : (T⁻¹)ᵀ * Tᵀ = 1 := by rw [← transpose_mul, h1, transpose_one]
    calc Q1 * T * (T⁻¹ * (T⁻¹)ᵀ) * (Tᵀ * Q1ᵀ) = Q1 * (T * T⁻¹) * ((T⁻¹)ᵀ * Tᵀ) * Q1ᵀ := by simp only [Matrix.mul_assoc]
      _ = Q1 * Q1ᵀ := by rw [h1, h2, Matrix.mul_one, Matrix.mul_one]

end Yac.Sparse
