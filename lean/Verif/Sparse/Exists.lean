import Verif.Sparse.SolveCore
import Mathlib.Analysis.Matrix.Spectrum

/-!
# The contracts of the libraries can be met
-/

namespace Yac.Sparse
open Matrix

/-- The inner product of Euclidean space. -/
theorem inner_dot {m : ℕ} (x y : EuclideanSpace ℝ (Fin m)) : inner ℝ x y = (fun r => x r) ⬝ᵥ (fun r => y r) := by
  simp [PiLp.inner_apply, dotProduct, mul_comm]

/-- Orthonormal vectors are columns of an orthogonal matrix. -/
theorem extend {m : ℕ} (w : Fin m → Fin m → ℝ) (S : Set (Fin m))
    (h : ∀ i ∈ S, ∀ j ∈ S, w i ⬝ᵥ w j = if i = j then 1 else 0) :
    ∃ Q : Matrix (Fin m) (Fin m) ℝ, Qᵀ * Q = 1 ∧ ∀ i ∈ S, ∀ r, Q r i = w i r := by
  have hv : Orthonormal ℝ (S.domRestrict (fun i => (WithLp.toLp 2 (w i) : EuclideanSpace ℝ (Fin m)))) := by
    rw [orthonormal_iff_ite]
    intro i j
    rw [inner_dot]
    have := h i i.2 j j.2
    simp only [Subtype.ext_iff]
    exact this
  obtain ⟨b, hb⟩ := hv.exists_orthonormalBasis_extension_of_card_eq (by simp)
  refine ⟨Matrix.of (fun r i => b i r), ?_, fun i hi r => ?_⟩
  · ext i j
    have := (orthonormal_iff_ite.mp b.orthonormal) i j
    rw [inner_dot] at this
    rw [mul_apply, one_apply, ← this]
    rfl
  · show b i r = _
    rw [hb i hi]

/-- Right singular vectors and singular values. -/
theorem right_vectors {m n : ℕ} (A : Matrix (Fin m) (Fin n) ℝ) :
    ∃ (V : Matrix (Fin n) (Fin n) ℝ) (s : Fin n → ℝ), Vᵀ * V = 1 ∧ (∀ i, 0 ≤ s i) ∧ Antitone s ∧
      (A * V)ᵀ * (A * V) = diagonal (fun i => s i ^ 2) := by
  have hH : (Aᵀ * A).IsHermitian := by
    show (Aᵀ * A)ᴴ = _
    rw [conjTranspose_eq_transpose_of_trivial, transpose_mul, transpose_transpose]
  have hT := isSymmetric_toEuclideanLin_iff.mpr hH
  have hn : Module.finrank ℝ (EuclideanSpace ℝ (Fin n)) = n := finrank_euclideanSpace_fin
  set e := hT.eigenvectorBasis hn
  set lam := hT.eigenvalues hn
  have hap : ∀ i, (Aᵀ * A) *ᵥ (fun r => e i r) = lam i • (fun r => e i r) := by
    intro i
    have := congrArg (fun x : EuclideanSpace ℝ (Fin n) => fun r => x r) (hT.apply_eigenvectorBasis hn i)
    rw [toLpLin_apply] at this
    exact this
  set V : Matrix (Fin n) (Fin n) ℝ := fun r i => e i r with hVd
  have hV : Vᵀ * V = 1 := by
    ext i j
    have := (orthonormal_iff_ite.mp e.orthonormal) i j
    rw [inner_dot] at this
    rw [mul_apply, one_apply, ← this]
    rfl
  have hAV : Aᵀ * A * V = V * diagonal lam := by
    ext r i
    have := congrFun (hap i) r
    rw [mul_diagonal]
    simp only [Pi.smul_apply, smul_eq_mul] at this
    rw [mul_comm]
    exact this
  have hG : (A * V)ᵀ * (A * V) = diagonal lam := by
    rw [transpose_mul, Matrix.mul_assoc, ← Matrix.mul_assoc Aᵀ, hAV, ← Matrix.mul_assoc, hV, Matrix.one_mul]
  have hl : ∀ i, 0 ≤ lam i := by
    intro i
    have := congrFun (congrFun hG i) i
    rw [diagonal_apply_eq, mul_apply] at this
    rw [← this]
    exact Finset.sum_nonneg (fun r _ => mul_self_nonneg _)
  refine ⟨V, fun i => Real.sqrt (lam i), hV, fun i => Real.sqrt_nonneg _,
    fun i j hij => Real.sqrt_le_sqrt (hT.eigenvalues_antitone hn hij), ?_⟩
  rw [hG]
  congr 1
  funext i
  rw [Real.sq_sqrt (hl i)]

/-- The contract of the singular value decomposition can be met. -/
theorem svd3_exists : ∃ svd, IsSvd3 svd := by
  classical
  have : ∀ (n : ℕ) (A : Matrix (Fin n) (Fin n) ℝ), ∃ d : Matrix (Fin n) (Fin n) ℝ × (Fin n → ℝ) × Matrix (Fin n) (Fin n) ℝ,
      d.1ᵀ * d.1 = 1 ∧ d.2.2ᵀ * d.2.2 = 1 ∧ (∀ i, 0 ≤ d.2.1 i) ∧ Antitone d.2.1 ∧ A = d.1 * diagonal d.2.1 * d.2.2ᵀ := by
    intro n A
    obtain ⟨V, s, hV, hs, han, hG⟩ := right_vectors A
    have hd : ∀ i j, (fun r => (A * V) r i) ⬝ᵥ (fun r => (A * V) r j) = if i = j then s i ^ 2 else 0 := by
      intro i j
      have := congrFun (congrFun hG i) j
      rw [mul_apply, diagonal_apply] at this
      exact this
    obtain ⟨U, hU, hUe⟩ := extend (fun i r => (s i)⁻¹ * (A * V) r i) {i | s i ≠ 0} (by
      intro i hi j hj
      have : (fun r => (s i)⁻¹ * (A * V) r i) ⬝ᵥ (fun r => (s j)⁻¹ * (A * V) r j) =
          (s i)⁻¹ * (s j)⁻¹ * ((fun r => (A * V) r i) ⬝ᵥ (fun r => (A * V) r j)) := by
        simp only [dotProduct, Finset.mul_sum]
        exact Finset.sum_congr rfl (fun r _ => by ring)
      rw [this, hd]
      by_cases hij : i = j
      · subst hij
        have : s i ≠ 0 := hi
        rw [if_pos rfl, if_pos rfl]; field_simp
      · rw [if_neg hij, if_neg hij, mul_zero])
    have hAV : A * V = U * diagonal s := by
      ext r i
      rw [mul_diagonal]
      by_cases hi : s i = 0
      · have := hd i i
        rw [if_pos rfl, hi, zero_pow two_ne_zero] at this
        have := congrFun (dot_self_zero this) r
        rw [hi, mul_zero]; exact this
      · rw [hUe i hi r]; field_simp
    refine ⟨(U, s, V), hU, hV, hs, han, ?_⟩
    have hVV : V * Vᵀ = 1 := mul_eq_one_comm.mp hV
    rw [← hAV, Matrix.mul_assoc, hVV, Matrix.mul_one]
  choose d hd using this
  exact ⟨d, hd⟩

/-- The contract of the QR factorisation can be met. -/
theorem spqr_exists : ∃ qr, IsSpqr qr := by
  classical
  have : ∀ (tol : ℝ) (m n : ℕ) (A : Matrix (Fin m) (Fin n) ℝ), ∃ f : Factor m n, 0 ≤ tol → Independent tol A →
      f.Qᵀ * f.Q = 1 ∧ f.R.det ≠ 0 ∧ ∃ h : n ≤ m, A.submatrix id f.E = f.Q.submatrix id (Fin.castLE h) * f.R := by
    intro tol m n A
    by_cases hi : 0 ≤ tol ∧ Independent tol A
    swap
    · exact ⟨⟨0, 0, 1⟩, fun h1 h2 => absurd ⟨h1, h2⟩ hi⟩
    obtain ⟨ht, hi⟩ := hi
    have hinj : ∀ v : Fin n → ℝ, A *ᵥ v = 0 → v = 0 := by
      intro v hv
      by_contra hne
      obtain ⟨c, hc⟩ := Function.ne_iff.mp hne
      have h := hi c ((v c)⁻¹ • v) (by simpa using inv_mul_cancel₀ hc)
      rw [mulVec_smul, hv] at h
      simp [norm2] at h
      linarith
    have hle : n ≤ m := by
      have := LinearMap.finrank_le_finrank_of_injective (f := A.mulVecLin)
        ((injective_iff_map_eq_zero _).mpr (fun v hv => hinj v (by simpa using hv)))
      simpa using this
    obtain ⟨V, s, hV, hs, han, hG⟩ := right_vectors A
    have hd : ∀ i j, (fun r => (A * V) r i) ⬝ᵥ (fun r => (A * V) r j) = if i = j then s i ^ 2 else 0 := by
      intro i j
      have := congrFun (congrFun hG i) j
      rw [mul_apply, diagonal_apply] at this
      exact this
    have hne : ∀ i, s i ≠ 0 := by
      intro i h0
      have := hd i i
      rw [if_pos rfl, h0, zero_pow two_ne_zero] at this
      have h1 : A *ᵥ (fun r => V r i) = 0 := dot_self_zero this
      exact svd_col_ne hV i (hinj _ h1)
    obtain ⟨Q, hQ, hQe⟩ := extend (fun i r => if h : i.val < n then (s ⟨i, h⟩)⁻¹ * (A * V) r ⟨i, h⟩ else 0) {i | i.val < n} (by
      intro i hi j hj
      have hi' : i.val < n := hi
      have hj' : j.val < n := hj
      simp only [dif_pos hi', dif_pos hj']
      have : (fun r => (s ⟨i, hi'⟩)⁻¹ * (A * V) r ⟨i, hi'⟩) ⬝ᵥ (fun r => (s ⟨j, hj'⟩)⁻¹ * (A * V) r ⟨j, hj'⟩) =
          (s ⟨i, hi'⟩)⁻¹ * (s ⟨j, hj'⟩)⁻¹ * ((fun r => (A * V) r ⟨i, hi'⟩) ⬝ᵥ (fun r => (A * V) r ⟨j, hj'⟩)) := by
        simp only [dotProduct, Finset.mul_sum]
        exact Finset.sum_congr rfl (fun r _ => by ring)
      rw [this, hd]
      by_cases hij : i = j
      · subst hij
        have := hne ⟨i, hi'⟩
        rw [if_pos rfl, if_pos rfl]; field_simp
      · rw [if_neg hij, if_neg (by simpa [Fin.ext_iff] using hij), mul_zero])
    refine ⟨⟨Q, diagonal s * Vᵀ, 1⟩, fun _ _ => ⟨hQ, ?_, hle, ?_⟩⟩
    · rw [det_mul, det_diagonal, det_transpose]
      apply mul_ne_zero (Finset.prod_ne_zero_iff.mpr (fun i _ => hne i))
      intro h0
      have := congrArg det hV
      rw [det_mul, det_transpose, h0, det_one] at this
      norm_num at this
    · have hAV : A * V = Q.submatrix id (Fin.castLE hle) * diagonal s := by
        ext r i
        rw [mul_diagonal, submatrix_apply, hQe _ (show (Fin.castLE hle i).val < n from i.isLt)]
        have hlt : (Fin.castLE hle i).val < n := i.isLt
        simp only [id, dif_pos hlt]
        have e : (⟨(Fin.castLE hle i).val, hlt⟩ : Fin n) = i := rfl
        rw [e]
        have := hne i
        field_simp
      have hVV : V * Vᵀ = 1 := mul_eq_one_comm.mp hV
      show A.submatrix id id = _
      rw [submatrix_id_id, ← Matrix.mul_assoc, ← hAV, Matrix.mul_assoc, hVV, Matrix.mul_one]
  choose f hf using this
  exact ⟨f, fun tol m n A h1 h2 => hf tol m n A h1 h2⟩

end Yac.Sparse
