import Verif.Dense.Lemmas

/-! C110: pseudo-inverse, dense solve, rank. -/

namespace Yac.Dense
open Matrix

open Classical in
theorem pinv_eq (svd : Svd) {m n : ℕ} (A : Matrix (Fin m) (Fin n) ℝ) (tol : ℝ) :
    pinv svd A tol = (svd m n A).2.2 * rectDiag n m (fun i => if (svd m n A).2.1 i > tol then
      1 / (svd m n A).2.1 i else 0) * (svd m n A).1ᵀ := by
  unfold pinv
  simp only []
  rw [valsInv_eq]

/-- When no singular value of the matrix lies above zero and at or below the tolerance, `pinv` is the
pseudo-inverse, and the only matrix that is; of an invertible matrix it is the inverse. -/
theorem C110_pinv_partial {svd : Svd} (hs : IsSvd svd) {m n : ℕ} (A : Matrix (Fin m) (Fin n) ℝ) {tol : ℝ} (ht : 0 ≤ tol)
    (hA : ∀ σ, IsSing A σ → σ = 0 ∨ tol < σ) :
    IsPinv A (pinv svd A tol) ∧ (∀ P, IsPinv A P → P = pinv svd A tol) := by
  classical
  obtain ⟨hU, hV, h0, han, he⟩ := hs m n A
  have h : IsPinv A (pinv svd A tol) := by
    rw [pinv_eq]
    have hc : ∀ i, i < min m n → (svd m n A).2.1 i = 0 ∨ tol < (svd m n A).2.1 i :=
      fun i hi => hA _ (isSing_of_svd hU hV h0 he hi)
    have := pinv_of_svd (a := (svd m n A).2.1)
      (b := fun i => if (svd m n A).2.1 i > tol then 1 / (svd m n A).2.1 i else 0) hU hV
      (by
        intro i hi
        rcases hc i hi with q | q
        · rw [q]; simp
        · rw [if_pos q]
          have : (svd m n A).2.1 i ≠ 0 := (lt_of_le_of_lt ht q).ne'
          field_simp)
      (by
        intro i hi
        rcases hc i hi with q | q
        · rw [q]; simp
        · rw [if_pos q]
          have : (svd m n A).2.1 i ≠ 0 := (lt_of_le_of_lt ht q).ne'
          field_simp)
    rw [← he] at this
    exact this
  exact ⟨h, fun P hP => pinv_unique hP h⟩

/-- Of an invertible matrix whose singular values are above the tolerance, `pinv` is the inverse. -/
theorem C110_inverse_partial {svd : Svd} (hs : IsSvd svd) {n : ℕ} (A : Matrix (Fin n) (Fin n) ℝ) {tol : ℝ} (ht : 0 ≤ tol)
    (hA : ∀ σ, IsSing A σ → tol < σ) : A * pinv svd A tol = 1 ∧ pinv svd A tol * A = 1 := by
  have h := (C110_pinv_partial hs A ht (fun σ hσ => .inr (hA σ hσ))).1
  have hinj : ∀ v : Fin n → ℝ, A *ᵥ v = 0 → v = 0 := by
    intro v hv
    by_contra hne
    have : IsSing A 0 := ⟨le_rfl, v, hne, by rw [← mulVec_mulVec, hv]; simp⟩
    exact absurd (hA 0 this) (not_lt.2 ht)
  have hL : pinv svd A tol * A = 1 := by
    have hk : A * (pinv svd A tol * A - 1) = 0 := by
      rw [Matrix.mul_sub, ← Matrix.mul_assoc, h.1, Matrix.mul_one, sub_self]
    have : pinv svd A tol * A - 1 = 0 := by
      ext i j
      have := hinj ((pinv svd A tol * A - 1) *ᵥ Pi.single j 1) (by rw [mulVec_mulVec, hk, zero_mulVec])
      have := congrFun this i
      rw [mulVec_single_one] at this
      exact this
    exact sub_eq_zero.1 this
  exact ⟨mul_eq_one_comm.1 hL, hL⟩

/-- For every matrix and tolerance `pinv` is the pseudo-inverse of a matrix that differs from the given
one by at most the tolerance (in the operator norm). -/
theorem C110_truncated {svd : Svd} (hs : IsSvd svd) {m n : ℕ} (A : Matrix (Fin m) (Fin n) ℝ) {tol : ℝ} (ht : 0 ≤ tol) :
    ∃ B : Matrix (Fin m) (Fin n) ℝ, IsPinv B (pinv svd A tol) ∧
      ∀ x : Fin n → ℝ, ((A - B) *ᵥ x) ⬝ᵥ ((A - B) *ᵥ x) ≤ tol ^ 2 * (x ⬝ᵥ x) := by
  classical
  obtain ⟨hU, hV, h0, han, he⟩ := hs m n A
  obtain ⟨s, hsd⟩ : ∃ s, s = (svd m n A).2.1 := ⟨_, rfl⟩
  refine ⟨(svd m n A).1 * rectDiag m n (fun i => if s i > tol then s i else 0) * (svd m n A).2.2ᵀ, ?_, ?_⟩
  · rw [pinv_eq]
    apply pinv_of_svd hU hV
    · intro i _
      rw [← hsd]
      by_cases q : s i > tol
      · have : s i ≠ 0 := (lt_of_le_of_lt ht q).ne'
        simp only [if_pos q]
        field_simp
      · simp [if_neg q]
    · intro i _
      rw [← hsd]
      by_cases q : s i > tol
      · have : s i ≠ 0 := (lt_of_le_of_lt ht q).ne'
        simp only [if_pos q]
        field_simp
      · simp [if_neg q]
  · intro x
    have hd : A - (svd m n A).1 * rectDiag m n (fun i => if s i > tol then s i else 0) * (svd m n A).2.2ᵀ =
        (svd m n A).1 * (rectDiag m n (fun i => if s i > tol then 0 else s i) * (svd m n A).2.2ᵀ) := by
      conv_lhs => lhs; rw [he]
      rw [← hsd, ← Matrix.sub_mul, ← Matrix.mul_sub, Matrix.mul_assoc]
      congr 2
      ext i j
      simp only [Matrix.sub_apply, rectDiag]
      by_cases hij : i.val = j.val
      · simp only [if_pos hij]
        by_cases q : s i.val > tol <;> simp [q]
      · simp [hij]
    have hiso : ∀ {k : ℕ} {Q : Matrix (Fin k) (Fin k) ℝ}, Qᵀ * Q = 1 → ∀ y : Fin k → ℝ, (Q *ᵥ y) ⬝ᵥ (Q *ᵥ y) = y ⬝ᵥ y := by
      intro k Q hQ y
      rw [dotProduct_mulVec, ← mulVec_transpose, mulVec_mulVec, hQ, one_mulVec]
    rw [hd, ← mulVec_mulVec, hiso hU, ← mulVec_mulVec]
    have hVt : (svd m n A).2.2ᵀᵀ * (svd m n A).2.2ᵀ = 1 := by
      rw [transpose_transpose]
      exact mul_eq_one_comm.1 hV
    rw [← hiso hVt x]
    generalize (svd m n A).2.2ᵀ *ᵥ x = y
    have hy : ∀ i : Fin m, (rectDiag m n (fun i => if s i > tol then 0 else s i) *ᵥ y) i =
        if h : i.val < n then (if s i > tol then 0 else s i) * y ⟨i, h⟩ else 0 := by
      intro i
      rw [mulVec, dotProduct]
      by_cases hi : i.val < n
      · rw [dif_pos hi, Finset.sum_eq_single ⟨i, hi⟩]
        · rw [rectDiag, if_pos rfl]
        · intro j _ hj
          rw [rectDiag, if_neg (fun q => hj (Fin.ext q.symm)), zero_mul]
        · intro h; exact absurd (Finset.mem_univ _) h
      · rw [dif_neg hi]
        apply Finset.sum_eq_zero
        intro j _
        rw [rectDiag, if_neg (fun q => hi (by have := j.isLt; omega)), zero_mul]
    have hle : ∀ i : Fin m, (rectDiag m n (fun i => if s i > tol then 0 else s i) *ᵥ y) i *
        (rectDiag m n (fun i => if s i > tol then 0 else s i) *ᵥ y) i ≤
        if h : i.val < n then tol ^ 2 * (y ⟨i, h⟩ * y ⟨i, h⟩) else 0 := by
      intro i
      rw [hy]
      by_cases hi : i.val < n
      · rw [dif_pos hi, dif_pos hi]
        have hsi : 0 ≤ s i := by rw [hsd]; exact h0 _
        by_cases q : s i > tol
        · rw [if_pos q]
          nlinarith [mul_nonneg (sq_nonneg tol) (mul_self_nonneg (y ⟨i, hi⟩))]
        · rw [if_neg q]
          have : s i * s i ≤ tol ^ 2 := by nlinarith [not_lt.1 q]
          nlinarith [mul_le_mul_of_nonneg_right this (mul_self_nonneg (y ⟨i, hi⟩))]
      · rw [dif_neg hi, dif_neg hi, mul_zero]
    calc _ ≤ ∑ i : Fin m, (if h : i.val < n then tol ^ 2 * (y ⟨i, h⟩ * y ⟨i, h⟩) else 0) :=
          Finset.sum_le_sum (fun i _ => hle i)
      _ ≤ ∑ j : Fin n, tol ^ 2 * (y j * y j) := by
        have hf : ∀ j : Fin n, 0 ≤ tol ^ 2 * (y j * y j) := fun j => mul_nonneg (sq_nonneg _) (mul_self_nonneg _)
        obtain ⟨f, hfd⟩ : ∃ f : ℕ → ℝ, f = fun i => if h : i < n then tol ^ 2 * (y ⟨i, h⟩ * y ⟨i, h⟩) else 0 := ⟨_, rfl⟩
        have hf0 : ∀ i, 0 ≤ f i := by
          intro i
          rw [hfd]
          by_cases h : i < n
          · simp only [h, dif_pos]; exact hf _
          · simp [h]
        have e1 : ∑ i : Fin m, (if h : i.val < n then tol ^ 2 * (y ⟨i, h⟩ * y ⟨i, h⟩) else 0) = ∑ i ∈ Finset.range m, f i := by
          rw [Finset.sum_range]
          simp only [hfd]
        have e2 : ∑ j : Fin n, tol ^ 2 * (y j * y j) = ∑ i ∈ Finset.range n, f i := by
          rw [Finset.sum_range]
          refine Finset.sum_congr rfl (fun j _ => ?_)
          simp [hfd]
        rw [e1, e2]
        rcases Nat.le_total m n with h | h
        · exact Finset.sum_le_sum_of_subset_of_nonneg (Finset.range_mono h) (fun i _ _ => hf0 i)
        · rw [← Finset.sum_subset (Finset.range_mono h)]
          intro i _ hi
          rw [hfd]
          simp only [Finset.mem_range] at hi
          simp [hi]
      _ = tol ^ 2 * (y ⬝ᵥ y) := by rw [dotProduct, Finset.mul_sum]

/-- With a positive tolerance `pinv` is not always the pseudo-inverse: `tol` times the identity is
invertible, and `pinv` returns zero. -/
theorem C110_pinv_refuted {svd : Svd} (hs : IsSvd svd) {tol : ℝ} (ht : 0 < tol) (n : ℕ) (hn : 0 < n) :
    pinv svd (tol • (1 : Matrix (Fin n) (Fin n) ℝ)) tol = 0 ∧
    (tol • (1 : Matrix (Fin n) (Fin n) ℝ)) * (tol⁻¹ • 1) = 1 ∧
    ¬ IsPinv (tol • (1 : Matrix (Fin n) (Fin n) ℝ)) (pinv svd (tol • 1) tol) := by
  classical
  have hz : pinv svd (tol • (1 : Matrix (Fin n) (Fin n) ℝ)) tol = 0 := by
    obtain ⟨hU, hV, h0, han, he⟩ := hs n n (tol • (1 : Matrix (Fin n) (Fin n) ℝ))
    have hv : ∀ i, i < min n n → (svd n n (tol • 1)).2.1 i = tol := by
      intro i hi
      obtain ⟨hp, v, hv, hve⟩ := isSing_of_svd hU hV h0 he hi
      rw [transpose_smul, transpose_one, smul_mul_smul_comm, Matrix.one_mul, smul_mulVec, one_mulVec] at hve
      obtain ⟨c, hc⟩ := Function.ne_iff.mp hv
      have := congrFun hve c
      simp only [Pi.smul_apply, smul_eq_mul] at this
      have hsq : tol * tol = (svd n n (tol • 1)).2.1 i ^ 2 := mul_right_cancel₀ hc this
      nlinarith
    rw [pinv_eq]
    have : rectDiag n n (fun i => if (svd n n (tol • 1)).2.1 i > tol then 1 / (svd n n (tol • 1)).2.1 i else 0) =
        (0 : Matrix (Fin n) (Fin n) ℝ) := by
      rw [rectDiag_congr (b := fun _ => 0) (fun i hi => by rw [hv i hi]; simp)]
      ext i j
      simp [rectDiag]
    rw [this]
    simp
  refine ⟨hz, by rw [smul_mul_smul_comm, mul_inv_cancel₀ ht.ne', Matrix.one_mul, one_smul], ?_⟩
  rw [hz]
  rintro ⟨h1, -⟩
  rw [Matrix.mul_zero, Matrix.zero_mul] at h1
  have := congrFun (congrFun h1 ⟨0, hn⟩) ⟨0, hn⟩
  simp at this
  exact ht.ne this

/-- `linsolve_dense_svd` never fails.  When every nonzero singular value reaches the threshold, its result is the
least-squares solution of least length: no vector leaves a smaller residual, and every other vector that
leaves the same residual is longer. -/
theorem C110_solve_partial {svd : Svd} (hs : IsSvd svd) {thr : ℕ → ℕ → (ℕ → ℝ) → ℝ} {rk : ℕ → ℕ → (ℕ → ℝ) → ℕ}
    (hr : IsRank thr rk) {m n : ℕ} (A : Matrix (Fin m) (Fin n) ℝ) (b : Fin m → ℝ) :
    ∃ x, linsolveSvd svd rk A b = .ok x ∧
      ((∀ σ, IsSing A σ → σ = 0 ∨ thr m n (svd m n A).2.1 ≤ σ) → ∀ y : Fin n → ℝ,
        (A *ᵥ x - b) ⬝ᵥ (A *ᵥ x - b) ≤ (A *ᵥ y - b) ⬝ᵥ (A *ᵥ y - b) ∧
        ((A *ᵥ y - b) ⬝ᵥ (A *ᵥ y - b) = (A *ᵥ x - b) ⬝ᵥ (A *ᵥ x - b) → y ≠ x → x ⬝ᵥ x < y ⬝ᵥ y)) := by
  classical
  obtain ⟨hU, hV, h0, han, he⟩ := hs m n A
  obtain ⟨hthr, hle, hrk⟩ := hr m n (svd m n A).2.1
  have hle' : rk m n (svd m n A).2.1 ≤ n ∧ rk m n (svd m n A).2.1 ≤ m := by omega
  unfold linsolveSvd
  simp only []
  rw [dif_pos hle']
  refine ⟨_, rfl, ?_⟩
  intro hA
  have hP : (svd m n A).2.2.submatrix id (Fin.castLE hle'.1) *
      diagonal (fun i : Fin (rk m n (svd m n A).2.1) => ((svd m n A).2.1 i.val)⁻¹) *
      ((svd m n A).1.submatrix id (Fin.castLE hle'.2))ᵀ =
      (svd m n A).2.2 * rectDiag n m (fun i => if i < rk m n (svd m n A).2.1 then ((svd m n A).2.1 i)⁻¹ else 0) *
        (svd m n A).1ᵀ := by
    generalize rk m n (svd m n A).2.1 = r at *
    generalize (svd m n A).2.1 = s at *
    generalize (svd m n A).2.2 = V at *
    generalize (svd m n A).1 = U at *
    ext i j
    have e1 : (V.submatrix id (Fin.castLE hle'.1) * diagonal (fun i : Fin r => (s i.val)⁻¹) *
        (U.submatrix id (Fin.castLE hle'.2))ᵀ) i j = ∑ k : Fin r, V i (Fin.castLE hle'.1 k) * (s k.val)⁻¹ * U j (Fin.castLE hle'.2 k) := by
      rw [mul_apply]
      refine Finset.sum_congr rfl (fun k _ => ?_)
      rw [mul_diagonal]
      rfl
    obtain ⟨f, hf⟩ : ∃ f : ℕ → ℝ, f = fun k => if h : k < r then
      V i (Fin.castLE hle'.1 ⟨k, h⟩) * (s k)⁻¹ * U j (Fin.castLE hle'.2 ⟨k, h⟩) else 0 := ⟨_, rfl⟩
    have e2 : (V * rectDiag n m (fun i => if i < r then (s i)⁻¹ else 0) * Uᵀ) i j = ∑ k : Fin m, f k.val := by
      rw [mul_apply]
      refine Finset.sum_congr rfl (fun k _ => ?_)
      rw [mul_apply]
      by_cases hk : k.val < r
      · rw [Finset.sum_eq_single ⟨k.val, by omega⟩]
        · rw [rectDiag, if_pos rfl, if_pos hk, hf]
          simp only [hk, dif_pos]
          rfl
        · intro l _ hl
          rw [rectDiag, if_neg (fun q => hl (Fin.ext q)), mul_zero]
        · intro h; exact absurd (Finset.mem_univ _) h
      · have : ∀ l : Fin n, V i l * rectDiag n m (fun i => if i < r then (s i)⁻¹ else 0) l k = 0 := by
          intro l
          rw [rectDiag]
          by_cases hl : l.val = k.val
          · rw [if_pos hl, if_neg (by omega), mul_zero]
          · rw [if_neg hl, mul_zero]
        rw [Finset.sum_eq_zero (fun l _ => this l), zero_mul, hf]
        simp [hk]
    rw [e1, e2, ← Finset.sum_range (f := f)]
    have e3 : ∑ k : Fin r, V i (Fin.castLE hle'.1 k) * (s k.val)⁻¹ * U j (Fin.castLE hle'.2 k) = ∑ k ∈ Finset.range r, f k := by
      rw [Finset.sum_range]
      refine Finset.sum_congr rfl (fun k _ => ?_)
      rw [hf]
      simp only [k.isLt, dif_pos]
    rw [e3]
    apply Finset.sum_subset (Finset.range_mono hle'.2)
    intro k _ hk
    simp only [Finset.mem_range] at hk
    simp [hf, hk]
  have hpin : IsPinv A ((svd m n A).2.2 * rectDiag n m (fun i => if i < rk m n (svd m n A).2.1 then ((svd m n A).2.1 i)⁻¹ else 0) *
      (svd m n A).1ᵀ) := by
    have hc : ∀ i, i < min m n → (svd m n A).2.1 i = 0 ∧ ¬ i < rk m n (svd m n A).2.1 ∨
        (svd m n A).2.1 i ≠ 0 ∧ i < rk m n (svd m n A).2.1 := by
      intro i hi
      rcases hA _ (isSing_of_svd hU hV h0 he hi) with q | q
      · left
        exact ⟨q, fun h => absurd ((hrk han i hi).1 h) (by rw [q]; exact not_le.2 hthr)⟩
      · right
        exact ⟨(lt_of_lt_of_le hthr q).ne', (hrk han i hi).2 q⟩
    have := pinv_of_svd (a := (svd m n A).2.1)
      (b := fun i => if i < rk m n (svd m n A).2.1 then ((svd m n A).2.1 i)⁻¹ else 0) hU hV
      (by
        intro i hi
        rcases hc i hi with ⟨q, q'⟩ | ⟨q, q'⟩
        · rw [if_neg q', q]; simp
        · rw [if_pos q']; field_simp)
      (by
        intro i hi
        rcases hc i hi with ⟨q, q'⟩ | ⟨q, q'⟩
        · rw [if_neg q', q]; simp
        · rw [if_pos q']; field_simp)
    rw [← he] at this
    exact this
  rw [hP]
  exact fun y => pinv_least hpin b y

/-- `full_rank` holds of the invertible matrices only, whatever the shape. -/
theorem C110_full_rank {m n : ℕ} (A : Matrix (Fin m) (Fin n) ℝ) :
    fullRank A = true ↔ m = n ∧ ∃ B : Matrix (Fin n) (Fin m) ℝ, A * B = 1 ∧ B * A = 1 := by
  classical
  have e : fullRank A = true ↔ A.rank = m ∧ A.rank = n := by
    unfold fullRank rank
    by_cases h1 : A.rank = m <;> by_cases h2 : A.rank = n <;> simp [h1, h2]
  rw [e]
  constructor
  · rintro ⟨h1, h2⟩
    have hmn : m = n := by omega
    subst hmn
    refine ⟨rfl, ?_⟩
    have hu : IsUnit A := by
      have hli := Matrix.rank_eq_finrank_span_cols A
      have h3 : LinearIndependent ℝ A.col := by
        rw [linearIndependent_iff_card_eq_finrank_span, Fintype.card_fin]
        rw [Set.finrank, ← hli, h1]
      exact Matrix.linearIndependent_cols_iff_isUnit.1 h3
    obtain ⟨u, hu⟩ := hu
    exact ⟨(u⁻¹ : (Matrix (Fin m) (Fin m) ℝ)ˣ).val, by rw [← hu]; simp, by rw [← hu]; simp⟩
  · rintro ⟨hmn, B, h1, h2⟩
    subst hmn
    have hu : IsUnit A := ⟨⟨A, B, h1, h2⟩, rfl⟩
    have := Matrix.rank_of_isUnit A hu
    simp at this
    exact ⟨this, this⟩

/-! Witnesses -/

example : ∃ svd, IsSvd svd := svd_exists

/-- The singular values of `diag(2, 0)` are 2 and 0. -/
theorem sing_example (σ : ℝ) (h : IsSing !![(2 : ℝ), 0; 0, 0] σ) : σ = 0 ∨ σ = 2 := by
  obtain ⟨h0, v, hv, he⟩ := h
  have e0 := congrFun he 0
  have e1 := congrFun he 1
  simp [mulVec, dotProduct, Fin.sum_univ_two, Matrix.mul_apply] at e0 e1
  rcases e1 with q | q
  · left; exact q
  · have hv0 : v 0 ≠ 0 := by
      intro h
      apply hv
      ext i
      fin_cases i <;> simp [h, q]
    have : σ ^ 2 = 2 * 2 := (e0.resolve_right hv0).symm
    right
    nlinarith

example : ∀ σ, IsSing !![(2 : ℝ), 0; 0, 0] σ → σ = 0 ∨ (1 / 10000 : ℝ) < σ := by
  intro σ h
  rcases sing_example σ h with q | q
  · exact .inl q
  · right; rw [q]; norm_num

example : ∀ σ, IsSing !![(2 : ℝ)] σ → (1 / 10000 : ℝ) < σ := by
  rintro σ ⟨h0, v, hv, he⟩
  have e0 := congrFun he 0
  simp [mulVec, dotProduct, Matrix.mul_apply] at e0
  have hv0 : v 0 ≠ 0 := by
    intro h
    apply hv
    ext i
    fin_cases i
    simp [h]
  have : σ ^ 2 = 2 * 2 := (e0.resolve_right hv0).symm
  nlinarith

open Classical in
/-- A rank that meets the contract. -/
theorem rank_exists : ∃ thr rk, IsRank thr rk := by
  refine ⟨fun _ _ _ => 1, fun m n s => ((Finset.range (min m n)).filter (fun i => ∀ j ≤ i, 1 ≤ s j)).card, ?_⟩
  intro m n s
  have hcard : ∀ k, (∀ i, i < min m n → ((∀ j ≤ i, 1 ≤ s j) ↔ i < k)) → k ≤ min m n →
      ((Finset.range (min m n)).filter (fun i => ∀ j ≤ i, 1 ≤ s j)).card = k := by
    intro k hk hkm
    have : (Finset.range (min m n)).filter (fun i => ∀ j ≤ i, 1 ≤ s j) = Finset.range k := by
      ext i
      simp only [Finset.mem_filter, Finset.mem_range]
      constructor
      · rintro ⟨h1, h2⟩; exact (hk i h1).1 h2
      · intro h; exact ⟨by omega, (hk i (by omega)).2 h⟩
    rw [this, Finset.card_range]
  refine ⟨one_pos, (Finset.card_filter_le _ _).trans (by simp), ?_⟩
  intro han i hi
  obtain ⟨k, hk, hkm⟩ : ∃ k, (∀ i, i < min m n → ((∀ j ≤ i, 1 ≤ s j) ↔ i < k)) ∧ k ≤ min m n := by
    generalize min m n = N
    clear hi hcard
    induction N with
    | zero => exact ⟨0, fun i hi => by omega, le_rfl⟩
    | succ N ih =>
      obtain ⟨k, hk, hkN⟩ := ih
      by_cases hN : ∀ j ≤ N, 1 ≤ s j
      · refine ⟨N + 1, fun i hi => ⟨fun _ => hi, fun _ j hj => hN j (by omega)⟩, le_rfl⟩
      · refine ⟨k, fun i hi => ?_, by omega⟩
        rcases Nat.lt_or_ge i N with h | h
        · exact hk i h
        · have : i = N := by omega
          subst this
          exact ⟨fun h => absurd h hN, fun h => by omega⟩
  show i < ((Finset.range (min m n)).filter (fun i => ∀ j ≤ i, 1 ≤ s j)).card ↔ 1 ≤ s i
  rw [hcard k hk hkm, ← hk i hi]
  exact ⟨fun h => h i le_rfl, fun h j hj => h.trans (han hj)⟩

example : fullRank (1 : Matrix (Fin 3) (Fin 3) ℝ) = true :=
  (C110_full_rank _).2 ⟨rfl, 1, by simp, by simp⟩

end Yac.Dense
