import Verif.Dense.Spec
import Verif.Sparse.Exists

/-! Lemmas on diagonal matrices and least squares. -/

namespace Yac.Dense
open Matrix

theorem rectDiag_transpose (m n : ℕ) (a : ℕ → ℝ) : (rectDiag m n a)ᵀ = rectDiag n m a := by
  ext i j
  simp only [transpose_apply, rectDiag]
  by_cases h : j.val = i.val
  · rw [if_pos h, if_pos h.symm, h]
  · rw [if_neg h, if_neg (Ne.symm h)]

theorem rectDiag_mul (m n k : ℕ) (a b : ℕ → ℝ) (i : Fin m) (l : Fin k) :
    (rectDiag m n a * rectDiag n k b) i l = if i.val = l.val ∧ i.val < n then a i * b i else 0 := by
  rw [mul_apply]
  by_cases hn : i.val < n
  · rw [Finset.sum_eq_single ⟨i.val, hn⟩]
    · simp only [rectDiag, if_true]
      by_cases h : i.val = l.val
      · rw [if_pos h, if_pos ⟨h, hn⟩]
      · rw [if_neg h, if_neg (fun q => h q.1), mul_zero]
    · intro j _ hj
      rw [rectDiag, if_neg (fun q => hj (Fin.ext q.symm)), zero_mul]
    · intro h
      exact absurd (Finset.mem_univ _) h
  · rw [if_neg (fun q => hn q.2)]
    apply Finset.sum_eq_zero
    intro j _
    rw [rectDiag, if_neg (fun q => hn (by have := j.isLt; omega)), zero_mul]

theorem rectDiag_mul3 (m n : ℕ) (a b c : ℕ → ℝ) :
    rectDiag m n a * rectDiag n m b * rectDiag m n c = rectDiag m n (fun i => a i * b i * c i) := by
  have e : rectDiag m n a * rectDiag n m b = rectDiag m m (fun i => if i < n then a i * b i else 0) := by
    ext i l
    rw [rectDiag_mul, rectDiag]
    by_cases h : i.val = l.val <;> by_cases h' : i.val < n <;> simp [h, h'] <;> intro h'' <;> omega
  rw [e]
  ext i l
  rw [rectDiag_mul, rectDiag]
  have := i.isLt
  have := l.isLt
  by_cases h : i.val = l.val
  · rw [if_pos ⟨h, by omega⟩, if_pos h, if_pos (by omega)]
  · rw [if_neg (fun q => h q.1), if_neg h]

theorem rectDiag_symm (m n : ℕ) (a b : ℕ → ℝ) :
    (rectDiag m n a * rectDiag n m b)ᵀ = rectDiag m n a * rectDiag n m b := by
  ext i l
  rw [transpose_apply, rectDiag_mul, rectDiag_mul]
  by_cases h : i.val = l.val
  · rw [h]
  · rw [if_neg (fun q => h q.1.symm), if_neg (fun q => h q.1)]

theorem rectDiag_congr {m n : ℕ} {a b : ℕ → ℝ} (h : ∀ i, i < min m n → a i = b i) : rectDiag m n a = rectDiag m n b := by
  ext i j
  simp only [rectDiag]
  by_cases hij : i.val = j.val
  · rw [if_pos hij, if_pos hij, h _ (by have := i.isLt; have := j.isLt; omega)]
  · rw [if_neg hij, if_neg hij]

open Classical in
theorem valsInv_eq (m n : ℕ) (s : ℕ → ℝ) (tol : ℝ) :
    valsInv m n s tol = rectDiag n m (fun i => if s i > tol then 1 / s i else 0) := by
  have key : ∀ k (r : Fin n) (c : Fin m), (List.range k).foldl (fun (M : Matrix (Fin n) (Fin m) ℝ) i =>
      if s i > tol then setDiag M i (1 / s i) else setDiag M i 0) 0 r c =
      if r.val = c.val ∧ r.val < k then (if s r > tol then 1 / s r else 0) else 0 := by
    intro k
    induction k with
    | zero => intro r c; simp
    | succ k ih =>
      intro r c
      rw [List.range_succ, List.foldl_append, List.foldl_cons, List.foldl_nil]
      have e : ∀ M : Matrix (Fin n) (Fin m) ℝ, (if s k > tol then setDiag M k (1 / s k) else setDiag M k 0) r c =
          if r.val = k ∧ c.val = k then (if s k > tol then 1 / s k else 0) else M r c := by
        intro M
        by_cases h : s k > tol <;> simp [h, setDiag]
      rw [e, ih]
      by_cases hr : r.val = k ∧ c.val = k
      · rw [if_pos hr, if_pos (show r.val = c.val ∧ r.val < k + 1 by omega), hr.1]
      · rw [if_neg hr]
        by_cases h : r.val = c.val ∧ r.val < k
        · rw [if_pos h, if_pos (show r.val = c.val ∧ r.val < k + 1 by omega)]
        · rw [if_neg h, if_neg (show ¬ (r.val = c.val ∧ r.val < k + 1) by omega)]
  ext r c
  unfold valsInv
  rw [key]
  simp only [rectDiag]
  by_cases h : r.val = c.val
  · rw [if_pos (show r.val = c.val ∧ r.val < min m n by have := r.isLt; have := c.isLt; omega), if_pos h]
  · rw [if_neg (fun q => h q.1), if_neg h]

/-- Orthogonal factors carry the equations of Penrose over. -/
theorem pinv_of_svd {m n : ℕ} {U : Matrix (Fin m) (Fin m) ℝ} {V : Matrix (Fin n) (Fin n) ℝ} (hU : Uᵀ * U = 1)
    (hV : Vᵀ * V = 1) {a b : ℕ → ℝ} (h1 : ∀ i, i < min m n → a i * b i * a i = a i)
    (h2 : ∀ i, i < min m n → b i * a i * b i = b i) :
    IsPinv (U * rectDiag m n a * Vᵀ) (V * rectDiag n m b * Uᵀ) := by
  have m1 : ∀ (D : Matrix (Fin m) (Fin n) ℝ) (E : Matrix (Fin n) (Fin m) ℝ),
      (U * D * Vᵀ) * (V * E * Uᵀ) = U * (D * E) * Uᵀ := by
    intro D E
    calc (U * D * Vᵀ) * (V * E * Uᵀ) = U * D * (Vᵀ * V) * E * Uᵀ := by simp only [Matrix.mul_assoc]
      _ = _ := by rw [hV]; simp only [Matrix.mul_assoc, Matrix.one_mul]
  have m2 : ∀ (D : Matrix (Fin n) (Fin m) ℝ) (E : Matrix (Fin m) (Fin n) ℝ),
      (V * D * Uᵀ) * (U * E * Vᵀ) = V * (D * E) * Vᵀ := by
    intro D E
    calc (V * D * Uᵀ) * (U * E * Vᵀ) = V * D * (Uᵀ * U) * E * Vᵀ := by simp only [Matrix.mul_assoc]
      _ = _ := by rw [hU]; simp only [Matrix.mul_assoc, Matrix.one_mul]
  have hm : min n m = min m n := by omega
  refine ⟨?_, ?_, ?_, ?_⟩
  · rw [m1]
    calc U * (rectDiag m n a * rectDiag n m b) * Uᵀ * (U * rectDiag m n a * Vᵀ)
        = U * (rectDiag m n a * rectDiag n m b) * (Uᵀ * U) * rectDiag m n a * Vᵀ := by simp only [Matrix.mul_assoc]
      _ = U * (rectDiag m n a * rectDiag n m b * rectDiag m n a) * Vᵀ := by
        rw [hU]; simp only [Matrix.mul_assoc, Matrix.one_mul]
      _ = _ := by rw [rectDiag_mul3, rectDiag_congr h1]
  · rw [m2]
    calc V * (rectDiag n m b * rectDiag m n a) * Vᵀ * (V * rectDiag n m b * Uᵀ)
        = V * (rectDiag n m b * rectDiag m n a) * (Vᵀ * V) * rectDiag n m b * Uᵀ := by simp only [Matrix.mul_assoc]
      _ = V * (rectDiag n m b * rectDiag m n a * rectDiag n m b) * Uᵀ := by
        rw [hV]; simp only [Matrix.mul_assoc, Matrix.one_mul]
      _ = _ := by rw [rectDiag_mul3, rectDiag_congr (fun i hi => h2 i (by omega))]
  · rw [m1, transpose_mul, transpose_mul, transpose_transpose, rectDiag_symm]
    simp only [Matrix.mul_assoc]
  · rw [m2, transpose_mul, transpose_mul, transpose_transpose, rectDiag_symm]
    simp only [Matrix.mul_assoc]

/-- The singular values of a decomposition are singular values of the matrix. -/
theorem isSing_of_svd {m n : ℕ} {A : Matrix (Fin m) (Fin n) ℝ} {U : Matrix (Fin m) (Fin m) ℝ}
    {V : Matrix (Fin n) (Fin n) ℝ} {s : ℕ → ℝ} (hU : Uᵀ * U = 1) (hV : Vᵀ * V = 1) (hs : ∀ i, 0 ≤ s i)
    (hA : A = U * rectDiag m n s * Vᵀ) {i : ℕ} (hi : i < min m n) : IsSing A (s i) := by
  have hin : i < n := by omega
  refine ⟨hs i, V *ᵥ Pi.single ⟨i, hin⟩ 1, ?_, ?_⟩
  · intro h
    have h2 : Vᵀ *ᵥ (V *ᵥ Pi.single ⟨i, hin⟩ 1) = 0 := by rw [h, mulVec_zero]
    rw [mulVec_mulVec, hV, one_mulVec] at h2
    have := congrFun h2 ⟨i, hin⟩
    simp at this
  · have e : Aᵀ * A = V * (rectDiag n m s * rectDiag m n s) * Vᵀ := by
      rw [hA, transpose_mul, transpose_mul, transpose_transpose, rectDiag_transpose]
      calc V * (rectDiag n m s * Uᵀ) * (U * rectDiag m n s * Vᵀ)
          = V * rectDiag n m s * (Uᵀ * U) * rectDiag m n s * Vᵀ := by simp only [Matrix.mul_assoc]
        _ = _ := by rw [hU]; simp only [Matrix.mul_assoc, Matrix.one_mul]
    rw [e, mulVec_mulVec, Matrix.mul_assoc, hV, Matrix.mul_one, ← mulVec_mulVec, ← mulVec_smul]
    congr 1
    ext j
    rw [mulVec_single_one]
    simp only [col_apply, Pi.smul_apply, smul_eq_mul]
    rw [rectDiag_mul]
    by_cases h : j.val = i
    · have : j = ⟨i, hin⟩ := Fin.ext h
      subst this
      rw [if_pos ⟨rfl, by show i < m; omega⟩]
      simp
      ring
    · rw [if_neg (fun q => h q.1), Pi.single_apply, if_neg (fun q => h (by rw [q])), mul_zero]

theorem dot_nonneg {m : ℕ} (x : Fin m → ℝ) : 0 ≤ x ⬝ᵥ x :=
  Finset.sum_nonneg (fun i _ => mul_self_nonneg (x i))

/-- The solution given by the pseudo-inverse is the least-squares solution of least length. -/
theorem pinv_least {m n : ℕ} {A : Matrix (Fin m) (Fin n) ℝ} {P : Matrix (Fin n) (Fin m) ℝ} (h : IsPinv A P)
    (b : Fin m → ℝ) (x : Fin n → ℝ) :
    (A *ᵥ (P *ᵥ b) - b) ⬝ᵥ (A *ᵥ (P *ᵥ b) - b) ≤ (A *ᵥ x - b) ⬝ᵥ (A *ᵥ x - b) ∧
    ((A *ᵥ x - b) ⬝ᵥ (A *ᵥ x - b) = (A *ᵥ (P *ᵥ b) - b) ⬝ᵥ (A *ᵥ (P *ᵥ b) - b) → x ≠ P *ᵥ b →
      (P *ᵥ b) ⬝ᵥ (P *ᵥ b) < x ⬝ᵥ x) := by
  obtain ⟨h1, h2, h3, h4⟩ := h
  have hn : Aᵀ *ᵥ (A *ᵥ (P *ᵥ b) - b) = 0 := by
    have e : Aᵀ * (A * P) = Aᵀ := by
      rw [← h3, ← transpose_mul, h1]
    rw [mulVec_sub, mulVec_mulVec, mulVec_mulVec, Matrix.mul_assoc, e, sub_self]
  have ho : ∀ y : Fin n → ℝ, (A *ᵥ y) ⬝ᵥ (A *ᵥ (P *ᵥ b) - b) = 0 := by
    intro y
    rw [← vecMul_transpose, ← dotProduct_mulVec, hn, dotProduct_zero]
  have hsplit : (A *ᵥ x - b) ⬝ᵥ (A *ᵥ x - b) = (A *ᵥ (x - P *ᵥ b)) ⬝ᵥ (A *ᵥ (x - P *ᵥ b)) +
      (A *ᵥ (P *ᵥ b) - b) ⬝ᵥ (A *ᵥ (P *ᵥ b) - b) := by
    have e : A *ᵥ x - b = A *ᵥ (x - P *ᵥ b) + (A *ᵥ (P *ᵥ b) - b) := by
      rw [mulVec_sub]; abel
    rw [e, add_dotProduct, dotProduct_add, dotProduct_add, ho,
      dotProduct_comm (A *ᵥ (P *ᵥ b) - b) (A *ᵥ (x - P *ᵥ b)), ho]
    ring
  constructor
  · rw [hsplit]
    linarith [dot_nonneg (A *ᵥ (x - P *ᵥ b))]
  · intro he hx
    have hz : A *ᵥ (x - P *ᵥ b) = 0 := by
      apply dotProduct_self_eq_zero.1
      linarith
    have hperp : (P *ᵥ b) ⬝ᵥ (x - P *ᵥ b) = 0 := by
      have e : P *ᵥ b = Aᵀ *ᵥ (Pᵀ *ᵥ (P *ᵥ b)) := by
        rw [mulVec_mulVec, ← transpose_mul, h4, mulVec_mulVec, h2]
      obtain ⟨y, hy⟩ : ∃ y, y = x - P *ᵥ b := ⟨_, rfl⟩
      rw [← hy] at hz ⊢
      rw [e, mulVec_transpose, ← dotProduct_mulVec, hz, dotProduct_zero]
    have hp : 0 < (x - P *ᵥ b) ⬝ᵥ (x - P *ᵥ b) := by
      refine lt_of_le_of_ne (dot_nonneg _) (fun q => hx ?_)
      exact sub_eq_zero.1 (dotProduct_self_eq_zero.1 q.symm)
    have e : x = P *ᵥ b + (x - P *ᵥ b) := by abel
    have : x ⬝ᵥ x = (P *ᵥ b) ⬝ᵥ (P *ᵥ b) + (x - P *ᵥ b) ⬝ᵥ (x - P *ᵥ b) := by
      conv_lhs => rw [e]
      rw [add_dotProduct, dotProduct_add, dotProduct_add, hperp, dotProduct_comm (x - P *ᵥ b) (P *ᵥ b), hperp]
      ring
    linarith

/-- There is only one pseudo-inverse. -/
theorem pinv_unique {m n : ℕ} {A : Matrix (Fin m) (Fin n) ℝ} {P Q : Matrix (Fin n) (Fin m) ℝ} (hP : IsPinv A P)
    (hQ : IsPinv A Q) : P = Q := by
  obtain ⟨p1, p2, p3, p4⟩ := hP
  obtain ⟨q1, q2, q3, q4⟩ := hQ
  have e1 : A * P = A * Q := by
    calc A * P = (A * P)ᵀ := p3.symm
      _ = ((A * Q * A) * P)ᵀ := by rw [q1]
      _ = ((A * Q) * (A * P))ᵀ := by rw [Matrix.mul_assoc]
      _ = (A * P) * (A * Q) := by rw [transpose_mul, p3, q3]
      _ = (A * P * A) * Q := by simp only [Matrix.mul_assoc]
      _ = A * Q := by rw [p1]
  have e2 : P * A = Q * A := by
    calc P * A = (P * A)ᵀ := p4.symm
      _ = (P * (A * Q * A))ᵀ := by rw [q1]
      _ = ((P * A) * (Q * A))ᵀ := by simp only [Matrix.mul_assoc]
      _ = (Q * A) * (P * A) := by rw [transpose_mul, p4, q4]
      _ = Q * (A * P * A) := by simp only [Matrix.mul_assoc]
      _ = Q * A := by rw [p1]
  calc P = P * A * P := p2.symm
    _ = Q * (A * P) := by rw [e2, Matrix.mul_assoc]
    _ = Q := by rw [e1, ← Matrix.mul_assoc, q2]

/-- The contract of the decomposition can be met. -/
theorem svd_exists : ∃ svd, IsSvd svd := by
  classical
  have tall : ∀ (m n : ℕ) (A : Matrix (Fin m) (Fin n) ℝ), n ≤ m → ∃ d : Matrix (Fin m) (Fin m) ℝ × (ℕ → ℝ) × Matrix (Fin n) (Fin n) ℝ,
      d.1ᵀ * d.1 = 1 ∧ d.2.2ᵀ * d.2.2 = 1 ∧ (∀ i, 0 ≤ d.2.1 i) ∧ Antitone d.2.1 ∧ A = d.1 * rectDiag m n d.2.1 * d.2.2ᵀ := by
    intro m n A hmn
    obtain ⟨V, s, hV, hs, han, hG⟩ := Sparse.right_vectors A
    have hd : ∀ i j, (fun r => (A * V) r i) ⬝ᵥ (fun r => (A * V) r j) = if i = j then s i ^ 2 else 0 := by
      intro i j
      have := congrFun (congrFun hG i) j
      rw [mul_apply, diagonal_apply] at this
      exact this
    obtain ⟨t, ht⟩ : ∃ t : ℕ → ℝ, t = fun i => if h : i < n then s ⟨i, h⟩ else 0 := ⟨_, rfl⟩
    have htv : ∀ i : Fin n, t i.val = s i := by
      intro i
      rw [ht]
      simp
    obtain ⟨w, hw⟩ : ∃ w : Fin m → Fin m → ℝ, w = fun (i : Fin m) (r : Fin m) => if h : i.val < n then (s ⟨i, h⟩)⁻¹ * (A * V) r ⟨i, h⟩ else 0 :=
      ⟨_, rfl⟩
    have hwv : ∀ (i : Fin m) (h : i.val < n), w i = fun r => (s ⟨i, h⟩)⁻¹ * (A * V) r ⟨i, h⟩ := by
      intro i h
      rw [hw]
      funext r
      simp [h]
    obtain ⟨U, hU, hUe⟩ := Sparse.extend w {i | ∃ h : i.val < n, s ⟨i, h⟩ ≠ 0} (by
      rintro i ⟨hi, hi'⟩ j ⟨hj, hj'⟩
      rw [hwv i hi, hwv j hj]
      have : (fun r => (s ⟨i, hi⟩)⁻¹ * (A * V) r ⟨i, hi⟩) ⬝ᵥ (fun r => (s ⟨j, hj⟩)⁻¹ * (A * V) r ⟨j, hj⟩) =
          (s ⟨i, hi⟩)⁻¹ * (s ⟨j, hj⟩)⁻¹ * ((fun r => (A * V) r ⟨i, hi⟩) ⬝ᵥ (fun r => (A * V) r ⟨j, hj⟩)) := by
        simp only [dotProduct, Finset.mul_sum]
        exact Finset.sum_congr rfl (fun r _ => by ring)
      rw [this, hd]
      by_cases hij : i = j
      · subst hij
        rw [if_pos rfl, if_pos rfl]; field_simp
      · rw [if_neg hij, if_neg (fun q => hij (Fin.ext (by simpa using q))), mul_zero])
    have hAV : A * V = U * rectDiag m n t := by
      ext r i
      have him : i.val < m := by have := i.isLt; omega
      rw [mul_apply (M := U), Finset.sum_eq_single ⟨i.val, him⟩]
      · rw [rectDiag, if_pos rfl, htv]
        by_cases hi : s i = 0
        · have := hd i i
          rw [if_pos rfl, hi, zero_pow two_ne_zero] at this
          have := congrFun (Sparse.dot_self_zero this) r
          rw [hi, mul_zero]; exact this
        · rw [hUe ⟨i.val, him⟩ ⟨i.isLt, hi⟩ r, hwv ⟨i.val, him⟩ i.isLt]
          simp only [Fin.eta]
          field_simp
      · intro j _ hj
        rw [rectDiag, if_neg (fun q => hj (Fin.ext q)), mul_zero]
      · intro h
        exact absurd (Finset.mem_univ _) h
    refine ⟨(U, t, V), hU, hV, ?_, ?_, ?_⟩
    · intro i
      rw [ht]
      by_cases h : i < n
      · simp [h, hs]
      · simp [h]
    · intro i j hij
      rw [ht]
      by_cases h : j < n
      · have h' : i < n := by omega
        simp only [h, h', dif_pos]
        exact han (by simpa using hij)
      · simp only [h, dif_neg, not_false_eq_true]
        by_cases h' : i < n
        · simp [h', hs]
        · simp [h']
    · have hVV : V * Vᵀ = 1 := mul_eq_one_comm.mp hV
      rw [← hAV, Matrix.mul_assoc, hVV, Matrix.mul_one]
  have : ∀ (m n : ℕ) (A : Matrix (Fin m) (Fin n) ℝ), ∃ d : Matrix (Fin m) (Fin m) ℝ × (ℕ → ℝ) × Matrix (Fin n) (Fin n) ℝ,
      d.1ᵀ * d.1 = 1 ∧ d.2.2ᵀ * d.2.2 = 1 ∧ (∀ i, 0 ≤ d.2.1 i) ∧ Antitone d.2.1 ∧ A = d.1 * rectDiag m n d.2.1 * d.2.2ᵀ := by
    intro m n A
    rcases Nat.le_total n m with h | h
    · exact tall m n A h
    · obtain ⟨⟨U, t, V⟩, hU, hV, hs, han, hA⟩ := tall n m Aᵀ h
      refine ⟨(V, t, U), hV, hU, hs, han, ?_⟩
      have := congrArg transpose hA
      rw [transpose_transpose, transpose_mul, transpose_mul, transpose_transpose, rectDiag_transpose] at this
      rw [this]
      simp only [Matrix.mul_assoc]
  choose d hd using this
  exact ⟨d, hd⟩

end Yac.Dense
