import Verif.Sparse.Exists

/-!
# C104: the truncated least squares solver
-/

namespace Yac.Sparse
open Matrix
open Yac.Solver (Mat)
open Yac.Marg (block)

theorem norm_range {m : ℕ} (f : ℕ → ℝ) : norm2 (fun r : Fin m => f r) = Real.sqrt (∑ r ∈ Finset.range m, f r ^ 2) := by
  unfold norm2
  rw [Finset.sum_range]
  simp only [pow_two]

/-- A significant column is scaled by a number that is not zero, any other one by zero. -/
theorem scale_iff {o : Opts} {A : Mat ℝ} {m : ℕ} (hm : 0 < m) (hn : 0 < o.epsNorm) (i k : ℕ) (c : Fin k) :
    (Significant o A m (i + c) → scale o (block A 0 i m k) c ≠ 0) ∧
    (¬ Significant o A m (i + c) → scale o (block A 0 i m k) c = 0) := by
  have e : norm2 (fun r : Fin m => block A 0 i m k r c) = Real.sqrt (∑ r ∈ Finset.range m, A r (i + c) ^ 2) := by
    rw [← norm_range (fun r => A r (i + c))]
    simp [block]
  have hp : 0 < Real.sqrt (m * o.epsNorm) := Real.sqrt_pos.mpr (mul_pos (by exact_mod_cast hm) hn)
  unfold scale Significant
  by_cases h : o.columnScaling = true
  · rw [if_pos h]
    unfold scaling
    rw [e]
    refine ⟨fun hs => ?_, fun hs => ?_⟩
    · have := hs h
      rw [if_neg (not_lt.mpr this)]
      exact one_div_ne_zero (by linarith)
    · rw [if_pos (not_le.mp (fun h' => hs (fun _ => h')))]
  · rw [if_neg h]
    exact ⟨fun _ => one_ne_zero, fun hs => absurd (fun h' => absurd h' h) hs⟩

/-- A column of a scaled matrix. -/
theorem scaled_col {m k i : ℕ} (A : Mat ℝ) (g : Fin k → ℝ) (v : ℕ → ℝ) (c : Fin k) :
    ((block A 0 i m k * diagonal g)ᵀ *ᵥ (fun r : Fin m => v r)) c = g c * ∑ r ∈ Finset.range m, A r (i + c) * v r := by
  rw [transpose_mul, diagonal_transpose, ← mulVec_mulVec, mulVec_diagonal, Finset.sum_range]
  congr 1
  simp [mulVec, dotProduct, block]

theorem solve_resid {o : Opts} {qr : Spqr} {svd : Svd3} {cache : Option Pattern} {A : Mat ℝ} {m n : ℕ} {b : ℕ → ℝ} {j : ℕ}
    (hqr : IsSpqr qr) (hs : IsSvd3 svd) (hm : 0 < m) (hn : 0 < o.epsNorm) (ht : o.svdTol = -1) (he : 0 ≤ o.epsSVD)
    {tol : ℝ} (htol : QrTol o tol) (hj : j ≤ n) (hc : j ≠ 0 → cached cache (patternOf A m j) = patternOf A m j)
    (hi : Independent tol (leftPart o A m j)) :
    ∃ (p : Option Pattern) (x : ℕ → ℝ) (xr : Fin (n - j) → ℝ) (M : Matrix (Fin m) (Fin (n - j)) ℝ),
      solve o qr svd cache A m n (fun i => b i) j = .ok (p, x) ∧ p = (if j = 0 then none else some (patternOf A m j)) ∧
      (∀ c, j ≤ c → c < n → ¬ Significant o A m c → x c = 0) ∧
      (∀ c < j, ∑ i ∈ Finset.range m, A i c * resid A n b x i = 0) ∧
      reducedInfo (leftPart o A m j) (rightPart o A m n j) = Mᵀ * M ∧
      xr = pinvOf o svd (Mᵀ * M) (Mᵀ *ᵥ (fun i : Fin m => b i)) ∧
      ∀ c : Fin (n - j), scale o (block A 0 j m (n - j)) c * ∑ i ∈ Finset.range m, A i (j + c) * resid A n b x i =
        (Mᵀ *ᵥ (fun i : Fin m => b i) - (Mᵀ * M) *ᵥ xr) c := by
  obtain ⟨p, x, xl, xr, M, h1, hp, h2, h3, h4, h5, h6, h7⟩ :=
    solve_core o qr svd cache A m n (fun i => b i) j hqr hs hm hn ht he tol htol hj hc hi
  have hr : (fun r : Fin m => resid A n b x r) = (fun i : Fin m => b i) - rightPart o A m n j *ᵥ xr - leftPart o A m j *ᵥ xl :=
    funext (fun i => resid_parts hj h2 h3 i)
  rw [← hr] at h6 h7
  refine ⟨p, x, xr, M, h1, hp, fun c hc1 hc2 hsg => ?_, fun c hcj => ?_, h4, h5, fun c => ?_⟩
  · obtain ⟨d, rfl⟩ := Nat.exists_eq_add_of_le hc1
    have := h3 ⟨d, by omega⟩
    simp only at this
    rw [this, (scale_iff hm hn j (n - j) ⟨d, by omega⟩).2 hsg, zero_mul]
  · have h := congrFun h6 ⟨c, hcj⟩
    unfold leftPart at h
    rw [scaled_col] at h
    have hg := scale_ne htol.1 hi ⟨c, hcj⟩
    have := (mul_eq_zero.mp h).resolve_left hg
    simpa using this
  · have h := congrFun h7 c
    rw [← h]
    unfold rightPart
    rw [scaled_col]

/-- A singular value above the tolerance is counted, the others are zero if there is a gap. -/
theorem gap_rank {o : Opts} {svd : Svd3} (hs : IsSvd3 svd) (he : 0 ≤ o.epsSVD) {m k : ℕ} (M : Matrix (Fin m) (Fin k) ℝ)
    (hg : Gapped o.epsSVD (Mᵀ * M)) (i : Fin k) :
    (¬ i.val < numRank (ext (svd k (Mᵀ * M)).2.1) (ext (svd k (Mᵀ * M)).2.1 0 * o.epsSVD * k) k → (svd k (Mᵀ * M)).2.1 i = 0) ∧
    (i.val < numRank (ext (svd k (Mᵀ * M)).2.1) (ext (svd k (Mᵀ * M)).2.1 0 * o.epsSVD * k) k → (svd k (Mᵀ * M)).2.1 i ≠ 0) := by
  obtain ⟨-, -, hnn, han, -⟩ := hs k (Mᵀ * M)
  have hk : 0 < k := by have := i.isLt; omega
  have e0 : ext (svd k (Mᵀ * M)).2.1 0 = (svd k (Mᵀ * M)).2.1 ⟨0, hk⟩ := by unfold ext; rw [dif_pos hk]
  have h0 : 0 ≤ ext (svd k (Mᵀ * M)).2.1 0 * o.epsSVD * k := by
    have : 0 ≤ ext (svd k (Mᵀ * M)).2.1 0 := by rw [e0]; exact hnn _
    positivity
  have hr := (rank_spec (svd k (Mᵀ * M)).2.1 _ h0 han hnn).2 i
  have hgap := hg _ _ (svd_eig hs M i) (svd_eig hs M ⟨0, hk⟩)
  rw [← e0] at hgap
  refine ⟨fun h => ?_, fun h => ?_⟩
  · rcases hgap with h' | h'
    · exact h'
    · exact absurd (hr.mpr h') h
  · have := hr.mp h
    linarith

/-- **C104, normal equations.**  For every matrix, right hand side, number `j` of columns to marginalise and contents of
the caches: if the (normalised) columns to marginalise are independent beyond the tolerance, the symbolic factorisation
of the cache is the one of this pattern, and the reduced information has no eigenvalue between zero and the tolerance,
then `solve` succeeds and remembers the pattern; the residual is orthogonal to every significant column, and the unknown of any other one is zero. -/
theorem C104_solve (o : Opts) (qr : Spqr) (svd : Svd3) (cache : Option Pattern) (A : Mat ℝ) (m n : ℕ) (b : ℕ → ℝ) (j : ℕ)
    (hqr : IsSpqr qr) (hs : IsSvd3 svd) (hm : 0 < m) (hn : 0 < o.epsNorm) (ht : o.svdTol = -1) (he : 0 ≤ o.epsSVD)
    (tol : ℝ) (htol : QrTol o tol) (hj : j ≤ n) (hc : j ≠ 0 → cached cache (patternOf A m j) = patternOf A m j)
    (hi : Independent tol (leftPart o A m j))
    (hg : Gapped o.epsSVD (reducedInfo (leftPart o A m j) (rightPart o A m n j))) :
    ∃ x, solve o qr svd cache A m n (fun i => b i) j = .ok (if j = 0 then none else some (patternOf A m j), x) ∧
      (∀ c < n, Significant o A m c → ∑ i ∈ Finset.range m, A i c * resid A n b x i = 0) ∧
      ∀ c, j ≤ c → c < n → ¬ Significant o A m c → x c = 0 := by
  obtain ⟨p, x, xr, M, h1, hp, h2, h3, h4, h5, h6⟩ := solve_resid (b := b) hqr hs hm hn ht he htol hj hc hi
  rw [h4] at hg
  refine ⟨x, hp ▸ h1, fun c hcn hsg => ?_, h2⟩
  by_cases hcj : c < j
  · exact h3 c hcj
  · obtain ⟨d, rfl⟩ := Nat.exists_eq_add_of_le (not_lt.mp hcj)
    have h := h6 ⟨d, by omega⟩
    have hz : (Mᵀ * M) *ᵥ xr = Mᵀ *ᵥ (fun i : Fin m => b i) := by
      rw [h5]
      exact svd_apply hs M _ _ (fun i => (gap_rank hs he M hg i).1) (fun i => (gap_rank hs he M hg i).2)
    rw [hz, sub_self, Pi.zero_apply] at h
    exact (mul_eq_zero.mp h).resolve_left ((scale_iff hm hn j (n - j) ⟨d, by omega⟩).1 hsg)

/-- A solution of the normal equations minimises the sum of squares. -/
theorem normal_min {A : Mat ℝ} {m n : ℕ} {b x : ℕ → ℝ} (h : ∀ c < n, ∑ i ∈ Finset.range m, A i c * resid A n b x i = 0)
    (y : ℕ → ℝ) : cost A m n b x ≤ cost A m n b y := by
  have e : ∀ i, resid A n b y i = resid A n b x i - ∑ c ∈ Finset.range n, A i c * (y c - x c) := by
    intro i
    unfold resid
    simp only [mul_sub, Finset.sum_sub_distrib]
    ring
  have hx : ∑ i ∈ Finset.range m, resid A n b x i * ∑ c ∈ Finset.range n, A i c * (y c - x c) = 0 := by
    simp only [Finset.mul_sum]
    rw [Finset.sum_comm]
    apply Finset.sum_eq_zero
    intro c hc
    have := h c (Finset.mem_range.mp hc)
    calc ∑ i ∈ Finset.range m, resid A n b x i * (A i c * (y c - x c))
        = (∑ i ∈ Finset.range m, A i c * resid A n b x i) * (y c - x c) := by
          rw [Finset.sum_mul]; exact Finset.sum_congr rfl (fun i _ => by ring)
      _ = 0 := by rw [this, zero_mul]
  have hq : 0 ≤ ∑ i ∈ Finset.range m, (∑ c ∈ Finset.range n, A i c * (y c - x c)) ^ 2 := Finset.sum_nonneg (fun _ _ => sq_nonneg _)
  have : cost A m n b y = cost A m n b x - 2 * ∑ i ∈ Finset.range m, resid A n b x i * ∑ c ∈ Finset.range n, A i c * (y c - x c) +
      ∑ i ∈ Finset.range m, (∑ c ∈ Finset.range n, A i c * (y c - x c)) ^ 2 := by
    unfold cost
    rw [Finset.mul_sum, ← Finset.sum_sub_distrib, ← Finset.sum_add_distrib]
    exact Finset.sum_congr rfl (fun i _ => by rw [e i]; ring)
  rw [this, hx]
  linarith

/-- **C104, minimum.**  If moreover every column is significant, no other vector has a smaller sum of squares. -/
theorem C104_minimum (o : Opts) (qr : Spqr) (svd : Svd3) (cache : Option Pattern) (A : Mat ℝ) (m n : ℕ) (b : ℕ → ℝ) (j : ℕ)
    (hqr : IsSpqr qr) (hs : IsSvd3 svd) (hm : 0 < m) (hn : 0 < o.epsNorm) (ht : o.svdTol = -1) (he : 0 ≤ o.epsSVD)
    (tol : ℝ) (htol : QrTol o tol) (hj : j ≤ n) (hc : j ≠ 0 → cached cache (patternOf A m j) = patternOf A m j)
    (hi : Independent tol (leftPart o A m j))
    (hg : Gapped o.epsSVD (reducedInfo (leftPart o A m j) (rightPart o A m n j)))
    (hsg : ∀ c < n, Significant o A m c) :
    ∃ p x, solve o qr svd cache A m n (fun i => b i) j = .ok (p, x) ∧ ∀ y, cost A m n b x ≤ cost A m n b y := by
  obtain ⟨x, h1, h2, -⟩ := C104_solve o qr svd cache A m n b j hqr hs hm hn ht he tol htol hj hc hi hg
  exact ⟨_, x, h1, normal_min (fun c hc => h2 c hc (hsg c hc))⟩

/-- **C104, truncation.**  Without the gap: the residual is orthogonal to every column that is marginalised, and, in the
other (normalised) columns, to every direction about which the information is above the tolerance. -/
theorem C104_truncated (o : Opts) (qr : Spqr) (svd : Svd3) (cache : Option Pattern) (A : Mat ℝ) (m n : ℕ) (b : ℕ → ℝ) (j : ℕ)
    (hqr : IsSpqr qr) (hs : IsSvd3 svd) (hm : 0 < m) (hn : 0 < o.epsNorm) (ht : o.svdTol = -1) (he : 0 ≤ o.epsSVD)
    (tol : ℝ) (htol : QrTol o tol) (hj : j ≤ n) (hc : j ≠ 0 → cached cache (patternOf A m j) = patternOf A m j)
    (hi : Independent tol (leftPart o A m j)) :
    ∃ p x, solve o qr svd cache A m n (fun i => b i) j = .ok (p, x) ∧
      (∀ c < j, ∑ i ∈ Finset.range m, A i c * resid A n b x i = 0) ∧
      ∀ (v : Fin (n - j) → ℝ) (mu : ℝ), reducedInfo (leftPart o A m j) (rightPart o A m n j) *ᵥ v = mu • v →
        (∀ nu, Eig (reducedInfo (leftPart o A m j) (rightPart o A m n j)) nu → nu * o.epsSVD * (n - j : ℕ) < mu) →
        ∑ i : Fin m, (rightPart o A m n j *ᵥ v) i * resid A n b x i = 0 := by
  obtain ⟨p, x, xr, M, h1, hp, h2, h3, h4, h5, h6⟩ := solve_resid (b := b) hqr hs hm hn ht he htol hj hc hi
  refine ⟨p, x, h1, h3, fun v mu hv hmu => ?_⟩
  rw [h4] at hv hmu
  have e1 : ∑ i : Fin m, (rightPart o A m n j *ᵥ v) i * resid A n b x i = v ⬝ᵥ (Mᵀ *ᵥ (fun i : Fin m => b i) - (Mᵀ * M) *ᵥ xr) := by
    have : (fun r : Fin m => resid A n b x r) = (fun r : Fin m => resid A n b x r) := rfl
    show (rightPart o A m n j *ᵥ v) ⬝ᵥ (fun r : Fin m => resid A n b x r) = _
    rw [← vecMul_transpose, ← dotProduct_mulVec]
    congr 1
    funext c
    rw [← h6 c]
    unfold rightPart
    rw [scaled_col]
  rw [e1]
  by_cases hk : n - j = 0
  · apply Finset.sum_eq_zero
    intro c _
    exact absurd c.isLt (by omega)
  have hk' : 0 < n - j := by omega
  have hu := fun i => (svd_psd hs M i).2
  have hei := svd_eig hs M ⟨0, hk'⟩
  obtain ⟨hU, hV, hnn, han, hA⟩ := hs (n - j) (Mᵀ * M)
  have e0 : ext (svd (n - j) (Mᵀ * M)).2.1 0 = (svd (n - j) (Mᵀ * M)).2.1 ⟨0, hk'⟩ := by unfold ext; rw [dif_pos hk']
  have h0 : 0 ≤ ext (svd (n - j) (Mᵀ * M)).2.1 0 * o.epsSVD * (n - j : ℕ) := by
    have : 0 ≤ ext (svd (n - j) (Mᵀ * M)).2.1 0 := by rw [e0]; exact hnn _
    positivity
  have hr := (rank_spec (svd (n - j) (Mᵀ * M)).2.1 _ h0 han hnn).2
  have hmu0 := hmu _ hei
  rw [← e0] at hmu0
  unfold pinvOf at h5
  set rank := numRank (ext (svd (n - j) (Mᵀ * M)).2.1) (ext (svd (n - j) (Mᵀ * M)).2.1 0 * o.epsSVD * (n - j : ℕ)) (n - j)
  set U := (svd (n - j) (Mᵀ * M)).1
  set s := (svd (n - j) (Mᵀ * M)).2.1
  set V := (svd (n - j) (Mᵀ * M)).2.2
  set y := Mᵀ *ᵥ (fun i : Fin m => b i)
  have hUU : U * Uᵀ = 1 := mul_eq_one_comm.mp hU
  have e2 : (Mᵀ * M) *ᵥ xr = U *ᵥ (fun i => if i.val < rank then (Uᵀ *ᵥ y) i else 0) := by
    have e3 : Mᵀ * M * V = U * diagonal s := by
      conv_lhs => rw [hA]
      rw [Matrix.mul_assoc, hV, Matrix.mul_one]
    rw [h5, mulVec_mulVec, e3, ← mulVec_mulVec]
    congr 1
    funext i
    rw [mulVec_diagonal]
    by_cases hir : i.val < rank
    · have := (hr i).mp hir
      rw [if_pos hir, if_pos hir, ← mul_assoc, mul_inv_cancel₀ (by linarith), one_mul]
    · rw [if_neg hir, if_neg hir, mul_zero]
  have e4 : y - (Mᵀ * M) *ᵥ xr = U *ᵥ (fun i => if i.val < rank then 0 else (Uᵀ *ᵥ y) i) := by
    have : y = U *ᵥ (Uᵀ *ᵥ y) := by rw [mulVec_mulVec, hUU, one_mulVec]
    conv_lhs => rw [this]
    rw [e2, ← mulVec_sub]
    congr 1
    funext i
    simp only [Pi.sub_apply]
    split_ifs <;> simp
  rw [e4, dotProduct_mulVec]
  apply Finset.sum_eq_zero
  intro i _
  by_cases hir : i.val < rank
  · simp [hir]
  · have hsi : s i < mu := by
      have := not_lt.mp (fun h => hir ((hr i).mpr h))
      linarith
    have hz : (v ᵥ* U) i = v ⬝ᵥ (fun r => U r i) := rfl
    have hsym : (Mᵀ * M)ᵀ = Mᵀ * M := by rw [transpose_mul, transpose_transpose]
    have e5 : v ⬝ᵥ ((Mᵀ * M) *ᵥ (fun r => U r i)) = mu * (v ⬝ᵥ (fun r => U r i)) := by
      rw [dotProduct_mulVec, ← mulVec_transpose, hsym, hv, smul_dotProduct, smul_eq_mul]
    rw [hu i, dotProduct_smul, smul_eq_mul] at e5
    have : (mu - s i) * (v ⬝ᵥ (fun r => U r i)) = 0 := by linarith
    rw [hz, (mul_eq_zero.mp this).resolve_left (by linarith), zero_mul]

end Yac.Sparse
