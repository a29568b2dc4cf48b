import Verif.Sparse.SolveProps
import Mathlib.Analysis.Calculus.Deriv.Pow
import Mathlib.Analysis.Calculus.Deriv.Add
import Mathlib.Analysis.Calculus.Deriv.Mul

/-!
# C104, continued: the Gauss-Newton step and the determinant of the covariance
-/

namespace Yac.Sparse
open Matrix
open Yac.Solver (Mat)
open Yac.Marg (block)

/-- Two matrices that agree where they have entries. -/
def Agree (A B : Mat ℝ) (m n : ℕ) : Prop := ∀ r < m, ∀ c < n, A r c = B r c

theorem Agree.block {A B : Mat ℝ} {m n : ℕ} (h : Agree A B m n) (i k : ℕ) (hk : i + k ≤ n) :
    block A 0 i m k = block B 0 i m k := by
  ext r c
  simp only [Marg.block, Nat.zero_add]
  exact h r r.isLt _ (by have := c.isLt; omega)

theorem Agree.pattern {A B : Mat ℝ} {m n : ℕ} (h : Agree A B m n) (j : ℕ) (hj : j ≤ n) : patternOf A m j = patternOf B m j := by
  unfold patternOf
  congr 1
  apply List.filter_congr
  intro rc hrc
  obtain ⟨c, hc, h2⟩ := List.mem_flatMap.mp hrc
  obtain ⟨r, hr, rfl⟩ := List.mem_map.mp h2
  rw [h r (List.mem_range.mp hr) c (by have := List.mem_range.mp hc; omega)]

theorem Agree.zeroNorm {A B : Mat ℝ} {m n : ℕ} (h : Agree A B m n) (o : Opts) : ZeroNorm o A m n ↔ ZeroNorm o B m n := by
  unfold ZeroNorm
  refine and_congr Iff.rfl (exists_congr (fun c => and_congr_right (fun hc => ?_)))
  rw [show (fun r : Fin m => A r c) = (fun r : Fin m => B r c) from funext (fun r => h r r.isLt c hc)]

theorem Agree.factorize {A B : Mat ℝ} {m n : ℕ} (h : Agree A B m n) (o : Opts) (qr : Spqr) (cache : Option Pattern) (j : ℕ) :
    factorize o qr cache A m n j = factorize o qr cache B m n j := by
  unfold Sparse.factorize
  by_cases hj : j ≤ n
  · simp only [h.block 0 j (by omega), h.pattern j hj]
  · simp only [if_neg hj]

theorem Agree.solve {A B : Mat ℝ} {m n : ℕ} (h : Agree A B m n) (o : Opts) (qr : Spqr) (svd : Svd3) (cache : Option Pattern)
    (b : Fin m → ℝ) (j : ℕ) : solve o qr svd cache A m n b j = solve o qr svd cache B m n b j := by
  by_cases hz : ZeroNorm o A m n
  · unfold Sparse.solve
    rw [if_pos hz, if_pos ((h.zeroNorm o).mp hz)]
  have hz' : ¬ ZeroNorm o B m n := fun h' => hz ((h.zeroNorm o).mpr h')
  by_cases hj : j ≤ n
  · unfold Sparse.solve
    rw [if_neg hz, if_neg hz']
    simp only [h.factorize o qr cache j, h.block 0 j (by omega), h.block j (n - j) (by omega)]
  · have hf : ∀ A : Mat ℝ, Sparse.factorize o qr cache A m n j = .error .fatal := by
      intro A
      unfold Sparse.factorize
      rw [if_neg (by omega), if_neg hj]
    unfold Sparse.solve
    rw [if_neg hz, if_neg hz', hf, hf]
    rfl

/-- Entries are zero or above the rounding unit. -/
def Clean (J : Mat ℝ) (m n : ℕ) : Prop := ∀ r < m, ∀ c < n, J r c = 0 ∨ macheps < |J r c|

theorem macheps_pos : 0 < macheps := by unfold macheps; positivity

theorem convert_clean {J : Mat ℝ} {m n : ℕ} (h : Clean J m n) (junk : ℕ → ℝ × ℕ) :
    ∃ M D, ofDense junk macheps J m n = .ok M ∧ toDense M = .ok D ∧ Agree D J m n := by
  obtain ⟨M, D, h1, -, -, h2, h3⟩ := C103_roundtrip junk macheps macheps_pos J m n
  refine ⟨M, D, h1, h2, fun r hr c hc => ?_⟩
  rw [h3 r hr c hc]
  rcases h r hr c hc with h' | h'
  · rw [h']; simp
  · rw [if_neg (not_le.mpr h')]

/-- **C104, Gauss-Newton step.**  For a Jacobian without tiny entries, under the conditions of `C104_solve` and if every
column is significant: the step `dx` satisfies `JᵀJ dx = -Jᵀ r`, no step makes `r + J dx` shorter, and the derivative of
`‖r + J (t dx)‖²` at `t = 0` is `-2 ‖J dx‖²`: the step descends unless it changes nothing. -/
theorem C104_step (o : Opts) (qr : Spqr) (svd : Svd3) (junk : ℕ → ℝ × ℕ) (cache : Option Pattern) (J : Mat ℝ) (m n : ℕ)
    (r : ℕ → ℝ) (j : ℕ) (hJ : Clean J m n)
    (hqr : IsSpqr qr) (hs : IsSvd3 svd) (hm : 0 < m) (hn : 0 < o.epsNorm) (ht : o.svdTol = -1) (he : 0 ≤ o.epsSVD)
    (tol : ℝ) (htol : QrTol o tol) (hj : j ≤ n) (hc : j ≠ 0 → cached cache (patternOf J m j) = patternOf J m j)
    (hi : Independent tol (leftPart o J m j))
    (hg : Gapped o.epsSVD (reducedInfo (leftPart o J m j) (rightPart o J m n j)))
    (hsg : ∀ c < n, Significant o J m c) :
    ∃ p dx, gnStep o qr svd junk cache J r m n j = .ok (p, dx) ∧
      (∀ c < n, ∑ d ∈ Finset.range n, (∑ i ∈ Finset.range m, J i c * J i d) * dx d = -∑ i ∈ Finset.range m, J i c * r i) ∧
      (∀ y : ℕ → ℝ, ∑ i ∈ Finset.range m, (r i + ∑ c ∈ Finset.range n, J i c * dx c) ^ 2 ≤
        ∑ i ∈ Finset.range m, (r i + ∑ c ∈ Finset.range n, J i c * y c) ^ 2) ∧
      HasDerivAt (fun t : ℝ => ∑ i ∈ Finset.range m, (r i + ∑ c ∈ Finset.range n, J i c * (t * dx c)) ^ 2)
        (-2 * ∑ i ∈ Finset.range m, (∑ c ∈ Finset.range n, J i c * dx c) ^ 2) 0 := by
  obtain ⟨M, D, h1, h2, hD⟩ := convert_clean hJ junk
  obtain ⟨dx, h3, h4, -⟩ := C104_solve o qr svd cache J m n (fun i => -1 * r i) j hqr hs hm hn ht he tol htol hj hc hi hg
  have hne : ∀ c < n, ∑ i ∈ Finset.range m, J i c * resid J n (fun i => -1 * r i) dx i = 0 := fun c hc => h4 c hc (hsg c hc)
  have hres : ∀ y i, resid J n (fun i => -1 * r i) y i = -(r i + ∑ c ∈ Finset.range n, J i c * y c) := by
    intro y i; unfold resid; ring
  have hcost : ∀ y, cost J m n (fun i => -1 * r i) y = ∑ i ∈ Finset.range m, (r i + ∑ c ∈ Finset.range n, J i c * y c) ^ 2 := by
    intro y
    unfold cost
    exact Finset.sum_congr rfl (fun i _ => by rw [hres]; ring)
  have hnorm : ∀ c < n, ∑ i ∈ Finset.range m, J i c * (r i + ∑ d ∈ Finset.range n, J i d * dx d) = 0 := by
    intro c hc
    have h := hne c hc
    simp only [hres] at h
    have : ∑ i ∈ Finset.range m, J i c * -(r i + ∑ c ∈ Finset.range n, J i c * dx c) =
      -∑ i ∈ Finset.range m, J i c * (r i + ∑ d ∈ Finset.range n, J i d * dx d) := by
      rw [← Finset.sum_neg_distrib]; exact Finset.sum_congr rfl (fun i _ => by ring)
    rw [this] at h
    linarith
  refine ⟨if j = 0 then none else some (patternOf J m j), dx, ?_, fun c hc => ?_, fun y => ?_, ?_⟩
  · unfold gnStep
    rw [h1, okb, h2, okb, hD.solve]
    exact h3
  · have h := hnorm c hc
    simp only [mul_add, Finset.sum_add_distrib, Finset.mul_sum] at h
    rw [Finset.sum_comm] at h
    have : ∑ d ∈ Finset.range n, (∑ i ∈ Finset.range m, J i c * J i d) * dx d =
        ∑ d ∈ Finset.range n, ∑ i ∈ Finset.range m, J i c * (J i d * dx d) :=
      Finset.sum_congr rfl (fun d _ => by rw [Finset.sum_mul]; exact Finset.sum_congr rfl (fun i _ => by ring))
    rw [this]
    linarith
  · have := normal_min hne y
    rw [hcost, hcost] at this
    exact this
  · set q : ℕ → ℝ := fun i => ∑ c ∈ Finset.range n, J i c * dx c with hq
    have hcross : ∑ i ∈ Finset.range m, r i * q i = -∑ i ∈ Finset.range m, q i ^ 2 := by
      have h0 : ∑ i ∈ Finset.range m, q i * (r i + q i) = 0 := by
        have : ∀ i, q i * (r i + q i) = ∑ c ∈ Finset.range n, dx c * (J i c * (r i + q i)) := by
          intro i
          rw [hq]
          simp only
          rw [Finset.sum_mul]
          exact Finset.sum_congr rfl (fun c _ => by ring)
        simp only [this]
        rw [Finset.sum_comm]
        apply Finset.sum_eq_zero
        intro c hc
        rw [← Finset.mul_sum, hnorm c (Finset.mem_range.mp hc), mul_zero]
      have : ∑ i ∈ Finset.range m, q i * (r i + q i) = ∑ i ∈ Finset.range m, r i * q i + ∑ i ∈ Finset.range m, q i ^ 2 := by
        rw [← Finset.sum_add_distrib]; exact Finset.sum_congr rfl (fun i _ => by ring)
      linarith
    have hf : ∀ t : ℝ, ∑ i ∈ Finset.range m, (r i + ∑ c ∈ Finset.range n, J i c * (t * dx c)) ^ 2 =
        ∑ i ∈ Finset.range m, (r i + t * q i) ^ 2 := by
      intro t
      apply Finset.sum_congr rfl
      intro i _
      rw [hq]
      simp only
      rw [Finset.mul_sum]
      congr 2
      exact Finset.sum_congr rfl (fun c _ => by ring)
    simp only [hf]
    have hd : HasDerivAt (fun t : ℝ => ∑ i ∈ Finset.range m, (r i + t * q i) ^ 2)
        (∑ i ∈ Finset.range m, 2 * (r i + 0 * q i) * q i) 0 := by
      refine HasDerivAt.fun_sum ?_
      intro i _
      have h := (((hasDerivAt_id (0 : ℝ)).mul_const (q i)).const_add (r i)).fun_pow 2
      simpa using h
    refine hd.congr_deriv ?_
    have : ∑ i ∈ Finset.range m, 2 * (r i + 0 * q i) * q i = 2 * ∑ i ∈ Finset.range m, r i * q i := by
      rw [Finset.mul_sum]; exact Finset.sum_congr rfl (fun i _ => by ring)
    rw [this, hcross]
    ring

theorem list_range_sum (f : ℕ → ℝ) (k : ℕ) : ((List.range k).map f).sum = ∑ i ∈ Finset.range k, f i := by
  induction k with
  | zero => rfl
  | succ k ih => rw [List.range_succ, List.map_append, List.sum_append, ih, Finset.sum_range_succ]; simp

/-- The covariance of the unknowns from `j` on: the inverse of the information about all, of which the block of these. -/
noncomputable def marginalCovar (J : Mat ℝ) (m n j : ℕ) : Matrix (Fin (n - j)) (Fin (n - j)) ℝ :=
  let Jr := block J 0 j m (n - j)
  let Jl := block J 0 0 m j
  ((fromBlocks (Jrᵀ * Jr) (Jrᵀ * Jl) (Jlᵀ * Jr) (Jlᵀ * Jl))⁻¹).toBlocks₁₁

/-- **C104, determinant.**  For a Jacobian without tiny entries, whose columns to marginalise are independent beyond the
tolerance and whose reduced information has a gap: if there is information about every one of the other unknowns, the
value is the natural logarithm of the determinant of their covariance. -/
theorem C104_logdet_partial (o : Opts) (qr : Spqr) (svd : Svd3) (junk : ℕ → ℝ × ℕ) (J : Mat ℝ) (m n j : ℕ) (hJ : Clean J m n)
    (hqr : IsSpqr qr) (hs : IsSvd3 svd) (ht : o.svdTol = -1) (he : 0 ≤ o.epsSVD)
    (tol : ℝ) (htol : QrTol o tol) (hj : j < n)
    (hi : Independent tol (block J 0 0 m j))
    (hg : Gapped o.epsSVD (reducedInfo (block J 0 0 m j) (block J 0 j m (n - j))))
    (hd : (reducedInfo (block J 0 0 m j) (block J 0 j m (n - j))).det ≠ 0) :
    0 < (marginalCovar J m n j).det ∧
    logDetCovar o qr svd junk J m n j = .ok (Real.log (marginalCovar J m n j).det) := by
  obtain ⟨M', D, h1, h2, hD⟩ := convert_clean hJ junk
  have hk : 0 < n - j := by omega
  set Al := block J 0 0 m j with hAl
  set Ar := block J 0 j m (n - j) with hAr
  have key : ∃ (M : Matrix (Fin m) (Fin (n - j)) ℝ) (W : Matrix (Fin (n - j)) (Fin j) ℝ) (cf : Option Pattern × Option (Factor m j)),
      (Alᵀ * Al).det ≠ 0 ∧ factorize { o with columnScaling := false } qr none D m n j = .ok cf ∧
      reducedInfo Al Ar = Mᵀ * M ∧ reduceLeft cf.2 Ar = .ok (Mᵀ * M, W) := by
    rw [hD.factorize]
    by_cases j0 : j = 0
    · subst j0
      refine ⟨Ar, 0, (none, none), by simp, ?_, ?_, rfl⟩
      · unfold factorize; rw [if_pos rfl]
      · unfold reducedInfo
        have : Arᵀ * Al = 0 := by ext a b; exact b.elim0
        rw [this]; simp
    · obtain ⟨hQ, hR, hjm, hA⟩ := hqr tol m j _ htol.1 hi
      obtain ⟨M, W, c1, c2, -, -⟩ := core Ar hQ hR hjm hA (fun _ => 0)
      refine ⟨M, W, (some (patternOf J m j), some (qr tol m j Al)), (proj_eq (cols_orth hQ hjm) hR hA).1, ?_, c1, c2⟩
      have hsc : scale { o with columnScaling := false } Al = fun _ => 1 := by unfold scale; rw [if_neg (by simp)]
      have hq : qrTolerance { o with columnScaling := false } = .ok tol := qr_tol htol
      unfold factorize
      rw [if_neg j0, if_pos (by omega)]
      simp only
      rw [hq, okb, if_pos (show cached none (patternOf J m j) = patternOf J m j from rfl), ← hAl, hsc, diagonal_one, Matrix.mul_one]
  obtain ⟨M, W, cf, k0, k1, k2, k3⟩ := key
  have hfac := Info.schur_facts Ar Al k0
  simp only at hfac
  have hS : reducedInfo Al Ar = Arᵀ * Ar - Arᵀ * Al * (Alᵀ * Al)⁻¹ * (Alᵀ * Ar) := rfl
  rw [← hS] at hfac
  obtain ⟨-, hnn, hinv⟩ := hfac
  have hcov : marginalCovar J m n j = (reducedInfo Al Ar)⁻¹ := hinv hd
  have hpos : 0 < (reducedInfo Al Ar).det := lt_of_le_of_ne hnn (Ne.symm hd)
  have hcd : (marginalCovar J m n j).det = ((reducedInfo Al Ar).det)⁻¹ := by
    rw [hcov, det_nonsing_inv, Ring.inverse_eq_inv']
  refine ⟨by rw [hcd]; positivity, ?_⟩
  have hsvd : Info.IsSvd (fun k S => (svd k S).2.1) := fun k S => by
    obtain ⟨a, b, c, d, e⟩ := hs k S
    exact ⟨c, _, _, a, b, e⟩
  obtain ⟨l1, l2⟩ := Info.svd_log hsvd (Mᵀ * M)
  rw [k2] at hg hd
  have hne : ∀ i, (svd (n - j) (Mᵀ * M)).2.1 i ≠ 0 := fun i h0 => hd (l1.mp ⟨i, h0⟩)
  obtain ⟨-, -, snn, san, -⟩ := hs (n - j) (Mᵀ * M)
  have h0 : 0 ≤ ext (svd (n - j) (Mᵀ * M)).2.1 0 * o.epsSVD * (n - j : ℕ) := by
    have : 0 ≤ ext (svd (n - j) (Mᵀ * M)).2.1 0 := by unfold ext; rw [dif_pos hk]; exact snn _
    positivity
  have hrank : numRank (ext (svd (n - j) (Mᵀ * M)).2.1) (ext (svd (n - j) (Mᵀ * M)).2.1 0 * o.epsSVD * (n - j : ℕ)) (n - j) = n - j := by
    have h := (gap_rank hs he M hg ⟨n - j - 1, by omega⟩).1
    have h' : n - j - 1 < numRank (ext (svd (n - j) (Mᵀ * M)).2.1) (ext (svd (n - j) (Mᵀ * M)).2.1 0 * o.epsSVD * (n - j : ℕ)) (n - j) := by
      by_contra hno
      exact hne _ (h hno)
    have := (rank_spec (svd (n - j) (Mᵀ * M)).2.1 _ h0 san snn).1
    omega
  obtain ⟨a, ha⟩ : ∃ a, a = (⟨(svd (n - j) (Mᵀ * M)).1, (svd (n - j) (Mᵀ * M)).2.1, (svd (n - j) (Mᵀ * M)).2.2, n - j⟩ : Analysis (n - j)) := ⟨_, rfl⟩
  have han : analyze o svd (Mᵀ * M) = .ok a := by
    unfold analyze rankTol
    simp only
    rw [if_neg (by rw [ht]; simp), if_neg (by omega), okb, hrank, ha]
  unfold logDetCovar
  rw [h1, okb, h2, okb]
  unfold analyzeMarginal
  rw [k1, okb, if_pos hj, hD.block j (n - j) (by omega), ← hAr, k3, okb]
  simp only
  rw [han, okb, okb]
  simp only
  congr 1
  rw [hcd, Real.log_inv, k2, ← l2 hd]
  unfold covarDet
  rw [ha]
  simp only
  rw [neg_one_mul, list_range_sum, Finset.sum_range]
  simp only [ext_lt]

/-- The decomposition of a matrix with a single entry that is not negative. -/
theorem svd_one {svd : Svd3} (hs : IsSvd3 svd) (A : Matrix (Fin 1) (Fin 1) ℝ) : (svd 1 A).2.1 0 = |A 0 0| := by
  have hsvd : Info.IsSvd (fun k S => (svd k S).2.1) := fun k S => by
    obtain ⟨a, b, c, d, e⟩ := hs k S
    exact ⟨c, _, _, a, b, e⟩
  have := Info.svd_det hsvd A
  simpa using this

/-- The value for a Jacobian with one entry. -/
theorem one_value (o : Opts) (qr : Spqr) (svd : Svd3) (junk : ℕ → ℝ × ℕ) (hs : IsSvd3 svd) (ht : o.svdTol = -1)
    (a : ℝ) (ha : a = 0 ∨ macheps < |a|) (he : 0 ≤ o.epsSVD) (he1 : o.epsSVD < 1) :
    logDetCovar o qr svd junk (fun _ _ => a) 1 1 0 = .ok (if a = 0 then 0 else -Real.log (a * a)) := by
  obtain ⟨M', D, h1, h2, hD⟩ := convert_clean (J := fun _ _ => a) (m := 1) (n := 1) (fun _ _ _ _ => ha) junk
  have hB : block D 0 0 1 (1 - 0) = fun _ _ => a := by
    rw [hD.block 0 (1 - 0) (by omega)]; rfl
  obtain ⟨S, hS⟩ : ∃ S : Matrix (Fin 1) (Fin 1) ℝ, S = fun _ _ => a * a := ⟨_, rfl⟩
  obtain ⟨B, hBd⟩ : ∃ B : Matrix (Fin 1) (Fin 1) ℝ, B = fun _ _ => a := ⟨_, rfl⟩
  have hG : Bᵀ * B = S := by
    ext i j; rw [hS, mul_apply]; simp [hBd]; exact Or.inl rfl
  have hval : ext (svd 1 S).2.1 0 = a * a := by
    have : ext (svd 1 S).2.1 0 = (svd 1 S).2.1 0 := ext_lt _ 0
    rw [this, svd_one hs, hS]
    exact abs_of_nonneg (mul_self_nonneg a)
  unfold logDetCovar
  rw [h1, okb, h2, okb]
  unfold analyzeMarginal factorize
  rw [if_pos rfl, okb, if_pos (by norm_num)]
  show (reduceLeft (none : Option (Factor 1 0)) (block D 0 0 1 (1 - 0)) >>= _) >>= _ = _
  rw [hB]
  have hl : reduceLeft (none : Option (Factor 1 0)) (fun _ _ => a : Matrix (Fin 1) (Fin 1) ℝ) = .ok (S, 0) := by
    rw [← hG, ← hBd]; rfl
  rw [hl, okb]
  unfold analyze rankTol
  simp only
  rw [if_neg (by rw [ht]; simp), if_neg (by norm_num), okb, okb, okb]
  simp only
  congr 1
  unfold covarDet
  simp only
  rw [list_range_sum]
  have e1 : ext (svd 1 S).2.1 0 * o.epsSVD * ((1 - 0 : ℕ) : ℝ) = a * a * o.epsSVD := by rw [hval]; simp
  show -1 * ∑ i ∈ Finset.range (numRank (ext (svd 1 S).2.1) (ext (svd 1 S).2.1 0 * o.epsSVD * ((1 - 0 : ℕ) : ℝ)) 1), _ = _
  rw [e1]
  unfold numRank
  rw [hval]
  by_cases h0 : a = 0
  · rw [if_neg (by rw [h0]; simp), if_pos h0]
    simp [numRank]
  · have hp : 0 < a * a := mul_self_pos.mpr h0
    rw [if_pos (by nlinarith), if_neg h0, Finset.sum_range_one]
    show -1 * Real.log (ext (svd 1 S).2.1 0) = _
    rw [hval, neg_one_mul]

/-- **C104 is false without information.**  A measurement that says nothing about the unknown has the value zero, and a
weak one a positive value: by the value, which the next best view is chosen by, the useless one is the better one. -/
theorem C104_singular_refuted (qr : Spqr) (svd : Svd3) (junk : ℕ → ℝ × ℕ) (hs : IsSvd3 svd) :
    logDetCovar defaults qr svd junk (fun _ _ => 0) 1 1 0 = .ok 0 ∧
    ∃ v, 0 < v ∧ logDetCovar defaults qr svd junk (fun _ _ => 1 / 2) 1 1 0 = .ok v := by
  have h1 : 0 ≤ defaults.epsSVD := macheps_pos.le
  have hm : macheps < 1 / 2 := by unfold macheps; norm_num
  have h2 : defaults.epsSVD < 1 := by show macheps < 1; linarith
  refine ⟨?_, _, ?_, one_value defaults qr svd junk hs rfl (1 / 2) (Or.inr (by rw [abs_of_pos (by norm_num)]; exact hm)) h1 h2⟩
  · rw [one_value defaults qr svd junk hs rfl 0 (Or.inl rfl) h1 h2, if_pos rfl]
  · rw [if_neg (by norm_num), neg_pos]
    exact Real.log_neg (by norm_num) (by norm_num)

/-- One entry of one in the given row of a column. -/
def unitCol (r0 : ℕ) : Mat ℝ := fun r _ => if r = r0 then 1 else 0

theorem unit_pattern (r0 : ℕ) (h : r0 < 2) : patternOf (unitCol r0) 2 1 = ⟨2, 1, [(r0, 0)]⟩ := by
  unfold patternOf unitCol
  have : r0 = 0 ∨ r0 = 1 := by omega
  rcases this with h | h <;> subst h <;> simp [List.range_succ, List.filter]

/-- **C104 is false for a sequence of problems.**  If the columns to marginalise have the same number of rows, columns
and entries as in the call before but not the same places, the symbolic factorisation of that call is used for a
matrix that it is not of; the call on its own succeeds. -/
theorem C104_cache_refuted (qr : Spqr) (svd : Svd3) (hqr : IsSpqr qr) (hs : IsSvd3 svd) (b : ℕ → ℝ) :
    (∃ x, solve defaults qr svd none (unitCol 0) 2 1 (fun i => b i) 1 = .ok (some (patternOf (unitCol 0) 2 1), x)) ∧
    (∃ p x, solve defaults qr svd none (unitCol 1) 2 1 (fun i => b i) 1 = .ok (p, x)) ∧
    solve defaults qr svd (some (patternOf (unitCol 0) 2 1)) (unitCol 1) 2 1 (fun i => b i) 1 = .error .oob := by
  have hz : ∀ r0 : ℕ, ¬ ZeroNorm defaults (unitCol r0) 2 1 := fun r0 => no_zero (by norm_num) macheps_pos
  have hm : macheps < 1 / 2 := by unfold macheps; norm_num
  have hsq : ∀ r0 < 2, Real.sqrt (∑ r ∈ Finset.range 2, unitCol r0 r 0 ^ 2) = 1 := by
    intro r0 hr
    have : r0 = 0 ∨ r0 = 1 := by omega
    rcases this with h | h <;> subst h <;> simp [unitCol, Finset.sum_range_succ]
  have hsig : Real.sqrt ((2 : ℕ) * macheps) ≤ 1 := by
    rw [Real.sqrt_le_left (by norm_num)]
    push_cast
    linarith
  have hsc : ∀ r0 < 2, scale defaults (block (unitCol r0) 0 0 2 1) = fun _ => 1 := by
    intro r0 hr
    funext c
    have e : norm2 (fun r : Fin 2 => block (unitCol r0) 0 0 2 1 r c) = 1 := by
      rw [← hsq r0 hr, ← norm_range (fun r => unitCol r0 r 0)]
      simp [block, unitCol]
    unfold scale scaling
    rw [if_pos (show defaults.columnScaling = true from rfl)]
    simp only [e]
    rw [if_neg (show ¬ 1 < Real.sqrt ((2 : ℕ) * defaults.epsNorm) from not_lt.mpr hsig)]
    norm_num
  have hl : ∀ r0 < 2, Independent macheps (leftPart defaults (unitCol r0) 2 1) := by
    intro r0 hr c v hv
    unfold leftPart
    rw [hsc r0 hr, diagonal_one, Matrix.mul_one]
    have : norm2 (block (unitCol r0) 0 0 2 1 *ᵥ v) = 1 := by
      rw [← hsq r0 hr, ← norm_range (fun r => unitCol r0 r 0)]
      congr 1
      funext r
      have : v 0 = 1 := by rw [← hv]; congr 1; exact Subsingleton.elim _ _
      simp [mulVec, dotProduct, block, unitCol, this]
    rw [this]; linarith
  have hg : ∀ r0, Gapped defaults.epsSVD (reducedInfo (leftPart defaults (unitCol r0) 2 1) (rightPart defaults (unitCol r0) 2 1 1)) := by
    rintro r0 mu nu ⟨v, hv, -⟩
    exact absurd (funext (fun i => absurd i.isLt (by omega))) hv
  have ht : QrTol defaults macheps := ⟨macheps_pos.le, Or.inr ⟨rfl, macheps_pos, rfl⟩⟩
  refine ⟨?_, ?_, ?_⟩
  · obtain ⟨x, h, -⟩ := C104_solve defaults qr svd none (unitCol 0) 2 1 b 1 hqr hs (by norm_num) macheps_pos rfl macheps_pos.le
      macheps ht (le_refl _) (fun _ => rfl) (hl 0 (by norm_num)) (hg 0)
    exact ⟨x, h⟩
  · obtain ⟨x, h, -⟩ := C104_solve defaults qr svd none (unitCol 1) 2 1 b 1 hqr hs (by norm_num) macheps_pos rfl macheps_pos.le
      macheps ht (le_refl _) (fun _ => rfl) (hl 1 (by norm_num)) (hg 1)
    exact ⟨_, x, h⟩
  · have hf : factorize defaults qr (some (patternOf (unitCol 0) 2 1)) (unitCol 1) 2 1 1 = .error .oob := by
      unfold factorize
      rw [if_neg (by norm_num), if_pos (le_refl _)]
      simp only
      rw [qr_tol ht, okb, unit_pattern 0 (by norm_num), unit_pattern 1 (by norm_num), if_neg (by decide)]
    unfold solve
    rw [if_neg (hz 1), hf]
    rfl

end Yac.Sparse
