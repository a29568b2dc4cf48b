import Verif.Sparse.SolveLemmas

/-!
# What the truncated least squares solver computes
-/

namespace Yac.Sparse
open Matrix
open Yac.Solver (Mat)
open Yac.Marg (block)

theorem qr_tol {o : Opts} {tol : ℝ} (h : QrTol o tol) : qrTolerance o = .ok tol := by
  obtain ⟨h0, h | ⟨h1, h2, h3⟩⟩ := h
  · unfold qrTolerance
    rw [if_pos (by rw [h]; linarith), h]
  · unfold qrTolerance
    rw [if_neg (by rw [h1]; simp), if_pos h2, h3]

/-- The pseudo-inverse of `analyze` and `solveSVD`. -/
noncomputable def pinvOf (o : Opts) (svd : Svd3) {k : ℕ} (S : Matrix (Fin k) (Fin k) ℝ) (v : Fin k → ℝ) : Fin k → ℝ :=
  (svd k S).2.2 *ᵥ (fun i => if i.val < numRank (ext (svd k S).2.1) (ext (svd k S).2.1 0 * o.epsSVD * k) k then
    ((svd k S).2.1 i)⁻¹ * ((svd k S).1ᵀ *ᵥ v) i else 0)

theorem svd_step {o : Opts} {svd : Svd3} (hs : IsSvd3 svd) (ht : o.svdTol = -1) (he : 0 ≤ o.epsSVD) {k : ℕ} (hk : 0 < k)
    (S : Matrix (Fin k) (Fin k) ℝ) (v : Fin k → ℝ) :
    ∃ a, analyze o svd S = .ok a ∧ solveSVD a v = .ok (pinvOf o svd S v) := by
  obtain ⟨-, -, hnn, han, -⟩ := hs k S
  have h0 : 0 ≤ ext (svd k S).2.1 0 * o.epsSVD * k := by
    have : 0 ≤ ext (svd k S).2.1 0 := by
      unfold ext; rw [dif_pos hk]; exact hnn _
    positivity
  have hr := rank_spec (svd k S).2.1 _ h0 han hnn
  refine ⟨⟨(svd k S).1, (svd k S).2.1, (svd k S).2.2,
    numRank (ext (svd k S).2.1) (ext (svd k S).2.1 0 * o.epsSVD * k) k⟩, ?_, ?_⟩
  · unfold analyze rankTol
    simp only
    rw [if_neg (by rw [ht]; simp), if_neg (by omega), okb]
  · unfold solveSVD
    rw [if_neg]
    · rfl
    · rintro ⟨i, h1, h2⟩
      have := (hr.2 i).mp h1
      simp only at h2
      rw [h2] at this
      linarith

theorem scale_ne {m n : ℕ} {tol : ℝ} (h0 : 0 ≤ tol) {A : Matrix (Fin m) (Fin n) ℝ} {g : Fin n → ℝ}
    (h : Independent tol (A * diagonal g)) (c : Fin n) : g c ≠ 0 := by
  intro hg
  have := h c (Pi.single c 1) (by simp)
  rw [← mulVec_mulVec, show diagonal g *ᵥ Pi.single c (1 : ℝ) = 0 by
    funext i
    rw [mulVec_diagonal]
    by_cases hi : i = c
    · subst hi; simp [hg]
    · simp [hi], mulVec_zero] at this
  simp [norm2] at this
  linarith

/-- The part of the unknowns that is solved by QR. -/
theorem qr_part {m j : ℕ} {f : Factor m j} {Al : Matrix (Fin m) (Fin j) ℝ} (hQ : f.Qᵀ * f.Q = 1) (hR : f.R.det ≠ 0)
    (h : j ≤ m) (hA : Al.submatrix id f.E = f.Q.submatrix id (Fin.castLE h) * f.R) (z : Fin m → ℝ) :
    Al *ᵥ backSolve f ((f.Q.submatrix id (Fin.castLE h))ᵀ *ᵥ z) =
      f.Q.submatrix id (Fin.castLE h) *ᵥ ((f.Q.submatrix id (Fin.castLE h))ᵀ *ᵥ z) ∧
    Alᵀ *ᵥ (z - Al *ᵥ backSolve f ((f.Q.submatrix id (Fin.castLE h))ᵀ *ᵥ z)) = 0 := by
  have hQ1 := cols_orth hQ h
  generalize f.Q.submatrix id (Fin.castLE h) = Q1 at hQ1 hA ⊢
  have hu : IsUnit f.R.det := isUnit_iff_ne_zero.mpr hR
  have e1 : ∀ y : Fin j → ℝ, Al *ᵥ backSolve f y = Q1 *ᵥ y := by
    intro y
    have : Al *ᵥ backSolve f y = Al.submatrix id f.E *ᵥ (f.R⁻¹ *ᵥ y) := by
      funext r
      simp only [mulVec, dotProduct, backSolve, submatrix_apply, id]
      exact (Equiv.sum_comp f.E (fun c => Al r c * ∑ x, f.R⁻¹ (f.E.symm c) x * y x)).symm.trans
        (Finset.sum_congr rfl (fun x _ => by rw [Equiv.symm_apply_apply]))
    rw [this, hA, mulVec_mulVec, Matrix.mul_assoc, mul_nonsing_inv _ hu, Matrix.mul_one]
  have hB : Al = Q1 * (f.R.submatrix id f.E.symm) := by
    have : (Al.submatrix id f.E).submatrix id f.E.symm = Al := by
      ext a b; simp
    rw [← this, hA]
    ext a b; simp [mul_apply]
  refine ⟨e1 _, ?_⟩
  rw [e1]
  conv_lhs => rw [hB]
  rw [transpose_mul, ← mulVec_mulVec, mulVec_sub, mulVec_mulVec _ Q1ᵀ Q1, hQ1, one_mulVec, sub_self, mulVec_zero]

/-- The computation, without the indices. -/
theorem core {m j k : ℕ} {f : Factor m j} {Al : Matrix (Fin m) (Fin j) ℝ} (As : Matrix (Fin m) (Fin k) ℝ)
    (hQ : f.Qᵀ * f.Q = 1) (hR : f.R.det ≠ 0) (h : j ≤ m)
    (hA : Al.submatrix id f.E = f.Q.submatrix id (Fin.castLE h) * f.R) (b : Fin m → ℝ) :
    ∃ M : Matrix (Fin m) (Fin k) ℝ, ∃ W, reducedInfo Al As = Mᵀ * M ∧ reduceLeft (some f) As = .ok (Mᵀ * M, W) ∧
      reduceRight (some f) As W b = .ok (Mᵀ *ᵥ b) ∧
      ∀ xr : Fin k → ℝ, ∃ xl, solveQR f b As xr = .ok xl ∧
        Alᵀ *ᵥ (b - As *ᵥ xr - Al *ᵥ xl) = 0 ∧ Asᵀ *ᵥ (b - As *ᵥ xr - Al *ᵥ xl) = Mᵀ *ᵥ b - (Mᵀ * M) *ᵥ xr := by
  have hQ1 := cols_orth hQ h
  have hP := (proj_eq hQ1 hR hA).2
  have hq := qr_part hQ hR h hA
  have eW : (Asᵀ * f.Q).submatrix id (Fin.castLE h) = Asᵀ * f.Q.submatrix id (Fin.castLE h) := by
    ext a b; simp [mul_apply]
  have ey : ∀ z : Fin m → ℝ, (fun i => (f.Qᵀ *ᵥ z) (Fin.castLE h i)) = (f.Q.submatrix id (Fin.castLE h))ᵀ *ᵥ z := by
    intro z; funext i; simp [mulVec, dotProduct]
  generalize hQ1d : f.Q.submatrix id (Fin.castLE h) = Q1 at *
  have hfac := reduced_factor hQ1 As
  have eM : (As - Q1 * (Q1ᵀ * As))ᵀ = Asᵀ - (Asᵀ * Q1) * Q1ᵀ := by
    simp [transpose_sub, transpose_mul, Matrix.mul_assoc]
  refine ⟨As - Q1 * (Q1ᵀ * As), Asᵀ * Q1, ?_, ?_, ?_, ?_⟩
  · rw [← hfac]
    unfold reducedInfo
    rw [show Asᵀ * Al * (Alᵀ * Al)⁻¹ * (Alᵀ * As) = Asᵀ * (Al * (Alᵀ * Al)⁻¹ * Alᵀ) * As by simp only [Matrix.mul_assoc], hP,
      transpose_mul, transpose_transpose]
    simp only [Matrix.mul_assoc]
  · unfold reduceLeft firstCols
    simp only
    rw [dif_pos h, okb, eW, hfac, fromUpper_symm (by rw [transpose_mul, transpose_transpose])]
  · unfold reduceRight firstRows
    simp only
    rw [dif_pos h, okb, ey, eM, sub_mulVec, mulVec_mulVec]
  · intro xr
    refine ⟨backSolve f (Q1ᵀ *ᵥ (b - As *ᵥ xr)), ?_, (hq _).2, ?_⟩
    · unfold solveQR firstRows
      rw [dif_pos h, okb, ey]
    · rw [(hq _).1, ← hfac, eM]
      simp only [mulVec_sub, sub_mulVec, mulVec_mulVec, transpose_mul, transpose_transpose, Matrix.mul_assoc]
      abel

theorem no_zero {o : Opts} {A : Mat ℝ} {m n : ℕ} (hm : 0 < m) (hn : 0 < o.epsNorm) : ¬ ZeroNorm o A m n := by
  rintro ⟨-, c, -, -, h⟩
  exact h (Real.sqrt_pos.mpr (mul_pos (by exact_mod_cast hm) hn))

theorem pinv_zero {o : Opts} {svd : Svd3} {k : ℕ} (hk : k = 0) (S : Matrix (Fin k) (Fin k) ℝ) (v x : Fin k → ℝ) :
    x = pinvOf o svd S v := by
  subst hk; exact Subsingleton.elim _ _

/-- What `solve` computes. -/
theorem solve_core (o : Opts) (qr : Spqr) (svd : Svd3) (cache : Option Pattern) (A : Mat ℝ) (m n : ℕ) (b : Fin m → ℝ) (j : ℕ)
    (hqr : IsSpqr qr) (hs : IsSvd3 svd) (hm : 0 < m) (hn : 0 < o.epsNorm) (ht : o.svdTol = -1) (he : 0 ≤ o.epsSVD)
    (tol : ℝ) (htol : QrTol o tol) (hj : j ≤ n) (hc : j ≠ 0 → cached cache (patternOf A m j) = patternOf A m j)
    (hi : Independent tol (leftPart o A m j)) :
    ∃ (p : Option Pattern) (x : ℕ → ℝ) (xl : Fin j → ℝ) (xr : Fin (n - j) → ℝ) (M : Matrix (Fin m) (Fin (n - j)) ℝ),
      solve o qr svd cache A m n b j = .ok (p, x) ∧ p = (if j = 0 then none else some (patternOf A m j)) ∧
      (∀ c : Fin j, x c = scale o (block A 0 0 m j) c * xl c) ∧
      (∀ c : Fin (n - j), x (j + c) = scale o (block A 0 j m (n - j)) c * xr c) ∧
      reducedInfo (leftPart o A m j) (rightPart o A m n j) = Mᵀ * M ∧
      xr = pinvOf o svd (Mᵀ * M) (Mᵀ *ᵥ b) ∧
      (leftPart o A m j)ᵀ *ᵥ (b - rightPart o A m n j *ᵥ xr - leftPart o A m j *ᵥ xl) = 0 ∧
      (rightPart o A m n j)ᵀ *ᵥ (b - rightPart o A m n j *ᵥ xr - leftPart o A m j *ᵥ xl) = Mᵀ *ᵥ b - (Mᵀ * M) *ᵥ xr := by
  have hz := no_zero (A := A) (n := n) hm hn
  unfold solve
  rw [if_neg hz]
  by_cases j0 : j = 0
  · subst j0
    have hf : factorize o qr cache A m n 0 = .ok (none, none) := by unfold factorize; rw [if_pos rfl]
    rw [hf, okb]
    have hred : reducedInfo (leftPart o A m 0) (rightPart o A m n 0) = (rightPart o A m n 0)ᵀ * rightPart o A m n 0 := by
      unfold reducedInfo
      have : (rightPart o A m n 0)ᵀ * leftPart o A m 0 = 0 := by ext a b; exact b.elim0
      rw [this]; simp
    have hl0 : ∀ z : Fin 0 → ℝ, leftPart o A m 0 *ᵥ z = 0 := by intro z; funext r; simp [mulVec, dotProduct]
    by_cases hn0 : 0 < n
    · simp only
      rw [if_pos hn0]
      obtain ⟨a, ha, hb⟩ := svd_step hs ht he (k := n - 0) (by omega) ((rightPart o A m n 0)ᵀ * rightPart o A m n 0)
        ((rightPart o A m n 0)ᵀ *ᵥ b)
      have h1 : reduceLeft (j := 0) (none : Option (Factor m 0)) (rightPart o A m n 0) =
        .ok ((rightPart o A m n 0)ᵀ * rightPart o A m n 0, 0) := rfl
      have h2 : reduceRight (j := 0) (none : Option (Factor m 0)) (rightPart o A m n 0) 0 b = .ok ((rightPart o A m n 0)ᵀ *ᵥ b) := rfl
      refine ⟨none, fun c => if c < 0 then 0 else ext (fun i => scale o (block A 0 0 m (n - 0)) i *
        pinvOf o svd ((rightPart o A m n 0)ᵀ * rightPart o A m n 0) ((rightPart o A m n 0)ᵀ *ᵥ b) i) (c - 0),
        fun _ => 0, _, rightPart o A m n 0, ?_, (if_pos trivial).symm, ?_, ?_, hred, rfl, ?_, ?_⟩
      · show (reduceLeft (none : Option (Factor m 0)) (rightPart o A m n 0) >>= _) = _
        rw [h1, okb]
        simp only
        rw [ha, okb]
        show (reduceRight (none : Option (Factor m 0)) (rightPart o A m n 0) 0 b >>= _) = _
        rw [h2, okb, hb, okb]
      · intro c; exact c.elim0
      · intro c
        show (if 0 + (c : ℕ) < 0 then (0 : ℝ) else _) = _
        rw [if_neg (by omega), Nat.zero_add]
        exact ext_lt _ c
      · funext c; exact c.elim0
      · rw [hl0, sub_zero, mulVec_sub, mulVec_mulVec]
    · have hn1 : n = 0 := by omega
      subst hn1
      simp only
      rw [if_neg (by omega)]
      refine ⟨none, fun _ => 0, fun _ => 0, fun _ => 0, rightPart o A m 0 0, rfl, (if_pos trivial).symm, fun c => c.elim0, fun c => c.elim0, hred,
        pinv_zero rfl _ _ _, ?_, ?_⟩ <;> (funext c; exact c.elim0)
  · have hf : factorize o qr cache A m n j = .ok (some (patternOf A m j), some (qr tol m j (leftPart o A m j))) := by
      unfold factorize
      rw [if_neg j0, if_pos hj]
      simp only
      rw [qr_tol htol, okb, if_pos (hc j0)]
      rfl
    rw [hf, okb]
    obtain ⟨hQ, hR, hjm, hA⟩ := hqr tol m j _ htol.1 hi
    obtain ⟨M, W, c1, c2, c3, c4⟩ := core (rightPart o A m n j) hQ hR hjm hA b
    generalize qr tol m j (leftPart o A m j) = f at *
    by_cases hjn : j < n
    · simp only
      rw [if_pos hjn]
      obtain ⟨a, ha, hb⟩ := svd_step hs ht he (k := n - j) (by omega) (Mᵀ * M) (Mᵀ *ᵥ b)
      obtain ⟨xl, d1, d2, d3⟩ := c4 (pinvOf o svd (Mᵀ * M) (Mᵀ *ᵥ b))
      refine ⟨some (patternOf A m j), fun c => if c < j then ext (fun i => scale o (block A 0 0 m j) i * xl i) c else
        ext (fun i => scale o (block A 0 j m (n - j)) i * pinvOf o svd (Mᵀ * M) (Mᵀ *ᵥ b) i) (c - j), xl, _, M, ?_, (if_neg j0).symm, ?_, ?_, c1, rfl, d2, d3⟩
      · show (reduceLeft (some f) (rightPart o A m n j) >>= _) = _
        rw [c2, okb]
        simp only
        rw [ha, okb]
        show (reduceRight (some f) (rightPart o A m n j) W b >>= _) = _
        rw [c3, okb, hb, okb]
        show (solveQR f b (rightPart o A m n j) _ >>= _) = _
        rw [d1, okb]
      · intro c
        simp only
        rw [if_pos c.isLt, ext_lt]
      · intro c
        simp only
        rw [if_neg (by omega), Nat.add_sub_cancel_left, ext_lt]
    · have hjn' : n = j := by omega
      subst hjn'
      simp only
      rw [if_neg hjn]
      obtain ⟨xl, d1, d2, d3⟩ := c4 (pinvOf o svd (Mᵀ * M) (Mᵀ *ᵥ b))
      have e0 : rightPart o A m n n *ᵥ pinvOf o svd (Mᵀ * M) (Mᵀ *ᵥ b) = 0 := by
        funext r
        simp only [mulVec, dotProduct]
        apply Finset.sum_eq_zero
        intro c _
        exact absurd c.isLt (by omega)
      have e1 : solveQR (k := 0) f b 0 0 = .ok xl := by
        rw [← d1]
        unfold solveQR
        rw [e0]
        simp
      refine ⟨some (patternOf A m n), ext (fun i => scale o (block A 0 0 m n) i * xl i), xl, _, M, ?_, (if_neg j0).symm, ?_, ?_, c1, rfl, d2, d3⟩
      · rw [e1, okb]
      · intro c
        rw [ext_lt]
      · intro c; exact absurd c.isLt (by omega)

/-- The residual in terms of the parts. -/
theorem resid_parts {o : Opts} {A : Mat ℝ} {m n j : ℕ} {b : ℕ → ℝ} {x : ℕ → ℝ} {xl : Fin j → ℝ} {xr : Fin (n - j) → ℝ}
    (hj : j ≤ n) (hl : ∀ c : Fin j, x c = scale o (block A 0 0 m j) c * xl c)
    (hr : ∀ c : Fin (n - j), x (j + c) = scale o (block A 0 j m (n - j)) c * xr c) (i : Fin m) :
    resid A n b x i = ((fun i : Fin m => b i) - rightPart o A m n j *ᵥ xr - leftPart o A m j *ᵥ xl) i := by
  unfold resid
  obtain ⟨k, rfl⟩ := Nat.exists_eq_add_of_le hj
  rw [Finset.sum_range_add]
  have e1 : ∑ c ∈ Finset.range j, A i c * x c = (leftPart o A m j *ᵥ xl) i := by
    rw [Finset.sum_range]
    unfold leftPart
    rw [← mulVec_mulVec]
    apply Finset.sum_congr rfl
    intro c _
    rw [mulVec_diagonal, hl c]
    simp [block]
  have e2 : ∑ c ∈ Finset.range k, A i (j + c) * x (j + c) = (rightPart o A m (j + k) j *ᵥ xr) i := by
    have hk : j + k - j = k := by omega
    unfold rightPart
    rw [← mulVec_mulVec]
    have : ∑ c ∈ Finset.range k, A i (j + c) * x (j + c) = ∑ c ∈ Finset.range (j + k - j), A i (j + c) * x (j + c) := by rw [hk]
    rw [this, Finset.sum_range]
    apply Finset.sum_congr rfl
    intro c _
    rw [mulVec_diagonal, hr c]
    simp [block]
  rw [e1, e2]
  simp only [Pi.sub_apply]
  ring

end Yac.Sparse
