import Verif.Sparse.StepProps

/-!
# Witnesses for C104
-/

namespace Yac.Sparse.Witness
open Yac.Sparse Matrix
open Yac.Solver (Mat)
open Yac.Marg (block)

/-- Three equations in two unknowns: `3 x + 4 y = b₀`, `4 x + 3 y = b₁`, `0 = b₂`. -/
noncomputable def A1 : Mat ℝ := fun r c => if r = 2 then 0 else if r = c then 3 else 4

theorem small : macheps < 1 / 1000 := by unfold macheps; norm_num

theorem A1_norm (c : ℕ) (hc : c < 2) : Real.sqrt (∑ r ∈ Finset.range 3, A1 r c ^ 2) = 5 := by
  have : ∑ r ∈ Finset.range 3, A1 r c ^ 2 = 5 ^ 2 := by
    have : c = 0 ∨ c = 1 := by omega
    rcases this with h | h <;> subst h <;> norm_num [A1, Finset.sum_range_succ]
  rw [this, Real.sqrt_sq (by norm_num)]

theorem A1_sig (c : ℕ) (hc : c < 2) : Significant defaults A1 3 c := by
  intro _
  rw [A1_norm c hc, Real.sqrt_le_left (by norm_num)]
  show ((3 : ℕ) : ℝ) * macheps ≤ 5 ^ 2
  have := small
  push_cast
  linarith

theorem A1_scale (i : ℕ) (hi : i < 2) : scale defaults (block A1 0 i 3 1) = fun _ => 1 / 5 := by
  funext c
  have e : norm2 (fun r : Fin 3 => block A1 0 i 3 1 r c) = 5 := by
    rw [← A1_norm i hi, ← norm_range (fun r => A1 r i)]
    simp [block]
  have h := A1_sig i hi rfl
  rw [A1_norm i hi] at h
  unfold scale scaling
  rw [if_pos (show defaults.columnScaling = true from rfl)]
  simp only [e]
  rw [if_neg (not_lt.mpr h)]

/-- One information that is not negative has a gap. -/
theorem gap_one {eps : ℝ} (he : eps < 1) (S : Matrix (Fin 1) (Fin 1) ℝ) (h : 0 ≤ S 0 0) : Gapped eps S := by
  have key : ∀ mu, Eig S mu → mu = S 0 0 := by
    rintro mu ⟨v, hv, h⟩
    have h0 := congrFun h 0
    simp [mulVec, dotProduct] at h0
    rcases h0 with h0 | h0
    · exact h0.symm
    · exact absurd (funext (fun i => by rw [Subsingleton.elim i 0]; exact h0)) hv
  intro mu nu h1 h2
  rw [key mu h1, key nu h2]
  rcases eq_or_lt_of_le h with h' | h'
  · exact Or.inl h'.symm
  · right; push_cast; nlinarith

/-- One column of length `l` beyond the tolerance. -/
theorem indep_one {m : ℕ} {tol : ℝ} (A : Matrix (Fin m) (Fin 1) ℝ) (h : tol < norm2 (fun r => A r 0)) : Independent tol A := by
  intro c v hv
  have hv0 : v 0 = 1 := by rw [← hv]; congr 1; exact Subsingleton.elim _ _
  have : A *ᵥ v = fun r => A r 0 := by
    funext r; simp [mulVec, dotProduct, hv0]
  rw [this]; exact h

theorem A1_left : Independent macheps (leftPart defaults A1 3 1) := by
  apply indep_one
  unfold leftPart
  rw [A1_scale 0 (by norm_num)]
  have : norm2 (fun r : Fin 3 => (block A1 0 0 3 1 * diagonal fun _ : Fin 1 => (1 / 5 : ℝ)) r 0) = 1 := by
    unfold norm2
    rw [Fin.sum_univ_three]
    norm_num [mul_diagonal, block, A1]
  rw [this]
  have := small
  linarith

theorem A1_info {Al Ar : Matrix (Fin 3) (Fin 1) ℝ} (s : ℝ) (hs : s ≠ 0) (hl : ∀ r, Al r 0 = A1 r 0 * s) (hr : ∀ r, Ar r 0 = A1 r 1 * s) :
    reducedInfo Al Ar 0 0 = 49 / 25 * s ^ 2 := by
  have d : (Alᵀ * Al) = diagonal (fun _ => 25 * s ^ 2) := by
    ext i j
    rw [Subsingleton.elim i 0, Subsingleton.elim j 0, mul_apply, diagonal_apply_eq, Fin.sum_univ_three]
    simp only [transpose_apply, hl]
    norm_num [A1]
    ring
  have dinv : (Alᵀ * Al)⁻¹ = diagonal (fun _ => (25 * s ^ 2)⁻¹) := by
    rw [d]
    apply inv_eq_right_inv
    rw [diagonal_mul_diagonal]
    ext i j
    rw [Subsingleton.elim i 0, Subsingleton.elim j 0, diagonal_apply_eq, one_apply_eq]
    field_simp
  unfold reducedInfo
  rw [dinv, Matrix.sub_apply, mul_apply, mul_apply, Fin.sum_univ_three, Finset.univ_unique, Finset.sum_singleton, mul_diagonal,
    mul_apply, mul_apply, Fin.sum_univ_three, Fin.sum_univ_three]
  simp only [transpose_apply, Fin.default_eq_zero, hl, hr]
  norm_num [A1]
  field_simp
  norm_num

theorem defaults_svd : defaults.epsSVD < 1 := by show macheps < 1; have := small; linarith

theorem A1_gap : Gapped defaults.epsSVD (reducedInfo (leftPart defaults A1 3 1) (rightPart defaults A1 3 2 1)) := by
  apply gap_one defaults_svd
  rw [A1_info (1 / 5) (by norm_num)]
  · norm_num
  · intro r
    unfold leftPart
    rw [A1_scale 0 (by norm_num), mul_diagonal]
    simp [block]
  · intro r
    unfold rightPart
    rw [A1_scale 1 (by norm_num), mul_diagonal]
    simp [block]

theorem defaults_tol : QrTol defaults macheps := ⟨macheps_pos.le, Or.inr ⟨rfl, macheps_pos, rfl⟩⟩

/-- C104, normal equations and minimum: the first unknown is marginalised. -/
example (b : ℕ → ℝ) : ∃ qr svd, IsSpqr qr ∧ IsSvd3 svd ∧ ∃ p x, solve defaults qr svd none A1 3 2 (fun i => b i) 1 = .ok (p, x) ∧
    ∀ y, cost A1 3 2 b x ≤ cost A1 3 2 b y := by
  obtain ⟨qr, hqr⟩ := spqr_exists
  obtain ⟨svd, hs⟩ := svd3_exists
  exact ⟨qr, svd, hqr, hs, C104_minimum defaults qr svd none A1 3 2 b 1 hqr hs (by norm_num) macheps_pos rfl macheps_pos.le
    macheps defaults_tol (by norm_num) (fun _ => rfl) A1_left A1_gap A1_sig⟩

theorem A1_clean : Clean A1 3 2 := by
  intro r _ c _
  have := small
  unfold A1
  split_ifs
  · exact Or.inl rfl
  · right; rw [abs_of_pos (by norm_num)]; linarith
  · right; rw [abs_of_pos (by norm_num)]; linarith

/-- C104, step: the residual `(7, 7, 1)` is reduced by the step `(-1, -1)`. -/
example (junk : ℕ → ℝ × ℕ) : ∃ qr svd, IsSpqr qr ∧ IsSvd3 svd ∧ ∃ p dx,
    gnStep defaults qr svd junk none A1 (fun i => if i = 2 then 1 else 7) 3 2 1 = .ok (p, dx) ∧ dx 0 = -1 ∧ dx 1 = -1 := by
  obtain ⟨qr, hqr⟩ := spqr_exists
  obtain ⟨svd, hs⟩ := svd3_exists
  obtain ⟨p, dx, h1, h2, -, -⟩ := C104_step defaults qr svd junk none A1 3 2 (fun i => if i = 2 then 1 else 7) 1 A1_clean hqr hs
    (by norm_num) macheps_pos rfl macheps_pos.le macheps defaults_tol (by norm_num) (fun _ => rfl) A1_left A1_gap A1_sig
  have e0 := h2 0 (by norm_num)
  have e1 := h2 1 (by norm_num)
  simp only [Finset.sum_range_succ, Finset.sum_range_zero, A1] at e0 e1
  norm_num at e0 e1
  exact ⟨qr, svd, hqr, hs, p, dx, h1, by linarith, by linarith⟩

/-- C104, truncation: the direction of the second unknown. -/
example (b : ℕ → ℝ) : ∃ qr svd, IsSpqr qr ∧ IsSvd3 svd ∧ ∃ p x, solve defaults qr svd none A1 3 2 (fun i => b i) 1 = .ok (p, x) ∧
    ∑ i ∈ Finset.range 3, A1 i 0 * resid A1 2 b x i = 0 := by
  obtain ⟨qr, hqr⟩ := spqr_exists
  obtain ⟨svd, hs⟩ := svd3_exists
  obtain ⟨p, x, h1, h2, -⟩ := C104_truncated defaults qr svd none A1 3 2 b 1 hqr hs (by norm_num) macheps_pos rfl macheps_pos.le
    macheps defaults_tol (by norm_num) (fun _ => rfl) A1_left
  exact ⟨qr, svd, hqr, hs, p, x, h1, h2 0 (by norm_num)⟩

/-- C104, determinant: the conditions hold for `A1` and the last unknown. -/
example (junk : ℕ → ℝ × ℕ) : ∃ qr svd, IsSpqr qr ∧ IsSvd3 svd ∧ 0 < (marginalCovar A1 3 2 1).det ∧
    logDetCovar defaults qr svd junk A1 3 2 1 = .ok (Real.log (marginalCovar A1 3 2 1).det) := by
  obtain ⟨qr, hqr⟩ := spqr_exists
  obtain ⟨svd, hs⟩ := svd3_exists
  have hinfo : reducedInfo (block A1 0 0 3 1) (block A1 0 1 3 (2 - 1)) 0 0 = 49 / 25 := by
    have := A1_info (Al := block A1 0 0 3 1) (Ar := block A1 0 1 3 1) 1 one_ne_zero (by intro r; simp [block]) (by intro r; simp [block])
    rw [one_pow, mul_one] at this
    exact this
  refine ⟨qr, svd, hqr, hs, C104_logdet_partial defaults qr svd junk A1 3 2 1 A1_clean hqr hs rfl macheps_pos.le macheps defaults_tol
    (by norm_num) ?_ ?_ ?_⟩
  · apply indep_one
    have : norm2 (fun r : Fin 3 => block A1 0 0 3 1 r 0) = 5 := by
      rw [← A1_norm 0 (by norm_num), ← norm_range (fun r => A1 r 0)]
      simp [block]
    rw [this]
    have := small
    linarith
  · apply gap_one defaults_svd
    rw [hinfo]; norm_num
  · have : (reducedInfo (block A1 0 0 3 1) (block A1 0 1 3 (2 - 1))).det = 49 / 25 := by
      rw [← hinfo]; exact det_fin_one _
    rw [this]; norm_num

/-- The contract of the singular values in C96 can be met too. -/
example : ∃ svd, Info.IsSvd svd := by
  obtain ⟨svd, hs⟩ := svd3_exists
  exact ⟨fun k S => (svd k S).2.1, fun k S => ⟨(hs k S).2.2.1, _, _, (hs k S).1, (hs k S).2.1, (hs k S).2.2.2.2⟩⟩

end Yac.Sparse.Witness
