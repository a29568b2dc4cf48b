import Verif.Solver.CovLemmas

/-!
# C86: `estimate_covariance` returns the marginal covariance of the requested parameters
-/

namespace Yac.Solver
open Matrix Yac.Marg Finset

set_option linter.unusedSectionVars false
variable {P : Type} [DecidableEq P]
variable {info : P → ParamInfo} {fs : List (Res ℝ P)} {params : List P} {S : Finset P}

/-! ### The Schur complement of the code -/

/-- Columns of the stacked Jacobian. -/
noncomputable def jacPart (info : P → ParamInfo) (fs : List (Res ℝ P)) (params : List P) (i n : Nat) :
    Matrix (Fin (resLen fs)) (Fin n) ℝ :=
  fun k a => stackJ info (cOf info fs params) fs k (i + a)

theorem block_jac (i j m n : Nat) : block (HOf info fs params) i j m n =
    (jacPart info fs params i m)ᵀ * jacPart info fs params j n := by
  obtain ⟨e, _⟩ := hess_all info (cOf info fs params) fs (fun _ _ => 0) (fun _ => 0)
  have e : ∀ a b, HOf info fs params a b = 0 + ∑ k ∈ range (resLen fs),
    stackJ info (cOf info fs params) fs k a * stackJ info (cOf info fs params) fs k b := e
  ext a b
  rw [block, e, zero_add, Matrix.mul_apply, Finset.sum_range]
  rfl

/-- What `H_marg` solves, for any generalised inverse. -/
theorem marg_solves {Q : Matrix (Fin (mOf info fs params)) (Fin (mOf info fs params)) ℝ}
    (hQ : Qᵀ = Q)
    (hG : block (HOf info fs params) 0 0 (mOf info fs params) (mOf info fs params) * Q *
      block (HOf info fs params) 0 0 (mOf info fs params) (mOf info fs params) =
      block (HOf info fs params) 0 0 (mOf info fs params) (mOf info fs params))
    (e : Nat → ℝ) (he : ∀ a < mOf info fs params, e a = 0) (xr : Fin (rOf info params) → ℝ) :
    (block (HOf info fs params) (mOf info fs params) (mOf info fs params) (rOf info params) (rOf info params) -
      block (HOf info fs params) (mOf info fs params) 0 (rOf info params) (mOf info fs params) * Q *
        block (HOf info fs params) 0 (mOf info fs params) (mOf info fs params) (rOf info params)) *ᵥ xr =
      (fun i : Fin (rOf info params) => e (mOf info fs params + i)) ↔
    ∃ x, Solves (mOf info fs params + rOf info params) (HOf info fs params) e x ∧
      ∀ i : Fin (rOf info params), x (mOf info fs params + i) = xr i := by
  have h0 : seg e 0 (mOf info fs params) = 0 := by
    funext a; simp only [seg, Nat.zero_add]; exact he a a.2
  rw [block_jac] at hG
  have h1 := ginv_right hQ hG
  have h3 := ginv_left hQ hG
  have key := schur_solves (m := mOf info fs params) (r := rOf info params)
    (H := HOf info fs params) (b := e) (Q := Q)
    (by rw [block_jac, block_jac, ← Matrix.mul_assoc, h1])
    (by rw [h0, Matrix.mulVec_zero])
    (by
      rw [block_jac, block_jac, Matrix.mul_assoc, Matrix.mul_assoc,
        ← Matrix.mul_assoc (jacPart info fs params 0 (mOf info fs params)), h3]) xr
  rw [← key]
  unfold complement
  simp only [h0, Matrix.mulVec_zero, sub_zero]
  rfl

/-- A vector over the columns from one over the parameters. -/
theorem entries_apply {r : Nat} (C : Matrix (Fin r) (Fin r) ℝ) (a b : Nat) (ha : a < r) (hb : b < r) :
    entries C a b = C ⟨a, ha⟩ ⟨b, hb⟩ := by
  unfold entries
  rw [dif_pos ⟨ha, hb⟩]

theorem covFits_true (h : CovSetting info fs params S) :
    covFits info (covOrder info params (blk fs)) (mOf info fs params + rOf info params) fs = true := by
  unfold covFits
  simp only [List.all_eq_true, Bool.or_eq_true, decide_eq_true_eq]
  intro f hf b hb
  by_cases hx : (info b.1).fixed = true
  · exact Or.inl hx
  · exact Or.inr (col_le h ((h.opt _).mpr ⟨by simpa using hx, f, hf, List.mem_map_of_mem hb⟩))

/-- The stages of the function. -/
theorem estimate_some {eig : EigSolver} {n : Nat} {C : Mat ℝ}
    (hr : estimateCovariance eig info fs params = .ok (some (n, C))) :
    n = rOf info params ∧ ∃ Q, Q = pseudoInv eig (symmetrise
        (block (HOf info fs params) 0 0 (mOf info fs params) (mOf info fs params))) ∧
      ∃ M, M = block (HOf info fs params) (mOf info fs params) (mOf info fs params)
          (rOf info params) (rOf info params) -
        block (HOf info fs params) (mOf info fs params) 0 (rOf info params) (mOf info fs params) * Q *
          block (HOf info fs params) 0 (mOf info fs params) (mOf info fs params) (rOf info params) ∧
        M.det ≠ 0 ∧ C = entries M⁻¹ := by
  unfold estimateCovariance margCovariance at hr
  simp only at hr
  split_ifs at hr with h1 h2 h3 h4
  · cases hr
  · injection hr with hr
    injection hr with hr
    injection hr with hn hC
    exact ⟨hn.symm, _, rfl, _, rfl, h4, hC.symm⟩

theorem block_symm (i n : Nat) :
    (block (HOf info fs params) i i n n)ᵀ = block (HOf info fs params) i i n n := by
  rw [block_jac, transpose_mul, transpose_transpose]

/-- **C86, what is returned.**  For every set of residuals and every list of requested parameters
without repetition: if the information matrix of the other optimised parameters has no eigenvalue
in (0, 1e-8], a returned matrix has one row per component of the requested parameters that are not
fixed, in the order requested, and is exactly the corresponding part of the inverse of the
information matrix `Σ JᵀJ` of all optimised parameters; that part is unique.  Missing: small
positive eigenvalues, see `C86_small_refuted`. -/
theorem C86_covariance_partial (eig : EigSolver) (he : IsEigSolver eig)
    (h : CovSetting info fs params S)
    (hl : ∀ lam, InfoEigenvalue info fs (S.filter (fun p => p ∉ params)) lam → lam = 0 ∨ 1e-8 < lam)
    (n : Nat) (C : Nat → Nat → ℝ)
    (hr : estimateCovariance eig info fs params = .ok (some (n, C))) :
    n = ((params.filter (fun p => !(info p).fixed)).map (fun p => (info p).size)).sum ∧
    IsCovariance info fs S params C ∧
    ∀ x, (∀ p ∈ S, ∀ i < (info p).size, applyInfo info fs S x p i = 0) →
      ∀ p ∈ params, (info p).fixed = false → ∀ i < (info p).size, x p i = 0 := by
  obtain ⟨hn, Q, hQ, M, hM, hdet, hC⟩ := estimate_some hr
  have hsym := block_symm (info := info) (fs := fs) (params := params) 0 (mOf info fs params)
  rw [symmetrise_self hsym] at hQ
  have hG := pseudoInv_ginv he hsym (fun lam hlam => hl lam (eig_marg h lam hlam))
  have hP := pseudoInv_symm eig
    (block (HOf info fs params) 0 0 (mOf info fs params) (mOf info fs params))
  rw [← hQ] at hG hP
  have hunit : IsUnit M.det := isUnit_iff_ne_zero.mpr hdet
  refine ⟨hn, ?_, ?_⟩
  · intro q hq hqf j hj
    have hoff := offset_le h hq hqf
    have hlt : offset info params q + j < rOf info params := by omega
    set e : Nat → ℝ := fun a => if a = mOf info fs params + (offset info params q + j) then 1 else 0
      with heq
    have hs := marg_solves hP hG e (by intro a ha; simp only [heq]; rw [if_neg (by omega)])
      (fun i => M⁻¹ i ⟨offset info params q + j, hlt⟩)
    rw [← hM] at hs
    obtain ⟨y, hy, hyr⟩ := hs.mp (by
      funext i
      have h1 : (M * M⁻¹) i ⟨offset info params q + j, hlt⟩ =
          (1 : Matrix (Fin (rOf info params)) (Fin (rOf info params)) ℝ) i
            ⟨offset info params q + j, hlt⟩ := by
        rw [Matrix.mul_nonsing_inv M hunit]
      rw [Matrix.mul_apply] at h1
      simp only [Matrix.mulVec, dotProduct, heq]
      rw [h1, Matrix.one_apply]
      by_cases hi : (i : Nat) = offset info params q + j
      · rw [if_pos (Fin.ext hi), if_pos (by omega)]
      · rw [if_neg (fun e => hi (congrArg Fin.val e)), if_neg (by omega)])
    refine ⟨fun p i => y (cOf info fs params p + i), ?_, ?_⟩
    · intro p hp i hi
      rw [(solves_iff h e y).mp hy p hp i hi]
      simp only [heq]
      have hcq := col_keep h hq hqf
      by_cases hpq : p = q ∧ i = j
      · rw [if_pos hpq, if_pos (by rw [hpq.1, hpq.2, hcq, Nat.add_assoc])]
      · rw [if_neg hpq, if_neg]
        intro hc
        rw [← Nat.add_assoc, ← hcq] at hc
        have hpe := disj h p hp q (h.used q hq hqf) (cOf info fs params p + i)
          ⟨by omega, by omega⟩ ⟨by omega, by omega⟩
        subst hpe
        exact hpq ⟨rfl, by omega⟩
    · intro p hp hpf i hi
      have hoffp := offset_le h hp hpf
      have hltp : offset info params p + i < rOf info params := by omega
      rw [hC, entries_apply _ _ _ hltp hlt]
      have := hyr ⟨offset info params p + i, hltp⟩
      rw [← this]
      show _ = y (cOf info fs params p + i)
      rw [col_keep h hp hpf, Nat.add_assoc]
  · intro x hx p hp hpf i hi
    classical
    -- a vector over the columns with the values of `x`
    set y : Nat → ℝ := fun a => if ha : ∃ p ∈ S, ∃ i < (info p).size, a = cOf info fs params p + i
      then x ha.choose (a - cOf info fs params ha.choose) else 0 with hy
    have hyx : ∀ p ∈ S, ∀ i < (info p).size, y (cOf info fs params p + i) = x p i := by
      intro p hp i hi
      have ha : ∃ q ∈ S, ∃ j < (info q).size,
          cOf info fs params p + i = cOf info fs params q + j := ⟨p, hp, i, hi, rfl⟩
      simp only [hy]
      rw [dif_pos ha]
      obtain ⟨hqS, j, hj, hc⟩ := ha.choose_spec
      have := disj h p hp ha.choose hqS (cOf info fs params p + i) ⟨by omega, by omega⟩
        ⟨by omega, by omega⟩
      rw [← this, Nat.add_sub_cancel_left]
    have hsol : Solves (mOf info fs params + rOf info params) (HOf info fs params) (fun _ => 0) y := by
      rw [solves_iff h]
      intro p hp i hi
      rw [← hx p hp i hi]
      unfold applyInfo
      apply sum_congr rfl
      intro q hq
      apply sum_congr rfl
      intro j hj
      show infoEntry fs p i q j * y (cOf info fs params q + j) = _
      rw [hyx q hq j (mem_range.mp hj)]
    have hs := (marg_solves hP hG (fun _ => 0) (fun _ _ => rfl)
      (fun i => y (mOf info fs params + i))).mpr ⟨y, hsol, fun _ => rfl⟩
    rw [← hM] at hs
    have h0 : (fun i : Fin (rOf info params) => y (mOf info fs params + i)) = 0 := by
      have : M⁻¹ *ᵥ (M *ᵥ (fun i : Fin (rOf info params) => y (mOf info fs params + i))) = 0 := by
        rw [hs]; exact Matrix.mulVec_zero _
      rwa [Matrix.mulVec_mulVec, Matrix.nonsing_inv_mul M hunit, Matrix.one_mulVec] at this
    have hoffp := offset_le h hp hpf
    have := congrFun h0 ⟨offset info params p + i, by omega⟩
    rw [← hyx p (h.used p hp hpf) i hi, col_keep h hp hpf, Nat.add_assoc]
    exact this

/-- **C86, when it is returned.**  If something is left to marginalise, the information matrix of
the parameters to be marginalised has all its eigenvalues above 1e-8 and the information matrix of
all optimised parameters is nonsingular, a matrix is returned. -/
theorem C86_succeeds_partial (eig : EigSolver) (he : IsEigSolver eig)
    (h : CovSetting info fs params S)
    (hm : ∃ p ∈ S, p ∉ params ∧ 0 < (info p).size)
    (hl : ∀ lam, InfoEigenvalue info fs (S.filter (fun p => p ∉ params)) lam → 1e-8 < lam)
    (hN : ∀ x, (∀ p ∈ S, ∀ i < (info p).size, applyInfo info fs S x p i = 0) →
      ∀ p ∈ S, ∀ i < (info p).size, x p i = 0) :
    ∃ n C, estimateCovariance eig info fs params = .ok (some (n, C)) := by
  have hsym := block_symm (info := info) (fs := fs) (params := params) 0 (mOf info fs params)
  have hinv := pseudoInv_inv he hsym (fun lam hlam => hl lam (eig_marg h lam hlam))
  have hP := pseudoInv_symm eig
    (block (HOf info fs params) 0 0 (mOf info fs params) (mOf info fs params))
  have hm0 : mOf info fs params ≠ 0 := by
    obtain ⟨p, hp, hnp, hsz⟩ := hm
    have := (col_marg h hp hnp).2
    omega
  unfold estimateCovariance margCovariance
  simp only
  rw [if_neg (by
    have := covFits_true h
    unfold mOf rOf blk at this
    rw [this]; simp), if_neg hm0]
  rw [symmetrise_self hsym]
  rw [if_neg (by
    rw [hinv, sub_self]
    simp only [Matrix.zero_apply, sum_const_zero, abs_zero]
    norm_num)]
  rw [if_neg]
  · exact ⟨_, _, rfl⟩
  · intro hdet
    obtain ⟨v, hv, hv0⟩ := Matrix.exists_mulVec_eq_zero_iff.mpr hdet
    have hs := (marg_solves hP (by rw [hinv, Matrix.one_mul]) (fun _ => 0) (fun _ _ => rfl) v).mp hv0
    obtain ⟨y, hy, hyr⟩ := hs
    have h0 := hN _ ((solves_iff h _ y).mp hy)
    apply hv
    funext i
    obtain ⟨p, hp, k, hk, hc⟩ := cover h (mOf info fs params + i)
      (by have : (i : Nat) < rOf info params := i.2; omega)
    rw [← hyr i, hc]
    exact h0 p hp k hk

/-- C86 fails when nothing is left to marginalise: the covariance of all optimised parameters
cannot be had, the program aborts. -/
theorem C86_all_refuted (eig : EigSolver) (h : CovSetting info fs params S)
    (hall : ∀ p ∈ S, p ∈ params) : estimateCovariance eig info fs params = .error .fatal := by
  have he : covMarg info params (blk fs) = [] := by
    rw [List.eq_nil_iff_forall_not_mem]
    intro p hp
    have := (mem_covMarg h p).mp hp
    exact this.2 (hall p this.1)
  unfold estimateCovariance margCovariance
  simp only
  rw [if_neg (by
    have := covFits_true h
    unfold mOf rOf blk at this
    rw [this]; simp), if_pos (by unfold blk at he; rw [he]; rfl)]

/-- C86 fails for a requested parameter that no residual depends on: no covariance is ever
returned, not even for the other parameters. -/
theorem C86_unused_refuted (eig : EigSolver)
    (hk : ∀ q, Optimised info fs q → q ∉ params → (info q).kind ≠ .other)
    (p : P) (hp : p ∈ params) (hf : (info p).fixed = false) (hsz : 0 < (info p).size)
    (hun : ∀ f ∈ fs, p ∉ f.blocks.map Prod.fst) :
    ∀ n C, estimateCovariance eig info fs params ≠ .ok (some (n, C)) := by
  intro n C hr
  obtain ⟨-, Q, hQ, M, hM, hdet, -⟩ := estimate_some hr
  have hmarg : ∀ q, q ∈ covMarg info params (blk fs) ↔ Optimised info fs q ∧ q ∉ params := by
    intro q
    have := track_all_mem (skipAsked info params) (blk fs) q
    unfold covMarg
    simp only
    rw [Track.all] at this
    rw [this, mem_blocks_flatten]
    unfold skipAsked Optimised
    by_cases hq : q ∈ params
    · simp [hq]
    · simp only [hq, if_false, not_false_iff, and_true]
      constructor
      · rintro ⟨a, b, c⟩; exact ⟨b, a⟩
      · rintro ⟨a, b⟩; exact ⟨b, a, hk q ⟨a, b⟩ hq⟩
  have hkp : p ∈ covKeep info params := (mem_covKeep p).mpr ⟨hp, hf⟩
  have hpm : p ∉ covMarg info params (blk fs) := fun e => ((hmarg p).mp e).2 hp
  have hmemL : p ∈ covMarg info params (blk fs) ++ covKeep info params := by simp [hkp]
  have hcol : cOf info fs params p = mOf info fs params + offset info params p := by
    unfold cOf covOrder
    rw [assign_append, col_append_right _ _ _ (by rw [assign_keys]; exact hpm), offset_eq _ _ hkp,
      Nat.zero_add]
    rfl
  have hle : offset info params p + (info p).size ≤ rOf info params := by
    have h1 := (assign_bounds info (covKeep info params) 0 p hkp).2
    rw [offset_eq _ _ hkp] at h1
    simpa [rOf, totalSize] using h1
  have hzero : ∀ k, stackJ info (cOf info fs params) fs k (cOf info fs params p) = 0 := by
    have : ∀ (gs : List (Res ℝ P)), (∀ g ∈ gs, g ∈ fs) → ∀ k,
        stackJ info (cOf info fs params) gs k (cOf info fs params p) = 0 := by
      intro gs
      induction gs with
      | nil => intros; rfl
      | cons g gs ih =>
        intro hg k
        rw [stackJ]
        split_ifs
        · apply rowG_zero
          intro b hb hbf hc
          have hbL : b.1 ∈ covMarg info params (blk fs) ++ covKeep info params := by
            rw [List.mem_append]
            by_cases hbp : b.1 ∈ params
            · exact Or.inr ((mem_covKeep _).mpr ⟨hbp, hbf⟩)
            · exact Or.inl ((hmarg _).mpr ⟨⟨hbf, g, hg g List.mem_cons_self,
                List.mem_map_of_mem hb⟩, hbp⟩)
          have := assign_disjoint info _ 0 (cOf info fs params p) b.1 p hbL hmemL hc
            ⟨Nat.le_refl _, by show cOf info fs params p < cOf info fs params p + _; omega⟩
          exact hun g (hg g List.mem_cons_self) (this ▸ List.mem_map_of_mem hb)
        · exact ih (fun x hx => hg x (List.mem_cons_of_mem _ hx)) _
    exact this fs (fun _ h => h)
  have hH : ∀ b, HOf info fs params (cOf info fs params p) b = 0 := by
    intro b
    obtain ⟨e, _⟩ := hess_all info (cOf info fs params) fs (fun _ _ => 0) (fun _ => 0)
    have e : ∀ a b, HOf info fs params a b = 0 + ∑ k ∈ range (resLen fs),
      stackJ info (cOf info fs params) fs k a * stackJ info (cOf info fs params) fs k b := e
    rw [e, zero_add]
    apply sum_eq_zero
    intro k _
    rw [hzero, zero_mul]
  apply hdet
  have hlt : offset info params p < rOf info params := by omega
  apply Matrix.det_eq_zero_of_row_eq_zero (⟨offset info params p, hlt⟩ : Fin (rOf info params))
  intro j
  have hrow : ∀ (n i : Nat) (b : Fin n),
      block (HOf info fs params) (mOf info fs params) i (rOf info params) n
        ⟨offset info params p, hlt⟩ b = 0 := by
    intro n i b
    unfold block
    simp only
    rw [← hcol]
    exact hH _
  rw [hM, Matrix.sub_apply, hrow, Matrix.mul_assoc, Matrix.mul_apply]
  simp only [hrow, zero_mul, sum_const_zero, sub_zero]

end Yac.Solver
