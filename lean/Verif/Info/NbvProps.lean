import Verif.Info.NbvJac

/-!
# C96: the score of a candidate view is the uncertainty the calibration would be left with
-/

namespace Yac.Info
open Matrix Yac.Marg Yac.Solver Finset

set_option linter.unusedSectionVars false

variable {P : Type} [DecidableEq P]
variable {info : P → ParamInfo} {cams exts : List P} {views : Nat} {fs new : List (Res ℝ P)} {np : P}
  {C Q : Finset P}

theorem mem_old (h : Scene info cams exts views fs new np C Q) {p : P} (ho : Optimised info fs p) :
    p ∈ calL info fs ++ poseL info fs := by
  have hm := mem_all h (opt_left (new := new) ho)
  rcases List.mem_append.mp hm with a | a
  · exact a
  · rw [List.mem_singleton] at a
    subst a
    obtain ⟨_, f, hf, hp⟩ := ho
    exact absurd hp (h.np_new f hf)

/-- The evaluator the constructor makes. -/
noncomputable def made (info : P → ParamInfo) (cams exts : List P) (views : Nat)
    (fs : List (Res ℝ P)) : Evaluator P :=
  ⟨nbvOrder info (blk fs), poseL info fs, remainSize info cams exts,
    remainSize info cams exts + views * 6 + 6, gram info (col (nbvOrder info (blk fs))) fs⟩

theorem nc_le (h : Scene info cams exts views fs new np C Q) {p : P}
    (ho : Optimised info (fs ++ new) p) :
    nc info fs np p + (info p).size ≤ remainSize info cams exts + views * 6 + 6 := by
  rcases mem_CQ h ho with a | a
  · have := (nc_C h a).2; omega
  · have := (nc_Q h a).2; omega

theorem create_made (h : Scene info cams exts views fs new np C Q) :
    create info cams exts views fs = .ok (made info cams exts views fs) := by
  have hfit : covFits info (nbvOrder info (blk fs))
      (remainSize info cams exts + views * 6 + 6) fs = true := by
    unfold covFits
    simp only [List.all_eq_true, Bool.or_eq_true, decide_eq_true_eq]
    intro f hf b hb
    by_cases hx : (info b.1).fixed = true
    · exact Or.inl hx
    · have ho : Optimised info fs b.1 := ⟨by simpa using hx, f, hf, List.mem_map_of_mem hb⟩
      rw [order_col (np := np) b.1 (mem_old h ho)]
      exact Or.inr (nc_le h (opt_left ho))
  unfold create
  simp only
  rw [if_neg (by rw [hfit]; simp)]
  rfl

theorem nbvCol_made (h : Scene info cams exts views fs new np C Q) {p : P}
    (ho : Optimised info (fs ++ new) p) :
    nbvCol (made info cams exts views fs) p = some (nc info fs np p) := by
  unfold nbvCol made
  simp only
  have hk : ∀ p, p ∈ List.map Prod.fst (nbvOrder info (blk fs)) ↔ p ∈ calL info fs ++ poseL info fs := by
    intro p
    unfold nbvOrder
    rw [assign_keys]
  by_cases hm : p ∈ calL info fs ++ poseL info fs
  · rw [if_pos ((hk p).mpr hm), order_col (np := np) p hm]
  · rw [if_neg (fun e => hm ((hk p).mp e))]
    have hp : p = np := by
      rcases List.mem_append.mp (mem_all h ho) with a | a
      · exact absurd a hm
      · exact List.mem_singleton.mp a
    obtain ⟨q, hq, e⟩ := pose_last h
    rw [hq, Option.map_some, e, hp, nc_np h]

theorem fits_made (h : Scene info cams exts views fs new np C Q) :
    nbvFits info (made info cams exts views fs) new = true := by
  unfold nbvFits
  simp only [List.all_eq_true, Bool.or_eq_true]
  intro f hf b hb
  by_cases hx : (info b.1).fixed = true
  · exact Or.inl hx
  · have ho : Optimised info (fs ++ new) b.1 :=
      opt_right ⟨by simpa using hx, f, hf, List.mem_map_of_mem hb⟩
    rw [nbvCol_made h ho]
    exact Or.inr (decide_eq_true (nc_le h ho))

/-- `H_new`. -/
theorem sum_made (h : Scene info cams exts views fs new np C Q) (a b : Nat) :
    (made info cams exts views fs).H a b +
      gram info (fun p => (nbvCol (made info cams exts views fs) p).getD 0) new a b =
    ∑ k ∈ range (resLen (fs ++ new)), bigJ info fs new np k a * bigJ info fs new np k b := by
  have e1 : (made info cams exts views fs).H a b = gram info (nc info fs np) fs a b :=
    gram_congr info _ _ fs (fun p hp => order_col p (mem_old h hp)) a b
  have e2 := gram_congr info (fun p => (nbvCol (made info cams exts views fs) p).getD 0)
    (nc info fs np) new (fun p hp => by
      show (nbvCol (made info cams exts views fs) p).getD 0 = _
      rw [nbvCol_made h (opt_right hp)]; rfl) a b
  rw [e1, e2, gram_eq, gram_eq, sum_stackJ, List.map_append, List.sum_append]

/-- The matrix whose singular values are taken. -/
theorem schur_made (eig : EigSolver) (he : IsEigSolver eig)
    (h : Scene info cams exts views fs new np C Q)
    (hl : ∀ lam, InfoEigenvalue info (fs ++ new) Q lam → 1e-8 < lam) (H : Mat ℝ)
    (hH : ∀ a b, H a b = ∑ k ∈ range (resLen (fs ++ new)),
      bigJ info fs new np k a * bigJ info fs new np k b) :
    (infoBlock info (fs ++ new) Q Q).det ≠ 0 ∧
    (schurInfo eig H (remainSize info cams exts) (views * 6 + 6)).det =
      (infoBlock info (fs ++ new) C C - infoBlock info (fs ++ new) C Q *
        (infoBlock info (fs ++ new) Q Q)⁻¹ * infoBlock info (fs ++ new) Q C).det := by
  have hblock : ∀ i j m n, block H i j m n =
      (rangeJ info fs new np i m)ᵀ * rangeJ info fs new np j n := by
    intro i j m n
    ext a b
    rw [block, hH, Matrix.mul_apply, Finset.sum_range]
    rfl
  have gQQ := info_gram h Q Q (fun p => opt_Q h) (fun p => opt_Q h)
  have gCQ := info_gram h C Q (fun p => opt_C h) (fun p => opt_Q h)
  have gQC := info_gram h Q C (fun p => opt_Q h) (fun p => opt_C h)
  have gCC := info_gram h C C (fun p => opt_C h) (fun p => opt_C h)
  have hl' : ∀ (lam : ℝ) (w : Comp info Q → ℝ), w ≠ 0 →
      infoBlock info (fs ++ new) Q Q *ᵥ w = lam • w → 1e-8 < lam := by
    intro lam w hw hA
    apply hl
    refine ⟨fun p i => if hp : p ∈ Q ∧ i < (info p).size then w ⟨⟨p, hp.1⟩, ⟨i, hp.2⟩⟩ else 0, ?_, ?_⟩
    · obtain ⟨x, hx⟩ := Function.ne_iff.mp hw
      refine ⟨x.1, x.1.2, x.2, x.2.2, ?_⟩
      have hd : (x.1 : P) ∈ Q ∧ (x.2 : Nat) < (info x.1).size := ⟨x.1.2, x.2.2⟩
      show (if hp : (x.1 : P) ∈ Q ∧ (x.2 : Nat) < (info x.1).size then
        w ⟨⟨x.1, hp.1⟩, ⟨x.2, hp.2⟩⟩ else 0) ≠ 0
      rw [dif_pos hd]
      exact hx
    · intro p hp i hi
      have h1 := congrFun hA ⟨⟨p, hp⟩, ⟨i, hi⟩⟩
      simp only
      rw [dif_pos ⟨hp, hi⟩]
      have h2 : (lam • w) ⟨⟨p, hp⟩, ⟨i, hi⟩⟩ = lam * w ⟨⟨p, hp⟩, ⟨i, hi⟩⟩ := rfl
      rw [← h2, ← h1, applyInfo, ← Finset.sum_coe_sort Q]
      simp only [Matrix.mulVec, dotProduct]
      rw [Fintype.sum_sigma]
      apply sum_congr rfl
      intro q _
      rw [Finset.sum_range]
      apply sum_congr rfl
      intro j _
      rw [dif_pos ⟨q.2, j.2⟩]
      rfl
  have hdet : (infoBlock info (fs ++ new) Q Q).det ≠ 0 := by
    intro hz
    obtain ⟨w, hw, hA⟩ := Matrix.exists_mulVec_eq_zero_iff.mpr hz
    have := hl' 0 w hw (by rw [hA, zero_smul])
    norm_num at this
  refine ⟨hdet, ?_⟩
  set r := remainSize info cams exts with hr
  set m := views * 6 + 6 with hm
  have hsym : (block H r r m m)ᵀ = block H r r m m := by
    rw [hblock, transpose_mul, transpose_transpose]
  have hpl := pose_left h
  have hpr := pose_right h
  rw [← hr, ← hm] at hpl hpr
  -- the pseudo inverse is a generalised inverse
  have hG := pseudoInv_ginv he hsym (by
    rintro lam ⟨v, hv, hA⟩
    by_cases hz : lam = 0
    · exact Or.inl hz
    · refine Or.inr (hl' lam (place info fs np Q r m *ᵥ v) ?_ ?_)
      · intro hw
        rw [hblock, ← Matrix.mulVec_mulVec, hpl, ← Matrix.mulVec_mulVec _ (colJ info fs new np Q), hw,
          Matrix.mulVec_zero, Matrix.mulVec_zero] at hA
        exact hv ((smul_eq_zero.mp hA.symm).resolve_left hz)
      · rw [gQQ, ← Matrix.mulVec_mulVec, Matrix.mulVec_mulVec _ (colJ info fs new np Q), ← hpl]
        rw [hblock, ← Matrix.mulVec_mulVec] at hA
        conv_lhs => lhs; rw [hpr]
        rw [transpose_mul, transpose_transpose, ← Matrix.mulVec_mulVec, hA, Matrix.mulVec_smul])
  have hPs := pseudoInv_symm eig (block H r r m m)
  rw [hblock] at hG hPs
  rw [gQQ] at hdet
  have hIs : (((colJ info fs new np Q)ᵀ * colJ info fs new np Q)⁻¹)ᵀ =
      ((colJ info fs new np Q)ᵀ * colJ info fs new np Q)⁻¹ := by
    rw [Matrix.transpose_nonsing_inv, transpose_mul, transpose_transpose]
  have hIG : (colJ info fs new np Q)ᵀ * colJ info fs new np Q *
      ((colJ info fs new np Q)ᵀ * colJ info fs new np Q)⁻¹ *
      ((colJ info fs new np Q)ᵀ * colJ info fs new np Q) =
      (colJ info fs new np Q)ᵀ * colJ info fs new np Q := by
    rw [Matrix.mul_nonsing_inv _ (isUnit_iff_ne_zero.mpr hdet), Matrix.one_mul]
  have hproj := proj_unique hPs hG hIs hIG hpl hpr
  -- the complement in terms of the projection
  obtain ⟨e, hee⟩ := exists_equiv h
  have hcol : colJ info fs new np C = (rangeJ info fs new np 0 r).submatrix id e := by
    ext k x
    simp only [colJ, rangeJ, submatrix_apply, id, hee, Nat.zero_add]
  rw [← Matrix.det_submatrix_equiv_self e (schurInfo eig H r m)]
  congr 1
  unfold schurInfo
  rw [symmetrise_self hsym, hblock, hblock, hblock, hblock, gCC, gCQ, gQQ, gQC, hcol]
  have hassoc : ∀ {x y z : Type} [Fintype x] [Fintype y] [Fintype z]
      (B : Matrix (Fin (resLen (fs ++ new))) x ℝ) (B' : Matrix (Fin (resLen (fs ++ new))) z ℝ)
      (A : Matrix (Fin (resLen (fs ++ new))) y ℝ) (R : Matrix y y ℝ),
      Bᵀ * A * R * (Aᵀ * B') = Bᵀ * (A * R * Aᵀ) * B' := by
    intros; simp only [Matrix.mul_assoc]
  rw [hassoc, hassoc, hproj]
  ext x y
  simp only [submatrix_apply, Matrix.sub_apply, Matrix.mul_apply, transpose_apply, id]

/-- **C96, the score.**  For every calibration in which every camera is optimised and was seen
before, and every candidate view: if the information matrix of the poses has all its eigenvalues
above 1e-8, the constructor succeeds, and the score is infinite exactly if the information matrix
of calibration parameters and poses, with the residuals of the candidate added, is singular;
otherwise it is the binary logarithm of the determinant of the covariance of the calibration
parameters, which is positive.  Missing: fixed cameras, cameras not seen before, the first view
(`C96_fixed_refuted`, `C96_unseen_refuted`, `C96_first_refuted`). -/
theorem C96_score_partial (eig : EigSolver) (he : IsEigSolver eig) (svd : Svd) (hs : IsSvd svd)
    (h : Scene info cams exts views fs new np C Q)
    (hl : ∀ lam, InfoEigenvalue info (fs ++ new) Q lam → 1e-8 < lam) :
    ∃ E, create info cams exts views fs = .ok E ∧
      ((infoMatrix info (fs ++ new) C Q).det = 0 → eval eig svd info E new = .error .divZero) ∧
      ((infoMatrix info (fs ++ new) C Q).det ≠ 0 →
        0 < (calibCovar info (fs ++ new) C Q).det ∧
        eval eig svd info E new = .ok (Real.logb 2 (calibCovar info (fs ++ new) C Q).det)) := by
  refine ⟨_, create_made h, ?_⟩
  obtain ⟨hdet, hschur⟩ := schur_made eig he h hl _ (sum_made h)
  set S := infoBlock info (fs ++ new) C C - infoBlock info (fs ++ new) C Q *
        (infoBlock info (fs ++ new) Q Q)⁻¹ * infoBlock info (fs ++ new) Q C with hS
  have hsf := schur_facts (colJ info fs new np C) (colJ info fs new np Q)
  rw [← info_gram h Q Q (fun p => opt_Q h) (fun p => opt_Q h),
    ← info_gram h C Q (fun p => opt_C h) (fun p => opt_Q h),
    ← info_gram h Q C (fun p => opt_Q h) (fun p => opt_C h),
    ← info_gram h C C (fun p => opt_C h) (fun p => opt_C h)] at hsf
  obtain ⟨h1, h2, h3⟩ := hsf hdet
  rw [← hS] at h1 h2 h3
  have hsize : remainSize info cams exts + views * 6 + 6 - remainSize info cams exts =
      views * 6 + 6 := by omega
  have heval : eval eig svd info (made info cams exts views fs) new =
      logDetCovar eig svd (fun a b => (made info cams exts views fs).H a b +
        gram info (fun p => (nbvCol (made info cams exts views fs) p).getD 0) new a b)
        (remainSize info cams exts) (remainSize info cams exts + views * 6 + 6) := by
    unfold eval
    rw [if_neg (by rw [fits_made h]; simp)]
    rfl
  rw [heval]
  unfold logDetCovar
  simp only
  rw [hsize]
  obtain ⟨s1, s2⟩ := svd_log hs (schurInfo eig (fun a b => (made info cams exts views fs).H a b +
        gram info (fun p => (nbvCol (made info cams exts views fs) p).getD 0) new a b)
        (remainSize info cams exts) (views * 6 + 6))
  rw [hschur] at s1 s2
  have hL : (infoMatrix info (fs ++ new) C Q).det = (infoBlock info (fs ++ new) Q Q).det * S.det := h1
  rw [hL]
  constructor
  · intro hz
    have : S.det = 0 := (mul_eq_zero.mp hz).resolve_left hdet
    rw [if_pos (s1.mpr this)]
  · intro hz
    have hne : S.det ≠ 0 := fun e => hz (by rw [e, mul_zero])
    have hc : calibCovar info (fs ++ new) C Q = S⁻¹ := h3 hne
    have hcd : (calibCovar info (fs ++ new) C Q).det = (S.det)⁻¹ := by
      rw [hc, Matrix.det_nonsing_inv, Ring.inverse_eq_inv']
    refine ⟨?_, ?_⟩
    · rw [hcd]
      exact inv_pos.mpr (lt_of_le_of_ne h2 (Ne.symm hne))
    · rw [if_neg (fun e => hne (s1.mp e)), s2 hne, hcd, Real.logb, Real.log_inv, neg_one_mul]

end Yac.Info
