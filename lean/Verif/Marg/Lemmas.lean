import Verif.Marg.Spec
import Verif.Marg.Algebra
import Verif.Solver.NormalLemmas

namespace Yac.Marg
open Matrix Yac.Solver Finset

set_option linter.unusedSectionVars false

/-! ### Eigen solver -/

theorem eig_spec {eig : EigSolver} (he : IsEigSolver eig) {n : Nat} {A : Matrix (Fin n) (Fin n) ℝ}
    (hA : Aᵀ = A) : (eig n A).vecsᵀ * (eig n A).vecs = 1 ∧ A = spec (eig n A).vecs (eig n A).vals :=
  he n A hA

theorem eig_isEigenvalue {eig : EigSolver} (he : IsEigSolver eig) {n : Nat}
    {A : Matrix (Fin n) (Fin n) ℝ} (hA : Aᵀ = A) (i : Fin n) : IsEigenvalue A ((eig n A).vals i) := by
  obtain ⟨h1, h2⟩ := eig_spec he hA
  refine ⟨_, spec_eigvec_ne h1 i, ?_⟩
  have h3 := spec_eigvec h1 (eig n A).vals i
  rw [← h2] at h3
  exact h3

theorem pseudoInv_symm (eig : EigSolver) {n : Nat} (A : Matrix (Fin n) (Fin n) ℝ) :
    (pseudoInv eig A)ᵀ = pseudoInv eig A := spec_symm _ _

/-- The pseudo inverse is a generalised inverse. -/
theorem pseudoInv_ginv {eig : EigSolver} (he : IsEigSolver eig) {n : Nat}
    {A : Matrix (Fin n) (Fin n) ℝ} (hA : Aᵀ = A)
    (hl : ∀ lam, IsEigenvalue A lam → lam = 0 ∨ 1e-8 < lam) :
    A * pseudoInv eig A * A = A := by
  obtain ⟨h1, h2⟩ := eig_spec he hA
  have : spec (eig n A).vecs (eig n A).vals * spec (eig n A).vecs (invAbove 1e-8 (eig n A).vals) *
      spec (eig n A).vecs (eig n A).vals = spec (eig n A).vecs (eig n A).vals := by
    rw [spec_mul h1, spec_mul h1]
    congr 1
    funext i
    unfold invAbove
    rcases hl _ (eig_isEigenvalue he hA i) with h | h
    · rw [h]; simp
    · rw [if_pos h, mul_inv_cancel₀ (by norm_num at h; linarith), one_mul]
  rw [← h2] at this
  exact this

/-- With eigenvalues above the threshold it is the inverse. -/
theorem pseudoInv_inv {eig : EigSolver} (he : IsEigSolver eig) {n : Nat}
    {A : Matrix (Fin n) (Fin n) ℝ} (hA : Aᵀ = A)
    (hl : ∀ lam, IsEigenvalue A lam → 1e-8 < lam) : A * pseudoInv eig A = 1 := by
  obtain ⟨h1, h2⟩ := eig_spec he hA
  have : spec (eig n A).vecs (eig n A).vals * spec (eig n A).vecs (invAbove 1e-8 (eig n A).vals)
      = 1 := by
    rw [spec_mul h1, ← spec_one h1]
    congr 1
    funext i
    unfold invAbove
    have h := hl _ (eig_isEigenvalue he hA i)
    rw [if_pos h, mul_inv_cancel₀ (by norm_num at h; linarith)]
  rw [← h2] at this
  exact this

theorem symmetrise_self {m : Nat} {A : Matrix (Fin m) (Fin m) ℝ} (h : Aᵀ = A) : symmetrise A = A := by
  unfold symmetrise
  rw [h]
  ext i j
  simp only [Matrix.smul_apply, Matrix.add_apply, smul_eq_mul]
  norm_num
  ring

theorem maxCoeff_mem {n : Nat} (hn : 0 < n) (v : Fin n → ℝ) : ∃ i, maxCoeff v = v i := by
  obtain ⟨k, rfl⟩ : ∃ k, n = k + 1 := ⟨n - 1, by omega⟩
  have : ∀ (l : List ℝ) (a : ℝ), l.foldl max a = a ∨ l.foldl max a ∈ l := by
    intro l
    induction l with
    | nil => intro a; exact Or.inl rfl
    | cons b l ih =>
      intro a
      rw [List.foldl_cons]
      rcases ih (max a b) with h | h
      · rw [h]
        rcases max_choice a b with h' | h'
        · exact Or.inl h'
        · rw [h']; exact Or.inr List.mem_cons_self
      · exact Or.inr (List.mem_cons_of_mem _ h)
  rcases this (List.ofFn v) (v 0) with h | h
  · exact ⟨0, h⟩
  · obtain ⟨i, hi⟩ := List.mem_ofFn.mp h
    exact ⟨i, hi.symm⟩

/-- The linearised residual reproduces the system. -/
theorem lin_factor {eig : EigSolver} (he : IsEigSolver eig) {n : Nat} {k : Type} [Fintype k]
    [DecidableEq k] (hn : 0 < n) (J : Matrix k (Fin n) ℝ) (e : k → ℝ)
    (hl : ∀ lam mu, IsEigenvalue (Jᵀ * J) lam → IsEigenvalue (Jᵀ * J) mu →
      lam = 0 ∨ 2⁻¹ ^ 52 * n * mu < lam) :
    (linJ eig (Jᵀ * J))ᵀ * linJ eig (Jᵀ * J) = Jᵀ * J ∧
    (linJ eig (Jᵀ * J))ᵀ *ᵥ linR eig (Jᵀ * J) (-(Jᵀ *ᵥ e)) = Jᵀ *ᵥ e := by
  have hA : (Jᵀ * J)ᵀ = Jᵀ * J := by rw [transpose_mul, transpose_transpose]
  obtain ⟨h1, h2⟩ := eig_spec he hA
  obtain ⟨i0, hi0⟩ := maxCoeff_mem hn (eig n (Jᵀ * J)).vals
  have hE := fun i => eig_isEigenvalue he hA i
  have hnn := fun i => eig_nonneg h1 h2 i
  unfold linJ linR
  simp only
  generalize eig n (Jᵀ * J) = E at *
  have ht : 0 ≤ tolOf E.vals := by
    unfold tolOf dblEps
    rw [hi0]
    have := hnn i0
    positivity
  have hc : ∀ i, E.vals i = 0 ∨ tolOf E.vals < E.vals i := by
    intro i
    have := hl _ _ (hE i) (hE i0)
    unfold tolOf dblEps
    rw [hi0]
    exact this
  constructor
  · rw [transpose_mul, transpose_transpose, diagonal_transpose]
    have : E.vecs * diagonal (fun i => √(if E.vals i > tolOf E.vals then E.vals i else 0)) *
        (diagonal (fun i => √(if E.vals i > tolOf E.vals then E.vals i else 0)) * E.vecsᵀ) =
        spec E.vecs E.vals := by
      unfold spec
      rw [Matrix.mul_assoc, ← Matrix.mul_assoc (diagonal _) (diagonal _), diagonal_mul_diagonal,
        ← Matrix.mul_assoc]
      congr 3
      funext i
      rcases hc i with h | h
      · rw [h]; simp
      · rw [if_pos h, Real.mul_self_sqrt (hnn i)]
    rw [this, ← h2]
  · rw [transpose_mul, transpose_transpose, diagonal_transpose, Matrix.mulVec_mulVec,
      Matrix.mul_neg, Matrix.neg_mulVec, Matrix.mulVec_neg, neg_neg]
    have : E.vecs * diagonal (fun i => √(if E.vals i > tolOf E.vals then E.vals i else 0)) *
        (diagonal (fun i => √(invAbove (tolOf E.vals) E.vals i)) * E.vecsᵀ) =
        spec E.vecs (fun i => if tolOf E.vals < E.vals i then 1 else 0) := by
      unfold spec
      rw [Matrix.mul_assoc, ← Matrix.mul_assoc (diagonal _) (diagonal _), diagonal_mul_diagonal,
        ← Matrix.mul_assoc]
      congr 3
      funext i
      unfold invAbove
      by_cases h : tolOf E.vals < E.vals i
      · rw [if_pos h, if_pos h, if_pos h, ← Real.sqrt_mul (hnn i),
          mul_inv_cancel₀ (by linarith), Real.sqrt_one]
      · rw [if_neg h, if_neg h, if_neg h]; simp
    rw [this, Matrix.mulVec_mulVec, factor_gn h1 h2]
    intro i
    by_cases h : tolOf E.vals < E.vals i
    · rw [if_pos h]; exact Or.inl rfl
    · rw [if_neg h]; exact Or.inr ⟨rfl, (hc i).resolve_right h⟩

/-! ### Order of the parameters -/

variable {P : Type} [DecidableEq P]

theorem seenParams_spec (ps : List P) :
    (∀ p, p ∈ seenParams ps ↔ p ∈ ps) ∧ (seenParams ps).Nodup := by
  have : ∀ (ps l : List P), l.Nodup →
      (∀ p, p ∈ ps.foldl (fun l p => if p ∈ l then l else l ++ [p]) l ↔ p ∈ l ∨ p ∈ ps) ∧
      (ps.foldl (fun l p => if p ∈ l then l else l ++ [p]) l).Nodup := by
    intro ps
    induction ps with
    | nil => intro l hl; simp [hl]
    | cons q ps ih =>
      intro l hl
      rw [List.foldl_cons]
      by_cases h : q ∈ l
      · rw [if_pos h]
        obtain ⟨i1, i2⟩ := ih l hl
        refine ⟨fun p => ?_, i2⟩
        rw [i1, List.mem_cons]
        constructor
        · rintro (h' | h')
          · exact Or.inl h'
          · exact Or.inr (Or.inr h')
        · rintro (h' | rfl | h')
          · exact Or.inl h'
          · exact Or.inl h
          · exact Or.inr h'
      · rw [if_neg h]
        obtain ⟨i1, i2⟩ := ih (l ++ [q]) (by
          rw [List.nodup_append]
          refine ⟨hl, by simp, ?_⟩
          rintro a ha b hb rfl
          simp only [List.mem_singleton] at hb
          exact h (hb ▸ ha))
        refine ⟨fun p => ?_, i2⟩
        rw [i1]
        simp only [List.mem_append, List.mem_cons, List.not_mem_nil, or_false, or_assoc]
  have h := this ps [] List.nodup_nil
  exact ⟨fun p => by rw [seenParams, h.1]; simp, h.2⟩

theorem mem_margParams (info : P → PInfo) (ps : List P) (p : P) :
    p ∈ margParams info ps ↔ p ∈ ps ∧ (info p).marg = true := by
  simp [margParams, (seenParams_spec ps).1]

theorem mem_remainKind (info : P → PInfo) (ps : List P) (k : Kind) (p : P) :
    p ∈ remainKind info ps k ↔ p ∈ ps ∧ (info p).marg = false ∧ (info p).base.kind = k := by
  simp [remainKind, (seenParams_spec ps).1]

theorem mem_remainParams (info : P → PInfo) (ps : List P) (p : P) :
    p ∈ remainParams info ps ↔
      p ∈ ps ∧ (info p).marg = false ∧ (info p).base.fixed = false ∧ (info p).base.kind ≠ .other := by
  simp only [remainParams, List.mem_filter, List.mem_append, mem_remainKind, Bool.not_eq_true']
  cases h : (info p).base.kind <;> simp <;> tauto

theorem remainParams_nodup (info : P → PInfo) (ps : List P) : (remainParams info ps).Nodup := by
  unfold remainParams
  apply List.Nodup.filter
  have hn : ∀ k, (remainKind info ps k).Nodup := fun k => (seenParams_spec ps).2.filter _
  have hd : ∀ k k' a b, k ≠ k' → a ∈ remainKind info ps k → b ∈ remainKind info ps k' → a ≠ b := by
    rintro k k' a b hne ha hb rfl
    rw [mem_remainKind] at ha hb
    exact hne (ha.2.2.symm.trans hb.2.2)
  simp only [List.nodup_append, List.mem_append]
  refine ⟨⟨⟨⟨hn _, hn _, ?_⟩, hn _, ?_⟩, hn _, ?_⟩, hn _, ?_⟩
  · intro a ha b hb; exact hd .pose .sb a b (by decide) ha hb
  · rintro a (ha | ha) b hb
    · exact hd .pose .fiducial a b (by decide) ha hb
    · exact hd .sb .fiducial a b (by decide) ha hb
  · rintro a ((ha | ha) | ha) b hb
    · exact hd .pose .extrinsics a b (by decide) ha hb
    · exact hd .sb .extrinsics a b (by decide) ha hb
    · exact hd .fiducial .extrinsics a b (by decide) ha hb
  · rintro a (((ha | ha) | ha) | ha) b hb
    · exact hd .pose .camera a b (by decide) ha hb
    · exact hd .sb .camera a b (by decide) ha hb
    · exact hd .fiducial .camera a b (by decide) ha hb
    · exact hd .extrinsics .camera a b (by decide) ha hb

theorem assign_append (info : P → ParamInfo) (l l' : List P) (i : Nat) :
    assign info i (l ++ l') = assign info i l ++
      assign info (i + (l.map (fun p => (info p).size)).sum) l' := by
  induction l generalizing i with
  | nil => simp [assign]
  | cons p l ih => simp [assign, ih, Nat.add_assoc]

theorem col_append_left (o o' : List (P × Nat)) (p : P) (h : p ∈ o.map Prod.fst) :
    col (o ++ o') p = col o p := by
  induction o with
  | nil => simp at h
  | cons e o ih =>
    obtain ⟨q, i⟩ := e
    rw [List.cons_append, col_cons, col_cons]
    by_cases hq : q = p
    · simp [hq]
    · rw [if_neg hq, if_neg hq]
      apply ih
      simpa [Ne.symm hq] using h

theorem col_append_right (o o' : List (P × Nat)) (p : P) (h : p ∉ o.map Prod.fst) :
    col (o ++ o') p = col o' p := by
  induction o with
  | nil => rfl
  | cons e o ih =>
    obtain ⟨q, i⟩ := e
    simp only [List.map_cons, List.mem_cons, not_or] at h
    rw [List.cons_append, col_cons, if_neg (fun e => h.1 e.symm), ih h.2]

/-- What `form_hessian` sets up. -/
structure Layout (info : P → PInfo) (fs : List (Res ℝ P)) (F : Formed P) : Prop where
  margMem : ∀ p, p ∈ F.margPs ↔ Marginalised info fs p
  remMem : ∀ p, p ∈ F.remain ↔ Remaining info fs p ∧ (info p).base.kind ≠ .other
  margCol : ∀ p ∈ F.margPs, col F.index p + (info p).base.size ≤ F.m
  remCol : ∀ p ∈ F.remain, F.m ≤ col F.index p ∧ col F.index p + (info p).base.size ≤ F.m + F.r
  cover : ∀ a < F.m + F.r, ∃ p, (p ∈ F.margPs ∨ p ∈ F.remain) ∧
    InCol (fun p => (info p).base) (col F.index) p a
  disj : ∀ a p q, (p ∈ F.margPs ∨ p ∈ F.remain) → (q ∈ F.margPs ∨ q ∈ F.remain) →
    InCol (fun p => (info p).base) (col F.index) p a →
    InCol (fun p => (info p).base) (col F.index) q a → p = q
  remNodup : F.remain.Nodup
  H : ∀ a b, F.H a b = ∑ k ∈ range (resLen fs), stackJ (fun p => (info p).base) (col F.index) fs k a *
    stackJ (fun p => (info p).base) (col F.index) fs k b
  b : ∀ a, F.b a = - ∑ k ∈ range (resLen fs), stackJ (fun p => (info p).base) (col F.index) fs k a *
    stackR fs k

theorem mem_params (fs : List (Res ℝ P)) (p : P) :
    p ∈ fs.flatMap (fun f => f.blocks.map Prod.fst) ↔ ∃ f ∈ fs, ∃ B, (p, B) ∈ f.blocks := by
  simp [List.mem_flatMap]

theorem layout (info : P → PInfo) (fs : List (Res ℝ P)) : Layout info fs (formHessian info fs) := by
  set ps := fs.flatMap (fun f => f.blocks.map Prod.fst) with hps
  have hm : ∀ p, p ∈ margParams info ps ↔ Marginalised info fs p := by
    intro p; rw [mem_margParams, hps, mem_params]; rfl
  have hr : ∀ p, p ∈ remainParams info ps ↔ Remaining info fs p ∧ (info p).base.kind ≠ .other := by
    intro p; rw [mem_remainParams, hps, mem_params, Remaining]; tauto
  have hnm : (margParams info ps).Nodup := (seenParams_spec ps).2.filter _
  have hnr := remainParams_nodup info ps
  have hdis : ∀ a ∈ margParams info ps, ∀ b ∈ remainParams info ps, a ≠ b := by
    rintro a ha b hb rfl
    have h1 := ((hm a).mp ha).2
    have h2 := ((hr a).mp hb).1.2.1
    rw [h1] at h2
    cases h2
  have hnd : (margParams info ps ++ remainParams info ps).Nodup :=
    List.nodup_append.mpr ⟨hnm, hnr, hdis⟩
  have hsum : ((margParams info ps ++ remainParams info ps).map
      (fun p => (info p).base.size)).sum = sizeSum info (margParams info ps) +
      sizeSum info (remainParams info ps) := by
    simp [sizeSum]
  have hkeys := assign_keys (fun p => (info p).base) (margParams info ps) 0
  obtain ⟨e1, e2⟩ := hess_all (fun p => (info p).base)
    (col (assign (fun p => (info p).base) 0 (margParams info ps ++ remainParams info ps))) fs
    (fun _ _ => 0) (fun _ => 0)
  have hmem : ∀ p, (p ∈ margParams info ps ∨ p ∈ remainParams info ps) ↔
      p ∈ margParams info ps ++ remainParams info ps := by
    intro p; rw [List.mem_append]
  refine ⟨hm, hr, ?_, ?_, ?_, ?_, hnr, ?_, ?_⟩
  · intro p hp
    have hp : p ∈ margParams info ps := hp
    show col (assign (fun p => (info p).base) 0 (margParams info ps ++ remainParams info ps)) p + _
      ≤ sizeSum info (margParams info ps)
    rw [assign_append, col_append_left _ _ _ (by rw [hkeys]; exact hp)]
    have := (assign_bounds (fun p => (info p).base) (margParams info ps) 0 p hp).2
    rw [Nat.zero_add] at this
    exact this
  · intro p hp
    have hp : p ∈ remainParams info ps := hp
    show sizeSum info (margParams info ps) ≤
      col (assign (fun p => (info p).base) 0 (margParams info ps ++ remainParams info ps)) p ∧
      col (assign (fun p => (info p).base) 0 (margParams info ps ++ remainParams info ps)) p + _
      ≤ sizeSum info (margParams info ps) + sizeSum info (remainParams info ps)
    rw [assign_append, col_append_right _ _ _ (by
      rw [hkeys]; intro h; exact hdis p h p hp rfl)]
    have := assign_bounds (fun p => (info p).base) (remainParams info ps)
      (0 + sizeSum info (margParams info ps)) p hp
    simp only [Nat.zero_add] at this ⊢
    exact this
  · intro a ha
    have ha : a < sizeSum info (margParams info ps) + sizeSum info (remainParams info ps) := ha
    obtain ⟨p, hp, hc⟩ := assign_cover (fun p => (info p).base) _ hnd 0 a (Nat.zero_le _)
      (by rw [hsum, Nat.zero_add]; exact ha)
    exact ⟨p, (hmem p).mpr hp, hc⟩
  · intro a p q hp hq h1 h2
    exact assign_disjoint (fun p => (info p).base) _ 0 a p q ((hmem p).mp hp) ((hmem q).mp hq) h1 h2
  · intro a b
    have := e1 a b
    rw [zero_add] at this
    exact this
  · intro a
    have := e2 a
    rw [zero_sub] at this
    exact this

end Yac.Marg
