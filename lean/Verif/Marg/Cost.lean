import Verif.Marg.Lemmas
import Mathlib.Algebra.BigOperators.Fin

/-! The stacked linear system and the first-order cost. -/

namespace Yac.Marg
open Matrix Yac.Solver Finset

variable {P : Type} [DecidableEq P]

theorem lin_row (info : P → ParamInfo) (c : P → Nat) (n : Nat) (x : Nat → ℝ)
    (bs : List (P × Mat ℝ)) (k : Nat)
    (hb : ∀ b ∈ bs, (info b.1).fixed = false → c b.1 + (info b.1).size ≤ n) :
    ∑ a ∈ range n, rowG info c bs k a * x a =
      (bs.map (fun b => if (info b.1).fixed then 0
        else ∑ a ∈ range (info b.1).size, b.2 k a * x (c b.1 + a))).sum := by
  induction bs with
  | nil => simp [rowG]
  | cons b bs ih =>
    rw [List.map_cons, List.sum_cons, ← ih (fun y hy => hb y (List.mem_cons_of_mem _ hy))]
    simp only [rowG, add_mul, sum_add_distrib]
    congr 1
    by_cases hf : (info b.1).fixed = true
    · simp [hf]
    · simp only [hf, Bool.false_eq_true, if_false]
      have hle := hb b List.mem_cons_self (by simpa using hf)
      have hsub : ∑ a ∈ range n, ent info c b k a * x a =
          ∑ a ∈ (range (info b.1).size).image (fun a => c b.1 + a), ent info c b k a * x a := by
        symm
        apply sum_subset
        · intro a ha
          obtain ⟨i, hi, rfl⟩ := mem_image.mp ha
          rw [mem_range] at hi ⊢
          omega
        · intro a ha hna
          rw [ent, if_neg, zero_mul]
          rintro ⟨h1, h2⟩
          apply hna
          exact mem_image.mpr ⟨a - c b.1, by rw [mem_range]; omega, by omega⟩
      rw [hsub, sum_image (by intro a _ b' _ h; exact Nat.add_left_cancel h)]
      apply sum_congr rfl
      intro a ha
      rw [mem_range] at ha
      rw [ent, if_pos ⟨by omega, by omega⟩, Nat.add_sub_cancel_left]

theorem lin_stack (info : P → PInfo) (c : P → Nat) (n : Nat) (x : Nat → ℝ) (fs : List (Res ℝ P))
    (hb : ∀ f ∈ fs, ∀ b ∈ f.blocks, (info b.1).base.fixed = false → c b.1 + (info b.1).base.size ≤ n) :
    linCost info fs (fun p a => x (c p + a)) =
      ∑ k ∈ range (resLen fs), (stackR fs k +
        ∑ a ∈ range n, stackJ (fun p => (info p).base) c fs k a * x a) ^ 2 := by
  induction fs with
  | nil => simp [linCost, resLen]
  | cons f fs ih =>
    have hi := ih (fun g hg => hb g (List.mem_cons_of_mem _ hg))
    unfold linCost at hi ⊢
    rw [List.map_cons, List.sum_cons, hi, resLen, sum_range_add]
    congr 1
    · apply sum_congr rfl
      intro k hk
      rw [mem_range] at hk
      simp only [stackR, stackJ, if_pos hk]
      rw [lin_row (fun p => (info p).base) c n x f.blocks k (hb f List.mem_cons_self)]
    · apply sum_congr rfl
      intro k _
      simp [stackR, stackJ]

theorem linCost_congr (info : P → PInfo) (fs : List (Res ℝ P)) (δ δ' : P → Nat → ℝ)
    (h : ∀ p, (∃ f ∈ fs, ∃ B, (p, B) ∈ f.blocks) → (info p).base.fixed = false →
      ∀ a < (info p).base.size, δ p a = δ' p a) : linCost info fs δ = linCost info fs δ' := by
  unfold linCost
  congr 1
  apply List.map_congr_left
  intro f hf
  apply sum_congr rfl
  intro k _
  congr 3
  apply List.map_congr_left
  intro b hb
  by_cases hfx : (info b.1).base.fixed = true
  · simp [hfx]
  · simp only [hfx, Bool.false_eq_true, if_false]
    apply sum_congr rfl
    intro a ha
    rw [h b.1 ⟨f, hf, b.2, hb⟩ (by simpa using hfx) a (mem_range.mp ha)]

/-- The columns of the marginalised parameters in the stacked Jacobian. -/
noncomputable def matA (info : P → PInfo) (fs : List (Res ℝ P)) :
    Matrix (Fin (resLen fs)) (Fin (formHessian info fs).m) ℝ :=
  fun k a => stackJ (fun p => (info p).base) (col (formHessian info fs).index) fs k a

/-- The columns of the remaining parameters in the stacked Jacobian. -/
noncomputable def matB (info : P → PInfo) (fs : List (Res ℝ P)) :
    Matrix (Fin (resLen fs)) (Fin (formHessian info fs).r) ℝ :=
  fun k a => stackJ (fun p => (info p).base) (col (formHessian info fs).index) fs k
    ((formHessian info fs).m + a)

/-- The stacked residual. -/
noncomputable def vecE (fs : List (Res ℝ P)) : Fin (resLen fs) → ℝ := fun k => stackR fs k

theorem hessian_blocks (info : P → PInfo) (fs : List (Res ℝ P)) :
    let F := formHessian info fs
    block F.H 0 0 F.m F.m = (matA info fs)ᵀ * matA info fs ∧
    block F.H 0 F.m F.m F.r = (matA info fs)ᵀ * matB info fs ∧
    block F.H F.m 0 F.r F.m = (matB info fs)ᵀ * matA info fs ∧
    block F.H F.m F.m F.r F.r = (matB info fs)ᵀ * matB info fs ∧
    seg F.b 0 F.m = -((matA info fs)ᵀ *ᵥ vecE fs) ∧
    seg F.b F.m F.r = -((matB info fs)ᵀ *ᵥ vecE fs) := by
  have L := layout info fs
  refine ⟨?_, ?_, ?_, ?_, ?_, ?_⟩
  · ext a b
    rw [block, L.H, Matrix.mul_apply, Finset.sum_range]
    simp [matA]
  · ext a b
    rw [block, L.H, Matrix.mul_apply, Finset.sum_range]
    simp [matA, matB]
  · ext a b
    rw [block, L.H, Matrix.mul_apply, Finset.sum_range]
    simp [matA, matB]
  · ext a b
    rw [block, L.H, Matrix.mul_apply, Finset.sum_range]
    simp [matB]
  · ext a
    rw [seg, L.b, Pi.neg_apply, Matrix.mulVec, dotProduct, Finset.sum_range]
    simp [matA, vecE]
  · ext a
    rw [seg, L.b, Pi.neg_apply, Matrix.mulVec, dotProduct, Finset.sum_range]
    simp [matB, vecE]

/-- Every move of the free parameters is a vector. -/
theorem exists_vec {info : P → PInfo} {fs : List (Res ℝ P)} {F : Formed P} (L : Layout info fs F)
    (δ : P → Nat → ℝ) : ∃ x : Nat → ℝ, ∀ p, (p ∈ F.margPs ∨ p ∈ F.remain) →
      ∀ a < (info p).base.size, x (col F.index p + a) = δ p a := by
  classical
  refine ⟨fun a => if h : ∃ p, (p ∈ F.margPs ∨ p ∈ F.remain) ∧
    InCol (fun p => (info p).base) (col F.index) p a then
      δ h.choose (a - col F.index h.choose) else 0, ?_⟩
  intro p hp a ha
  have hc : InCol (fun p => (info p).base) (col F.index) p (col F.index p + a) :=
    ⟨by omega, by simpa using ha⟩
  have hex : ∃ p', (p' ∈ F.margPs ∨ p' ∈ F.remain) ∧
    InCol (fun p => (info p).base) (col F.index) p' (col F.index p + a) := ⟨p, hp, hc⟩
  simp only
  rw [dif_pos hex]
  have : hex.choose = p := L.disj _ _ _ hex.choose_spec.1 hp hex.choose_spec.2 hc
  rw [this, Nat.add_sub_cancel_left]

/-- The cost in terms of the stacked system. -/
theorem linCost_vec (info : P → PInfo) (fs : List (Res ℝ P)) (hk : KnownTypes info fs)
    (x : Nat → ℝ) :
    linCost info fs (fun p a => x (col (formHessian info fs).index p + a)) =
      (matA info fs *ᵥ (fun a => x a) + (matB info fs *ᵥ (fun a => x ((formHessian info fs).m + a))
        + vecE fs)) ⬝ᵥ (matA info fs *ᵥ (fun a => x a) +
        (matB info fs *ᵥ (fun a => x ((formHessian info fs).m + a)) + vecE fs)) := by
  have L := layout info fs
  rw [lin_stack info _ ((formHessian info fs).m + (formHessian info fs).r) x fs]
  · rw [Finset.sum_range, dotProduct]
    apply sum_congr rfl
    intro k _
    rw [sum_range_add, Finset.sum_range, Finset.sum_range, pow_two]
    simp only [Pi.add_apply, Matrix.mulVec, dotProduct, matA, matB, vecE]
    congr 1 <;> ring
  · intro f hf b hb hfx
    by_cases hm : (info b.1).marg = true
    · have := L.margCol b.1 ((L.margMem _).mpr ⟨⟨f, hf, b.2, hb⟩, hm⟩)
      omega
    · have hR : Remaining info fs b.1 := ⟨⟨f, hf, b.2, hb⟩, by simpa using hm, hfx⟩
      exact (L.remCol b.1 ((L.remMem _).mpr ⟨hR, (hk _ hR).1⟩)).2

/-- The increments of the kept parameters as one vector. -/
theorem deltaChi_spec {info : P → PInfo} {fs : List (Res ℝ P)} (hk : KnownTypes info fs)
    (M : MargRes P) (hm : M.m = (formHessian info fs).m) (hr : M.r = (formHessian info fs).r)
    (hrem : M.remain = (formHessian info fs).remain) (hi : M.index = (formHessian info fs).index)
    (x : P → Nat → ℝ) :
    ∃ v, deltaChi info M x = .ok v ∧ (∀ a < M.r, (v a).isSome) ∧
      ∀ p, Remaining info fs p → (minusOf (info p) (x p) (M.x0 p)).length = (info p).base.size ∧
        ∀ a < (info p).base.size,
          v (col M.index p - M.m + a) = (minusOf (info p) (x p) (M.x0 p))[a]? := by
  have L := layout info fs
  have hlen : ∀ p, Remaining info fs p →
      (minusOf (info p) (x p) (M.x0 p)).length = (info p).base.size := by
    intro p hp
    obtain ⟨-, k2, k3⟩ := hk p hp
    unfold minusOf
    by_cases hps : isPose (info p) = true
    · rw [if_pos hps, k2 ((isPose_iff _).mp hps)]; rfl
    · rw [if_neg hps, List.length_map, List.length_range, k3 (by rwa [isPose_iff] at hps)]
  have main : ∀ (l : List P) (v0 : Nat → Option ℝ), (∀ p ∈ l, p ∈ M.remain) →
      ∃ v, l.foldlM (fun v p =>
        writeSeg M.r v (col M.index p - M.m) (minusOf (info p) (x p) (M.x0 p))) v0 = .ok v ∧
      (∀ p ∈ l, ∀ a < (info p).base.size,
        v (col M.index p - M.m + a) = (minusOf (info p) (x p) (M.x0 p))[a]?) ∧
      (∀ a, (∀ p ∈ l, ¬ (col M.index p - M.m ≤ a ∧
        a < col M.index p - M.m + (info p).base.size)) → v a = v0 a) := by
    intro l
    induction l using List.reverseRecOn with
    | nil => intro v0 _; exact ⟨v0, rfl, by simp, fun _ _ => rfl⟩
    | append_singleton l p ih =>
      intro v0 hl
      obtain ⟨v, e, i1, i2⟩ := ih v0 (fun q hq => hl q (by simp [hq]))
      have hp := hl p (by simp)
      rw [hrem] at hp
      have hR := ((L.remMem p).mp hp).1
      have hb := L.remCol p hp
      rw [← hi, ← hm, ← hr] at hb
      rw [List.foldlM_append, e]
      have hw : writeSeg M.r v (col M.index p - M.m) (minusOf (info p) (x p) (M.x0 p)) =
          .ok (fun a => if col M.index p - M.m ≤ a ∧
            a < col M.index p - M.m + (minusOf (info p) (x p) (M.x0 p)).length then
            (minusOf (info p) (x p) (M.x0 p))[a - (col M.index p - M.m)]? else v a) := by
        unfold writeSeg
        rw [if_pos (by rw [hlen p hR]; omega)]
      simp only [bind, Except.bind, List.foldlM_cons, List.foldlM_nil, pure, Except.pure, hw]
      refine ⟨_, rfl, ?_, ?_⟩
      · intro q hq a ha
        simp only [hlen p hR]
        by_cases hqp : q = p
        · subst hqp
          rw [if_pos ⟨by omega, by omega⟩, Nat.add_sub_cancel_left]
        · have hq' : q ∈ l := by
            simp only [List.mem_append, List.mem_singleton] at hq
            exact hq.resolve_right hqp
          have hqr := hl q (by simp [hq'])
          rw [hrem] at hqr
          have hbq := L.remCol q hqr
          rw [← hi, ← hm, ← hr] at hbq
          rw [if_neg, i1 q hq' a ha]
          rintro ⟨h1, h2⟩
          apply hqp
          refine L.disj (col M.index q + a) q p (Or.inr hqr) (Or.inr hp) ?_ ?_
          · rw [← hi]; exact ⟨by omega, by simpa using ha⟩
          · rw [← hi]; exact ⟨by omega, by simp only; omega⟩
      · intro a ha
        simp only [hlen p hR]
        rw [if_neg (ha p (by simp)), i2 a (fun q hq => ha q (by simp [hq]))]
  obtain ⟨v, e, h1, h2⟩ := main M.remain (fun _ => none) (fun _ h => h)
  refine ⟨v, e, ?_, ?_⟩
  · intro a ha
    obtain ⟨p, hp, hc⟩ := L.cover (M.m + a) (by omega)
    have hpr : p ∈ (formHessian info fs).remain := by
      rcases hp with hp | hp
      · have := L.margCol p hp
        rw [← hi, ← hm] at this
        unfold InCol at hc
        rw [← hi] at hc
        simp only at hc
        omega
      · exact hp
    have hR := ((L.remMem p).mp hpr).1
    have hb := L.remCol p hpr
    rw [← hi, ← hm] at hb
    rw [← hi] at hc
    unfold InCol at hc
    simp only at hc
    have := h1 p (by rw [hrem]; exact hpr) (M.m + a - col M.index p) (by omega)
    rw [show col M.index p - M.m + (M.m + a - col M.index p) = a by omega] at this
    rw [this, List.getElem?_eq_getElem (by rw [hlen p hR]; omega)]
    rfl
  · intro p hp
    refine ⟨hlen p hp, fun a ha => h1 p ?_ a ha⟩
    rw [hrem]
    exact (L.remMem p).mpr ⟨hp, (hk p hp).1⟩

end Yac.Marg
