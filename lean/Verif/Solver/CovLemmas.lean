import Verif.Solver.CovSpec
import Verif.Marg.Props

namespace Yac.Solver
open Matrix Yac.Marg Finset

set_option linter.unusedSectionVars false
variable {P : Type} [DecidableEq P]

/-! ## Sums over a layout -/

theorem sum_layout (info : P → ParamInfo) (l : List P) (hn : l.Nodup) (i : Nat) (g : Nat → ℝ) :
    ∑ a ∈ range (totalSize info l), g (i + a) =
      ∑ p ∈ l.toFinset, ∑ j ∈ range (info p).size, g (col (assign info i l) p + j) := by
  induction l generalizing i with
  | nil => simp [totalSize]
  | cons q l ih =>
    obtain ⟨hq, hn'⟩ := List.nodup_cons.mp hn
    rw [List.toFinset_cons, sum_insert (by simpa using hq)]
    have e : totalSize info (q :: l) = (info q).size + totalSize info l := by simp [totalSize]
    rw [e, sum_range_add]
    congr 1
    · apply sum_congr rfl
      intro j _
      rw [assign, col_cons, if_pos rfl]
    · have := ih hn' (i + (info q).size)
      rw [show (∑ x ∈ range (totalSize info l), g (i + ((info q).size + x))) =
        ∑ x ∈ range (totalSize info l), g (i + (info q).size + x) by
          apply sum_congr rfl; intro x _; rw [Nat.add_assoc], this]
      apply sum_congr rfl
      intro p hp
      have : q ≠ p := by
        rintro rfl; exact hq (by simpa using hp)
      rw [assign, col_cons, if_neg this]

theorem rowG_deriv (info : P → ParamInfo) (c : P → Nat) (S : Finset P) (bs : List (P × Mat ℝ))
    (hS : ∀ b ∈ bs, (info b.1).fixed = false → b.1 ∈ S)
    (hd : ∀ p ∈ S, ∀ q ∈ S, ∀ a, InCol info c p a → InCol info c q a → p = q)
    (p : P) (hp : p ∈ S) (hf : (info p).fixed = false) (k i : Nat) (hi : i < (info p).size) :
    rowG info c bs k (c p + i) = (bs.map (fun b => if b.1 = p then b.2 k i else 0)).sum := by
  induction bs with
  | nil => rfl
  | cons b bs ih =>
    rw [rowG, ih (fun x hx => hS x (List.mem_cons_of_mem _ hx)), List.map_cons, List.sum_cons]
    congr 1
    have hin : InCol info c p (c p + i) := ⟨by omega, by omega⟩
    by_cases hb : b.1 = p
    · rw [if_pos hb, hb, hf]
      simp only [Bool.false_eq_true, if_false, ent, hb, hin, if_true]
      rw [Nat.add_sub_cancel_left]
    · rw [if_neg hb]
      by_cases hbf : (info b.1).fixed = true
      · rw [if_pos hbf]
      · rw [if_neg hbf, ent, if_neg]
        intro hc
        exact hb (hd _ (hS b List.mem_cons_self (by simpa using hbf)) _ hp _ hc hin)

theorem sum_stackJ (info : P → ParamInfo) (c : P → Nat) (fs : List (Res ℝ P)) (a b : Nat) :
    ∑ k ∈ range (resLen fs), stackJ info c fs k a * stackJ info c fs k b =
      (fs.map (fun f => ∑ k ∈ range f.size, rowG info c f.blocks k a * rowG info c f.blocks k b)).sum := by
  induction fs with
  | nil => simp [resLen]
  | cons f fs ih =>
    rw [resLen, sum_range_add, List.map_cons, List.sum_cons, ← ih]
    congr 1
    · apply sum_congr rfl
      intro k hk
      simp [stackJ, mem_range.mp hk]
    · apply sum_congr rfl
      intro k _
      simp [stackJ]

/-! ## The layout of the code -/

section
variable {info : P → ParamInfo} {fs : List (Res ℝ P)} {params : List P} {S : Finset P}

/-- Names of the parts. -/
abbrev blk (fs : List (Res ℝ P)) : List (List P) := fs.map (fun f => f.blocks.map Prod.fst)

theorem mem_covMarg (h : CovSetting info fs params S) (p : P) :
    p ∈ covMarg info params (blk fs) ↔ p ∈ S ∧ p ∉ params := by
  have := track_all_mem (skipAsked info params) (blk fs) p
  unfold covMarg
  simp only
  rw [Track.all] at this
  rw [this, mem_blocks_flatten, h.opt]
  unfold skipAsked Optimised
  by_cases hp : p ∈ params
  · simp [hp]
  · simp only [hp, if_false, not_false_iff, and_true]
    constructor
    · rintro ⟨a, b, c⟩; exact ⟨b, a⟩
    · rintro ⟨a, b⟩; exact ⟨b, a, h.kind p ((h.opt p).mpr ⟨a, b⟩) hp⟩

theorem mem_covKeep (p : P) : p ∈ covKeep info params ↔ p ∈ params ∧ (info p).fixed = false := by
  simp [covKeep]

theorem fixed_of_mem (h : CovSetting info fs params S) {p : P} (hp : p ∈ S) :
    (info p).fixed = false := ((h.opt p).mp hp).1

theorem mem_layout (h : CovSetting info fs params S) (p : P) :
    p ∈ covMarg info params (blk fs) ++ covKeep info params ↔ p ∈ S := by
  rw [List.mem_append, mem_covMarg h, mem_covKeep]
  constructor
  · rintro (a | a)
    · exact a.1
    · exact h.used p a.1 a.2
  · intro hp
    by_cases hq : p ∈ params
    · exact Or.inr ⟨hq, fixed_of_mem h hp⟩
    · exact Or.inl ⟨hp, hq⟩

theorem covMarg_nodup : (covMarg info params (blk fs)).Nodup :=
  track_all_nodup (skipAsked info params) (blk fs)

theorem covKeep_nodup (h : CovSetting info fs params S) : (covKeep info params).Nodup :=
  h.nodup.filter _

theorem layout_nodup (h : CovSetting info fs params S) :
    (covMarg info params (blk fs) ++ covKeep info params).Nodup := by
  rw [List.nodup_append]
  refine ⟨covMarg_nodup, covKeep_nodup h, ?_⟩
  rintro a ha b hb rfl
  exact ((mem_covMarg h a).mp ha).2 ((mem_covKeep a).mp hb).1

/-- Number of marginalised columns. -/
abbrev mOf (info : P → ParamInfo) (fs : List (Res ℝ P)) (params : List P) : Nat :=
  totalSize info (covMarg info params (blk fs))

/-- Number of remaining columns. -/
abbrev rOf (info : P → ParamInfo) (params : List P) : Nat := totalSize info (covKeep info params)

/-- Columns. -/
abbrev cOf (info : P → ParamInfo) (fs : List (Res ℝ P)) (params : List P) : P → Nat :=
  col (covOrder info params (blk fs))

/-- `H`. -/
noncomputable abbrev HOf (info : P → ParamInfo) (fs : List (Res ℝ P)) (params : List P) : Mat ℝ :=
  covHess info (covOrder info params (blk fs)) fs

theorem total_append (l l' : List P) :
    totalSize info (l ++ l') = totalSize info l + totalSize info l' := by
  simp [totalSize]

theorem col_le (h : CovSetting info fs params S) {p : P} (hp : p ∈ S) :
    cOf info fs params p + (info p).size ≤ mOf info fs params + rOf info params := by
  have := (assign_bounds info _ 0 p ((mem_layout h p).mpr hp)).2
  rw [Nat.zero_add] at this
  rw [← total_append]
  exact this

theorem offset_eq (l : List P) (p : P) (hp : p ∈ covKeep info l) (i : Nat) :
    col (assign info i (covKeep info l)) p = i + offset info l p := by
  induction l generalizing i with
  | nil => simp [covKeep] at hp
  | cons q l ih =>
    unfold covKeep at hp ih ⊢
    rw [offset]
    by_cases hf : (info q).fixed = true
    · have hq : q ≠ p := by
        rintro rfl
        rw [List.mem_filter] at hp
        simp [hf] at hp
      rw [List.filter_cons_of_neg (by simp [hf])] at hp ⊢
      rw [ih hp, if_neg hq, if_pos hf, Nat.zero_add]
    · rw [List.filter_cons_of_pos (by simpa using hf)] at hp ⊢
      rw [assign, col_cons]
      by_cases hq : q = p
      · rw [if_pos hq, if_pos hq]; rfl
      · rw [if_neg hq, if_neg hq, if_neg hf, ih (List.mem_of_ne_of_mem (Ne.symm hq) hp)]
        omega

theorem col_keep (h : CovSetting info fs params S) {p : P} (hp : p ∈ params)
    (hf : (info p).fixed = false) :
    cOf info fs params p = mOf info fs params + offset info params p := by
  have hk : p ∈ covKeep info params := (mem_covKeep p).mpr ⟨hp, hf⟩
  unfold cOf covOrder
  rw [assign_append, col_append_right _ _ _ (by
    rw [assign_keys, mem_covMarg h]; exact fun e => e.2 hp), offset_eq _ _ hk, Nat.zero_add]
  rfl

theorem col_marg (h : CovSetting info fs params S) {p : P} (hp : p ∈ S) (hq : p ∉ params) :
    cOf info fs params p = col (assign info 0 (covMarg info params (blk fs))) p ∧
      cOf info fs params p + (info p).size ≤ mOf info fs params := by
  have hm : p ∈ covMarg info params (blk fs) := (mem_covMarg h p).mpr ⟨hp, hq⟩
  have e : cOf info fs params p = col (assign info 0 (covMarg info params (blk fs))) p := by
    unfold cOf covOrder
    rw [assign_append, col_append_left _ _ _ (by rw [assign_keys]; exact hm)]
  refine ⟨e, ?_⟩
  rw [e]
  have := (assign_bounds info _ 0 p hm).2
  rw [Nat.zero_add] at this
  exact this

theorem offset_le (h : CovSetting info fs params S) {p : P} (hp : p ∈ params)
    (hf : (info p).fixed = false) : offset info params p + (info p).size ≤ rOf info params := by
  have := col_le h (h.used p hp hf)
  rw [col_keep h hp hf] at this
  omega

theorem disj (h : CovSetting info fs params S) :
    ∀ p ∈ S, ∀ q ∈ S, ∀ a, InCol info (cOf info fs params) p a →
      InCol info (cOf info fs params) q a → p = q := by
  intro p hp q hq a h1 h2
  exact assign_disjoint info _ 0 a p q ((mem_layout h p).mpr hp) ((mem_layout h q).mpr hq) h1 h2

theorem cover (h : CovSetting info fs params S) (a : Nat)
    (ha : a < mOf info fs params + rOf info params) :
    ∃ p ∈ S, ∃ i < (info p).size, a = cOf info fs params p + i := by
  obtain ⟨p, hp, hc⟩ := assign_cover info _ (layout_nodup h) 0 a (Nat.zero_le _)
    (by rw [Nat.zero_add]; rw [← total_append] at ha; exact ha)
  have h1 : cOf info fs params p ≤ a := hc.1
  have h2 : a < cOf info fs params p + (info p).size := hc.2
  exact ⟨p, (mem_layout h p).mp hp, a - cOf info fs params p, by omega, by omega⟩

theorem H_symm (a b : Nat) : HOf info fs params a b = HOf info fs params b a := by
  obtain ⟨e, _⟩ := hess_all info (cOf info fs params) fs (fun _ _ => 0) (fun _ => 0)
  have e : ∀ a b, HOf info fs params a b = 0 + ∑ k ∈ range (resLen fs),
    stackJ info (cOf info fs params) fs k a * stackJ info (cOf info fs params) fs k b := e
  rw [e, e]
  congr 1
  apply sum_congr rfl
  intro k _
  ring

theorem H_entry (h : CovSetting info fs params S) {p q : P} (hp : p ∈ S) (hq : q ∈ S) {i j : Nat}
    (hi : i < (info p).size) (hj : j < (info q).size) :
    HOf info fs params (cOf info fs params p + i) (cOf info fs params q + j) =
      infoEntry fs p i q j := by
  obtain ⟨e, _⟩ := hess_all info (cOf info fs params) fs (fun _ _ => 0) (fun _ => 0)
  have e : ∀ a b, HOf info fs params a b = 0 + ∑ k ∈ range (resLen fs),
    stackJ info (cOf info fs params) fs k a * stackJ info (cOf info fs params) fs k b := e
  rw [e, sum_stackJ, zero_add, infoEntry]
  congr 1
  apply List.map_congr_left
  intro f hf
  have hS : ∀ b ∈ f.blocks, (info b.1).fixed = false → b.1 ∈ S := by
    intro b hb hbf
    exact (h.opt _).mpr ⟨hbf, f, hf, List.mem_map_of_mem hb⟩
  apply sum_congr rfl
  intro k _
  rw [rowG_deriv info _ S f.blocks hS (disj h) p hp (fixed_of_mem h hp) k i hi,
    rowG_deriv info _ S f.blocks hS (disj h) q hq (fixed_of_mem h hq) k j hj]
  rfl

/-- Solving the linear system of the code is applying the information matrix. -/
theorem solves_iff (h : CovSetting info fs params S) (b : Nat → ℝ) (y : Nat → ℝ) :
    Solves (mOf info fs params + rOf info params) (HOf info fs params) b y ↔
      ∀ p ∈ S, ∀ i < (info p).size,
        applyInfo info fs S (fun p i => y (cOf info fs params p + i)) p i =
          b (cOf info fs params p + i) := by
  have hl : ∀ p ∈ S, ∀ i < (info p).size,
      ∑ j ∈ range (mOf info fs params + rOf info params),
        HOf info fs params (cOf info fs params p + i) j * y j =
      applyInfo info fs S (fun p i => y (cOf info fs params p + i)) p i := by
    intro p hp i hi
    have := sum_layout info _ (layout_nodup h) 0
      (fun a => HOf info fs params (cOf info fs params p + i) a * y a)
    rw [total_append] at this
    simp only [Nat.zero_add] at this
    rw [this, applyInfo]
    have eS : (covMarg info params (blk fs) ++ covKeep info params).toFinset = S := by
      ext p; rw [List.mem_toFinset, mem_layout h]
    rw [eS]
    apply sum_congr rfl
    intro q hq
    apply sum_congr rfl
    intro j hj
    have := H_entry h hp hq hi (mem_range.mp hj)
    rw [← this]
    rfl
  constructor
  · intro hs p hp i hi
    rw [← hl p hp i hi]
    exact hs _ (by have := col_le h hp; omega)
  · intro hs a ha
    obtain ⟨p, hp, i, hi, rfl⟩ := cover h a ha
    rw [hl p hp i hi]
    exact hs p hp i hi

/-- The marginalised block is the information matrix of the marginalised parameters. -/
theorem eig_marg (h : CovSetting info fs params S) (lam : ℝ)
    (he : IsEigenvalue (block (HOf info fs params) 0 0 (mOf info fs params) (mOf info fs params)) lam) :
    InfoEigenvalue info fs (S.filter (fun p => p ∉ params)) lam := by
  obtain ⟨v, hv, hA⟩ := he
  set y : Nat → ℝ := fun a => if ha : a < mOf info fs params then v ⟨a, ha⟩ else 0 with hy
  refine ⟨fun p i => y (cOf info fs params p + i), ?_, ?_⟩
  · obtain ⟨a, ha⟩ := Function.ne_iff.mp hv
    obtain ⟨p, hp, i, hi, e⟩ := cover h a (by have := a.2; omega)
    have hnp : p ∉ params := by
      intro hq
      have := col_keep h hq (fixed_of_mem h hp)
      have := a.2
      omega
    refine ⟨p, mem_filter.mpr ⟨hp, by simpa using hnp⟩, i, hi, ?_⟩
    simp only [hy]
    rw [← e, dif_pos a.2]
    exact ha
  · intro p hp i hi
    obtain ⟨hp, hnp⟩ := mem_filter.mp hp
    have hcm := (col_marg h hp hnp).2
    have hlt : cOf info fs params p + i < mOf info fs params := by omega
    have h1 := congrFun hA ⟨cOf info fs params p + i, hlt⟩
    have h2 : (lam • v) ⟨cOf info fs params p + i, hlt⟩ = lam * y (cOf info fs params p + i) := by
      simp only [hy, Pi.smul_apply, smul_eq_mul]
      rw [dif_pos hlt]
    show _ = lam * y (cOf info fs params p + i)
    rw [← h2, ← h1]
    simp only [Matrix.mulVec, dotProduct, block, Nat.zero_add]
    have h3 : ∑ a : Fin (mOf info fs params), HOf info fs params (cOf info fs params p + i) a * v a =
        ∑ a ∈ range (mOf info fs params), HOf info fs params (cOf info fs params p + i) a * y a := by
      rw [Finset.sum_range]
      apply sum_congr rfl
      intro a _
      simp only [hy]
      rw [dif_pos a.2]
    rw [h3]
    have h4 := sum_layout info _ (covMarg_nodup (info := info) (fs := fs) (params := params)) 0
      (fun a => HOf info fs params (cOf info fs params p + i) a * y a)
    simp only [Nat.zero_add] at h4
    rw [h4, applyInfo]
    have eS : (covMarg info params (blk fs)).toFinset = S.filter (fun p => p ∉ params) := by
      ext p; rw [List.mem_toFinset, mem_covMarg h, mem_filter]
    rw [eS]
    apply sum_congr rfl
    intro q hq
    obtain ⟨hq, hnq⟩ := mem_filter.mp hq
    apply sum_congr rfl
    intro j hj
    rw [← H_entry h hp hq hi (mem_range.mp hj), ← (col_marg h hq hnq).1]

end

end Yac.Solver
