import Verif.Containers.Model
import Mathlib.Data.List.Basic
import Mathlib.Data.List.Count
import Mathlib.Data.List.Dedup
import Mathlib.Data.List.Perm.Basic
import Mathlib.Order.Basic
import Mathlib.Order.Nat
import Mathlib.Algebra.Order.Ring.Int
import Mathlib.Data.List.Induction

namespace Yac

variable {α : Type} [LinearOrder α]

theorem mem_setInsert {a x : α} {l : List α} : x ∈ setInsert a l ↔ x = a ∨ x ∈ l := by
  induction l with
  | nil => simp [setInsert]
  | cons b l ih =>
    simp only [setInsert]
    split_ifs with h1 h2
    · simp
    · simp only [List.mem_cons, ih]; tauto
    · have : a = b := le_antisymm (not_lt.mp h2) (not_lt.mp h1)
      subst this; simp

theorem setInsert_sorted {a : α} {l : List α} (h : l.Pairwise (· < ·)) :
    (setInsert a l).Pairwise (· < ·) := by
  induction l with
  | nil => simp [setInsert]
  | cons b l ih =>
    simp only [setInsert]
    rw [List.pairwise_cons] at h
    split_ifs with h1 h2
    · rw [List.pairwise_cons]
      refine ⟨?_, List.pairwise_cons.mpr h⟩
      intro c hc
      rcases List.mem_cons.mp hc with rfl | hc
      · exact h1
      · exact lt_trans h1 (h.1 c hc)
    · rw [List.pairwise_cons]
      refine ⟨?_, ih h.2⟩
      intro c hc
      rcases mem_setInsert.mp hc with rfl | hc
      · exact h2
      · exact h.1 c hc
    · exact List.pairwise_cons.mpr h

theorem setInsert_length {a : α} {l : List α} (hl : a ∉ l) :
    (setInsert a l).length = l.length + 1 := by
  induction l with
  | nil => simp [setInsert]
  | cons b l ih =>
    simp only [setInsert]
    rw [List.mem_cons, not_or] at hl
    split_ifs with h1 h2
    · simp
    · simp [ih hl.2]
    · exact absurd (le_antisymm (not_lt.mp h2) (not_lt.mp h1)) hl.1

theorem setUnion_spec (s2 : List α) : ∀ s1 : List α,
    (∀ x, x ∈ setUnion s1 s2 ↔ x ∈ s1 ∨ x ∈ s2) ∧
    (s1.Pairwise (· < ·) → (setUnion s1 s2).Pairwise (· < ·)) := by
  induction s2 with
  | nil => intro s1; simp [setUnion]
  | cons b l ih =>
    intro s1
    have := ih (setInsert b s1)
    simp only [setUnion, List.foldl_cons] at this ⊢
    refine ⟨fun x => ?_, fun h => this.2 (setInsert_sorted h)⟩
    rw [this.1, mem_setInsert, List.mem_cons]; tauto

theorem setDiff_subset (as bs : List α) : ∀ x ∈ setDiff as bs, x ∈ as := by
  fun_induction setDiff as bs with
  | case1 => simp
  | case2 => simp
  | case3 a as b bs h ih => intro x hx; simp at hx ⊢; rcases hx with rfl | hx; · simp
                            · exact Or.inr (ih x hx)
  | case4 a as b bs h1 h2 ih => intro x hx; exact ih x hx
  | case5 a as b bs h1 h2 ih => intro x hx; exact List.mem_cons_of_mem _ (ih x hx)

theorem setDiff_spec (as bs : List α) (ha : as.Pairwise (· < ·)) (hb : bs.Pairwise (· < ·)) :
    (setDiff as bs).Pairwise (· < ·) ∧ ∀ x, x ∈ setDiff as bs ↔ x ∈ as ∧ x ∉ bs := by
  fun_induction setDiff as bs with
  | case1 => simp
  | case2 => simpa using ha
  | case3 a as b bs h ih =>
    have ha' := List.pairwise_cons.mp ha
    obtain ⟨h1, h2⟩ := ih ha'.2 hb
    refine ⟨List.pairwise_cons.mpr ⟨fun c hc => ha'.1 c (setDiff_subset _ _ c hc), h1⟩, ?_⟩
    intro x
    rw [List.mem_cons, h2, List.mem_cons (b := a)]
    constructor
    · rintro (rfl | ⟨hx, hx'⟩)
      · refine ⟨Or.inl rfl, fun hm => ?_⟩
        rcases List.mem_cons.mp hm with rfl | hm
        · exact lt_irrefl _ h
        · exact lt_asymm h ((List.pairwise_cons.mp hb).1 x hm)
      · exact ⟨Or.inr hx, hx'⟩
    · rintro ⟨hx | hx, hx'⟩
      · exact Or.inl hx
      · exact Or.inr ⟨hx, hx'⟩
  | case4 a as b bs h1 h2 ih =>
    have hb' := List.pairwise_cons.mp hb
    obtain ⟨h3, h4⟩ := ih ha hb'.2
    refine ⟨h3, fun x => ?_⟩
    rw [h4, List.mem_cons (b := b)]
    constructor
    · rintro ⟨hx, hx'⟩
      refine ⟨hx, ?_⟩
      rintro (rfl | hm)
      · rcases List.mem_cons.mp hx with rfl | hx
        · exact lt_irrefl _ h2
        · exact lt_asymm h2 ((List.pairwise_cons.mp ha).1 x hx)
      · exact hx' hm
    · rintro ⟨hx, hx'⟩; exact ⟨hx, fun h => hx' (Or.inr h)⟩
  | case5 a as b bs h1 h2 ih =>
    have hab : a = b := le_antisymm (not_lt.mp h2) (not_lt.mp h1)
    subst hab
    have ha' := List.pairwise_cons.mp ha
    have hb' := List.pairwise_cons.mp hb
    obtain ⟨h3, h4⟩ := ih ha'.2 hb'.2
    refine ⟨h3, fun x => ?_⟩
    rw [h4, List.mem_cons, List.mem_cons]
    constructor
    · rintro ⟨hx, hx'⟩
      refine ⟨Or.inr hx, ?_⟩
      rintro (rfl | hm)
      · exact lt_irrefl _ (ha'.1 x hx)
      · exact hx' hm
    · rintro ⟨rfl | hx, hx'⟩
      · exact absurd (Or.inl rfl) hx'
      · exact ⟨hx, fun h => hx' (Or.inr h)⟩

theorem setSymDiff_spec (as bs : List α) (ha : as.Pairwise (· < ·)) (hb : bs.Pairwise (· < ·)) :
    (setSymDiff as bs).Pairwise (· < ·) ∧
      ∀ x, x ∈ setSymDiff as bs ↔ (x ∈ as ∧ x ∉ bs) ∨ (x ∈ bs ∧ x ∉ as) := by
  fun_induction setSymDiff as bs with
  | case1 => simpa using hb
  | case2 => simpa using ha
  | case3 a as b bs h ih =>
    have ha' := List.pairwise_cons.mp ha
    have hb' := List.pairwise_cons.mp hb
    obtain ⟨h1, h2⟩ := ih ha'.2 hb
    have hlt : ∀ c ∈ b :: bs, a < c := by
      intro c hc
      rcases List.mem_cons.mp hc with rfl | hc
      · exact h
      · exact lt_trans h (hb'.1 c hc)
    refine ⟨List.pairwise_cons.mpr ⟨fun c hc => ?_, h1⟩, ?_⟩
    · rcases (h2 c).mp hc with ⟨hc, _⟩ | ⟨hc, _⟩
      · exact ha'.1 c hc
      · exact hlt c hc
    · intro x
      rw [List.mem_cons, h2, List.mem_cons (b := a)]
      have n1 : a ∉ b :: bs := fun hm => lt_irrefl _ (hlt a hm)
      have n2 : x ∈ b :: bs → x ≠ a := fun hm he => n1 (he ▸ hm)
      constructor
      · rintro (rfl | ⟨hx, hx'⟩ | ⟨hx, hx'⟩)
        · exact Or.inl ⟨Or.inl rfl, n1⟩
        · exact Or.inl ⟨Or.inr hx, hx'⟩
        · exact Or.inr ⟨hx, fun h => h.elim (n2 hx) hx'⟩
      · rintro (⟨rfl | hx, hx'⟩ | ⟨hx, hx'⟩)
        · exact Or.inl rfl
        · exact Or.inr (Or.inl ⟨hx, hx'⟩)
        · exact Or.inr (Or.inr ⟨hx, fun h => hx' (Or.inr h)⟩)
  | case4 a as b bs h1 h ih =>
    have ha' := List.pairwise_cons.mp ha
    have hb' := List.pairwise_cons.mp hb
    obtain ⟨h1, h2⟩ := ih ha hb'.2
    have hlt : ∀ c ∈ a :: as, b < c := by
      intro c hc
      rcases List.mem_cons.mp hc with rfl | hc
      · exact h
      · exact lt_trans h (ha'.1 c hc)
    refine ⟨List.pairwise_cons.mpr ⟨fun c hc => ?_, h1⟩, ?_⟩
    · rcases (h2 c).mp hc with ⟨hc, _⟩ | ⟨hc, _⟩
      · exact hlt c hc
      · exact hb'.1 c hc
    · intro x
      rw [List.mem_cons, h2, List.mem_cons (b := b)]
      have n1 : b ∉ a :: as := fun hm => lt_irrefl _ (hlt b hm)
      have n2 : x ∈ a :: as → x ≠ b := fun hm he => n1 (he ▸ hm)
      constructor
      · rintro (rfl | ⟨hx, hx'⟩ | ⟨hx, hx'⟩)
        · exact Or.inr ⟨Or.inl rfl, n1⟩
        · exact Or.inl ⟨hx, fun h => h.elim (n2 hx) hx'⟩
        · exact Or.inr ⟨Or.inr hx, hx'⟩
      · rintro (⟨hx, hx'⟩ | ⟨rfl | hx, hx'⟩)
        · exact Or.inr (Or.inl ⟨hx, fun h => hx' (Or.inr h)⟩)
        · exact Or.inl rfl
        · exact Or.inr (Or.inr ⟨hx, hx'⟩)
  | case5 a as b bs h1 h2 ih =>
    have hab : a = b := le_antisymm (not_lt.mp h2) (not_lt.mp h1)
    subst hab
    have ha' := List.pairwise_cons.mp ha
    have hb' := List.pairwise_cons.mp hb
    obtain ⟨h3, h4⟩ := ih ha'.2 hb'.2
    refine ⟨h3, fun x => ?_⟩
    rw [h4, List.mem_cons, List.mem_cons]
    have n1 : x ∈ as → x ≠ a := fun hm he => lt_irrefl _ (ha'.1 a (he ▸ hm))
    have n2 : x ∈ bs → x ≠ a := fun hm he => lt_irrefl _ (hb'.1 a (he ▸ hm))
    tauto

/-! ### the counter map -/

/-- Number of occurrences of `x` in all vectors together. -/
def totalCount (x : α) (vecs : List (List α)) : Nat := (vecs.map (List.count x)).sum

/-- Lookup in the counter (0 when absent). -/
def cget (x : α) : List (α × Nat) → Nat
  | [] => 0
  | (q, n) :: c => if q = x then n else cget x c

theorem cget_bump (p x : α) (c : List (α × Nat)) :
    cget x (bump p c) = cget x c + if x = p then 1 else 0 := by
  induction c with
  | nil => simp [bump, cget, eq_comm]
  | cons e c ih =>
    obtain ⟨q, n⟩ := e
    simp only [bump]
    by_cases hq : q = p
    · subst hq
      by_cases hx : q = x
      · subst hx; simp [cget]
      · simp [cget, hx, Ne.symm hx]
    · by_cases hx : q = x
      · subst hx; simp [cget, hq]
      · simp [cget, hx, hq, ih]

theorem bump_keys (p : α) (c : List (α × Nat)) :
    (bump p c).map Prod.fst = if p ∈ c.map Prod.fst then c.map Prod.fst
      else c.map Prod.fst ++ [p] := by
  induction c with
  | nil => simp [bump]
  | cons e c ih =>
    obtain ⟨q, n⟩ := e
    simp only [bump]
    by_cases hq : q = p
    · subst hq; simp
    · simp only [hq, if_false, List.map_cons, ih, List.mem_cons, Ne.symm hq, false_or]
      split_ifs <;> simp

theorem bump_pos (p : α) (c : List (α × Nat)) (h : ∀ e ∈ c, 0 < e.2) :
    ∀ e ∈ bump p c, 0 < e.2 := by
  induction c with
  | nil => simp [bump]
  | cons e c ih =>
    obtain ⟨q, n⟩ := e
    simp only [bump]
    split_ifs
    · intro e he; rcases List.mem_cons.mp he with rfl | he
      · simp
      · exact h e (List.mem_cons_of_mem _ he)
    · intro e he; rcases List.mem_cons.mp he with rfl | he
      · exact h (q, n) (by simp)
      · exact ih (fun e he => h e (List.mem_cons_of_mem _ he)) e he

/-- Invariant of the counter. -/
def CInv (c : List (α × Nat)) : Prop := (c.map Prod.fst).Nodup ∧ ∀ e ∈ c, 0 < e.2

theorem bump_inv (p : α) (c : List (α × Nat)) (h : CInv c) : CInv (bump p c) := by
  refine ⟨?_, bump_pos p c h.2⟩
  rw [bump_keys]
  split_ifs with hp
  · exact h.1
  · exact List.Nodup.append h.1 (by simp) (by simpa using hp)

theorem bumps_inv (vec : List α) : ∀ c : List (α × Nat), CInv c →
    CInv (vec.foldl (fun c p => bump p c) c) ∧
    ∀ x, cget x (vec.foldl (fun c p => bump p c) c) = cget x c + vec.count x := by
  induction vec with
  | nil => intro c h; simpa using h
  | cons a vec ih =>
    intro c h
    obtain ⟨h1, h2⟩ := ih (bump a c) (bump_inv a c h)
    refine ⟨h1, fun x => ?_⟩
    simp only [List.foldl_cons]
    rw [h2, cget_bump, List.count_cons]
    by_cases hx : x = a
    · subst hx; simp; omega
    · have : ¬ (a == x) = true := by simpa using fun h => hx h.symm
      simp [hx, this]

theorem counter_spec (vecs : List (List α)) : ∀ c : List (α × Nat), CInv c →
    CInv (vecs.foldl (fun c vec => vec.foldl (fun c p => bump p c) c) c) ∧
    ∀ x, cget x (vecs.foldl (fun c vec => vec.foldl (fun c p => bump p c) c) c) =
      cget x c + totalCount x vecs := by
  induction vecs with
  | nil => intro c h; simpa [totalCount] using h
  | cons v vecs ih =>
    intro c h
    obtain ⟨h1, h2⟩ := bumps_inv v c h
    obtain ⟨h3, h4⟩ := ih _ h1
    refine ⟨h3, fun x => ?_⟩
    simp only [List.foldl_cons, h4, h2, totalCount, List.map_cons, List.sum_cons]
    omega

theorem cget_mem (c : List (α × Nat)) (h : CInv c) (x : α) (n : Nat) :
    (x, n) ∈ c ↔ 0 < n ∧ cget x c = n := by
  induction c with
  | nil => simp [cget]; omega
  | cons e c ih =>
    obtain ⟨q, m⟩ := e
    obtain ⟨h1, h2⟩ := h
    simp only [List.map_cons, List.nodup_cons] at h1
    have ih' := ih ⟨h1.2, fun e he => h2 e (List.mem_cons_of_mem _ he)⟩
    simp only [List.mem_cons, Prod.mk.injEq, cget]
    by_cases hq : q = x
    · subst hq
      have : (q, n) ∉ c := fun hm => h1.1 (List.mem_map.mpr ⟨_, hm, rfl⟩)
      have hm := h2 (q, m) (by simp)
      simp only [this, or_false, true_and, if_true]
      constructor
      · rintro rfl; exact ⟨hm, rfl⟩
      · rintro ⟨_, rfl⟩; rfl
    · simp only [Ne.symm hq, false_and, false_or, hq, if_false]
      exact ih'

theorem collect_spec (k : Nat) (c : List (α × Nat)) : ∀ acc : List α, ∀ _h : acc.Pairwise (· < ·),
    (c.foldl (fun acc el => if el.2 = k then setInsert el.1 acc else acc) acc).Pairwise (· < ·) ∧
    ∀ x, x ∈ c.foldl (fun acc el => if el.2 = k then setInsert el.1 acc else acc) acc ↔
      x ∈ acc ∨ (x, k) ∈ c := by
  induction c with
  | nil => intro acc h; simpa using h
  | cons e c ih =>
    intro acc h
    obtain ⟨q, n⟩ := e
    simp only [List.foldl_cons]
    by_cases hn : n = k
    · subst hn
      simp only [if_true]
      obtain ⟨h1, h2⟩ := ih _ (setInsert_sorted (a := q) h)
      refine ⟨h1, fun x => ?_⟩
      rw [h2, mem_setInsert, List.mem_cons]
      simp only [Prod.mk.injEq, and_true]; tauto
    · simp only [hn, if_false]
      obtain ⟨h1, h2⟩ := ih _ h
      refine ⟨h1, fun x => ?_⟩
      rw [h2, List.mem_cons]
      simp only [Prod.mk.injEq, Ne.symm hn, and_false, false_or]

theorem intersection_exact (vecs : List (List α)) :
    (intersection vecs).Pairwise (· < ·) ∧
    ∀ x, x ∈ intersection vecs ↔ 0 < totalCount x vecs ∧ totalCount x vecs = vecs.length := by
  have hc := counter_spec vecs [] ⟨by simp, by simp⟩
  have := collect_spec vecs.length (acc := []) (_h := by simp) (c := vecs.foldl
    (fun c vec => vec.foldl (fun c p => bump p c) c) [])
  refine ⟨this.1, fun x => ?_⟩
  rw [intersection, this.2, cget_mem _ hc.1, hc.2]
  simp only [List.not_mem_nil, false_or, cget, Nat.zero_add]
  constructor
  · rintro ⟨h, h'⟩; exact ⟨by omega, h'⟩
  · rintro ⟨h, h'⟩; exact ⟨by omega, h'⟩

theorem totalCount_nodup (vecs : List (List α)) (h : ∀ v ∈ vecs, v.Nodup) (x : α) :
    totalCount x vecs ≤ vecs.length ∧
    (totalCount x vecs = vecs.length ↔ ∀ v ∈ vecs, x ∈ v) := by
  induction vecs with
  | nil => simp [totalCount]
  | cons v vecs ih =>
    obtain ⟨h1, h2⟩ := ih (fun v hv => h v (List.mem_cons_of_mem _ hv))
    simp only [totalCount, List.map_cons, List.sum_cons, List.length_cons] at h1 h2 ⊢
    have hv : v.count x = if x ∈ v then 1 else 0 := (h v (by simp)).count
    rw [List.forall_mem_cons]
    by_cases hx : x ∈ v
    · rw [hv]; simp only [hx, if_true, true_and, ← h2]; omega
    · rw [hv]; simp only [hx, if_false, false_and, iff_false]; omega

end Yac
