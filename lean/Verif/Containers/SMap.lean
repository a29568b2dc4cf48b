import Verif.Basic
import Mathlib.Order.Defs.LinearOrder
import Mathlib.Order.Basic
import Mathlib.Data.List.Basic

/-!
# `std::map` as an ascending association list

Library contract used throughout yac: `operator[]=`/`insert_or_assign`, `erase`, `find`
and in-order iteration.
-/

namespace Yac.SMap
variable {κ ν : Type} [LinearOrder κ]

/-- `m[k] = v`. -/
def set (k : κ) (v : ν) : List (κ × ν) → List (κ × ν)
  | [] => [(k, v)]
  | (q, w) :: m => if k < q then (k, v) :: (q, w) :: m
                   else if q < k then (q, w) :: set k v m
                   else (k, v) :: m

/-- `m.find(k)`. -/
def find (k : κ) : List (κ × ν) → Option ν
  | [] => none
  | (q, w) :: m => if q = k then some w else find k m

/-- `m.erase(k)`. -/
def erase (k : κ) (m : List (κ × ν)) : List (κ × ν) := m.filter (fun p => p.1 ≠ k)

/-- Keys strictly ascending. -/
def Sorted (m : List (κ × ν)) : Prop := m.Pairwise (fun a b => a.1 < b.1)

theorem find_set (k k' : κ) (v : ν) (m : List (κ × ν)) :
    find k' (set k v m) = if k' = k then some v else find k' m := by
  induction m with
  | nil => simp [set, find, eq_comm]
  | cons p m ih =>
    obtain ⟨q, w⟩ := p
    simp only [set]
    split_ifs with h1 h2 h3 h4 h5
    · subst h2; simp [find]
    · simp [find, Ne.symm h2]
    · subst h4; rw [find, ih]; simp [ne_of_lt h3]
    · rw [find, ih]; simp [h4, find]
    · subst h5; simp [find]
    · have : k = q := le_antisymm (not_lt.mp h3) (not_lt.mp h1)
      subst this; simp [find, Ne.symm h5]

theorem mem_set {k : κ} {v : ν} {m : List (κ × ν)} {p : κ × ν} (h : p ∈ set k v m) :
    p = (k, v) ∨ p ∈ m := by
  induction m with
  | nil => simpa [set] using h
  | cons q m ih =>
    obtain ⟨q, w⟩ := q
    simp only [set] at h
    split_ifs at h
    · simpa using h
    · rcases List.mem_cons.mp h with h | h
      · simp [h]
      · rcases ih h with h | h <;> simp [h]
    · rcases List.mem_cons.mp h with h | h <;> simp [h]

theorem set_sorted (k : κ) (v : ν) (m : List (κ × ν)) (h : Sorted m) : Sorted (set k v m) := by
  induction m with
  | nil => simp [set, Sorted]
  | cons p m ih =>
    obtain ⟨q, w⟩ := p
    unfold Sorted at *
    have h' := List.pairwise_cons.mp h
    simp only [set]
    split_ifs with h1 h2
    · refine List.pairwise_cons.mpr ⟨?_, h⟩
      intro a ha
      rcases List.mem_cons.mp ha with rfl | ha
      · exact h1
      · exact lt_trans h1 (h'.1 a ha)
    · refine List.pairwise_cons.mpr ⟨?_, ih h'.2⟩
      intro a ha
      rcases mem_set ha with rfl | ha
      · exact h2
      · exact h'.1 a ha
    · have : k = q := le_antisymm (not_lt.mp h2) (not_lt.mp h1)
      subst this
      exact List.pairwise_cons.mpr ⟨h'.1, h'.2⟩

theorem find_none_of_not_mem {k : κ} {m : List (κ × ν)} (h : k ∉ m.map Prod.fst) :
    find k m = none := by
  induction m with
  | nil => rfl
  | cons p m ih =>
    obtain ⟨q, w⟩ := p
    simp only [List.map_cons, List.mem_cons, not_or] at h
    simp [find, Ne.symm h.1, ih h.2]

theorem find_eq_some {k : κ} {v : ν} {m : List (κ × ν)} (h : Sorted m) :
    find k m = some v ↔ (k, v) ∈ m := by
  induction m with
  | nil => simp [find]
  | cons p m ih =>
    obtain ⟨q, w⟩ := p
    have h' := List.pairwise_cons.mp h
    simp only [find, List.mem_cons, Prod.mk.injEq]
    by_cases hq : q = k
    · subst hq
      have : (q, v) ∉ m := fun hm => lt_irrefl q (h'.1 (q, v) hm)
      simp [this, eq_comm]
    · simp [hq, Ne.symm hq, ih h'.2]

theorem find_isSome {k : κ} {m : List (κ × ν)} :
    (find k m).isSome = true ↔ k ∈ m.map Prod.fst := by
  induction m with
  | nil => simp [find]
  | cons p m ih =>
    obtain ⟨q, w⟩ := p
    by_cases hq : q = k
    · simp [find, hq]
    · simp [find, hq, Ne.symm hq, ih]

theorem erase_sorted (k : κ) (m : List (κ × ν)) (h : Sorted m) : Sorted (erase k m) :=
  List.Pairwise.filter _ h

theorem find_erase (k k' : κ) (m : List (κ × ν)) :
    find k' (erase k m) = if k' = k then none else find k' m := by
  induction m with
  | nil => simp [erase, find]
  | cons p m ih =>
    obtain ⟨q, w⟩ := p
    by_cases hq : q = k
    · subst hq
      have : erase q ((q, w) :: m) = erase q m := by simp [erase]
      rw [this, ih]
      split_ifs with h
      · rfl
      · simp [find, Ne.symm h]
    · have : erase k ((q, w) :: m) = (q, w) :: erase k m := by simp [erase, hq]
      rw [this, find, ih]
      by_cases h : q = k'
      · subst h; simp [hq, find]
      · simp [h, find]

theorem sorted_ext {m m' : List (κ × ν)} (h : Sorted m) (h' : Sorted m')
    (he : ∀ k, find k m = find k m') : m = m' := by
  induction m generalizing m' with
  | nil =>
    cases m' with
    | nil => rfl
    | cons p m' => have := he p.1; simp [find] at this
  | cons p m ih =>
    cases m' with
    | nil => have := he p.1; simp [find] at this
    | cons q m' =>
      obtain ⟨a, v⟩ := p
      obtain ⟨b, w⟩ := q
      have h1 := List.pairwise_cons.mp h
      have h2 := List.pairwise_cons.mp h'
      have hab : a = b := by
        rcases lt_trichotomy a b with hlt | heq | hlt
        · have := he a
          rw [find_none_of_not_mem (k := a) (m := (b, w) :: m')] at this
          · simp [find] at this
          · simp only [List.map_cons, List.mem_cons, not_or, List.mem_map, not_exists, not_and]
            exact ⟨ne_of_lt hlt, fun x hx he => lt_irrefl a (lt_trans hlt (he ▸ h2.1 x hx))⟩
        · exact heq
        · have := he b
          rw [find_none_of_not_mem (k := b) (m := (a, v) :: m)] at this
          · simp [find] at this
          · simp only [List.map_cons, List.mem_cons, not_or, List.mem_map, not_exists, not_and]
            exact ⟨ne_of_lt hlt, fun x hx he => lt_irrefl b (lt_trans hlt (he ▸ h1.1 x hx))⟩
      subst hab
      have hvw : v = w := by have := he a; simpa [find] using this
      subst hvw
      congr 1
      refine ih h1.2 h2.2 (fun k => ?_)
      have hk := he k
      by_cases hka : a = k
      · subst hka
        rw [find_none_of_not_mem, find_none_of_not_mem]
        · simp only [List.mem_map, not_exists, not_and]
          exact fun x hx he => lt_irrefl a (he ▸ h2.1 x hx)
        · simp only [List.mem_map, not_exists, not_and]
          exact fun x hx he => lt_irrefl a (he ▸ h1.1 x hx)
      · simpa [find, hka] using hk

end Yac.SMap
