import Verif.Timeline.Model
import Verif.Containers.Lemmas

namespace Yac.Timeline
variable {E : Type}

/-- keys ascending -/
def Sorted (l : List (Int × E)) : Prop := l.Pairwise (fun a b => a.1 ≤ b.1)

theorem mem_mmInsert {ts : Int} {e : E} {l : List (Int × E)} {x : Int × E} :
    x ∈ mmInsert ts e l ↔ x = (ts, e) ∨ x ∈ l := by
  induction l with
  | nil => simp [mmInsert]
  | cons p l ih =>
    obtain ⟨k, v⟩ := p
    simp only [mmInsert]
    split_ifs
    · simp
    · simp only [List.mem_cons, ih]; tauto

theorem mmInsert_sorted {ts : Int} {e : E} {l : List (Int × E)} (h : Sorted l) :
    Sorted (mmInsert ts e l) := by
  induction l with
  | nil => simp [mmInsert, Sorted]
  | cons p l ih =>
    obtain ⟨k, v⟩ := p
    unfold Sorted at *
    rw [List.pairwise_cons] at h
    simp only [mmInsert]
    split_ifs with hk
    · rw [List.pairwise_cons]
      refine ⟨?_, List.pairwise_cons.mpr h⟩
      intro q hq
      rcases List.mem_cons.mp hq with rfl | hq
      · simp; omega
      · have := h.1 q hq; simp at this ⊢; omega
    · rw [List.pairwise_cons]
      refine ⟨?_, ih h.2⟩
      intro q hq
      rcases mem_mmInsert.mp hq with rfl | hq
      · simp; omega
      · exact h.1 q hq

theorem mmInsert_filter (ts : Int) (e : E) (k : Int) (l : List (Int × E)) (h : Sorted l) :
    (mmInsert ts e l).filter (fun p => p.1 = k) =
      l.filter (fun p => p.1 = k) ++ (if ts = k then [(ts, e)] else []) := by
  induction l with
  | nil => by_cases hk : ts = k <;> simp [mmInsert, hk]
  | cons p l ih =>
    obtain ⟨q, v⟩ := p
    have h' := List.pairwise_cons.mp h
    simp only [mmInsert]
    split_ifs with hq hk hk
    · subst hk
      have hall : ((q, v) :: l).filter (fun p => decide (p.1 = ts)) = [] := by
        rw [List.filter_eq_nil_iff]
        intro a ha
        rcases List.mem_cons.mp ha with rfl | ha
        · simp; omega
        · have := h'.1 a ha; simp at this ⊢; omega
      rw [List.filter_cons_of_pos (by simp), hall]; rfl
    · rw [List.filter_cons_of_neg (by simpa using hk), List.append_nil]
    · have := ih h'.2
      rw [if_pos hk] at this
      rw [List.filter_cons, List.filter_cons, this]
      split_ifs <;> simp
    · have := ih h'.2
      rw [if_neg hk] at this
      rw [List.filter_cons, List.filter_cons, this]
      split_ifs <;> simp

theorem range_filter (ts : Int) (l : List (Int × E)) (h : Sorted l) :
    (l.dropWhile (fun p => decide (p.1 < ts))).takeWhile (fun p => decide (¬ ts < p.1)) =
      l.filter (fun p => p.1 = ts) := by
  induction l with
  | nil => simp
  | cons p l ih =>
    have h' := List.pairwise_cons.mp h
    by_cases h1 : p.1 < ts
    · rw [List.dropWhile_cons_of_pos (by simpa using h1), ih h'.2,
        List.filter_cons_of_neg (by simp; omega)]
    · rw [List.dropWhile_cons_of_neg (by simpa using h1)]
      by_cases h2 : ts < p.1
      · rw [List.takeWhile_cons_of_neg (by simpa using h2)]
        symm
        rw [List.filter_eq_nil_iff]
        intro a ha
        rcases List.mem_cons.mp ha with rfl | ha
        · simp; omega
        · have := h'.1 a ha; simp; omega
      · have hp : p.1 = ts := by omega
        rw [List.takeWhile_cons_of_pos (by simpa using h2), List.filter_cons_of_pos (by simpa using hp)]
        congr 1
        rw [← ih h'.2]
        cases l with
        | nil => simp
        | cons q l =>
          have := h'.1 q (by simp)
          rw [List.dropWhile_cons_of_neg (by simp; omega)]

theorem run_inv (adds : List (Int × E)) :
    Sorted (run adds).data ∧ (run adds).timestamps.Pairwise (· < ·) ∧
    (∀ x, x ∈ (run adds).timestamps ↔ x ∈ adds.map Prod.fst) ∧
    ∀ k, (run adds).data.filter (fun p => p.1 = k) = adds.filter (fun p => p.1 = k) := by
  induction adds using List.reverseRecOn with
  | nil => simp [run, empty, Sorted]
  | append_singleton adds a ih =>
    obtain ⟨h1, h2, h3, h4⟩ := ih
    have hr : run (adds ++ [a]) = add (run adds) a.1 a.2 := by simp [run]
    rw [hr]
    refine ⟨mmInsert_sorted h1, setInsert_sorted h2, fun x => ?_, fun k => ?_⟩
    · simp only [add, mem_setInsert, h3, List.map_append, List.mem_append, List.map_cons,
        List.map_nil, List.mem_singleton]; tauto
    · simp only [add]
      rw [mmInsert_filter _ _ _ _ h1, h4, List.filter_append]
      obtain ⟨t, e⟩ := a
      by_cases hk : t = k <;> simp [hk]

end Yac.Timeline
