import Verif.Containers.Spec
import Verif.Containers.Lemmas

/-! Properties C12-C15: container helpers of yac/lib/util/data.hpp. -/

namespace Yac
open Spec
variable {α : Type}

/-! ## C15 -/

/-- C15: `pop_front` on a nonempty vector removes exactly one occurrence of the first
element: the remaining elements are the tail up to order. -/
theorem C15_popFront_multiset (x : α) (xs : List α) :
    ∃ ys, popFront (x :: xs) = .ok ys ∧ ys.Perm xs := by
  cases xs with
  | nil => exact ⟨[], rfl, List.Perm.refl _⟩
  | cons y ys =>
    refine ⟨_, rfl, ?_⟩
    have h := List.dropLast_concat_getLast (l := y :: ys) (by simp)
    calc _ :: (y :: ys).dropLast |>.Perm ((y :: ys).dropLast ++ [(y :: ys).getLast (by simp)]) :=
          (List.perm_append_singleton _ _).symm
      _ |>.Perm _ := by rw [h]

/-- C15: exactly where the survivors end up: the last element is moved to the front,
the ones in between keep their place. -/
theorem C15_popFront_exact (x : α) (mid : List α) (z : α) :
    popFront (x :: (mid ++ [z])) = .ok (z :: mid) ∧ popFront [x] = .ok [] ∧
      popFront ([] : List α) = .error .fatal := by
  refine ⟨?_, rfl, rfl⟩
  cases mid with
  | nil => simp [popFront]
  | cons y ys =>
    have : (y :: (ys ++ [z])).dropLast = y :: ys := by
      rw [← List.cons_append, List.dropLast_concat]
    simp [popFront, List.getLast_cons, this]

/-- C15: consequently `pop_front` does *not* keep the order of the remaining elements. -/
theorem C15_popFront_order_refuted :
    ¬ ∀ (x : Nat) (xs : List Nat), popFront (x :: xs) = .ok xs := by
  intro h; exact absurd (h 1 [2, 3]) (by decide)

example : popFront [1, 2, 3, 4] = .ok [4, 2, 3] := by decide

/-- C15: `extend` appends all of `add`, in order, after all of `x`. -/
theorem C15_extend (x add : List α) (i : Nat) :
    (extend x add).length = x.length + add.length ∧
    (i < x.length → (extend x add)[i]? = x[i]?) ∧ (extend x add)[x.length + i]? = add[i]? := by
  refine ⟨by simp [extend], fun h => ?_, ?_⟩
  · simp [extend, List.getElem?_append_left h]
  · simp [extend, List.getElem?_append_right]

example : extend [1, 2] [3] = [1, 2, 3] := by decide

/-- C15: for an in-range pair `slice v m n` has `n - m + 1` elements, the `i`-th being
`v[m+i]`; both ends are included. -/
theorem C15_slice (v : List α) (m n : Nat) (hmn : m ≤ n) (hn : n < v.length) :
    ∃ w, slice v m n = .ok w ∧ w.length = n - m + 1 ∧
      ∀ i, i ≤ n - m → w[i]? = v[m + i]? := by
  refine ⟨(v.drop m).take (n + 1 - m), ?_, ?_, ?_⟩
  · have h1 : (0 : Int) ≤ m ∧ (m : Int) ≤ n + 1 ∧ (n : Int) + 1 ≤ v.length := by omega
    have h2 : ((n : Int) + 1 - m).toNat = n + 1 - m := by omega
    simp [slice, h1, h2]
  · simp; omega
  · intro i hi
    rw [List.getElem?_take, List.getElem?_drop, if_pos (by omega)]

/-- C15: the remaining calls: `slice v m (m-1)` is empty, and every other index pair is
outside the vector and is undefined behaviour (no bounds check is made). -/
theorem C15_slice_bounds (v : List α) (m n : Int) :
    (slice v m n = .error .oob ↔ (m < 0 ∨ n + 1 < m ∨ (v.length : Int) ≤ n)) ∧
    (0 ≤ m → m ≤ v.length → slice v m (m - 1) = .ok []) := by
  constructor
  · unfold slice
    split_ifs with h
    · simp; omega
    · simp; omega
  · intro h1 h2
    have : (0 : Int) ≤ m ∧ m ≤ m - 1 + 1 ∧ m - 1 + 1 ≤ v.length := by omega
    rw [slice, if_pos this]
    simp

example : slice [10, 11, 12, 13, 14] 1 3 = .ok [11, 12, 13] := by decide

/-! ## C12 -/

section
variable [LinearOrder α]

/-- C12: `set_union` of two sets holds exactly the elements of either one. -/
theorem C12_set_union (a b : List α) (ha : Ascending a) :
    Ascending (setUnion a b) ∧ ∀ x, x ∈ setUnion a b ↔ x ∈ a ∨ x ∈ b :=
  ⟨(setUnion_spec b a).2 ha, (setUnion_spec b a).1⟩

/-- C12: `set_diff` of two sets is the set difference, ascending. -/
theorem C12_set_diff (a b : List α) (ha : Ascending a) (hb : Ascending b) :
    Ascending (setDiff a b) ∧ ∀ x, x ∈ setDiff a b ↔ x ∈ a ∧ x ∉ b :=
  setDiff_spec a b ha hb

/-- C12: `set_symmetric_diff` of two sets holds exactly the elements of one but not both. -/
theorem C12_set_symmetric_diff (a b : List α) (ha : Ascending a) (hb : Ascending b) :
    Ascending (setSymDiff a b) ∧ ∀ x, x ∈ setSymDiff a b ↔ ¬ (x ∈ a ↔ x ∈ b) := by
  refine ⟨(setSymDiff_spec a b ha hb).1, fun x => ?_⟩
  rw [(setSymDiff_spec a b ha hb).2]; tauto

/-- C12: `std::set` insertion itself (used by `set_union`, `intersection`,
`ordered_set_t`). -/
theorem C12_set_insert (a : α) (l : List α) (h : Ascending l) :
    Ascending (setInsert a l) ∧ ∀ x, x ∈ setInsert a l ↔ x = a ∨ x ∈ l :=
  ⟨setInsert_sorted h, fun _ => mem_setInsert⟩

/-- C12: the sortedness premise is needed: on unsorted vectors (the template accepts
them) the merge loop of `set_diff` returns elements of `b`'s complement wrongly. -/
theorem C12_set_diff_unsorted_refuted :
    ¬ ∀ (a b : List Nat) (x : Nat), x ∈ setDiff a b ↔ x ∈ a ∧ x ∉ b := by
  intro h; have := h [2, 1] [1] 1; simp [setDiff] at this

example : Ascending [1, 3, 5, 8] ∧ Ascending [2, 3, 8, 9] ∧
    setDiff [1, 3, 5, 8] [2, 3, 8, 9] = [1, 5] ∧
    setSymDiff [1, 3, 5, 8] [2, 3, 8, 9] = [1, 2, 5, 9] ∧
    setUnion [1, 3, 5, 8] [2, 3, 8, 9] = [1, 2, 3, 5, 8, 9] := by
  simp [Ascending, setDiff, setSymDiff, setUnion, setInsert]

/-! ## C13 -/

/-- C13, full statement, is false: a value repeated inside one vector is counted as if
it were in several. -/
theorem C13_intersection_refuted :
    ¬ ∀ (vecs : List (List Nat)), vecs ≠ [] →
      ∀ x, x ∈ intersection vecs ↔ ∀ v ∈ vecs, x ∈ v := by
  intro h
  have := (h [[7, 7], [8]] (by simp) 7).mp (by decide)
  simp at this

/-- C13 for duplicate-free vectors (what is missing: vectors with repetitions, for which
the statement is false, see `C13_intersection_refuted`; and the empty list of vectors,
where the result is empty). -/
theorem C13_intersection_partial (vecs : List (List α)) (hne : vecs ≠ [])
    (hnd : ∀ v ∈ vecs, v.Nodup) :
    Ascending (intersection vecs) ∧
    ∀ x, x ∈ intersection vecs ↔ ∀ v ∈ vecs, x ∈ v := by
  obtain ⟨h1, h2⟩ := intersection_exact vecs
  refine ⟨h1, fun x => ?_⟩
  obtain ⟨h3, h4⟩ := totalCount_nodup vecs hnd x
  rw [h2, ← h4]
  have : 0 < vecs.length := List.length_pos_iff.mpr hne
  omega

/-- C13: what the code computes on every input: the values whose total number of
occurrences over all vectors equals the number of vectors (and is not zero). -/
theorem C13_intersection_exact (vecs : List (List α)) :
    Ascending (intersection vecs) ∧
    ∀ x, x ∈ intersection vecs ↔
      vecs ≠ [] ∧ (vecs.flatten).count x = vecs.length := by
  obtain ⟨h1, h2⟩ := intersection_exact vecs
  refine ⟨h1, fun x => ?_⟩
  have : totalCount x vecs = vecs.flatten.count x := by
    simp [totalCount, List.count_flatten]
  rw [h2, this, ← List.length_pos_iff]
  omega

example : (∀ v ∈ [[3, 1, 2], [2, 3, 9], [2, 7, 3]], v.Nodup) ∧
    intersection [[3, 1, 2], [2, 3, 9], [2, 7, 3]] = [2, 3] := by decide

/-! ## C14 -/

namespace OrderedSet

theorem firsts_concat (l : List α) (x : α) :
    firsts (l ++ [x]) = if x ∈ l then firsts l else firsts l ++ [x] := by
  induction l with
  | nil => simp [firsts]
  | cons a l ih =>
    simp only [List.cons_append, firsts, ih, List.mem_cons]
    by_cases hxa : x = a
    · subst hxa
      simp only [true_or, if_true]
      split_ifs <;> simp
    · simp only [hxa, false_or]
      split_ifs with h
      · rfl
      · simp [List.filter_append, hxa]

theorem mem_firsts (l : List α) (x : α) : x ∈ firsts l ↔ x ∈ l := by
  induction l with
  | nil => simp [firsts]
  | cons a l ih => simp only [firsts, List.mem_cons, List.mem_filter, ih]
                   by_cases h : x = a <;> simp [h]

theorem run_inv (ops : List (Op α)) :
    (run ops).vector = firsts (insertedSinceClear ops) ∧
    (∀ x, x ∈ (run ops).set ↔ x ∈ insertedSinceClear ops) ∧
    (run ops).set.length = (run ops).vector.length := by
  induction ops using List.reverseRecOn with
  | nil => simp [run, OrderedSet.empty, insertedSinceClear, firsts]
  | append_singleton ops op ih =>
    have hr : run (ops ++ [op]) = step (run ops) op := by simp [run]
    cases op with
    | clear => simp [hr, step, clear, insertedSinceClear, firsts]
    | insert x =>
      have hi : insertedSinceClear (ops ++ [Op.insert x]) = insertedSinceClear ops ++ [x] := by
        simp [insertedSinceClear]
      rw [hi, hr, firsts_concat]
      obtain ⟨h1, h2, h3⟩ := ih
      simp only [step, OrderedSet.insert]
      by_cases hx : x ∈ insertedSinceClear ops
      · rw [if_pos ((h2 x).mpr hx), if_pos hx]
        refine ⟨h1, fun y => ?_, h3⟩
        rw [h2, List.mem_append, List.mem_singleton]
        constructor
        · exact Or.inl
        · rintro (h | rfl); exacts [h, hx]
      · rw [if_neg (fun h => hx ((h2 x).mp h)), if_neg hx]
        refine ⟨by rw [h1], fun y => ?_, ?_⟩
        · simp only [mem_setInsert, h2, List.mem_append, List.mem_singleton]; tauto
        · rw [setInsert_length (fun h => hx ((h2 x).mp h))]; simp [h3]

end OrderedSet

/-- C14: after any history of `insert` and `clear` calls the container iterates over the
distinct values inserted since the last `clear`, in order of first insertion; `count`,
`size`, `empty` and `at` agree with that list (`at` throws beyond its end). -/
theorem C14_ordered_set (ops : List (OrderedSet.Op α)) :
    let s := OrderedSet.run ops
    let l := firsts (insertedSinceClear ops)
    s.toList = l ∧ (∀ x, s.count x = if x ∈ l then 1 else 0) ∧ s.size = l.length ∧
      (s.isEmpty = true ↔ l = []) ∧
      (∀ i (h : i < l.length), s.get i = .ok l[i]) ∧ (∀ i, l.length ≤ i → s.get i = .error .exn) := by
  obtain ⟨h1, h2, h3⟩ := OrderedSet.run_inv ops
  refine ⟨h1, fun x => ?_, ?_, ?_, fun i h => ?_, fun i h => ?_⟩
  · simp only [OrderedSet.count, h2, OrderedSet.mem_firsts]
  · rw [OrderedSet.size, h3, h1]
  · rw [OrderedSet.isEmpty, List.isEmpty_iff_length_eq_zero, h3, h1, List.length_eq_zero_iff]
  · simp only [OrderedSet.get, h1, List.getElem?_eq_getElem h]
  · simp only [OrderedSet.get, h1, List.getElem?_eq_none h]

/-- C14: and that list has no duplicates. -/
theorem C14_ordered_set_nodup (ops : List (OrderedSet.Op α)) :
    (OrderedSet.run ops).toList.Nodup := by
  rw [OrderedSet.toList, (OrderedSet.run_inv ops).1]
  generalize insertedSinceClear ops = l
  induction l with
  | nil => simp [firsts]
  | cons a l ih =>
    simp only [firsts, List.nodup_cons]
    exact ⟨by simp, ih.filter _⟩

example : (OrderedSet.run [.insert 9, .clear, .insert 5, .insert 2, .insert 5, .insert 1]).toList
    = [5, 2, 1] := by decide

end
end Yac
