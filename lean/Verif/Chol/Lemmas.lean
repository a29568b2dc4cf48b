import Verif.Chol.Model
import Mathlib.LinearAlgebra.Matrix.PosDef
import Mathlib.Tactic.Linarith
import Mathlib.Tactic.Ring
import Mathlib.Algebra.BigOperators.Ring.Finset
import Mathlib.Algebra.Order.BigOperators.Group.Finset

/-! # Lemmas on the factorisation -/

namespace Yac.Chol
open Finset

/-- The lower triangle. -/
def low (M : Arr) : Arr := fun i j => if j ≤ i then M i j else 0

/-- The state after `k` columns of the factorisation of `A`. -/
structure Inv (n k : Nat) (A M : Arr) : Prop where
  prod : ∀ i j, j < k → j ≤ i → i < n → ∑ l ∈ range (j + 1), M i l * M j l = A i j
  pos : ∀ j, j < k → 0 < M j j
  rest : ∀ i j, k ≤ j → M i j = A i j

theorem inv_zero (n : Nat) (A : Arr) : Inv n 0 A A :=
  ⟨fun _ _ h => absurd h (Nat.not_lt_zero _), fun _ h => absurd h (Nat.not_lt_zero _), fun _ _ _ => rfl⟩

/-- The pivot. -/
noncomputable def pivot (k : Nat) (M : Arr) : ℝ := M k k - ∑ l ∈ range k, M k l * M k l

theorem column_pos {n k : Nat} {A M : Arr} (h : Inv n k A M) (hx : 0 < pivot k M) :
    ∃ M', column n k M = some M' ∧ Inv n (k + 1) A M' := by
  have hs : Real.sqrt (pivot k M) ^ 2 = pivot k M := Real.sq_sqrt hx.le
  have hsp : 0 < Real.sqrt (pivot k M) := Real.sqrt_pos.2 hx
  refine ⟨_, by unfold column; exact if_neg (not_le.2 hx), ?_⟩
  have e0 : ∀ i l, l < k → (if l = k ∧ i = k then Real.sqrt (M k k - ∑ l ∈ range k, M k l * M k l)
      else if l = k ∧ k < i ∧ i < n then
        (M i k - ∑ l ∈ range k, M i l * M k l) / Real.sqrt (M k k - ∑ l ∈ range k, M k l * M k l)
      else M i l) = M i l := by
    intro i l hl
    rw [if_neg (by omega), if_neg (by omega)]
  refine ⟨?_, ?_, ?_⟩
  · intro i j hj hji hi
    rcases Nat.lt_or_ge j k with hjk | hjk
    · rw [← h.prod i j hjk hji hi]
      refine sum_congr rfl fun l hl => ?_
      rw [mem_range] at hl
      rw [e0 i l (by omega), e0 j l (by omega)]
    · have hjk : j = k := by omega
      subst hjk
      rw [sum_range_succ]
      have e1 : ∑ l ∈ range j, (fun i l => if l = j ∧ i = j then Real.sqrt (M j j - ∑ l ∈ range j, M j l * M j l)
          else if l = j ∧ j < i ∧ i < n then
            (M i j - ∑ l ∈ range j, M i l * M j l) / Real.sqrt (M j j - ∑ l ∈ range j, M j l * M j l)
          else M i l) i l * (fun i l => if l = j ∧ i = j then Real.sqrt (M j j - ∑ l ∈ range j, M j l * M j l)
          else if l = j ∧ j < i ∧ i < n then
            (M i j - ∑ l ∈ range j, M i l * M j l) / Real.sqrt (M j j - ∑ l ∈ range j, M j l * M j l)
          else M i l) j l = ∑ l ∈ range j, M i l * M j l := by
        refine sum_congr rfl fun l hl => ?_
        rw [mem_range] at hl
        beta_reduce
        rw [e0 i l hl, e0 j l hl]
      beta_reduce at e1
      rw [e1, if_pos (show j = j ∧ j = j from ⟨rfl, rfl⟩)]
      rcases Nat.eq_or_lt_of_le hji with hij | hij
      · subst hij
        rw [if_pos ⟨rfl, rfl⟩]
        have : Real.sqrt (pivot j M) * Real.sqrt (pivot j M) = pivot j M := by rw [← sq, hs]
        unfold pivot at this
        rw [this, h.rest j j (le_refl _)]
        ring
      · rw [if_neg (by omega), if_pos ⟨rfl, hij, hi⟩]
        have hne : Real.sqrt (M j j - ∑ l ∈ range j, M j l * M j l) ≠ 0 := hsp.ne'
        rw [div_mul_cancel₀ _ hne, h.rest i j (le_refl _)]
        ring
  · intro j hj
    rcases Nat.lt_or_ge j k with hjk | hjk
    · rw [e0 j j hjk]; exact h.pos j hjk
    · have hjk : j = k := by omega
      subst hjk
      rw [if_pos ⟨rfl, rfl⟩]
      exact hsp
  · intro i j hj
    rw [if_neg (by omega), if_neg (by omega)]
    exact h.rest i j (by omega)

theorem column_fail {n k : Nat} {M : Arr} (hx : pivot k M ≤ 0) : column n k M = none := if_pos hx

/-- Back substitution with the transposed lower triangle. -/
theorem back (L : Arr) (k : Nat) (hp : ∀ j, j < k → 0 < L j j) (hl : ∀ i j, i < j → L i j = 0)
    (b : Nat → ℝ) : ∃ u : Nat → ℝ, ∀ l, l < k → ∑ i ∈ range k, u i * L i l = b l := by
  induction k generalizing b with
  | zero => exact ⟨fun _ => 0, fun l h => absurd h (Nat.not_lt_zero _)⟩
  | succ k ih =>
    obtain ⟨u, hu⟩ := ih (fun j hj => hp j (by omega)) (fun l => b l - b k / L k k * L k l)
    refine ⟨fun i => if i = k then b k / L k k else u i, fun l hlk => ?_⟩
    rw [sum_range_succ]
    beta_reduce
    rw [if_pos rfl]
    have e : ∑ i ∈ range k, (if i = k then b k / L k k else u i) * L i l = ∑ i ∈ range k, u i * L i l := by
      refine sum_congr rfl fun i hi => ?_
      rw [mem_range] at hi
      rw [if_neg (by omega)]
    rw [e]
    rcases Nat.lt_or_ge l k with h | h
    · rw [hu l h]; ring
    · have : l = k := by omega
      subst this
      have hz : ∑ i ∈ range l, u i * L i l = 0 := by
        refine sum_eq_zero fun i hi => ?_
        rw [mem_range] at hi
        rw [hl i l hi, mul_zero]
      rw [hz, zero_add, div_mul_cancel₀ _ (hp l (by omega)).ne']

/-- The quadratic form. -/
def quad (n : Nat) (A : Arr) (v : Nat → ℝ) : ℝ :=
  ∑ i ∈ range n, ∑ j ∈ range n, v i * A i j * v j

/-- Positive definite on the first `n` coordinates. -/
def PD (n : Nat) (A : Arr) : Prop :=
  (∀ i j, i < n → j < n → A i j = A j i) ∧ ∀ v : Nat → ℝ, (∃ i, i < n ∧ v i ≠ 0) → 0 < quad n A v

theorem gram (L : Arr) (m n : Nat) (v : Nat → ℝ) :
    ∑ i ∈ range n, ∑ j ∈ range n, v i * (∑ l ∈ range m, L i l * L j l) * v j =
      ∑ l ∈ range m, (∑ i ∈ range n, v i * L i l) ^ 2 := by
  have h1 : ∀ l, (∑ i ∈ range n, v i * L i l) ^ 2 =
      ∑ i ∈ range n, ∑ j ∈ range n, v i * (L i l * L j l) * v j := by
    intro l
    rw [sq, sum_mul_sum]
    refine sum_congr rfl fun i _ => sum_congr rfl fun j _ => by ring
  rw [sum_congr rfl fun l _ => h1 l]
  symm
  rw [sum_comm]
  refine sum_congr rfl fun i _ => ?_
  rw [sum_comm]
  refine sum_congr rfl fun j _ => ?_
  rw [mul_sum, sum_mul]

theorem low_sum {M : Arr} {i j m : Nat} (hji : j ≤ i) (hjm : j < m) :
    ∑ l ∈ range m, low M i l * low M j l = ∑ l ∈ range (j + 1), M i l * M j l := by
  symm
  rw [← sum_subset (show range (j + 1) ⊆ range m from range_subset_range.2 hjm)]
  · refine sum_congr rfl fun l hl => ?_
    rw [mem_range] at hl
    unfold low
    rw [if_pos (by omega), if_pos (by omega)]
  · intro l _ hl
    rw [mem_range] at hl
    unfold low
    rw [if_neg (show ¬ l ≤ j by omega), mul_zero]

theorem pivot_pos {n k : Nat} {A M : Arr} (hk : k < n) (h : Inv n k A M) (hA : PD n A) :
    0 < pivot k M := by
  obtain ⟨u, hu⟩ := back (low M) k (fun j hj => by unfold low; rw [if_pos (le_refl _)]; exact h.pos j hj)
    (fun i j hij => by unfold low; rw [if_neg (by omega)]) (fun l => low M k l)
  obtain ⟨v, hv⟩ : ∃ v : Nat → ℝ, v = fun i => if i = k then 1 else if i < k then - u i else 0 := ⟨_, rfl⟩
  have hq := hA.2 v ⟨k, hk, by rw [hv]; simp⟩
  have hvk : v k = 1 := by rw [hv]; simp
  have hvo : ∀ i, k < i → v i = 0 := by
    intro i hi
    simp only [hv]
    rw [if_neg (by omega), if_neg (by omega)]
  -- restrict to the first k + 1 coordinates
  have hr : quad n A v = ∑ i ∈ range (k + 1), ∑ j ∈ range (k + 1), v i * A i j * v j := by
    unfold quad
    rw [← sum_subset (show range (k + 1) ⊆ range n from range_subset_range.2 hk)
      (fun i _ hi => by
        rw [mem_range] at hi
        refine sum_eq_zero fun j _ => ?_
        rw [hvo i (by omega)]; ring)]
    refine sum_congr rfl fun i _ => ?_
    rw [← sum_subset (show range (k + 1) ⊆ range n from range_subset_range.2 hk)
      (fun j _ hj => by
        rw [mem_range] at hj
        rw [hvo j (by omega)]; ring)]
  have hE : ∀ i ∈ range (k + 1), ∀ j ∈ range (k + 1), A i j =
      (∑ l ∈ range k, low M i l * low M j l) + if i = k ∧ j = k then pivot k M else 0 := by
    intro i hi j hj
    rw [mem_range] at hi hj
    by_cases hkk : i = k ∧ j = k
    · obtain ⟨rfl, rfl⟩ := hkk
      rw [if_pos ⟨rfl, rfl⟩, pivot, h.rest _ _ (le_refl _)]
      have : ∑ l ∈ range j, low M j l * low M j l = ∑ l ∈ range j, M j l * M j l := by
        refine sum_congr rfl fun l hl => ?_
        rw [mem_range] at hl
        unfold low
        rw [if_pos (by omega)]
      rw [this]; ring
    · rw [if_neg hkk, add_zero]
      rcases Nat.le_total j i with hji | hij
      · rw [low_sum hji (by omega), h.prod i j (by omega) hji (by omega)]
      · rw [hA.1 i j (by omega) (by omega), ← h.prod j i (by omega) hij (by omega),
          ← low_sum (M := M) (m := k) hij (by omega)]
        exact sum_congr rfl fun l _ => mul_comm _ _
  have hsplit : quad n A v = (∑ l ∈ range k, (∑ i ∈ range (k + 1), v i * low M i l) ^ 2) + pivot k M := by
    rw [hr, ← gram]
    have : ∀ i ∈ range (k + 1), ∑ j ∈ range (k + 1), v i * A i j * v j =
        (∑ j ∈ range (k + 1), v i * (∑ l ∈ range k, low M i l * low M j l) * v j) +
          if i = k then pivot k M else 0 := by
      intro i hi
      have h1 : ∀ j ∈ range (k + 1), v i * A i j * v j =
          v i * (∑ l ∈ range k, low M i l * low M j l) * v j +
            if j = k then (if i = k then pivot k M else 0) else 0 := by
        intro j hj
        rw [hE i hi j hj]
        by_cases hik : i = k
        · by_cases hjk : j = k
          · rw [if_pos ⟨hik, hjk⟩, if_pos hjk, if_pos hik, hik, hjk, hvk]; ring
          · rw [if_neg (fun c => hjk c.2), if_neg hjk]; ring
        · rw [if_neg (fun c => hik c.1), if_neg hik]; simp
      rw [sum_congr rfl h1, sum_add_distrib, sum_ite_eq' (range (k + 1)) k]
      rw [if_pos (mem_range.2 (Nat.lt_succ_self k))]
    rw [sum_congr rfl this, sum_add_distrib, sum_ite_eq' (range (k + 1)) k,
      if_pos (mem_range.2 (Nat.lt_succ_self k))]
  have hz : ∑ l ∈ range k, (∑ i ∈ range (k + 1), v i * low M i l) ^ 2 = 0 := by
    refine sum_eq_zero fun l hl => ?_
    rw [mem_range] at hl
    have : ∑ i ∈ range (k + 1), v i * low M i l = 0 := by
      rw [sum_range_succ, hvk, one_mul, ← hu l hl, ← sum_add_distrib]
      refine sum_eq_zero fun i hi => ?_
      rw [mem_range] at hi
      simp only [hv]
      rw [if_neg (by omega), if_pos hi]; ring
    rw [this]; ring
  rw [hsplit, hz, zero_add] at hq
  exact hq

/-- The loop over the first `k` columns. -/
theorem fold_pd {n : Nat} {A : Arr} (hA : PD n A) (k : Nat) (hk : k ≤ n) :
    ∃ M, (List.range k).foldl (step n) (A, true) = (M, true) ∧ Inv n k A M := by
  induction k with
  | zero => exact ⟨A, rfl, inv_zero n A⟩
  | succ k ih =>
    obtain ⟨M, e, h⟩ := ih (by omega)
    obtain ⟨M', e', h'⟩ := column_pos h (pivot_pos (by omega) h hA)
    refine ⟨M', ?_, h'⟩
    rw [List.range_succ, List.foldl_append, e]
    simp [step, e']

theorem fold_inv {n : Nat} {A : Arr} (k : Nat) (M : Arr)
    (h : (List.range k).foldl (step n) (A, true) = (M, true)) : Inv n k A M := by
  induction k generalizing M with
  | zero =>
    simp at h
    subst h; exact inv_zero n A
  | succ k ih =>
    rw [List.range_succ, List.foldl_append] at h
    obtain ⟨s, hs⟩ : ∃ s, s = (List.range k).foldl (step n) (A, true) := ⟨_, rfl⟩
    rw [← hs, List.foldl_cons, List.foldl_nil] at h
    obtain ⟨M0, b⟩ := s
    unfold step at h
    cases b with
    | false => simp at h
    | true =>
      have hi := ih M0 hs.symm
      simp only [Bool.true_eq_false, if_false] at h
      by_cases hx : pivot k M0 ≤ 0
      · rw [column_fail hx] at h; simp at h
      · obtain ⟨M', e, h'⟩ := column_pos hi (not_le.1 hx)
        rw [e] at h
        simp only [Prod.mk.injEq, and_true] at h
        exact h ▸ h'

theorem inv_gram {n : Nat} {A M : Arr} (h : Inv n n A M) (hs : ∀ i j, i < n → j < n → A i j = A j i)
    (i j : Nat) (hi : i < n) (hj : j < n) : ∑ l ∈ range n, low M i l * low M j l = A i j := by
  rcases Nat.le_total j i with hji | hij
  · rw [low_sum hji hj, h.prod i j hj hji hi]
  · rw [hs i j hi hj, ← h.prod j i hi hij hj, ← low_sum (M := M) (m := n) hij hi]
    exact sum_congr rfl fun l _ => mul_comm _ _

theorem pd_of_inv {n : Nat} {A M : Arr} (h : Inv n n A M)
    (hs : ∀ i j, i < n → j < n → A i j = A j i) : PD n A := by
  refine ⟨hs, fun v hv => ?_⟩
  have e : quad n A v = ∑ l ∈ range n, (∑ i ∈ range n, v i * low M i l) ^ 2 := by
    rw [← gram, quad]
    refine sum_congr rfl fun i hi => sum_congr rfl fun j hj => ?_
    rw [mem_range] at hi hj
    rw [inv_gram h hs i j hi hj]
  rw [e]
  refine lt_of_le_of_ne (sum_nonneg fun _ _ => sq_nonneg _) fun h0 => ?_
  rw [eq_comm, sum_eq_zero_iff_of_nonneg fun _ _ => sq_nonneg _] at h0
  have hall : ∀ d, ∀ i, i < n → n - 1 - i ≤ d → v i = 0 := by
    intro d
    induction d using Nat.strong_induction_on with
    | _ d ih =>
      intro i hi hid
      have h1 := pow_eq_zero_iff (two_ne_zero) |>.1 (h0 i (mem_range.2 hi))
      have h2 : ∑ m ∈ range n, v m * low M m i = v i * M i i := by
        rw [sum_eq_single_of_mem i (mem_range.2 hi)]
        · unfold low; rw [if_pos (le_refl _)]
        · intro m hm hmi
          rw [mem_range] at hm
          unfold low
          rcases Nat.lt_or_ge m i with hlt | hge
          · rw [if_neg (by omega), mul_zero]
          · rw [ih (n - 1 - m) (by omega) m hm (le_refl _), zero_mul]
      rw [h2] at h1
      rcases mul_eq_zero.1 h1 with h3 | h3
      · exact h3
      · exact absurd h3 (h.pos i hi).ne'
  obtain ⟨i, hi, hne⟩ := hv
  exact hne (hall (n - 1 - i) i hi (le_refl _))

end Yac.Chol
