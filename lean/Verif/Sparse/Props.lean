import Verif.Sparse.Lemmas

/-!
# C103: sparse matrices are what the dense ones were
-/

namespace Yac.Sparse
open Yac.Solver (Mat)

open Classical in
/-- **C103, round trip.**  For every matrix, every positive threshold and every content of fresh memory: the conversion
to a sparse matrix and back succeeds and gives the same matrix, except that entries not above the threshold are zero. -/
theorem C103_roundtrip (junk : ℕ → ℝ × ℕ) (eps : ℝ) (he : 0 < eps) (A : Mat ℝ) (m n : ℕ) :
    ∃ M D, ofDense junk eps A m n = .ok M ∧ M.nrow = m ∧ M.ncol = n ∧ toDense M = .ok D ∧
      ∀ r < m, ∀ c < n, D r c = if |A r c| ≤ eps then 0 else A r c := by
  obtain ⟨M, h1, h2, h3, h4, h5⟩ := ofDense_holds junk eps he A m n
  have hmem : ∀ c e, e ∈ sel eps A c (List.range m) → e.1 < m ∧ e.2 = A e.1 c ∧ |A e.1 c| > eps := by
    intro c e h
    unfold sel at h
    obtain ⟨r, hr, rfl⟩ := List.mem_map.mp h
    obtain ⟨h1, h2⟩ := List.mem_filter.mp hr
    exact ⟨List.mem_range.mp h1, rfl, by simpa using h2⟩
  have hnd : ∀ c, ((sel eps A c (List.range m)).map Prod.fst).Nodup := by
    intro c
    unfold sel
    rw [List.map_map, show (Prod.fst ∘ fun r => (r, A r c)) = id from rfl, List.map_id]
    exact List.nodup_range.filter _
  have hd := put_cols h5 (by rw [h4]; simp) (fun c _ e he => by rw [h2]; exact (hmem c e he).1)
  refine ⟨M, _, h1, h2, h3, hd, ?_⟩
  rw [h3, h4]
  have key : ∀ k, (∀ r < m, ∀ c < k, ((List.range k).foldl (fun out c => (sel eps A c (List.range m)).foldl (write false c) out)
      (fun _ _ => (0 : ℝ))) r c = if |A r c| ≤ eps then 0 else A r c) ∧
      ∀ r c, k ≤ c → ((List.range k).foldl (fun out c => (sel eps A c (List.range m)).foldl (write false c) out)
      (fun _ _ => (0 : ℝ))) r c = 0 := by
    intro k
    induction k with
    | zero => exact ⟨fun _ _ c hc => absurd hc (by omega), fun _ _ _ => rfl⟩
    | succ k ih =>
      rw [List.range_succ, List.foldl_append]
      obtain ⟨w1, w2, w3⟩ := write_col k (sel eps A k (List.range m)) (hnd k)
        ((List.range k).foldl (fun out c => (sel eps A c (List.range m)).foldl (write false c) out) (fun _ _ => (0 : ℝ)))
      simp only [List.foldl_cons, List.foldl_nil]
      refine ⟨fun r hr c hc => ?_, fun r c hc => ?_⟩
      · by_cases hck : c = k
        · subst hck
          by_cases h : |A r c| ≤ eps
          · rw [if_pos h, w2 r, ih.2 r c (le_refl _)]
            intro hm
            obtain ⟨e, he, rfl⟩ := List.mem_map.mp hm
            exact absurd (hmem c e he).2.2 (not_lt.mpr h)
          · rw [if_neg h]
            exact w1 (r, A r c) (List.mem_map.mpr ⟨r, List.mem_filter.mpr ⟨List.mem_range.mpr hr, by simpa using h⟩, rfl⟩)
        · rw [w3 r c hck, ih.1 r hr c (by omega)]
      · rw [w3 r c (by omega), ih.2 r c (by omega)]
  exact (key n).1

/-- **C103, reading a symmetric matrix.**  Of a square matrix that is flagged symmetric, only the upper triangle is
stored, in any order within a column: the dense matrix has each stored entry in both places, and zeros elsewhere. -/
theorem C103_symmetric (M : CSC) (L : ℕ → List (ℕ × ℝ)) (h : Holds M L) (hs : M.sym = true) (hq : M.nrow = M.ncol)
    (hu : ∀ c < M.ncol, ∀ e ∈ L c, e.1 ≤ c) (hn : ∀ c, ((L c).map Prod.fst).Nodup) :
    ∃ D, toDense M = .ok D ∧ (∀ c < M.ncol, ∀ e ∈ L c, D e.1 c = e.2 ∧ D c e.1 = e.2) ∧
      (∀ c < M.ncol, ∀ r ≤ c, r ∉ (L c).map Prod.fst → D r c = 0 ∧ D c r = 0) ∧
      ∀ r < M.nrow, ∀ c < M.ncol, D r c = D c r := by
  have hd := put_cols h (fun _ => hq) (fun c hc e he => by have := hu c hc e he; omega)
  rw [hs] at hd
  have key : ∀ k ≤ M.ncol, (∀ c < k, ∀ e ∈ L c, (List.range k).foldl (fun out c => (L c).foldl (write true c) out) (fun _ _ => (0 : ℝ)) e.1 c = e.2 ∧
      (List.range k).foldl (fun out c => (L c).foldl (write true c) out) (fun _ _ => (0 : ℝ)) c e.1 = e.2) ∧
      (∀ c < k, ∀ r ≤ c, r ∉ (L c).map Prod.fst →
        (List.range k).foldl (fun out c => (L c).foldl (write true c) out) (fun _ _ => (0 : ℝ)) r c = 0 ∧
        (List.range k).foldl (fun out c => (L c).foldl (write true c) out) (fun _ _ => (0 : ℝ)) c r = 0) ∧
      ∀ a b, k ≤ max a b → (List.range k).foldl (fun out c => (L c).foldl (write true c) out) (fun _ _ => (0 : ℝ)) a b = 0 := by
    intro k hk
    induction k with
    | zero => exact ⟨fun c hc => absurd hc (by omega), fun c hc => absurd hc (by omega), fun _ _ _ => rfl⟩
    | succ k ih =>
      obtain ⟨i1, i2, i3⟩ := ih (by omega)
      rw [List.range_succ, List.foldl_append]
      simp only [List.foldl_cons, List.foldl_nil]
      obtain ⟨w1, w2, w3⟩ := write_sym k (L k) (hn k) (hu k (by omega))
        ((List.range k).foldl (fun out c => (L c).foldl (write true c) out) (fun _ _ => (0 : ℝ)))
      refine ⟨fun c hc e he => ?_, fun c hc r hr hm => ?_, fun a b hab => ?_⟩
      · by_cases hck : c = k
        · subst hck; exact w1 e he
        · have := hu c (by omega) e he
          rw [w3 _ _ (by omega), w3 _ _ (by omega)]
          exact i1 c (by omega) e he
      · by_cases hck : c = k
        · subst hck
          rcases w2 r hm with h | h
          · rw [h.1, h.2, i3 _ _ (by omega), i3 _ _ (by omega)]; exact ⟨rfl, rfl⟩
          · omega
        · rw [w3 _ _ (by omega), w3 _ _ (by omega)]
          exact i2 c (by omega) r hr hm
      · rw [w3 _ _ (by omega), i3 _ _ (by omega)]
  obtain ⟨k1, k2, -⟩ := key M.ncol (le_refl _)
  refine ⟨_, hd, k1, k2, ?_⟩
  have hsym : ∀ r c, r ≤ c → c < M.ncol →
      (List.range M.ncol).foldl (fun out c => (L c).foldl (write true c) out) (fun _ _ => (0 : ℝ)) r c =
      (List.range M.ncol).foldl (fun out c => (L c).foldl (write true c) out) (fun _ _ => (0 : ℝ)) c r := by
    intro r c hrc hc
    by_cases hm : r ∈ (L c).map Prod.fst
    · obtain ⟨e, he, rfl⟩ := List.mem_map.mp hm
      rw [(k1 c hc e he).1, (k1 c hc e he).2]
    · rw [(k2 c hc r hrc hm).1, (k2 c hc r hrc hm).2]
  intro r hr c hc
  rcases Nat.le_total r c with h | h
  · exact hsym r c h hc
  · exact (hsym c r h (by omega)).symm

open Classical in
/-- **C103, column norms.**  The norm of a column of the converted matrix is the Euclidean norm of its entries above the
threshold. -/
theorem C103_norm (junk : ℕ → ℝ × ℕ) (eps : ℝ) (he : 0 < eps) (A : Mat ℝ) (m n : ℕ) (c : ℕ) (hc : c < n) :
    ∃ M, ofDense junk eps A m n = .ok M ∧
      colNorm M c = .ok (Real.sqrt (∑ r ∈ Finset.range m, (if |A r c| ≤ eps then 0 else A r c) ^ 2)) := by
  obtain ⟨M, h1, h2, h3, h4, h5⟩ := ofDense_holds junk eps he A m n
  refine ⟨M, h1, ?_⟩
  have hc' : c < M.ncol := by omega
  unfold colNorm
  rw [h5.start (by omega), h5.start (by omega)]
  simp only
  set L := fun c => sel eps A c (List.range m) with hL
  rw [show (flat L (c + 1)).length - (flat L c).length = (L c).length by rw [flat_succ, List.length_append]; omega]
  have hfold : ∀ (l : List (ℕ × ℝ)) (a : ℕ) (s : ℝ), (∀ (k : ℕ) (h : k < l.length), M.x[a + k]? = some l[k].2) →
      (List.range' a l.length).foldlM (normStep M) s = .ok (s + (l.map (fun e => e.2 ^ 2)).sum) := by
    intro l
    induction l with
    | nil => intro a s _; simp; rfl
    | cons e l ih =>
      intro a s h
      rw [List.length_cons, List.range'_succ, List.foldlM_cons]
      have h0 := h 0 (by simp)
      rw [Nat.add_zero] at h0
      have e1 : normStep M s a = .ok (s + e.2 * e.2) := by unfold normStep; rw [h0]; rfl
      rw [e1, okb, ih (a + 1) _ (fun k hk => by
        have := h (k + 1) (by simpa using hk)
        rw [show a + 1 + k = a + (k + 1) by omega]
        simpa using this)]
      rw [List.map_cons, List.sum_cons, ← pow_two, add_assoc]
  rw [hfold (L c) _ 0 (fun k hk => (h5.get hc' k hk).2), okb, zero_add]
  congr 2
  rw [hL]
  clear hfold
  show ((sel eps A c (List.range m)).map _).sum = _
  unfold sel
  rw [List.map_map]
  clear h1 h2 h5 hc' hL L
  induction m with
  | zero => rfl
  | succ m ih =>
    rw [Finset.sum_range_succ, ← ih, List.range_succ, List.filter_append, List.map_append, List.sum_append]
    congr 1
    by_cases h : |A m c| ≤ eps
    · rw [if_pos h]; simp [not_lt.mpr h]
    · rw [if_neg h]; simp [not_le.mp h]

/-- **C103, numerical rank.**  For singular values in descending order: the rank is the number of those above the
tolerance; the gap is zero for rank 0, infinite if those not counted are zero (or none is), and otherwise the ratio
of the last value counted to the first one not counted; the sum of binary logarithms is the binary logarithm of
the product of those counted. -/
theorem C103_rank (s : ℕ → ℝ) (n : ℕ) (tol : ℝ) (ht : 0 ≤ tol) (hs : ∀ i j, i ≤ j → j < n → s j ≤ s i)
    (hp : ∀ i < n, 0 ≤ s i) :
    numRank s tol n ≤ n ∧ (∀ i < n, i < numRank s tol n ↔ tol < s i) ∧
    (svGap s n (numRank s tol n) = some 0 ↔ ∀ i < n, s i ≤ tol) ∧
    (svGap s n (numRank s tol n) = none ↔ (∃ i < n, tol < s i) ∧ ∀ i < n, tol < s i ∨ s i = 0) ∧
    (∀ i, i + 1 < n → tol < s i → s (i + 1) ≤ tol → s (i + 1) ≠ 0 →
      svGap s n (numRank s tol n) = some (s i / s (i + 1))) ∧
    log2Sum s (some (numRank s tol n)) = Real.logb 2 (∏ i ∈ Finset.range (numRank s tol n), s i) := by
  have hr : numRank s tol n ≤ n ∧ ∀ i < n, i < numRank s tol n ↔ tol < s i := by
    clear hp
    induction n with
    | zero => exact ⟨le_refl _, fun i hi => absurd hi (by omega)⟩
    | succ n ih =>
      obtain ⟨i1, i2⟩ := ih (fun i j hij hj => hs i j hij (by omega))
      unfold numRank
      by_cases h : s n > tol
      · rw [if_pos h]
        exact ⟨le_refl _, fun i hi => ⟨fun _ => lt_of_lt_of_le h (hs i n (by omega) (by omega)), fun _ => hi⟩⟩
      · rw [if_neg h]
        refine ⟨by omega, fun i hi => ?_⟩
        by_cases hin : i = n
        · subst hin; exact ⟨fun h' => absurd h' (by omega), fun h' => absurd h' h⟩
        · exact i2 i (by omega)
  obtain ⟨hle, hiff⟩ := hr
  generalize hk : numRank s tol n = k at *
  have hlast : 0 < k → tol < s (k - 1) := fun h => (hiff (k - 1) (by omega)).mp (by omega)
  refine ⟨hle, hiff, ?_, ?_, ?_, ?_⟩
  · unfold svGap
    by_cases h0 : k = 0
    · rw [if_pos h0]
      refine ⟨fun _ i hi => not_lt.mp (fun h => ?_), fun _ => rfl⟩
      have := (hiff i hi).mpr h; omega
    · rw [if_neg h0]
      have hno : ¬ ∀ i < n, s i ≤ tol := fun h => absurd (hlast (by omega)) (not_lt.mpr (h (k - 1) (by omega)))
      refine ⟨fun h => ?_, fun h => absurd h hno⟩
      split_ifs at h with h1 h2
      rw [Option.some.injEq, div_eq_zero_iff] at h
      rcases h with h | h
      · have := hlast (by omega); rw [h] at this; exact absurd this (not_lt.mpr ht)
      · exact absurd h h2
  · unfold svGap
    by_cases h0 : k = 0
    · rw [if_pos h0]
      refine ⟨(by rintro ⟨⟩), ?_⟩
      rintro ⟨⟨i, hi, h⟩, -⟩
      have := (hiff i hi).mpr h; omega
    · rw [if_neg h0]
      have hex : ∃ i < n, tol < s i := ⟨k - 1, by omega, hlast (by omega)⟩
      by_cases hkn : k < n
      · rw [if_pos hkn]
        have hk0 : s k ≤ tol := not_lt.mp (fun h => by have := (hiff k hkn).mpr h; omega)
        by_cases hz : s k = 0
        · rw [if_pos hz]
          refine ⟨fun _ => ⟨hex, fun i hi => ?_⟩, fun _ => rfl⟩
          rcases Nat.lt_or_ge i k with h | h
          · exact Or.inl ((hiff i hi).mp h)
          · exact Or.inr (le_antisymm (hz ▸ hs k i h hi) (hp i hi))
        · rw [if_neg hz]
          refine ⟨(by rintro ⟨⟩), ?_⟩
          rintro ⟨-, h⟩
          rcases h k hkn with h | h
          · exact absurd h (not_lt.mpr hk0)
          · exact absurd h hz
      · rw [if_neg hkn]
        exact ⟨fun _ => ⟨hex, fun i hi => Or.inl ((hiff i hi).mp (by omega))⟩, fun _ => rfl⟩
  · intro i hi h1 h2 h3
    have hik : i < k := (hiff i (by omega)).mpr h1
    have hik' : ¬ i + 1 < k := fun h => absurd ((hiff (i + 1) hi).mp h) (not_lt.mpr h2)
    have : k = i + 1 := by omega
    subst this
    unfold svGap
    rw [if_neg (by omega), if_pos hi, if_neg h3]
    rfl
  · unfold log2Sum
    simp only [Real.logb]
    congr 1
    rw [Real.log_prod (fun i hi => by
      have h := Finset.mem_range.mp hi
      exact (lt_of_le_of_lt ht ((hiff i (by omega)).mp h)).ne')]
    clear hlast hiff hle hk
    induction k with
    | zero => rfl
    | succ k ih => rw [List.range_succ, List.map_append, List.sum_append, ih, Finset.sum_range_succ]; simp

end Yac.Sparse
