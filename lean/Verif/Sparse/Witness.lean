import Verif.Sparse.Props

/-!
# Witnesses for C103
-/

namespace Yac.Sparse.Witness
open Yac.Sparse
open Yac.Solver (Mat)

/-- A matrix with large, small and zero entries. -/
noncomputable def A0 : Mat ℝ := fun r c => if r = 0 then (if c = 0 then 3 else 1 / 100) else if c = 1 then -4 else 0

/-- C103, round trip: the small entry is dropped, also a negative one beyond the threshold is kept. -/
example (junk : ℕ → ℝ × ℕ) : ∃ M D, ofDense junk (1 / 10) A0 2 2 = .ok M ∧ toDense M = .ok D ∧
    D 0 0 = 3 ∧ D 0 1 = 0 ∧ D 1 0 = 0 ∧ D 1 1 = -4 := by
  obtain ⟨M, D, h1, -, -, h2, h3⟩ := C103_roundtrip junk (1 / 10) (by norm_num) A0 2 2
  refine ⟨M, D, h1, h2, ?_, ?_, ?_, ?_⟩
  · rw [h3 0 (by norm_num) 0 (by norm_num)]; norm_num [A0]
  · rw [h3 0 (by norm_num) 1 (by norm_num)]; norm_num [A0, abs_of_pos]
  · rw [h3 1 (by norm_num) 0 (by norm_num)]; norm_num [A0]
  · rw [h3 1 (by norm_num) 1 (by norm_num)]; norm_num [A0]

/-- The upper triangle of `(1 2; 2 5)`; the entries of the second column are not in order. -/
noncomputable def S0 : CSC := ⟨2, 2, [0, 1, 3], [0, 1, 0], [1, 5, 2], true⟩

/-- C103, reading a symmetric matrix. -/
example : ∃ D, toDense S0 = .ok D ∧ D 0 0 = 1 ∧ D 0 1 = 2 ∧ D 1 0 = 2 ∧ D 1 1 = 5 := by
  have hH : Holds S0 (fun c => if c = 0 then [(0, 1)] else [(1, 5), (0, 2)]) :=
    ⟨by simp [S0, flat, List.range_succ], by simp [S0, flat, List.range_succ], by simp [S0, flat, List.range_succ]⟩
  obtain ⟨D, h1, h2, h3, -⟩ := C103_symmetric S0 _ hH rfl rfl
    (by intro c hc e he
        have : c = 0 ∨ c = 1 := by simp only [S0] at hc; omega
        rcases this with h | h <;> subst h <;> simp at he
        · simp [he]
        · rcases he with h | h <;> simp [h])
    (by intro c; by_cases h : c = 0 <;> simp [h])
  refine ⟨D, h1, (h2 0 (by simp [S0]) (0, 1) (by simp)).1, (h2 1 (by simp [S0]) (0, 2) (by simp)).1,
    (h2 1 (by simp [S0]) (0, 2) (by simp)).2, (h2 1 (by simp [S0]) (1, 5) (by simp)).1⟩

/-- C103, column norms: the column `(3, 0)`. -/
example (junk : ℕ → ℝ × ℕ) : ∃ M, ofDense junk (1 / 10) A0 2 2 = .ok M ∧ colNorm M 0 = .ok 3 := by
  obtain ⟨M, h1, h2⟩ := C103_norm junk (1 / 10) (by norm_num) A0 2 2 0 (by norm_num)
  refine ⟨M, h1, ?_⟩
  rw [h2]
  congr 1
  rw [Finset.sum_range_succ, Finset.sum_range_one]
  rw [show ((if |A0 0 0| ≤ 1 / 10 then 0 else A0 0 0) ^ 2 + (if |A0 1 0| ≤ 1 / 10 then 0 else A0 1 0) ^ 2 : ℝ) = 3 ^ 2 by norm_num [A0]]
  exact Real.sqrt_sq (by norm_num)

/-- Descending singular values `8, 2, 0, 0, …`. -/
noncomputable def s0 : ℕ → ℝ := fun i => if i = 0 then 8 else if i = 1 then 2 else 0

/-- C103, numerical rank: two values are counted, the gap is infinite, the logarithms sum to 4. -/
example : numRank s0 1 3 = 2 ∧ svGap s0 3 (numRank s0 1 3) = none ∧ log2Sum s0 (some (numRank s0 1 3)) = 4 := by
  obtain ⟨h1, h2, -, h3, -, h4⟩ := C103_rank s0 3 1 (by norm_num)
    (by intro i j hij hj
        unfold s0
        split_ifs <;> first | omega | norm_num)
    (by intro i _; unfold s0; split_ifs <;> norm_num)
  have e : numRank s0 1 3 = 2 := by
    have a := (h2 1 (by norm_num)).mpr (by norm_num [s0])
    have b : ¬ 2 < numRank s0 1 3 := fun h => absurd ((h2 2 (by norm_num)).mp h) (by norm_num [s0])
    omega
  refine ⟨e, h3.mpr ⟨⟨0, by norm_num, by norm_num [s0]⟩, ?_⟩, ?_⟩
  · intro i _
    unfold s0
    split_ifs <;> norm_num
  · rw [h4, e, Finset.prod_range_succ, Finset.prod_range_one,
      show s0 0 * s0 1 = (2 : ℝ) ^ (4 : ℝ) by
        norm_num [s0], Real.logb_rpow (by norm_num) (by norm_num)]

/-- C103: a gap that is finite. -/
example : svGap (fun i => if i = 0 then (8 : ℝ) else 2) 2 (numRank (fun i => if i = 0 then (8 : ℝ) else 2) 3 2) = some 4 := by
  have h := (C103_rank (fun i => if i = 0 then (8 : ℝ) else 2) 2 3 (by norm_num)
    (by intro i j hij hj
        split_ifs <;> first | omega | norm_num)
    (by intro i _; split_ifs <;> norm_num)).2.2.2.2.1 0 (by norm_num) (by norm_num) (by norm_num) (by norm_num)
  rw [h]; norm_num

end Yac.Sparse.Witness
