import Verif.Cv.Props

namespace Yac.Cv

/-- **C105.** `draw_grid_features` without rows or columns divides by zero; with more columns (rows) than pixels, or a
negative number of them, its loop does not end. -/
theorem C105_lines_refuted (W H : Nat) (rows cols : ℤ) :
    ((rows = 0 ∨ cols = 0) → gridLines W H rows cols = .error .divZero) ∧
    (rows ≠ 0 → cols ≠ 0 → (0 < W ∧ (cols < 0 ∨ (W : ℤ) < cols)) ∨ (0 < H ∧ (rows < 0 ∨ (H : ℤ) < rows)) →
      gridLines W H rows cols = .error .diverge) := by
  have key : ∀ (n : Nat) (k : ℤ), 0 < n → (k < 0 ∨ (n : ℤ) < k) → (n : ℤ).tdiv k < n ∧ (n : ℤ).tdiv k ≤ 0 := by
    intro n k hn hk
    have h0 : (n : ℤ).tdiv k ≤ 0 := by
      rcases hk with hk | hk
      · obtain ⟨m, rfl⟩ : ∃ m : Nat, k = -(m : ℤ) := ⟨k.natAbs, by omega⟩
        rw [Int.tdiv_neg]
        have : 0 ≤ (n : ℤ).tdiv m := Int.tdiv_nonneg (by omega) (by omega)
        omega
      · rw [Int.tdiv_eq_zero_of_lt (by omega) hk]
    exact ⟨by omega, h0⟩
  refine ⟨fun h => ?_, fun hr hc h => ?_⟩
  · unfold gridLines
    by_cases hc : cols = 0
    · rw [if_pos hc]
    · rw [if_neg hc, if_pos (h.resolve_right hc)]
  · unfold gridLines
    rw [if_neg hc, if_neg hr]
    simp only
    rw [if_pos]
    rcases h with ⟨h1, h2⟩ | ⟨h1, h2⟩
    · exact Or.inl (key W cols h1 h2)
    · exact Or.inr (key H rows h1 h2)

example : gridLines 3 8 2 4 = .error .diverge :=
  (C105_lines_refuted 3 8 2 4).2 (by decide) (by decide) (Or.inl ⟨by decide, Or.inr (by decide)⟩)

/-- **C106.** A matrix of doubles of two dimensions compares equal with what is left of it after conversion to Eigen
and back (if no element differs from itself). -/
theorem C106_roundtrip_equal {α : Type} (ne : α → α → Bool) (hne : ∀ x, ne x x = false) (c : CvMat α) (hd : c.dims = 2)
    (hf : c.isF64 = true) (h1 : c.channels = 1) : ∃ e, toEigen c = .ok e ∧ isEqual ne c (toCv e) = .ok true := by
  refine ⟨⟨c.rows, c.cols, c.el⟩, ?_, ?_⟩
  · unfold toEigen
    split_ifs with h2 h3
    · rfl
    · rfl
    · exact absurd ⟨hf, h1⟩ h3
  · unfold isEqual toCv
    simp only [CvMat.empty, hd, hf, h1, ne_eq, not_true, or_self, if_false, hne]
    split_ifs
    · rfl
    · simp

example : ∃ e, toEigen (⟨2, 2, 2, 1, true, fun i j => i + j⟩ : CvMat ℕ) = .ok e ∧
    isEqual (fun a b => a != b) (⟨2, 2, 2, 1, true, fun i j => i + j⟩ : CvMat ℕ) (toCv e) = .ok true :=
  C106_roundtrip_equal _ (by simp) _ rfl rfl rfl

end Yac.Cv
