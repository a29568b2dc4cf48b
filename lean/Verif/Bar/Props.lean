import Verif.Bar.Model
import Mathlib.Tactic.Linarith
import Mathlib.Tactic.IntervalCases

/-! # C139: the progress bar -/

namespace Yac.Bar
open Yac.Text

/-! ### Specification -/

/-- The line that shows `p` percent: a bar of fifty cells with one sign for every two percent, and the percentage. -/
def percLine (showBar : Bool) (p : Nat) : List Char :=
  (if showBar then '[' :: (List.replicate (p / 2) '#' ++ List.replicate (50 - p / 2) ' ' ++ "] ".toList) else []) ++
    natText p ++ ['%']

/-- The percentage of the `k`-th of `n` updates: 0 for the first, 100 for the last. -/
def percent (n k : Nat) : Nat := 100 * (k - 1) / (n - 1)

/-! ### Steps of one percent -/

/-- The line with the cursor at its end. -/
def atEnd (l : List Char) : Line := ⟨l.reverse, []⟩

theorem stay (p : Nat) (hp : p < 101) (s : Bool) : (atEnd (percLine s p)).puts (percText p p ++ barText s p) = atEnd (percLine s p) := by
  have : ∀ p : Fin 101, ∀ s, (atEnd (percLine s p.1)).puts (percText (p.1 : Nat) (p.1 : Nat) ++ barText s (p.1 : Nat)) = atEnd (percLine s p.1) := by
    decide +kernel
  exact this ⟨p, hp⟩ s

theorem up (p : Nat) (hp : p < 100) (s : Bool) :
    (atEnd (percLine s p)).puts (percText p (p + 1 : Nat) ++ barText s (p + 1 : Nat)) = atEnd (percLine s (p + 1)) := by
  have : ∀ p : Fin 100, ∀ s, (atEnd (percLine s p.1)).puts (percText (p.1 : Nat) (p.1 + 1 : Nat) ++ barText s (p.1 + 1 : Nat)) =
      atEnd (percLine s (p.1 + 1)) := by
    decide +kernel
  exact this ⟨p, hp⟩ s

/-! ### Any number of updates -/

theorem perc_eq (n k : Nat) (hn : 2 ≤ n) : ((k : Int) * 100).tdiv ((n : Int) - 1) = (percent n (k + 1) : Nat) := by
  unfold percent
  rw [show (n : Int) - 1 = ((n - 1 : Nat) : Int) by omega, Int.tdiv_eq_ediv_of_nonneg (by positivity)]
  rw [show k + 1 - 1 = k by omega]
  push_cast
  rw [mul_comm]

theorem percent_mono (n k : Nat) : percent n k ≤ percent n (k + 1) := by
  unfold percent
  exact Nat.div_le_div_right (Nat.mul_le_mul_left _ (by omega))

theorem percent_step (n k : Nat) (hn : 101 ≤ n) (hk : 1 ≤ k) : percent n (k + 1) ≤ percent n k + 1 := by
  unfold percent
  have h : 100 * (k + 1 - 1) = 100 * (k - 1) + 100 := by omega
  rw [h]
  calc (100 * (k - 1) + 100) / (n - 1) ≤ (100 * (k - 1) + (n - 1)) / (n - 1) := Nat.div_le_div_right (by omega)
    _ = _ := Nat.add_div_right _ (by omega)

theorem percent_le (n k : Nat) (hn : 2 ≤ n) (hk : k ≤ n) : percent n k ≤ 100 := by
  unfold percent
  apply Nat.div_le_of_le_mul
  rw [mul_comm]
  exact Nat.mul_le_mul_right _ (by omega)

/-- The first update. -/
theorem first (n : Nat) (hn : 2 ≤ n) (s : Bool) : update (Bar.new n s) =
    .ok (⟨1, n, 0, s, true⟩, opening (Bar.new n s) ++ percText 0 (0 : Nat) ++ barText s (0 : Nat)) := by
  unfold update Bar.new
  simp only
  rw [if_neg (by omega), if_neg (by omega)]
  rw [show ((0 : Int) * 100).tdiv ((n : Int) - 1) = 0 by rw [zero_mul]; exact Int.zero_tdiv _]
  rfl

/-- The next update. -/
theorem next (n k : Nat) (hn : 2 ≤ n) (s : Bool) : update ⟨k, n, (percent n k : Nat), s, true⟩ =
    .ok (⟨(k + 1 : Nat), n, (percent n (k + 1) : Nat), s, true⟩,
      percText (percent n k : Nat) (percent n (k + 1) : Nat) ++ barText s (percent n (k + 1) : Nat)) := by
  unfold update
  simp only
  rw [if_neg (by omega), if_neg (by omega), perc_eq n k hn, if_neg]
  · simp [opening]
  · have := percent_mono n k
    omega

/-- **C139, the percentage.**  With two or more cycles every update succeeds, and the percentage that the bar has after `k` updates
is that of the `k`-th: it starts at 0, never decreases and is 100 after the last. -/
theorem C139_percent (n : Nat) (hn : 2 ≤ n) (s : Bool) (k : Nat) (hk : 1 ≤ k) :
    ∃ l, updates (Bar.new n s) k = .ok (⟨k, n, (percent n k : Nat), s, true⟩, l) ∧
      percent n 1 = 0 ∧ percent n k ≤ percent n (k + 1) ∧ percent n n = 100 := by
  have h0 : percent n 1 = 0 := by simp [percent]
  have h1 : percent n n = 100 := by
    unfold percent
    exact Nat.mul_div_cancel _ (by omega)
  suffices h : ∃ l, updates (Bar.new n s) k = .ok (⟨k, n, (percent n k : Nat), s, true⟩, l) by
    obtain ⟨l, hl⟩ := h
    exact ⟨l, hl, h0, percent_mono n k, h1⟩
  induction k, hk using Nat.le_induction with
  | base =>
    refine ⟨(⟨[], []⟩ : Line).puts (opening (Bar.new n s) ++ percText 0 (0 : Nat) ++ barText s (0 : Nat)), ?_⟩
    unfold updates updates
    show update (Bar.new n s) >>= _ = _
    rw [first n hn, h0]
    rfl
  | succ k hk ih =>
    obtain ⟨l, ih⟩ := ih
    refine ⟨l.puts (percText (percent n k : Nat) (percent n (k + 1) : Nat) ++ barText s (percent n (k + 1) : Nat)), ?_⟩
    unfold updates
    rw [ih]
    show update _ >>= _ = _
    rw [next n k hn]
    rfl

/-- **C139, the line (partial: 101 or more cycles).**  After every one of `n` updates on an empty line, the line shows the
percentage and a bar that is filled as far as the percentage says; with the bar switched off it shows the percentage alone. -/
theorem C139_line_partial (n : Nat) (hn : 101 ≤ n) (s : Bool) (k : Nat) (hk : 1 ≤ k) (hkn : k ≤ n) :
    ∃ b l, updates (Bar.new n s) k = .ok (b, l) ∧ l.shown = percLine s (percent n k) := by
  suffices h : updates (Bar.new n s) k = .ok (⟨k, n, (percent n k : Nat), s, true⟩, atEnd (percLine s (percent n k))) by
    exact ⟨_, _, h, by simp [Line.shown, atEnd]⟩
  have h0 : percent n 1 = 0 := by simp [percent]
  induction k, hk using Nat.le_induction with
  | base =>
    unfold updates updates
    show update (Bar.new n s) >>= _ = _
    rw [first n (by omega), h0]
    show Except.ok (_, Line.puts _ _) = _
    congr 2
    have e : opening (Bar.new n s) = opening (Bar.new 0 s) := rfl
    rw [e]
    clear e h0 hn hkn
    revert s
    show ∀ s, (⟨[], []⟩ : Line).puts (opening (Bar.new 0 s) ++ percText 0 (0 : Nat) ++ barText s (0 : Nat)) = atEnd (percLine s 0)
    decide +kernel
  | succ k hk ih =>
    unfold updates
    rw [ih (by omega)]
    show update _ >>= _ = _
    rw [next n k (by omega)]
    show Except.ok (_, Line.puts _ _) = _
    congr 2
    have hle := percent_le n (k + 1) (by omega) hkn
    have h1 := percent_mono n k
    have h2 := percent_step n k hn hk
    rcases Nat.lt_or_ge (percent n k) (percent n (k + 1)) with h | h
    · have he : percent n (k + 1) = percent n k + 1 := by omega
      rw [he]
      exact up _ (by omega) s
    · have he : percent n (k + 1) = percent n k := by omega
      rw [he]
      exact stay _ (by omega) s

/-- **C139, refuted.**  With three cycles the bar that is shown at 100 percent is neither full nor fifty cells long. -/
theorem C139_line_refuted : ∃ b l, updates (Bar.new 3 true) 3 = .ok (b, l) ∧ b.lastPerc = 100 ∧
    l.shown = '[' :: (List.replicate 23 ' ' ++ ['#'] ++ List.replicate 23 ' ' ++ "#] 100%".toList) ∧ l.shown ≠ percLine true 100 :=
  ⟨⟨3, 3, 100, true, true⟩, atEnd ('[' :: (List.replicate 23 ' ' ++ ['#'] ++ List.replicate 23 ' ' ++ "#] 100%".toList)),
    by decide +kernel, rfl, by decide +kernel, by decide +kernel⟩

/-- **C139, refuted.**  With one cycle (a search with one candidate) the update is undefined; with none it throws. -/
theorem C139_single_refuted (s : Bool) : update (Bar.new 1 s) = .error .divZero ∧ update (Bar.new 0 s) = .error .exn := ⟨rfl, rfl⟩

/-- **C139, again.**  After any updates `reset` makes the bar as new, and `set_niter` makes it that of another number of cycles. -/
theorem C139_reset (n : Nat) (hn : 2 ≤ n) (s : Bool) (k : Nat) (hk : 1 ≤ k) (m : Nat) (hm : 1 ≤ m) :
    ∃ b l, updates (Bar.new n s) k = .ok (b, l) ∧ b.reset = Bar.new n s ∧ b.reset.setNiter m = .ok (Bar.new m s) ∧
      b.setNiter 0 = .error .exn := by
  obtain ⟨l, h, -⟩ := C139_percent n hn s k hk
  refine ⟨_, l, h, rfl, ?_, rfl⟩
  unfold Bar.setNiter Bar.reset
  rw [if_neg (by omega)]
  rfl

example : percLine true 4 = ("[##" ++ "                                                " ++ "] 4%").toList := by decide +kernel

example : percent 201 6 = 2 ∧ percent 201 201 = 100 := by decide

end Yac.Bar
