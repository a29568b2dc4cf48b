import Verif.Print.Model
import Verif.Text.Props
import Mathlib.Tactic.Linarith
import Mathlib.Tactic.NormNum
import Mathlib.Algebra.Order.Floor.Ring

/-!
# C148: console output can be read back
-/

namespace Yac.Print
open Yac.Text

/-! ### A reader -/

/-- Reads a row: numbers separated by ", " up to the end of the line. -/
def readRow : Nat → List Char → Option (List ℚ × List Char)
  | 0, _ => none
  | n + 1, l =>
    match parseReal l with
    | some (x, '\n' :: r) => some ([x], r)
    | some (x, ',' :: ' ' :: r) => (readRow n r).map fun q => (x :: q.1, q.2)
    | _ => none

/-- Reads rows up to an empty line. -/
def readRows (w : Nat) : Nat → List Char → Option (List (List ℚ) × List Char)
  | 0, _ => none
  | _ + 1, '\n' :: r => some ([], r)
  | n + 1, l => (readRow w l).bind fun q => (readRows w n q.2).map fun s => (q.1 :: s.1, s.2)

theorem readRow_text (ws rest : List Char) (hw : ∀ c ∈ ws, isSpace c = true) (v : List ℚ) (hv : v ≠ []) (n : Nat)
    (hn : v.length ≤ n) :
    readRow n (ws ++ (rowText v ++ '\n' :: rest)) = some (v.map back, rest) := by
  induction v generalizing ws n with
  | nil => exact absurd rfl hv
  | cons x l ih =>
    cases n with
    | zero => simp at hn
    | succ n =>
      cases l with
      | nil =>
        have := parseReal_fmtF x ws ('\n' :: rest) hw (by intro c h; cases h; decide)
        unfold readRow
        simp only [rowText, this, List.map, back]
      | cons y l =>
        have := parseReal_fmtF x ws (',' :: ' ' :: (rowText (y :: l) ++ '\n' :: rest)) hw (by intro c h; cases h; decide)
        have h2 := ih [] (by simp) (by simp) n (by simpa using hn)
        unfold readRow
        simp only [rowText, List.append_assoc, List.cons_append]
        rw [this]
        simp only [List.nil_append] at h2
        simp only [h2, Option.map_some, List.map, back]

/-- **C148** A printed vector, whatever its name, can be read back: each number to within half a unit of the sixth decimal, and
what follows the line is left. -/
theorem C148_vector (name rest : List Char) (v : List ℚ) (hv : v ≠ []) :
    ∃ l t, vectorText name v ++ rest = name ++ (':' :: ' ' :: t) ∧ readRow v.length t = some (l, rest) ∧
      List.Forall₂ Printed v l := by
  refine ⟨v.map back, rowText v ++ '\n' :: rest, by simp [vectorText], ?_, ?_⟩
  · have := readRow_text [] rest (by simp) v hv v.length le_rfl
    simpa using this
  · rw [List.forall₂_map_right_iff]
    exact List.forall₂_same.mpr fun x _ => printed_back x

/-- C148 witness. -/
example : vectorText "gimbal".toList [1, -5 / 2] = "gimbal: 1.000000, -2.500000\n".toList := by decide +kernel

theorem rowText_head (x : ℚ) (l : List ℚ) : ∃ t, rowText (x :: l) = fmtF x ++ t := by
  cases l with
  | nil => exact ⟨[], by simp [rowText]⟩
  | cons y l => exact ⟨_, rfl⟩

theorem fmtF_head (x : ℚ) : ∃ c t, fmtF x = c :: t ∧ c ≠ '\n' := by
  unfold fmtF
  dsimp only
  split
  · exact ⟨'-', _, by rfl, by decide⟩
  · obtain ⟨c, h1, h2⟩ := head_natText ((Num.rneInt (|x| * 10 ^ 6)).natAbs / 10 ^ 6)
      ('.' :: fixedDigits 6 ((Num.rneInt (|x| * 10 ^ 6)).natAbs % 10 ^ 6))
    cases hl : natText ((Num.rneInt (|x| * 10 ^ 6)).natAbs / 10 ^ 6) ++
      '.' :: fixedDigits 6 ((Num.rneInt (|x| * 10 ^ 6)).natAbs % 10 ^ 6) with
    | nil => rw [hl] at h1; cases h1
    | cons c' t =>
      rw [hl] at h1
      refine ⟨c', t, by simpa using hl, ?_⟩
      cases h1
      rintro rfl
      revert h2
      decide

theorem readRows_text (indent rest : List Char) (hi : ∀ c ∈ indent, c = ' ') (w : Nat) (m : List (List ℚ))
    (hm : ∀ r ∈ m, r ≠ [] ∧ r.length ≤ w) (n : Nat) (hn : m.length < n) :
    readRows w n (m.flatMap (fun r => indent ++ (rowText r ++ ['\n'])) ++ '\n' :: rest) = some (m.map (List.map back), rest) := by
  induction m generalizing n with
  | nil =>
    cases n with
    | zero => simp at hn
    | succ n => simp [readRows]
  | cons r m ih =>
    cases n with
    | zero => simp at hn
    | succ n =>
      have h1 := readRow_text indent (m.flatMap (fun r => indent ++ (rowText r ++ ['\n'])) ++ '\n' :: rest)
        (fun c hc => by rw [hi c hc]; decide) r (hm r (by simp)).1 w (hm r (by simp)).2
      have h2 := ih (fun q hq => hm q (by simp [hq])) n (by simpa using hn)
      have he : (r :: m).flatMap (fun r => indent ++ (rowText r ++ ['\n'])) ++ '\n' :: rest =
          indent ++ (rowText r ++ '\n' :: (m.flatMap (fun r => indent ++ (rowText r ++ ['\n'])) ++ '\n' :: rest)) := by
        simp
      rw [he]
      have hne : ∃ c t, indent ++ (rowText r ++ '\n' :: (m.flatMap (fun r => indent ++ (rowText r ++ ['\n'])) ++ '\n' :: rest)) =
          c :: t ∧ c ≠ '\n' := by
        cases indent with
        | nil =>
          cases r with
          | nil => exact absurd rfl (hm [] (by simp)).1
          | cons x l =>
            obtain ⟨t, ht⟩ := rowText_head x l
            obtain ⟨c, u, hc, hcn⟩ := fmtF_head x
            exact ⟨c, _, by rw [ht, hc]; rfl, hcn⟩
        | cons c t => exact ⟨c, _, rfl, by rw [hi c (by simp)]; decide⟩
      obtain ⟨c, t, hct, hcn⟩ := hne
      rw [hct] at h1 ⊢
      rw [readRows]
      · rw [h1]
        simp only [Option.bind_some, h2, Option.map_some, List.map]
      · intro r' hr'
        cases hr'
        exact hcn rfl

/-- **C148** A printed matrix, indented by blanks, can be read back row by row. -/
theorem C148_matrix (name indent rest : List Char) (hi : ∀ c ∈ indent, c = ' ') (w : Nat) (hw : 0 < w) (m : List (List ℚ))
    (hm : ∀ r ∈ m, r.length = w) :
    ∃ l t, matrixText name indent m ++ rest = name ++ (':' :: '\n' :: t) ∧ readRows w (m.length + 1) t = some (l, rest) ∧
      List.Forall₂ (List.Forall₂ Printed) m l := by
  refine ⟨m.map (List.map back), m.flatMap (fun r => indent ++ (rowText r ++ ['\n'])) ++ '\n' :: rest, by simp [matrixText], ?_, ?_⟩
  · refine readRows_text indent rest hi w m (fun r hr => ⟨?_, (hm r hr).le⟩) _ (by omega)
    rintro rfl
    have := hm [] hr
    simp at this
    omega
  · rw [List.forall₂_map_right_iff]
    refine List.forall₂_same.mpr fun r _ => ?_
    rw [List.forall₂_map_right_iff]
    exact List.forall₂_same.mpr fun x _ => printed_back x

/-- C148 witness. -/
example : matrixText "T".toList "  ".toList [[1, 2], [3, 1 / 4]] =
    "T:\n  1.000000, 2.000000\n  3.000000, 0.250000\n\n".toList := by decide +kernel

/-- **C148** A printed timestamp ends in its digits and the end of the line, after the prefix and ": " if there is one. -/
theorem C148_timestamp (ts : Nat) (pre rest : List Char) :
    ∃ t, timestampText ts pre ++ rest = (if pre = [] then [] else pre ++ [':', ' ']) ++ t ∧
      parseInt t = some (false, ts, '\n' :: rest) := by
  have h := parseInt_fmtLd ts [] ('\n' :: rest) (by simp) (by intro c h; cases h; decide)
  have hf : fmtLd (ts : ℤ) = natText ts := by
    unfold fmtLd
    rw [if_neg (by omega)]
    simp
  rw [hf, decide_eq_false (by omega)] at h
  refine ⟨natText ts ++ '\n' :: rest, ?_, by simpa using h⟩
  unfold timestampText
  by_cases hp : pre = [] <;> simp [hp]

/-- C148 witness. -/
example : timestampText 1403636579763555584 "ts".toList = "ts: 1403636579763555584\n".toList := by decide +kernel

/-- **C148** The string of an array, cut at the blanks, is the texts of its numbers; an empty array is read outside its bounds. -/
theorem C148_array (g : ℚ → List Char) (hg : ∀ x, ' ' ∉ g x) (a : List ℚ) :
    (a ≠ [] → ∃ s, array2str g a = .ok s ∧ s.splitOn ' ' = a.map g) ∧ (a = [] → array2str g a = .error .oob) := by
  refine ⟨fun h => ?_, fun h => by subst h; rfl⟩
  have key : ∀ (l : List ℚ) (z : ℚ), (l.flatMap (fun x => g x ++ [' ']) ++ g z) = [' '].intercalate ((l ++ [z]).map g) := by
    intro l z
    induction l with
    | nil => simp [List.intercalate]
    | cons x l ih =>
      rw [List.flatMap_cons, List.append_assoc, ih]
      cases l <;> simp [List.intercalate]
  unfold array2str
  rw [List.getLast?_eq_some_getLast h]
  refine ⟨_, rfl, ?_⟩
  rw [key, List.dropLast_append_getLast h, List.splitOn_intercalate]
  · intro l hl
    obtain ⟨x, -, rfl⟩ := List.mem_map.mp hl
    exact hg x
  · simpa using h

/-- C148 witness. -/
example : array2str fmtF [1, 2] = .ok "1.000000 2.000000".toList := by decide +kernel

/-- **C148** All flags are true exactly when each is. -/
theorem C148_all_true (l : List Bool) : allTrue l = true ↔ ∀ b ∈ l, b = true := by
  induction l with
  | nil => simp [allTrue]
  | cons b l ih => cases b <;> simp [allTrue, ih]

theorem toInt_range (x : ℚ) (hx : 0 ≤ x) : 0 ≤ toInt x ∧ (toInt x : ℚ) ≤ x ∧ x < toInt x + 1 := by
  unfold toInt
  rw [if_neg (not_lt.mpr hx)]
  exact ⟨Int.floor_nonneg.mpr hx, Int.floor_le x, Int.lt_floor_add_one x⟩

/-- **C148** For a fraction between 0 and 1 the bar is sixty wide, filled in proportion, and the line ends when it is full. -/
theorem C148_progress {p : ℚ} (h0 : 0 ≤ p) (h1 : p ≤ 1) :
    ∃ (k n : ℕ), k ≤ 60 ∧ (k : ℚ) ≤ 60 * p ∧ 60 * p < k + 1 ∧ (n : ℚ) ≤ 100 * p ∧ 100 * p < n + 1 ∧
      progressText p = '\r' :: (fmt3d n ++ "% [".toList ++ List.replicate k '|' ++ List.replicate (60 - k) ' ' ++ [']'] ++
        (if 1 - p < 1 / 10 ^ 10 then ['\n'] else [])) ∧ (fmt3d n).length = 3 := by
  obtain ⟨a1, a2, a3⟩ := toInt_range (p * 60) (by linarith)
  obtain ⟨b1, b2, b3⟩ := toInt_range (p * 100) (by linarith)
  obtain ⟨k, hk⟩ := Int.eq_ofNat_of_zero_le a1
  obtain ⟨n, hn⟩ := Int.eq_ofNat_of_zero_le b1
  rw [hk] at a2 a3
  rw [hn] at b2 b3
  push_cast at a2 a3 b2 b3
  have hk60 : k ≤ 60 := by
    have : (k : ℚ) ≤ 60 := by linarith
    exact_mod_cast this
  have hn100 : n ≤ 100 := by
    have : (n : ℚ) ≤ 100 := by linarith
    exact_mod_cast this
  refine ⟨k, n, hk60, by linarith, by linarith, by linarith, by linarith, ?_, ?_⟩
  · unfold progressText
    dsimp only
    rw [hk, hn]
    have e1 : prefixOf ((k : ℤ)) (List.replicate 60 '|') = List.replicate k '|' := by
      unfold prefixOf
      rw [if_neg (by simp), List.take_replicate]
      congr 1
      simp
      omega
    have e2 : blanks (60 - (k : ℤ)) = List.replicate (60 - k) ' ' := by
      unfold blanks
      congr 1
      omega
    have e3 : |p - 1| = 1 - p := by rw [abs_of_nonpos (by linarith)]; ring
    rw [e1, e2, e3]
  · have : ∀ n ≤ 100, (fmt3d ((n : ℕ) : ℤ)).length = 3 := by decide +kernel
    exact this n hn100

/-- C148 witness: half way. -/
example : progressText (1 / 2) =
    "\r 50% [||||||||||||||||||||||||||||||                              ]".toList := by decide +kernel

/-- **C148** The full claim, that the bar is sixty wide for every fraction, fails outside: above 1 it grows, and below 0 it is shown
full and twice as wide. -/
theorem C148_progress_refuted {p : ℚ} (k : ℕ) (h : p = (60 + k) / 60 ∨ p = -(k + 1) / 60) :
    ∃ a c, progressText p = a ++ "% [".toList ++ List.replicate 60 '|' ++
      List.replicate (if p < 0 then 61 + k else k) ' ' ++ [']'] ++ c := by
  rcases h with rfl | rfl
  · have hx : toInt ((60 + (k : ℚ)) / 60 * 60) = 60 + k := by
      have : (60 + (k : ℚ)) / 60 * 60 = ((60 + k : ℤ) : ℚ) := by push_cast; ring
      rw [this]
      unfold toInt
      rw [if_neg (by rw [not_lt]; exact_mod_cast (by omega : (0 : ℤ) ≤ 60 + k)), Int.floor_intCast]
    have hp : ¬ ((60 + (k : ℚ)) / 60 < 0) := by
      rw [not_lt]; positivity
    unfold progressText
    dsimp only
    rw [hx, if_neg hp]
    have e1 : prefixOf (60 + (k : ℤ)) (List.replicate 60 '|') = List.replicate 60 '|' := by
      unfold prefixOf
      rw [if_neg (by omega), List.take_of_length_le]
      rw [List.length_replicate]; omega
    have e2 : blanks (60 - (60 + (k : ℤ))) = List.replicate k ' ' := by
      unfold blanks
      congr 1
      omega
    rw [e1, e2]
    exact ⟨'\r' :: fmt3d (toInt ((60 + (k : ℚ)) / 60 * 100)), _, by simp only [List.cons_append]; rfl⟩
  · have hx : toInt (-((k : ℚ) + 1) / 60 * 60) = -(k + 1) := by
      have : -((k : ℚ) + 1) / 60 * 60 = ((-(k + 1) : ℤ) : ℚ) := by push_cast; ring
      rw [this]
      unfold toInt
      rw [if_pos (by exact_mod_cast (by omega : (-((k : ℤ) + 1)) < 0)), ← Int.cast_neg, Int.floor_intCast]
      ring
    have hp : -((k : ℚ) + 1) / 60 < 0 := by
      apply div_neg_of_neg_of_pos _ (by norm_num)
      have : (0 : ℚ) ≤ k := by positivity
      linarith
    unfold progressText
    dsimp only
    rw [hx, if_pos hp]
    have e1 : prefixOf (-((k : ℤ) + 1)) (List.replicate 60 '|') = List.replicate 60 '|' := by
      unfold prefixOf
      rw [if_pos (by omega)]
    have e2 : blanks (60 - -((k : ℤ) + 1)) = List.replicate (61 + k) ' ' := by
      unfold blanks
      congr 1
      omega
    rw [e1, e2]
    exact ⟨'\r' :: fmt3d (toInt (-((k : ℚ) + 1) / 60 * 100)), _, by simp only [List.cons_append]; rfl⟩

/-- C148 witness: one and a half, and minus a sixtieth. -/
example : ((3 / 2 : ℚ) = (60 + (30 : ℕ)) / 60) ∧ ((-1 / 60 : ℚ) = -((0 : ℕ) + 1) / 60) := by norm_num

end Yac.Print
