import Verif.Text.Model
import Verif.Num.FloatLemmas
import Mathlib.Data.Nat.Digits.Lemmas
import Mathlib.Tactic.Ring
import Mathlib.Tactic.Linarith
import Mathlib.Tactic.FieldSimp
import Mathlib.Algebra.Order.Ring.Abs
import Mathlib.Data.List.TakeWhile

/-! Lemmas about printing and reading numbers. -/

namespace Yac.Text
open Yac.Num Yac.Geom

theorem digitChar_toNat {d : Nat} (h : d < 10) : (digitChar d).toNat = 48 + d := by
  unfold digitChar
  interval_cases d <;> rfl

theorem isDig_digitChar {d : Nat} (h : d < 10) : isDig (digitChar d) = true := by
  unfold isDig
  rw [digitChar_toNat h]
  simp; omega

theorem natOf_append (l : List Char) (c : Char) : natOf (l ++ [c]) = 10 * natOf l + (c.toNat - 48) := by
  simp [natOf]

theorem natOf_reverse (l : List Nat) (h : ∀ d ∈ l, d < 10) :
    natOf (l.reverse.map digitChar) = Nat.ofDigits 10 l := by
  induction l with
  | nil => rfl
  | cons d l ih =>
    rw [List.reverse_cons, List.map_append, List.map_singleton, natOf_append,
      digitChar_toNat (h d (by simp)), ih (fun d hd => h d (by simp [hd])), Nat.ofDigits_cons]
    simp; omega

theorem natText_ne (n : Nat) : natText n ≠ [] := by
  unfold natText
  split_ifs with h
  · simp
  · simp [Nat.digits_ne_nil_iff_ne_zero, h]

theorem natText_dig (n : Nat) : ∀ c ∈ natText n, isDig c = true := by
  unfold natText
  split_ifs with h
  · intro c hc
    rw [List.mem_singleton] at hc
    subst hc; rfl
  · intro c hc
    rw [List.mem_map] at hc
    obtain ⟨d, hd, rfl⟩ := hc
    exact isDig_digitChar (Nat.digits_lt_base (by norm_num) (List.mem_reverse.mp hd))

theorem natOf_natText (n : Nat) : natOf (natText n) = n := by
  unfold natText
  split_ifs with h
  · subst h; rfl
  · rw [natOf_reverse _ (fun d hd => Nat.digits_lt_base (by norm_num) hd), Nat.ofDigits_digits]

theorem fixedDigits_length (w n : Nat) : (fixedDigits w n).length = w := by
  induction w generalizing n with
  | zero => rfl
  | succ w ih => simp [fixedDigits, ih]

theorem fixedDigits_dig (w n : Nat) : ∀ c ∈ fixedDigits w n, isDig c = true := by
  induction w generalizing n with
  | zero => simp [fixedDigits]
  | succ w ih =>
    intro c hc
    simp only [fixedDigits, List.mem_append, List.mem_singleton] at hc
    rcases hc with hc | rfl
    · exact ih _ c hc
    · exact isDig_digitChar (Nat.mod_lt _ (by norm_num))

theorem natOf_fixedDigits (w n : Nat) : natOf (fixedDigits w n) = n % 10 ^ w := by
  induction w generalizing n with
  | zero => simp [fixedDigits, natOf, Nat.mod_one]
  | succ w ih =>
    rw [fixedDigits, natOf_append, ih, digitChar_toNat (Nat.mod_lt _ (by norm_num))]
    rw [pow_succ, mul_comm (10 ^ w) 10, Nat.mod_mul]
    omega

/-- The first character is not a digit. -/
def NoDig (l : List Char) : Prop := ∀ c, l.head? = some c → isDig c = false

theorem takeWhile_dig (d l : List Char) (hd : ∀ c ∈ d, isDig c = true) (hl : NoDig l) :
    (d ++ l).takeWhile isDig = d ∧ (d ++ l).dropWhile isDig = l := by
  have h1 : l.takeWhile isDig = [] := by
    cases l with
    | nil => rfl
    | cons c l => simp [hl c rfl]
  have h2 : l.dropWhile isDig = l := by
    cases l with
    | nil => rfl
    | cons c l => simp [hl c rfl]
  rw [List.takeWhile_append_of_pos hd, List.dropWhile_append_of_pos hd, h1, h2]
  simp

theorem sign_dig {l : List Char} {c : Char} (h : l.head? = some c) (hc : isDig c = true) :
    sign l = (false, l) := by
  cases l with
  | nil => cases h
  | cons d l =>
    cases h
    unfold sign
    split
    · next h => cases h; cases hc
    · next h => cases h; cases hc
    · rfl

theorem not_space_of_dig {c : Char} (hc : isDig c = true) : isSpace c = false := by
  unfold isDig at hc
  unfold isSpace
  have h : ∀ k : Char, k.toNat < 48 → c ≠ k := by
    rintro k hk rfl
    simp at hc
    omega
  have h1 := h ' ' (by decide)
  have h2 := h '\t' (by decide)
  have h3 := h '\n' (by decide)
  have h4 := h '\r' (by decide)
  simp at hc
  simp [h1, h2, h3, h4]
  omega

theorem dropWhile_space {ws l : List Char} (hw : ∀ c ∈ ws, isSpace c = true)
    (hl : ∀ c, l.head? = some c → isSpace c = false) : (ws ++ l).dropWhile isSpace = l := by
  rw [List.dropWhile_append_of_pos hw]
  cases l with
  | nil => rfl
  | cons c l => simp [hl c rfl]

/-- Sign and white space before a number that starts with a digit. -/
theorem sign_text {ws l : List Char} (neg : Bool) (hw : ∀ c ∈ ws, isSpace c = true) {c : Char}
    (hl : l.head? = some c) (hc : isDig c = true) :
    sign ((ws ++ ((if neg then ['-'] else []) ++ l)).dropWhile isSpace) = (neg, l) := by
  cases neg
  · rw [dropWhile_space hw]
    · exact sign_dig hl hc
    · intro c' h
      have : c' = c := by simp [hl] at h; exact h.symm
      rw [this]; exact not_space_of_dig hc
  · rw [dropWhile_space hw]
    · rfl
    · intro c' h
      simp at h
      subst h; rfl

theorem head_natText (n : Nat) (l : List Char) : ∃ c, (natText n ++ l).head? = some c ∧ isDig c = true := by
  cases h : natText n with
  | nil => exact absurd h (natText_ne n)
  | cons c t => exact ⟨c, rfl, natText_dig n c (by rw [h]; simp)⟩

/-- What `%f` prints, as a multiple of `10⁻⁶`. -/
def micro (x : ℚ) : ℤ := if x < 0 then -((rneInt (|x| * 10 ^ 6)).natAbs : ℤ) else (rneInt (|x| * 10 ^ 6)).natAbs

/-- Reading back a printed number. -/
theorem parseReal_fmtF (x : ℚ) (ws rest : List Char) (hw : ∀ c ∈ ws, isSpace c = true)
    (hr : NoDig rest) : parseReal (ws ++ (fmtF x ++ rest)) = some (f64 ((micro x : ℚ) / 10 ^ 6), rest) := by
  obtain ⟨u, hu⟩ : ∃ u, u = (rneInt (|x| * 10 ^ 6)).natAbs := ⟨_, rfl⟩
  have hf : fmtF x ++ rest = (if decide (x < 0) then ['-'] else []) ++
      (natText (u / 10 ^ 6) ++ '.' :: (fixedDigits 6 (u % 10 ^ 6) ++ rest)) := by
    unfold fmtF
    rw [← hu]
    simp
  obtain ⟨c, h1, h2⟩ := head_natText (u / 10 ^ 6) ('.' :: (fixedDigits 6 (u % 10 ^ 6) ++ rest))
  have hs := sign_text (decide (x < 0)) hw h1 h2
  obtain ⟨t1, t2⟩ := takeWhile_dig (natText (u / 10 ^ 6)) ('.' :: (fixedDigits 6 (u % 10 ^ 6) ++ rest))
    (natText_dig _) (by intro c h; cases h; rfl)
  obtain ⟨t3, t4⟩ := takeWhile_dig (fixedDigits 6 (u % 10 ^ 6)) rest (fixedDigits_dig _ _) hr
  unfold parseReal
  rw [hf, hs]
  simp only [t1, t2, t3, t4]
  rw [if_neg (fun h => natText_ne _ h.1), natOf_natText, natOf_fixedDigits, fixedDigits_length,
    Nat.mod_mod]
  congr 3
  have hdm : ((u / 10 ^ 6 : Nat) : ℚ) + ((u % 10 ^ 6 : Nat) : ℚ) / 10 ^ 6 = (u : ℚ) / 10 ^ 6 := by
    have := Nat.div_add_mod u (10 ^ 6)
    have h' : (10 : ℚ) ^ 6 * ((u / 10 ^ 6 : Nat) : ℚ) + ((u % 10 ^ 6 : Nat) : ℚ) = (u : ℚ) := by
      exact_mod_cast this
    rw [← h']
    field_simp
  rw [hdm]
  unfold signed micro
  rw [← hu]
  by_cases hx : x < 0
  · simp [hx]; ring
  · simp [hx]

theorem micro_close (x : ℚ) : |x - (micro x : ℚ) / 10 ^ 6| ≤ 1 / 2 / 10 ^ 6 := by
  have h0 := rneInt_nonneg (x := |x| * 10 ^ 6) (by positivity)
  have h1 := rneInt_close (|x| * 10 ^ 6)
  have e : (((rneInt (|x| * 10 ^ 6)).natAbs : ℤ) : ℚ) = (rneInt (|x| * 10 ^ 6) : ℚ) := by
    rw [Int.natAbs_of_nonneg h0]
  unfold micro
  generalize rneInt (|x| * 10 ^ 6) = n at *
  by_cases hx : x < 0
  · rw [if_pos hx, Int.cast_neg, e]
    rw [abs_of_neg hx] at h1
    rw [abs_le] at h1 ⊢
    norm_num at h1 ⊢
    constructor <;> linarith [h1.1, h1.2]
  · rw [if_neg hx, e]
    rw [abs_of_nonneg (not_lt.mp hx)] at h1
    rw [abs_le] at h1 ⊢
    norm_num at h1 ⊢
    constructor <;> linarith [h1.1, h1.2]

/-- Reading back a printed integer. -/
theorem parseInt_fmtLd (n : ℤ) (ws rest : List Char) (hw : ∀ c ∈ ws, isSpace c = true)
    (hr : NoDig rest) :
    parseInt (ws ++ (fmtLd n ++ rest)) = some (decide (n < 0), n.natAbs, rest) := by
  obtain ⟨c, h1, h2⟩ := head_natText n.natAbs rest
  have hs := sign_text (decide (n < 0)) hw h1 h2
  obtain ⟨t1, t2⟩ := takeWhile_dig (natText n.natAbs) rest (natText_dig _) hr
  have hf : fmtLd n ++ rest = (if decide (n < 0) then ['-'] else []) ++ (natText n.natAbs ++ rest) := by
    unfold fmtLd; simp
  unfold parseInt
  rw [hf, hs]
  simp only [t1, t2]
  rw [if_neg (natText_ne _), natOf_natText]

theorem toLong_natAbs {n : ℤ} (h1 : -2 ^ 63 ≤ n) (h2 : n < 2 ^ 63) : toLong (decide (n < 0)) n.natAbs = n := by
  unfold toLong
  by_cases h : n < 0
  · rw [if_pos (by simpa using h)]; omega
  · rw [if_neg (by simpa using h)]; omega

theorem toULong_natAbs {n : ℤ} (h1 : -2 ^ 63 ≤ n) (h2 : n < 2 ^ 63) : toULong (decide (n < 0)) n.natAbs = n := by
  unfold toULong
  have hlt : n.natAbs < 2 ^ 64 := by omega
  simp only [hlt, if_true, and_true, decide_eq_true_eq]
  by_cases h : n < 0
  · rw [if_pos h]
    have : (-(n.natAbs : ℤ)) % 2 ^ 64 = n + 2 ^ 64 := by
      omega
    rw [this, if_neg (by omega)]
    omega
  · rw [if_neg h, if_pos (by omega)]
    omega

/-! ### Characters that do not occur -/

theorem fmtF_chars (x : ℚ) : ∀ c ∈ fmtF x, c = '-' ∨ c = '.' ∨ isDig c = true := by
  intro c hc
  unfold fmtF at hc
  simp only [List.mem_append, List.mem_cons] at hc
  rcases hc with (hc | hc) | hc | hc
  · split_ifs at hc with h
    · left; simpa using hc
    · cases hc
  · exact Or.inr (Or.inr (natText_dig _ c hc))
  · exact Or.inr (Or.inl hc)
  · exact Or.inr (Or.inr (fixedDigits_dig _ _ c hc))

theorem fmtLd_chars (n : ℤ) : ∀ c ∈ fmtLd n, c = '-' ∨ isDig c = true := by
  intro c hc
  unfold fmtLd at hc
  simp only [List.mem_append] at hc
  rcases hc with hc | hc
  · split_ifs at hc with h
    · left; simpa using hc
    · cases hc
  · exact Or.inr (natText_dig _ c hc)

theorem fmtF_not_mem (x : ℚ) (c : Char) (h1 : c ≠ '-') (h2 : c ≠ '.') (h3 : isDig c = false) :
    c ∉ fmtF x := by
  intro h
  rcases fmtF_chars x c h with h | h | h
  · exact h1 h
  · exact h2 h
  · rw [h3] at h; cases h

theorem fmtLd_not_mem (n : ℤ) (c : Char) (h1 : c ≠ '-') (h3 : isDig c = false) : c ∉ fmtLd n := by
  intro h
  rcases fmtLd_chars n c h with h | h
  · exact h1 h
  · rw [h3] at h; cases h

theorem fmtF_ne (x : ℚ) : fmtF x ≠ [] := by
  unfold fmtF; simp

/-! ### Lines -/

theorem getAll_cons (d : Char) (t : List Char) (ht : d ∉ t) (l : List Char) :
    getAll d (t ++ d :: l) = t :: getAll d l := by
  induction t with
  | nil => simp [getAll]
  | cons c t ih =>
    have hc : c ≠ d := by rintro rfl; simp at ht
    rw [List.cons_append, getAll, if_neg hc, ih (by intro h; exact ht (by simp [h]))]

theorem getAll_last (d : Char) (t : List Char) (ht : d ∉ t) (h0 : t ≠ []) : getAll d t = [t] := by
  induction t with
  | nil => exact absurd rfl h0
  | cons c t ih =>
    have hc : c ≠ d := by rintro rfl; simp at ht
    rw [getAll, if_neg hc]
    cases t with
    | nil => rfl
    | cons e t => rw [ih (by intro h; exact ht (by simp [h])) (by simp)]

theorem getLines_cons_line (t : List Char) (ht : '\n' ∉ t) (l : List Char) :
    getLines (t ++ '\n' :: l) = t :: getLines l := getAll_cons '\n' t ht l

theorem getLines_flatMap {α : Type} (f : α → List Char) (hf : ∀ a, '\n' ∉ f a) (l : List α) :
    getLines (l.flatMap (fun a => f a ++ ['\n'])) = l.map f := by
  induction l with
  | nil => rfl
  | cons a l ih =>
    rw [List.flatMap_cons, List.append_assoc, List.singleton_append, getLines_cons_line _ (hf a), ih,
      List.map_cons]

end Yac.Text
