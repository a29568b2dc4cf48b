import Verif.Gimbal.TextProps

namespace Yac.Gimbal
open Yac.Text Yac.Num

/-! ### Values -/

theorem cells_mem (cs : List Str) : ∀ x ∈ cells cs, x = ',' ∨ x = ' ' ∨ x = ']' ∨ ∃ c ∈ cs, x ∈ c := by
  induction cs with
  | nil => intro x hx; simp [cells] at hx; simp [hx]
  | cons c cs ih =>
    intro x hx
    cases cs with
    | nil =>
      simp only [cells, List.mem_append, List.mem_singleton] at hx
      rcases hx with hx | hx
      · exact Or.inr (Or.inr (Or.inr ⟨c, by simp, hx⟩))
      · exact Or.inr (Or.inr (Or.inl hx))
    | cons d ds =>
      simp only [cells, List.mem_append, List.mem_cons] at hx
      rcases hx with hx | hx | hx | hx
      · exact Or.inr (Or.inr (Or.inr ⟨c, by simp, hx⟩))
      · exact Or.inl hx
      · exact Or.inr (Or.inl hx)
      · rcases ih x hx with h | h | h | ⟨e, he, hxe⟩
        · exact Or.inl h
        · exact Or.inr (Or.inl h)
        · exact Or.inr (Or.inr (Or.inl h))
        · exact Or.inr (Or.inr (Or.inr ⟨e, by simp only [List.mem_cons] at he ⊢; exact Or.inr he, hxe⟩))

theorem cells_ne (cs : List Str) : cells cs ≠ [] := by
  cases cs with
  | nil => simp [cells]
  | cons c cs => cases cs <;> simp [cells]

theorem cells_last (cs : List Str) : (cells cs).getLast? = some ']' := by
  induction cs with
  | nil => rfl
  | cons c cs ih =>
    cases cs with
    | nil => simp [cells]
    | cons d ds =>
      have e : cells (c :: d :: ds) = (c ++ [',', ' ']) ++ cells (d :: ds) := by simp [cells]
      rw [e, List.getLast?_append, ih]; rfl

theorem valOk_vec (cs : List Str) (h : ∀ c ∈ cs, NumOk c) : ValOk (vec cs) where
  plain x hx := by
    simp only [vec, List.mem_cons] at hx
    rcases hx with rfl | hx
    · exact ⟨by decide, by decide, by decide⟩
    · rcases cells_mem cs x hx with rfl | rfl | rfl | ⟨c, hc, hxc⟩
      · exact ⟨by decide, by decide, by decide⟩
      · exact ⟨by decide, by decide, by decide⟩
      · exact ⟨by decide, by decide, by decide⟩
      · obtain ⟨-, -, -, h4, h5, h6⟩ := (h c hc).plain x hxc
        exact ⟨h4, h5, h6⟩
  ne := by simp [vec]
  head := by simp [vec]
  last := by
    have e : vec cs = ['['] ++ cells cs := rfl
    rw [e, List.getLast?_append, cells_last]; decide

theorem valOk_quoted (name : Str) (h : ∀ x ∈ name, x ≠ ':' ∧ x ≠ '\n' ∧ x ≠ nul) : ValOk (quoted name) where
  plain x hx := by
    simp only [quoted, List.cons_append, List.mem_cons, List.mem_append, List.not_mem_nil, or_false] at hx
    rcases hx with rfl | hx | rfl
    · exact ⟨by decide, by decide, by decide⟩
    · exact h x hx
    · exact ⟨by decide, by decide, by decide⟩
  ne := by simp [quoted]
  head := by simp [quoted]
  last := by
    have e : quoted name = ('"' :: name) ++ ['"'] := rfl
    rw [e, List.getLast?_append]; intro h; exact absurd (Option.some.inj h) (by decide)

theorem dig_not {x : Char} (h : isDig x = true) : x ≠ ':' ∧ x ≠ '\n' ∧ x ≠ nul ∧ x ≠ ' ' ∧ x ≠ ',' :=
  ⟨by rintro rfl; exact absurd h (by decide), by rintro rfl; exact absurd h (by decide),
   by rintro rfl; exact absurd h (by decide), by rintro rfl; exact absurd h (by decide),
   by rintro rfl; exact absurd h (by decide)⟩

theorem valOk_nat (n : Nat) : ValOk (natText n) where
  plain x hx := ⟨(dig_not (natText_dig n x hx)).1, (dig_not (natText_dig n x hx)).2.1, (dig_not (natText_dig n x hx)).2.2.1⟩
  ne := natText_ne n
  head h := (dig_not (natText_dig n _ (List.mem_of_head? h))).2.2.2.1 rfl
  last h := (dig_not (natText_dig n _ (List.mem_of_getLast? h))).2.2.2.1 rfl

/-- Keys are checked character by character. -/
def keyOk (k : Str) : Bool := k ≠ [] && k.all fun x => x ≠ ':' && x ≠ '\n' && x ≠ nul && x ≠ ' '

theorem keyOk_spec {k : Str} (h : keyOk k = true) : KeyOk k := by
  simp only [keyOk, Bool.and_eq_true, List.all_eq_true, decide_eq_true_eq] at h
  exact ⟨fun x hx => ⟨(h.2 x hx).1.1.1, (h.2 x hx).1.1.2, (h.2 x hx).1.2, (h.2 x hx).2⟩, h.1⟩

theorem natText_length {n : Nat} (h : n < 2 ^ 31) : (natText n).length ≤ 10 := by
  unfold natText
  split_ifs with h0
  · simp
  · simp only [List.length_map, List.length_reverse]
    by_contra hc
    have h1 : 11 ≤ (Nat.digits 10 n).length := by omega
    have h2 := Nat.base_pow_length_digits_le' 8 n h0
    have h3 : (10 : Nat) ^ 11 ≤ 10 ^ (Nat.digits 10 n).length := Nat.pow_le_pow_right (by norm_num) h1
    norm_num at h2 h3 h
    omega

theorem parseInt_nat (n : Nat) : parseInt (natText n) = some (false, n, []) := by
  have h := parseInt_fmtLd (n : ℤ) [] [] (by simp) (by intro c hc; simp at hc)
  have e : fmtLd (n : ℤ) = natText n := by
    unfold fmtLd
    rw [if_neg (by omega)]; simp
  rw [e] at h
  have h0 : decide ((n : ℤ) < 0) = false := by simp
  rw [h0] at h
  simpa using h

theorem atoi_nat {n : Nat} (h : n < 2 ^ 31) : atoi (natText n) = n := by
  unfold atoi
  rw [parseInt_nat]
  have : toLong false n = n := by
    unfold toLong
    rw [if_neg (show ¬ (false = true) by decide)]; omega
  simp only [this]
  have h2 : (n : ℤ) % 2 ^ 32 = n := by omega
  rw [h2, if_pos (by omega)]

theorem keyInt_kv (i : Nat) (k : Str) (n : Nat) (rest : Str) (hk : keyOk k = true) (hl : i + k.length ≤ 1000) (h : n < 2 ^ 31) :
    keyInt k (kv i k (natText n) ++ rest) = .ok ((n : ℤ), rest) := by
  have hf : Fits i k (natText n) := by
    have := natText_length h
    unfold Fits kv
    simp only [List.length_append, List.length_cons, List.length_nil, List.length_replicate]
    omega
  unfold keyInt
  rw [keyValue_kv i k _ rest (keyOk_spec hk) (valOk_nat n) hf, okb', atoi_nat h]

theorem keyString_kv (i : Nat) (k name rest : Str) (hk : keyOk k = true) (hl : i + k.length ≤ 900) (h : NameOk name) :
    keyString k (kv i k (quoted name) ++ rest) = .ok (name, rest) := by
  obtain ⟨h1, h2⟩ := h
  have hf : Fits i k (quoted name) := by
    unfold Fits kv quoted
    simp only [List.length_append, List.length_cons, List.length_nil, List.length_replicate]
    omega
  unfold keyString
  rw [keyValue_kv i k _ rest (keyOk_spec hk) (valOk_quoted name (fun x hx => (h2 x hx).2)) hf, okb',
    stripChar_quoted _ (fun hc => (h2 _ hc).1 rfl)]
  simp only [stringCopy, if_pos h1]; rfl

/-- A name of thirty characters or more overruns its buffer. -/
theorem keyString_long (i : Nat) (k name rest : Str) (hk : keyOk k = true) (hf : Fits i k (quoted name)) (hl : 30 ≤ name.length)
    (h2 : ∀ x ∈ name, x ≠ '"' ∧ x ≠ ':' ∧ x ≠ '\n' ∧ x ≠ nul) :
    keyString k (kv i k (quoted name) ++ rest) = .error .oob := by
  unfold keyString
  rw [keyValue_kv i k _ rest (keyOk_spec hk) (valOk_quoted name (fun x hx => (h2 x hx).2)) hf, okb',
    stripChar_quoted _ (fun hc => (h2 _ hc).1 rfl)]
  simp only [stringCopy, if_neg (show ¬ name.length < 30 by omega)]; rfl

theorem keyReals_kv (n i : Nat) (h0 : 0 < n) (k : Str) (cs : List Str) (rest : Str) (hk : keyOk k = true) (h : VecOk n i k cs) :
    keyReals n k (kv i k (vec cs) ++ rest) = .ok (cs.map number, rest) := by
  obtain ⟨h1, h2, h3⟩ := h
  unfold keyReals
  rw [keyValue_kv i k _ rest (keyOk_spec hk) (valOk_vec cs h2) h3, okb',
    (C124_vector_partial n (0 : ℚ) (fun x => .ok x) cs (by rintro rfl; simp at h1; omega) h2 (cs.map number)
      (by simp [List.map_map])).1 (by omega)]
  simp [h1]

theorem keyInts_kv (n i : Nat) (h0 : 0 < n) (k : Str) (cs : List Str) (rest : Str) (hk : keyOk k = true) (h : VecOk n i k cs)
    (vs : List ℤ) (hv : cs.map (fun c => toInt32 (number c)) = vs.map .ok) :
    keyInts n k (kv i k (vec cs) ++ rest) = .ok (vs, rest) := by
  obtain ⟨h1, h2, h3⟩ := h
  have hl : vs.length = n := by
    have := congrArg List.length hv
    simpa [h1] using this.symm
  unfold keyInts
  rw [keyValue_kv i k _ rest (keyOk_spec hk) (valOk_vec cs h2) h3, okb',
    (C124_vector_partial n (0 : ℤ) toInt32 cs (by rintro rfl; simp at h1; omega) h2 vs hv).1 (by omega)]
  simp [hl]

/-! ### Numbers before a line end -/

theorem takeDrop_nl (r : Str) : (r ++ ['\n']).takeWhile isDig = r.takeWhile isDig ∧
    (r ++ ['\n']).dropWhile isDig = r.dropWhile isDig ++ ['\n'] := by
  induction r with
  | nil => exact ⟨by decide, by decide⟩
  | cons c r ih =>
    by_cases h : isDig c = true
    · simp [h, ih.1, ih.2]
    · simp [h]

theorem sign_nl (r : Str) : Text.sign (r ++ ['\n']) = ((Text.sign r).1, (Text.sign r).2 ++ ['\n']) := by
  cases r with
  | nil => rfl
  | cons c r =>
    by_cases h1 : c = '-'
    · subst h1; rfl
    · by_cases h2 : c = '+'
      · subst h2; rfl
      · have e : ∀ l : Str, Text.sign (c :: l) = (false, c :: l) := fun l => by
          unfold Text.sign
          split
          · rename_i h; exact absurd (List.cons.inj h).1 h1
          · rename_i h; exact absurd (List.cons.inj h).1 h2
          · rfl
        rw [List.cons_append, e, e]; rfl

theorem atof_nl (a : Str) : atof (a ++ ['\n']) = atof a := by
  have hd : (a ++ ['\n']).dropWhile isSpace = a.dropWhile isSpace ++ ['\n'] ∨
      ((a ++ ['\n']).dropWhile isSpace = [] ∧ a.dropWhile isSpace = []) := by
    induction a with
    | nil => right; exact ⟨by decide, rfl⟩
    | cons c a ih =>
      by_cases h : isSpace c = true
      · simp only [List.cons_append, List.dropWhile_cons_of_pos h]; exact ih
      · left; simp [h]
  unfold atof parseReal
  rcases hd with hd | ⟨hd, hd'⟩
  · rw [hd, sign_nl]
    simp only
    generalize (Text.sign (a.dropWhile isSpace)).1 = s
    generalize (Text.sign (a.dropWhile isSpace)).2 = r
    rw [(takeDrop_nl r).1, (takeDrop_nl r).2]
    cases hq : r.dropWhile isDig with
    | nil =>
      simp only [List.nil_append]
      by_cases hi : r.takeWhile isDig = [] <;> simp [hi]
    | cons c q =>
      by_cases hc : c = '.'
      · subst hc
        simp only [List.cons_append]
        rw [(takeDrop_nl q).1, (takeDrop_nl q).2]
        by_cases hi : r.takeWhile isDig = [] ∧ q.takeWhile isDig = []
        · rw [if_pos hi, if_pos hi]
        · rw [if_neg hi, if_neg hi]
      · by_cases hi : r.takeWhile isDig = [] <;> simp [hi, hc]
  · rw [hd, hd']

end Yac.Gimbal
