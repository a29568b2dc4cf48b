import Verif.Fmt.Lemmas

/-!
# C126: results are printed with enough digits

`Double x` (Round.lean): `x` has at most 53 significant bits.
-/

namespace Yac.Fmt
open Yac.Num Yac.Text

/-! ### Specification: the entries of a list in a YAML file -/

/-- Without white space around. -/
def trim (l : List Char) : List Char := (l.dropWhile isSpace).rdropWhile isSpace

/-- The pieces between the commas. -/
def cells (l : List Char) : List (List Char) := (getAll ',' l).map trim

/-- The entries of a flow sequence of plain scalars (without the brackets): separated by commas; one comma may follow the
last entry. -/
def items (l : List Char) : List (List Char) := if (cells l).getLast? = some [] then (cells l).dropLast else cells l

/-! ### Numbers -/

theorem sig_zero (P : ℕ) : sig (P + 1) 0 = (0, 0) := by
  unfold sig
  rw [log_zero]
  have : rneInt (|0| * 10 ^ (((P + 1 : ℕ) : ℤ) - 1 - 0)) = 0 := by
    rw [abs_zero, zero_mul]
    exact rneInt_unique (by norm_num)
  simp only [this]
  rw [if_neg (by positivity)]
  rfl

/-- Every double is read back from 17 digits exactly. -/
theorem C126_exact (x : ℚ) (h : Double x) : asDouble (fmtG 17 x) = some x := by
  rw [asDouble_of (strtod_fmtG 16 x)]
  congr 1
  have hc := sig_close 16 x
  by_cases h0 : x = 0
  · subst h0
    rw [sig_zero]
    simp [dec, signed, f64, rne]
  · have hpos : 0 < |x| := abs_pos.mpr h0
    have hl := Int.zpow_log_le_self (b := 10) (by norm_num) hpos
    exact f64_digits17 h (by exact_mod_cast hl) (by rw [signed_abs]; exact_mod_cast hc)

/-- Error of `P + 1` digits. -/
theorem digits_err (P : ℕ) (x : ℚ) : |f64 (signed (decide (x < 0)) (dec (P + 1) (sig (P + 1) x))) - x| ≤
    (1 / 2 / 10 ^ P * (1 + 1 / 2 ^ 53) + 1 / 2 ^ 53) * |x| := by
  by_cases h0 : x = 0
  · subst h0
    rw [sig_zero]
    simp [dec, signed, f64, rne]
  have hpos : 0 < |x| := abs_pos.mpr h0
  have hl := Int.zpow_log_le_self (b := 10) (by norm_num) hpos
  have hc := sig_close P x
  rw [← signed_abs] at hc
  generalize signed (decide (x < 0)) (dec (P + 1) (sig (P + 1) x)) = v at hc ⊢
  have hs : (10 : ℚ) ^ (Int.log 10 |x| - (P : ℤ)) = 10 ^ Int.log 10 |x| / 10 ^ P := by
    rw [zpow_sub₀ (by norm_num), zpow_natCast]
  rw [hs] at hc
  have hl' : (10 : ℚ) ^ Int.log 10 |x| ≤ |x| := by exact_mod_cast hl
  have hP : (0 : ℚ) < 10 ^ P := by positivity
  have hc2 : |v - x| ≤ 1 / 2 / 10 ^ P * |x| := by
    refine hc.trans ?_
    have e : 1 / 2 * ((10 : ℚ) ^ Int.log 10 |x| / 10 ^ P) = 1 / 2 / 10 ^ P * 10 ^ Int.log 10 |x| := by ring
    rw [e]
    exact mul_le_mul_of_nonneg_left hl' (by positivity)
  have he := f64_err v
  have hv : |v| ≤ |x| + |v - x| := by
    have := abs_add_le x (v - x)
    simpa using this
  have ht : |f64 v - x| ≤ |f64 v - v| + |v - x| := by
    have := abs_add_le (f64 v - v) (v - x)
    simpa using this
  have he' : |f64 v - v| ≤ |v| / 2 ^ 53 := by rw [le_div_iff₀ (by positivity)]; exact he
  calc |f64 v - x| ≤ |v| / 2 ^ 53 + |v - x| := by linarith
    _ ≤ (|x| + 1 / 2 / 10 ^ P * |x|) / 2 ^ 53 + 1 / 2 / 10 ^ P * |x| := by
      refine add_le_add ?_ hc2
      exact div_le_div_of_nonneg_right (by linarith) (by positivity)
    _ = (1 / 2 / 10 ^ P * (1 + 1 / 2 ^ 53) + 1 / 2 ^ 53) * |x| := by ring

/-- With the default precision (six digits) a value is read back up to `5.0001e-6` of itself. -/
theorem C126_six (x : ℚ) : ∃ y, asDouble (fmtG 6 x) = some y ∧ |y - x| ≤ 5.0001 / 10 ^ 6 * |x| := by
  refine ⟨_, asDouble_of (strtod_fmtG 5 x), (digits_err 5 x).trans ?_⟩
  exact mul_le_mul_of_nonneg_right (by norm_num) (abs_nonneg _)

/-- Printed with `%e` a value is read back up to `5.0001e-7` of itself. -/
theorem C126_e (x : ℚ) : ∃ y, asDouble (fmtE 6 x) = some y ∧ |y - x| ≤ 5.0001 / 10 ^ 7 * |x| := by
  refine ⟨_, asDouble_of (strtod_fmtE 6 x), (digits_err 6 x).trans ?_⟩
  exact mul_le_mul_of_nonneg_right (by norm_num) (abs_nonneg _)

theorem strtod_fmtF (x : ℚ) : strtod (fmtF x) = some (f64 ((micro x : ℚ) / 10 ^ 6), []) := by
  obtain ⟨u, hu⟩ : ∃ u, u = (rneInt (|x| * 10 ^ 6)).natAbs := ⟨_, rfl⟩
  have ht : Tail [] := by intro c hc; cases hc
  have hd := decimals_point (fixedDigits_dig 6 (u % 10 ^ 6)) ht
  have := strtod_text x (u / 10 ^ 6) ('.' :: fixedDigits 6 (u % 10 ^ 6)) _ [] 0 hd (by intro c hc; cases hc; rfl) rfl
  rw [List.append_nil] at this
  have hf : fmtF x = minus x ++ natText (u / 10 ^ 6) ++ '.' :: fixedDigits 6 (u % 10 ^ 6) := by
    unfold fmtF minus
    rw [← hu]
  rw [hf, this, natOf_fixedDigits, fixedDigits_length, Nat.mod_mod, split_value]
  congr 3
  unfold signed micro
  rw [← hu]
  by_cases hx : x < 0
  · simp [hx]; ring
  · simp [hx]

/-- Printed with `%f` a value is read back up to `5.0001e-7` and the rounding to double. -/
theorem C126_f (x : ℚ) : ∃ y, asDouble (fmtF x) = some y ∧ |y - x| ≤ 5.0001 / 10 ^ 7 + |x| / 2 ^ 53 := by
  refine ⟨_, asDouble_of (strtod_fmtF x), ?_⟩
  have h1 := micro_close x
  generalize (micro x : ℚ) / 10 ^ 6 = v at h1 ⊢
  rw [abs_sub_comm] at h1
  have he := f64_err v
  have hv : |v| ≤ |x| + |v - x| := by
    have := abs_add_le x (v - x)
    simpa using this
  have ht : |f64 v - x| ≤ |f64 v - v| + |v - x| := by
    have := abs_add_le (f64 v - v) (v - x)
    simpa using this
  have he' : |f64 v - v| ≤ |v| / 2 ^ 53 := by rw [le_div_iff₀ (by positivity)]; exact he
  have : |v| / 2 ^ 53 ≤ |x| / 2 ^ 53 + (1 / 2 / 10 ^ 6) / 2 ^ 53 := by
    rw [← add_div]
    exact div_le_div_of_nonneg_right (by linarith) (by positivity)
  have : (1 / 2 / 10 ^ 6 : ℚ) / 2 ^ 53 + 1 / 2 / 10 ^ 6 ≤ 5.0001 / 10 ^ 7 := by norm_num
  linarith

/-- Six digits do not determine a double: "0.333333" is not a third. -/
theorem C126_six_refuted : ∃ x, Double x ∧ asDouble (fmtG 6 x) ≠ some x :=
  ⟨6004799503160661 / 2 ^ 54, ⟨6004799503160661, -54, by norm_num, by norm_num⟩, by decide +kernel⟩

/-- A small value vanishes under `%f`. -/
theorem C126_f_refuted : ∃ x, Double x ∧ x ≠ 0 ∧ asDouble (fmtF x) = some 0 :=
  ⟨1 / 2 ^ 22, ⟨1, -22, by norm_num, by norm_num⟩, by norm_num, by decide +kernel⟩

/-! ### Lists -/

/-- The text of a number. -/
def Token (t : List Char) : Prop := t ≠ [] ∧ ∀ c ∈ t, c ≠ ',' ∧ isSpace c = false

theorem rdrop_blank (t ws : List Char) (hw : ∀ c ∈ ws, isSpace c = true) :
    (t ++ ws).rdropWhile isSpace = t.rdropWhile isSpace := by
  induction ws using List.reverseRecOn with
  | nil => rw [List.append_nil]
  | append_singleton l c ih =>
    rw [← List.append_assoc, List.rdropWhile_concat_pos _ _ _ (hw c (by simp)), ih (fun x hx => hw x (by simp [hx]))]

theorem trim_token {ws t ws' : List Char} (hw : ∀ c ∈ ws, isSpace c = true) (h : Token t) (hw' : ∀ c ∈ ws', isSpace c = true) :
    trim (ws ++ t ++ ws') = t := by
  unfold trim
  rw [List.append_assoc, dropWhile_space hw, rdrop_blank _ _ hw', List.rdropWhile_eq_self_iff]
  · intro hl
    rw [(h.2 _ (List.getLast_mem hl)).2]
    simp
  · intro c hc
    rw [List.head?_append_of_ne_nil _ h.1] at hc
    exact (h.2 c (List.mem_of_mem_head? (by rw [hc]; rfl))).2

theorem no_blank : ∀ c ∈ ([] : List Char), isSpace c = true := by
  intro c hc
  cases hc

theorem not_mem_blank {ws t : List Char} (hw : ∀ c ∈ ws, isSpace c = true) (h : Token t) : ',' ∉ ws ++ t := by
  intro hc
  rcases List.mem_append.mp hc with hc | hc
  · exact absurd (hw _ hc) (by decide)
  · exact (h.2 _ hc).1 rfl

theorem cells_cons {ws t : List Char} (hw : ∀ c ∈ ws, isSpace c = true) (h : Token t) (l : List Char) :
    cells (ws ++ t ++ ',' :: l) = t :: cells l := by
  unfold cells
  rw [getAll_cons ',' (ws ++ t) (not_mem_blank hw h), List.map_cons]
  have := trim_token hw h no_blank
  rw [List.append_nil] at this
  rw [this]

theorem cells_last {ws t ws' : List Char} (hw : ∀ c ∈ ws, isSpace c = true) (h : Token t) (hw' : ∀ c ∈ ws', isSpace c = true) :
    cells (ws ++ t ++ ws') = [t] := by
  have hn : ',' ∉ ws ++ t ++ ws' := by
    intro hc
    rcases List.mem_append.mp hc with hc | hc
    · exact not_mem_blank hw h hc
    · exact absurd (hw' _ hc) (by decide)
  unfold cells
  rw [getAll_last ',' _ hn (by simp [h.1]), List.map_singleton, trim_token hw h hw']

theorem blank_one : ∀ c ∈ [' '], isSpace c = true := by
  intro c hc
  rw [List.mem_singleton.mp hc]
  rfl

theorem cells_join (ts : List (List Char)) (ht : ∀ t ∈ ts, Token t) (hn : ts ≠ []) : ∀ {ws : List Char} (_ : ∀ c ∈ ws, isSpace c = true),
    (∀ ws' : List Char, (∀ c ∈ ws', isSpace c = true) → cells (ws ++ commaJoin ts ++ ws') = ts) ∧ ∀ l, cells (ws ++ commaJoin ts ++ ',' :: l) = ts ++ cells l := by
  induction ts with
  | nil => exact absurd rfl hn
  | cons a t ih =>
    intro ws hw
    have ha := ht a (by simp)
    cases t with
    | nil => exact ⟨fun ws' hw' => cells_last hw ha hw', fun l => cells_cons hw ha l⟩
    | cons b t =>
      obtain ⟨i1, i2⟩ := ih (fun x hx => ht x (by simp [hx])) (by simp) blank_one
      have he : ∀ r : List Char, ws ++ commaJoin (a :: b :: t) ++ r = ws ++ a ++ ',' :: ([' '] ++ commaJoin (b :: t) ++ r) := by
        intro r
        show ws ++ (a ++ [',', ' '] ++ commaJoin (b :: t)) ++ r = _
        simp
      constructor
      · intro ws' hw'
        rw [he, cells_cons hw ha, i1 ws' hw']
      · intro l
        rw [he, cells_cons hw ha, i2]
        rfl

theorem items_of {l : List Char} {ts : List (List Char)} (h : cells l = ts) (ht : ∀ t ∈ ts, Token t) : items l = ts := by
  unfold items
  rw [h, if_neg]
  intro hg
  exact (ht [] (List.mem_of_getLast? hg)).1 rfl

theorem dig_token {c : Char} (h : c = '-' ∨ c = '.' ∨ c = 'e' ∨ c = '+' ∨ isDig c = true) : c ≠ ',' ∧ isSpace c = false := by
  rcases h with rfl | rfl | rfl | rfl | h
  · decide
  · decide
  · decide
  · decide
  · refine ⟨?_, not_space_of_dig h⟩
    rintro rfl
    cases h

theorem expText_chars (e : ℤ) : ∀ c ∈ expText e, c = '-' ∨ c = '.' ∨ c = 'e' ∨ c = '+' ∨ isDig c = true := by
  intro c hc
  unfold expText at hc
  rcases List.mem_cons.mp hc with hc | hc
  · split_ifs at hc <;> simp [hc]
  · rcases List.mem_append.mp hc with hc | hc
    · split_ifs at hc
      · rw [List.mem_singleton.mp hc]; simp [isDig]
      · cases hc
    · simp [natText_dig _ _ hc]

theorem fraction_chars (ds : List Char) (hd : ∀ c ∈ ds, isDig c = true) :
    ∀ c ∈ fraction ds, c = '-' ∨ c = '.' ∨ c = 'e' ∨ c = '+' ∨ isDig c = true := by
  intro c hc
  unfold fraction at hc
  simp only at hc
  split_ifs at hc
  · cases hc
  · rcases List.mem_cons.mp hc with hc | hc
    · simp [hc]
    · simp [rdrop_dig ds hd c hc]

theorem minus_chars (x : ℚ) : ∀ c ∈ minus x, c = '-' ∨ c = '.' ∨ c = 'e' ∨ c = '+' ∨ isDig c = true := by
  intro c hc
  unfold minus at hc
  split_ifs at hc
  · simp [List.mem_singleton.mp hc]
  · cases hc

theorem token_fmtG (P : ℕ) (x : ℚ) : Token (fmtG P x) := by
  unfold fmtG
  simp only
  split_ifs with h
  · refine ⟨by simp, fun c hc => dig_token ?_⟩
    rcases List.mem_append.mp hc with hc | hc
    · rcases List.mem_append.mp hc with hc | hc
      · rcases List.mem_append.mp hc with hc | hc
        · exact minus_chars x c hc
        · simp [natText_dig _ _ hc]
      · exact fraction_chars _ (fixedDigits_dig _ _) c hc
    · rcases List.mem_cons.mp hc with hc | hc
      · simp [hc]
      · exact expText_chars _ c hc
  · refine ⟨by simp [natText_ne], fun c hc => dig_token ?_⟩
    rcases List.mem_append.mp hc with hc | hc
    · rcases List.mem_append.mp hc with hc | hc
      · exact minus_chars x c hc
      · simp [natText_dig _ _ hc]
    · exact fraction_chars _ (fixedDigits_dig _ _) c hc

theorem token_fmtF (x : ℚ) : Token (fmtF x) :=
  ⟨fmtF_ne x, fun c hc => dig_token (by rcases fmtF_chars x c hc with h | h | h <;> simp [h])⟩

theorem items_join (ts : List (List Char)) (ht : ∀ t ∈ ts, Token t) : items (commaJoin ts) = ts := by
  by_cases hn : ts = []
  · subst hn
    rfl
  · have := (cells_join ts ht hn no_blank).1 [] no_blank
    rw [List.nil_append, List.append_nil] at this
    exact items_of this ht

theorem map_exact (l : List ℚ) (h : ∀ x ∈ l, Double x) : (l.map (fmtG 17)).map asDouble = l.map some := by
  rw [List.map_map]
  exact List.map_congr_left (fun x hx => C126_exact x (h x hx))

/-- A vector printed with all digits is read back exactly, whatever its length. -/
theorem C126_vector (v : List ℚ) (h : ∀ x ∈ v, Double x) : ∃ body, vec2str v true true = '[' :: body ++ [']'] ∧
    vec2str v false true = body ∧ (items body).map asDouble = v.map some := by
  refine ⟨commaJoin (v.map (fmtG 17)), rfl, ?_, ?_⟩
  · show [] ++ commaJoin (v.map (fmtG 17)) ++ [] = _
    simp
  · rw [items_join _ (fun t ht => by obtain ⟨x, _, rfl⟩ := List.mem_map.mp ht; exact token_fmtG 17 x)]
    exact map_exact v h

/-- Entries read back with an error. -/
def ReadClose (texts : List (List Char)) (v : List ℚ) (err : ℚ → ℚ) : Prop :=
  List.Forall₂ (fun t x => ∃ y, asDouble t = some y ∧ |y - x| ≤ err x) texts v

theorem readClose_map (v : List ℚ) (f : ℚ → List Char) (err : ℚ → ℚ) (h : ∀ x, ∃ y, asDouble (f x) = some y ∧ |y - x| ≤ err x) :
    ReadClose (v.map f) v err := by
  unfold ReadClose
  induction v with
  | nil => exact .nil
  | cons a t ih => exact .cons (h a) ih

/-- A vector printed with the default precision is read back up to `5.0001e-6`. -/
theorem C126_vector_six (v : List ℚ) : ∃ body, vec2str v true false = '[' :: body ++ [']'] ∧ vec2str v false false = body ∧
    ReadClose (items body) v (fun x => 5.0001 / 10 ^ 6 * |x|) := by
  refine ⟨commaJoin (v.map (fmtG 6)), rfl, ?_, ?_⟩
  · show [] ++ commaJoin (v.map (fmtG 6)) ++ [] = _
    simp
  · rw [items_join _ (fun t ht => by obtain ⟨x, _, rfl⟩ := List.mem_map.mp ht; exact token_fmtG 6 x)]
    exact readClose_map v _ _ C126_six

/-- An array is printed with six decimals. -/
theorem C126_array (v : List ℚ) : ∃ body, arr2str v true = '[' :: body ++ [']'] ∧ arr2str v false = body ∧
    ReadClose (items body) v (fun x => 5.0001 / 10 ^ 7 + |x| / 2 ^ 53) := by
  refine ⟨commaJoin (v.map fmtF), rfl, ?_, ?_⟩
  · show [] ++ commaJoin (v.map fmtF) ++ [] = _
    simp
  · rw [items_join _ (fun t ht => by obtain ⟨x, _, rfl⟩ := List.mem_map.mp ht; exact token_fmtF x)]
    exact readClose_map v _ _ C126_f

theorem cells_rows (indent : List Char) (hi : ∀ c ∈ indent, isSpace c = true) (m : Bool) (M : List (List ℚ)) (hr : ∀ r ∈ M, r ≠ []) :
    ∀ {ws ws' : List Char} (_ : ∀ c ∈ ws, isSpace c = true) (_ : ∀ c ∈ ws', isSpace c = true), M ≠ [] →
    cells (ws ++ mat2str indent m M ++ ws') = M.flatten.map (fmtG (precision m)) := by
  have body : ∀ r : List ℚ, vec2str r false m = commaJoin (r.map (fmtG (precision m))) := by
    intro r
    show [] ++ commaJoin (r.map (fmtG (precision m))) ++ [] = _
    simp
  have tok : ∀ r : List ℚ, ∀ t ∈ r.map (fmtG (precision m)), Token t := by
    intro r t ht
    obtain ⟨x, _, rfl⟩ := List.mem_map.mp ht
    exact token_fmtG _ x
  induction M with
  | nil => intro ws ws' hw hws h; exact absurd rfl h
  | cons r t ih =>
    intro ws ws' hw hws _
    have hw' : ∀ c ∈ ws ++ indent, isSpace c = true := by
      intro c hc
      rcases List.mem_append.mp hc with hc | hc
      · exact hw c hc
      · exact hi c hc
    have hne : r.map (fmtG (precision m)) ≠ [] := by
      intro h
      exact hr r (by simp) (List.map_eq_nil_iff.mp h)
    cases t with
    | nil =>
      show cells (ws ++ (indent ++ vec2str r false m) ++ ws') = _
      rw [← List.append_assoc ws, body, (cells_join _ (tok r) hne hw').1 ws' hws]
      simp
    | cons r' t =>
      have hn : ∀ c ∈ ['\n'], isSpace c = true := by
        intro c hc
        rw [List.mem_singleton.mp hc]
        rfl
      have he : ws ++ mat2str indent m (r :: r' :: t) ++ ws' = ws ++ indent ++ commaJoin (r.map (fmtG (precision m))) ++ ',' ::
          (['\n'] ++ mat2str indent m (r' :: t) ++ ws') := by
        show ws ++ (indent ++ vec2str r false m ++ [',', '\n'] ++ mat2str indent m (r' :: t)) ++ ws' = _
        rw [body]
        simp
      rw [he, (cells_join _ (tok r) hne hw').2, ih (fun x hx => hr x (by simp [hx])) hn hws (by simp)]
      simp

/-- A matrix printed with all digits is read back exactly, row by row. -/
theorem C126_matrix (indent : List Char) (hi : ∀ c ∈ indent, isSpace c = true) (M : List (List ℚ)) (hr : ∀ r ∈ M, r ≠ [])
    (h : ∀ r ∈ M, ∀ x ∈ r, Double x) : (items (mat2str indent true M)).map asDouble = M.flatten.map some := by
  by_cases hM : M = []
  · subst hM
    rfl
  · have := cells_rows indent hi true M hr no_blank no_blank hM
    rw [List.nil_append, List.append_nil] at this
    rw [items_of this (fun t ht => by obtain ⟨x, _, rfl⟩ := List.mem_map.mp ht; exact token_fmtG _ x)]
    refine map_exact _ (fun x hx => ?_)
    obtain ⟨r, h1, h2⟩ := List.mem_flatten.mp hx
    exact h r h1 x h2

/-- The nearest double of 0.1 and a tiny number, in full. -/
example : Double (3602879701896397 / 2 ^ 55) ∧ Double (5902958103587057 / 2 ^ 69) ∧
    vec2str [3602879701896397 / 2 ^ 55, -5902958103587057 / 2 ^ 69] true true =
      "[0.10000000000000001, -1.0000000000000001e-05]".toList ∧
    vec2str [3602879701896397 / 2 ^ 55, -5902958103587057 / 2 ^ 69] true false = "[0.1, -1e-05]".toList :=
  ⟨⟨3602879701896397, -55, by norm_num, by norm_num⟩, ⟨5902958103587057, -69, by norm_num, by norm_num⟩, by decide +kernel, by decide +kernel⟩

end Yac.Fmt
