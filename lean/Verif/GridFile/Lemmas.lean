import Verif.GridFile.Model
import Verif.Text.Props
import Verif.AprilGrid.Props

/-! # Reading back the characters of a grid file -/

namespace Yac.GridFile
open Yac.Text Yac.Num Yac.AprilGrid Yac.AprilGrid.Spec
open Yac.Data (V2 V2Line loadLine2 withTarget)

/-- `y` is the double nearest to a number with `w` decimals nearest to `x`. -/
def PrintedTo (w : ℕ) (x y : ℚ) : Prop := ∃ k : ℤ, |x - k / 10 ^ w| ≤ 1 / 2 / 10 ^ w ∧ y = f64 (k / 10 ^ w)

/-- What is printed, as a multiple of `10⁻ʷ`. -/
def unit (w : ℕ) (x : ℚ) : ℤ := if x < 0 then -((rneInt (|x| * 10 ^ w)).natAbs : ℤ) else (rneInt (|x| * 10 ^ w)).natAbs

/-- What is read back. -/
def bk (w : ℕ) (x : ℚ) : ℚ := f64 ((unit w x : ℚ) / 10 ^ w)

theorem parseReal_fmtFix (w : ℕ) (x : ℚ) (ws rest : List Char) (hw : ∀ c ∈ ws, isSpace c = true) (hr : NoDig rest) :
    parseReal (ws ++ (fmtFix w x ++ rest)) = some (bk w x, rest) := by
  obtain ⟨u, hu⟩ : ∃ u, u = (rneInt (|x| * 10 ^ w)).natAbs := ⟨_, rfl⟩
  have hf : fmtFix w x ++ rest = (if decide (x < 0) then ['-'] else []) ++
      (natText (u / 10 ^ w) ++ '.' :: (fixedDigits w (u % 10 ^ w) ++ rest)) := by
    unfold fmtFix
    rw [← hu]
    simp
  obtain ⟨c, h1, h2⟩ := head_natText (u / 10 ^ w) ('.' :: (fixedDigits w (u % 10 ^ w) ++ rest))
  have hs := sign_text (decide (x < 0)) hw h1 h2
  obtain ⟨t1, t2⟩ := takeWhile_dig (natText (u / 10 ^ w)) ('.' :: (fixedDigits w (u % 10 ^ w) ++ rest))
    (natText_dig _) (by intro c h; cases h; rfl)
  obtain ⟨t3, t4⟩ := takeWhile_dig (fixedDigits w (u % 10 ^ w)) rest (fixedDigits_dig _ _) hr
  unfold parseReal
  rw [hf, hs]
  simp only [t1, t2, t3, t4]
  rw [if_neg (fun h => natText_ne _ h.1), natOf_natText, natOf_fixedDigits, fixedDigits_length, Nat.mod_mod]
  unfold bk
  congr 3
  have hdm : ((u / 10 ^ w : Nat) : ℚ) + ((u % 10 ^ w : Nat) : ℚ) / 10 ^ w = (u : ℚ) / 10 ^ w := by
    have := Nat.div_add_mod u (10 ^ w)
    have h' : (10 : ℚ) ^ w * ((u / 10 ^ w : Nat) : ℚ) + ((u % 10 ^ w : Nat) : ℚ) = (u : ℚ) := by
      exact_mod_cast this
    rw [← h']
    field_simp
  rw [hdm]
  unfold signed unit
  rw [← hu]
  by_cases hx : x < 0
  · simp [hx]; ring
  · simp [hx]

theorem printed_bk (w : ℕ) (x : ℚ) : PrintedTo w x (bk w x) := by
  refine ⟨unit w x, ?_, rfl⟩
  have hp : (0 : ℚ) < 10 ^ w := by positivity
  have h0 := rneInt_nonneg (x := |x| * 10 ^ w) (by positivity)
  have h1 := rneInt_close (|x| * 10 ^ w)
  have e : (((rneInt (|x| * 10 ^ w)).natAbs : ℤ) : ℚ) = (rneInt (|x| * 10 ^ w) : ℚ) := by
    rw [Int.natAbs_of_nonneg h0]
  unfold unit
  generalize rneInt (|x| * 10 ^ w) = n at *
  generalize (10 : ℚ) ^ w = p at *
  have key : ∀ y : ℚ, |(n : ℚ) - y * p| ≤ 1 / 2 → |y - n / p| ≤ 1 / 2 / p := by
    intro y hy
    have : y - n / p = (y * p - n) / p := by field_simp
    rw [this, abs_div, abs_of_pos hp, abs_sub_comm]
    exact div_le_div_of_nonneg_right hy hp.le
  by_cases hx : x < 0
  · rw [if_pos hx, Int.cast_neg, e]
    rw [abs_of_neg hx] at h1
    have := key (-x) (by first | exact h1 | (rw [abs_sub_comm]; exact h1))
    rw [show x - -(n : ℚ) / p = -(-x - n / p) by ring, abs_neg]
    exact this
  · rw [if_neg hx, e]
    rw [abs_of_nonneg (not_lt.mp hx)] at h1
    exact key x (by first | exact h1 | (rw [abs_sub_comm]; exact h1))

theorem fmtFix_chars (w : ℕ) (x : ℚ) : ∀ c ∈ fmtFix w x, c = '-' ∨ c = '.' ∨ isDig c = true := by
  intro c hc
  unfold fmtFix at hc
  simp only [List.mem_append, List.mem_cons] at hc
  rcases hc with (hc | hc) | hc | hc
  · split_ifs at hc
    · simp at hc; exact Or.inl hc
    · simp at hc
  · exact Or.inr (Or.inr (natText_dig _ c hc))
  · exact Or.inr (Or.inl hc)
  · exact Or.inr (Or.inr (fixedDigits_dig _ _ c hc))

theorem fmtFix_not_mem (w : ℕ) (x : ℚ) (c : Char) (h1 : c ≠ '-') (h2 : c ≠ '.') (h3 : isDig c = false) : c ∉ fmtFix w x := by
  intro h
  rcases fmtFix_chars w x c h with h | h | h
  · exact h1 h
  · exact h2 h
  · rw [h3] at h; cases h

/-- The values of a line after printing and reading. -/
def pr (l : Line ℚ) : Line ℚ :=
  { l with size := bk 6 l.size, spacing := bk 6 l.spacing, kx := bk 10 l.kx, ky := bk 10 l.ky, px := bk 6 l.px, py := bk 6 l.py,
           pz := bk 6 l.pz }

/-- The integers of a line fit into their variables. -/
structure Fits (l : Line ℚ) : Prop where
  ts : -2 ^ 63 ≤ l.ts ∧ l.ts < 2 ^ 63
  rows : (l.rows : ℤ) < 2 ^ 31
  cols : (l.cols : ℤ) < 2 ^ 31
  tag : -2 ^ 31 ≤ l.tag ∧ l.tag < 2 ^ 31
  corner : -2 ^ 31 ≤ l.corner ∧ l.corner < 2 ^ 31

theorem wrap32_id {n : ℤ} (h1 : -2 ^ 31 ≤ n) (h2 : n < 2 ^ 31) : wrap32 n = n := by
  unfold wrap32
  omega

theorem scan_ld (f : List Conv) (n : ℤ) (h1 : -2 ^ 63 ≤ n) (h2 : n < 2 ^ 63) (ws l : List Char) (hw : ∀ c ∈ ws, isSpace c = true)
    (hl : NoDig l) : scanf (.ld :: f) (ws ++ (fmtLd n ++ l)) = (.int n :: (scanf f l).1, (scanf f l).2) := by
  simp only [scanf, parseInt_fmtLd n ws l hw hl, toLong_natAbs h1 h2]

theorem scan_ld' (f : List Conv) (n : ℤ) (h1 : -2 ^ 63 ≤ n) (h2 : n < 2 ^ 63) (l : List Char)
    (hl : NoDig l) : scanf (.ld :: f) (fmtLd n ++ l) = (.int n :: (scanf f l).1, (scanf f l).2) :=
  scan_ld f n h1 h2 [] l (by simp) hl

theorem scan_fix (f : List Conv) (w : ℕ) (x : ℚ) (l : List Char) (hl : NoDig l) :
    scanf (.lf :: f) (fmtFix w x ++ l) = (.real (bk w x) :: (scanf f l).1, (scanf f l).2) := by
  have := parseReal_fmtFix w x [] l (by simp) hl
  simp only [List.nil_append] at this
  simp only [scanf, this]

/-- The values of a line, as they are read. -/
def vals (l : Line ℚ) : List Val :=
  [.int l.ts, .int l.rows, .int l.cols, .real (bk 6 l.size), .real (bk 6 l.spacing), .real (bk 10 l.kx), .real (bk 10 l.ky),
    .real (bk 6 l.px), .real (bk 6 l.py), .real (bk 6 l.pz), .int l.tag, .int l.corner]

theorem scan_line (l : Line ℚ) (h : Fits l) (ws rest : List Char) (hw : ∀ c ∈ ws, isSpace c = true) (hr : NoDig rest) :
    scanf fmt12 (ws ++ (lineText l ++ rest)) = (vals l, rest) := by
  obtain ⟨⟨t1, t2⟩, r, c, ⟨g1, g2⟩, ⟨k1, k2⟩⟩ := h
  unfold fmt12 lineText
  simp only [List.append_assoc, List.cons_append]
  rw [scan_ld _ _ t1 t2 _ _ hw (comma_noDig _), scan_lit, scan_ld' _ _ (by omega) (by omega) _ (comma_noDig _), scan_lit,
    scan_ld' _ _ (by omega) (by omega) _ (comma_noDig _), scan_lit, scan_fix _ _ _ _ (comma_noDig _), scan_lit,
    scan_fix _ _ _ _ (comma_noDig _), scan_lit, scan_fix _ _ _ _ (comma_noDig _), scan_lit, scan_fix _ _ _ _ (comma_noDig _), scan_lit,
    scan_fix _ _ _ _ (comma_noDig _), scan_lit, scan_fix _ _ _ _ (comma_noDig _), scan_lit, scan_fix _ _ _ _ (comma_noDig _), scan_lit,
    scan_ld' _ _ (by omega) (by omega) _ (comma_noDig _), scan_lit, scan_ld' _ _ (by omega) (by omega) _ hr]
  rfl

theorem full_line (g : Grid ℚ) (l : Line ℚ) (h : Fits l) : fullLine g (vals l) = loadLine g (pr l) := by
  obtain ⟨-, r, c, ⟨g1, g2⟩, ⟨k1, k2⟩⟩ := h
  unfold fullLine vals
  simp only
  rw [wrap32_id (n := (l.rows : ℤ)) (by omega) r, wrap32_id (n := (l.cols : ℤ)) (by omega) c, wrap32_id g1 g2, wrap32_id k1 k2,
    if_neg (by omega)]
  rfl

/-- The lines that are complete are loaded one after the other. -/
theorem loop_lines (ls : List (Line ℚ)) (h : ∀ l ∈ ls, Fits l) (n : ℕ) : ∀ (g : Grid ℚ) (ws rest : List Char),
    (∀ c ∈ ws, isSpace c = true) →
    loadLoop (ls.length + n) g (ws ++ (ls.flatMap (fun l => lineText l ++ ['\n']) ++ rest)) =
      ls.foldlM (fun g l => loadLine g (pr l)) g >>= fun g => loadLoop n g ((if ls = [] then ws else ['\n']) ++ rest) := by
  induction ls with
  | nil => intro g ws rest _; simp [AprilGrid.ok_bind, pure, Except.pure]
  | cons l ls ih =>
    intro g ws rest hw
    have hl := h l (by simp)
    rw [List.length_cons, show ls.length + 1 + n = (ls.length + n) + 1 by omega, loadLoop, List.flatMap_cons]
    rw [show ws ++ (lineText l ++ ['\n'] ++ ls.flatMap (fun l => lineText l ++ ['\n']) ++ rest) =
      ws ++ (lineText l ++ ('\n' :: (ls.flatMap (fun l => lineText l ++ ['\n']) ++ rest))) by simp]
    rw [scan_line l hl ws _ hw (noDig_cons (by decide))]
    simp only
    rw [if_neg (by simp [vals]), full_line g l hl, List.foldlM_cons]
    cases loadLine g (pr l) with
    | error e => rfl
    | ok g1 =>
      rw [AprilGrid.ok_bind, AprilGrid.ok_bind]
      have := ih (fun l hl => h l (by simp [hl])) g1 ['\n'] rest (by simp; rfl)
      rw [List.singleton_append] at this
      rw [this]
      simp

theorem lineText_no_nl (l : Line ℚ) : '\n' ∉ lineText l := by
  have hx := fun w x => fmtFix_not_mem w x '\n' (by decide) (by decide) (by decide)
  have ht := fun t => fmtLd_not_mem t '\n' (by decide) (by decide)
  simp only [lineText, List.mem_append, List.mem_cons, not_or]
  simp only [hx, ht, not_false_eq_true, and_true, true_and]
  decide

/-- The header without its newline. -/
def head' : List Char := "#ts,tag_rows,tag_cols,tag_size,tag_spacing,kp_x,kp_y,p_x,p_y,p_z,tag_id,corner_idx".toList

theorem header_eq (l : List Char) : header ++ l = head' ++ '\n' :: l := by
  have : header = head' ++ ['\n'] := by decide +kernel
  rw [this]; simp

theorem head'_nl : '\n' ∉ head' := by decide +kernel
theorem head'_len : head'.length < 1000 := by decide +kernel

theorem text_rows (ls : List (Line ℚ)) (tail : List Char) (ht : '\n' ∉ tail) :
    (getLines (head' ++ '\n' :: (ls.flatMap (fun l => lineText l ++ ['\n']) ++ tail))).length =
      ls.length + (if tail = [] then 0 else 1) + 1 := by
  rw [getLines_cons_line _ head'_nl, List.length_cons]
  congr 1
  induction ls with
  | nil =>
    by_cases h : tail = []
    · simp [h, getLines, getAll]
    · simp only [List.flatMap_nil, List.nil_append, List.length_nil, if_neg h, getLines]
      rw [getAll_last _ _ ht h]; rfl
  | cons l ls ih =>
    rw [List.flatMap_cons, show lineText l ++ ['\n'] ++ ls.flatMap (fun l => lineText l ++ ['\n']) ++ tail =
      lineText l ++ '\n' :: (ls.flatMap (fun l => lineText l ++ ['\n']) ++ tail) by simp, getLines_cons_line _ (lineText_no_nl l),
      List.length_cons, ih, List.length_cons]
    omega

/-- A file of complete lines is loaded line by line. -/
theorem load_text (g0 : Grid ℚ) (ls : List (Line ℚ)) (h : ∀ l ∈ ls, Fits l) :
    loadText g0 (header ++ ls.flatMap (fun l => lineText l ++ ['\n'])) = load g0 (ls.map pr) >>= fun g => .ok (0, g) := by
  have hr := text_rows ls [] (by simp)
  rw [List.append_nil, if_pos rfl, Nat.add_zero] at hr
  unfold loadText
  rw [header_eq, hr]
  simp only
  rw [skipLine_line _ _ head'_nl (by have := head'_len; omega), AprilGrid.ok_bind]
  have := loop_lines ls h 0 (clear g0) [] [] (by simp)
  rw [List.append_nil, List.nil_append, Nat.add_zero] at this
  rw [this, load, List.foldlM_map]
  cases ls.foldlM (fun g l => loadLine g (pr l)) (clear g0) with
  | error e => rfl
  | ok g => rfl

/-- The first characters of a number. -/
theorem natText_prefix (n j : ℕ) (h : 10 ^ j ≤ n) : ∃ r, natText n = natText (n / 10 ^ j) ++ r ∧ r.length = j := by
  induction j generalizing n with
  | zero => exact ⟨[], by simp, rfl⟩
  | succ j ih =>
    have h10 : 10 ≤ n := le_trans (by rw [pow_succ]; have := Nat.one_le_pow j 10 (by omega); omega) h
    have h1 : natText n = natText (n / 10) ++ [digitChar (n % 10)] := by
      unfold natText
      rw [if_neg (by omega), if_neg (by omega), Nat.digits_def' (by omega) (by omega)]
      simp
    have h2 : 10 ^ j ≤ n / 10 := by
      rw [Nat.le_div_iff_mul_le (by omega), ← pow_succ]; exact h
    obtain ⟨r, hr, hl⟩ := ih (n / 10) h2
    refine ⟨r ++ [digitChar (n % 10)], ?_, by simp [hl]⟩
    rw [h1, hr, Nat.div_div_eq_div_mul, ← pow_succ', List.append_assoc]

theorem fgets_line (n : ℕ) (t l : List Char) (ht : '\n' ∉ t) (hlen : t.length < n) :
    fgets n (t ++ '\n' :: l) = some (t ++ ['\n'], l) := by
  have hi : (t ++ '\n' :: l).idxOf '\n' = t.length := by
    rw [List.idxOf_append_of_notMem ht]
    simp
  unfold fgets
  rw [if_neg (by simp)]
  simp only [hi]
  rw [if_pos (by simp), Nat.min_eq_right (by omega)]
  simp [List.take_append, List.drop_append]

end Yac.GridFile
