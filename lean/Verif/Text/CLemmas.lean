import Verif.Text.CModel
import Verif.Text.Lemmas
import Verif.AprilGrid.Lemmas

/-!
# Lemmas on the C interface of util/data.cpp
-/

namespace Yac.Text
open Yac.Num Yac.AprilGrid

/-! ### Specification: the files -/

/-- A line of cells separated by commas. -/
def line : List (List Char) → List Char
  | [] => ['\n']
  | [c] => c ++ ['\n']
  | c :: cs => c ++ ',' :: line cs

/-- A line of a file: a comment or a row of cells. -/
inductive Item where
  | note (t : List Char)
  | row (cells : List (List Char))

/-- The text of a line. -/
def Item.text : Item → List Char
  | .note t => '#' :: t ++ ['\n']
  | .row cs => line cs

/-- The text without blanks. -/
def squeeze (c : List Char) : List Char := c.filter (· ≠ ' ')

/-- A cell: one line of text without comma, at most 99 characters besides blanks. -/
structure CellOk (c : List Char) : Prop where
  comma : ',' ∉ c
  newline : '\n' ∉ c
  zero : nul ∉ c
  short : (squeeze c).length ≤ 99

/-- A line that fits the buffer of 1024 bytes. -/
def Item.Ok (i : Item) : Prop :=
  i.text.length ≤ 1023 ∧
    match i with
    | .note t => '\n' ∉ t
    | .row cs => cs ≠ [] ∧ (∀ c ∈ cs, CellOk c) ∧ (line cs).head? ≠ some '#'

/-- The file. -/
def fileOf (d : List Item) : List Char := d.flatMap Item.text

/-- The rows of a file. -/
def rowsOf (d : List Item) : List (List (List Char)) :=
  d.filterMap fun
    | .row cs => some cs
    | .note _ => none

/-! ### Lines -/

theorem line_ne (cs : List (List Char)) : line cs ≠ [] := by
  cases cs with
  | nil => simp [line]
  | cons c cs => cases cs <;> simp [line]

theorem line_split (cs : List (List Char)) (h : ∀ c ∈ cs, '\n' ∉ c) : ∃ t, line cs = t ++ ['\n'] ∧ '\n' ∉ t := by
  induction cs with
  | nil => exact ⟨[], rfl, by simp⟩
  | cons c cs ih =>
    cases cs with
    | nil => exact ⟨c, rfl, h c (by simp)⟩
    | cons d ds =>
      obtain ⟨t, h1, h2⟩ := ih (fun x hx => h x (by simp [hx]))
      refine ⟨c ++ ',' :: t, ?_, ?_⟩
      · show c ++ ',' :: line (d :: ds) = _
        rw [h1]; simp
      · simp only [List.mem_append, List.mem_cons, not_or]
        exact ⟨h c (by simp), by decide, h2⟩

theorem Item.text_split (i : Item) (h : i.Ok) : ∃ t, i.text = t ++ ['\n'] ∧ '\n' ∉ t ∧ t.length ≤ 1022 := by
  have key : ∃ t, i.text = t ++ ['\n'] ∧ '\n' ∉ t := by
    cases i with
    | note t =>
      refine ⟨'#' :: t, rfl, ?_⟩
      simp only [List.mem_cons, not_or]
      exact ⟨by decide, h.2⟩
    | row cs => exact line_split cs (fun c hc => (h.2.2.1 c hc).newline)
  obtain ⟨t, h1, h2⟩ := key
  refine ⟨t, h1, h2, ?_⟩
  have := h.1
  rw [h1] at this
  simp at this
  omega

theorem fgets_line (n : Nat) (t l : List Char) (h : '\n' ∉ t) (hl : t.length + 1 ≤ n) :
    fgets n (t ++ '\n' :: l) = some (t ++ ['\n'], l) := by
  have hx : (t ++ '\n' :: l).idxOf '\n' = t.length := by
    rw [List.idxOf_append_of_notMem h]; simp
  unfold fgets
  rw [if_neg (by simp), hx, if_pos (by simp), min_eq_right hl]
  simp [List.take_append, List.drop_append]

theorem fgets_long (n : Nat) (t l : List Char) (h : '\n' ∉ t) (hl : n ≤ t.length) (h0 : t ++ l ≠ []) :
    fgets n (t ++ l) = some (t.take n, t.drop n ++ l) := by
  unfold fgets
  rw [if_neg h0]
  have : min n (if '\n' ∈ t ++ l then (t ++ l).idxOf '\n' + 1 else (t ++ l).length) = n := by
    apply min_eq_left
    split_ifs
    · rw [List.idxOf_append_of_notMem h]; omega
    · simp; omega
  rw [this]
  simp [List.take_append, List.drop_append, Nat.sub_eq_zero_of_le hl]

theorem fgetsAll_fuel (f : Nat) : ∀ (g : Nat) (l : List Char), l.length ≤ f → l.length ≤ g →
    fgetsAll f l = fgetsAll g l := by
  induction f with
  | zero =>
    intro g l h _
    have : l = [] := by simpa using h
    subst this
    cases g <;> simp [fgetsAll, fgets]
  | succ f ih =>
    intro g l hf hg
    cases l with
    | nil => cases g <;> simp [fgetsAll, fgets]
    | cons c l =>
      cases g with
      | zero => simp at hg
      | succ g =>
        have hd : ∀ k, 0 < k → ((c :: l).drop k).length ≤ f ∧ ((c :: l).drop k).length ≤ g := by
          intro k hk
          simp only [List.length_drop, List.length_cons] at hf hg ⊢
          omega
        simp only [fgetsAll, fgets, if_neg (List.cons_ne_nil c l)]
        congr 1
        apply ih
        · exact (hd _ (by apply lt_min (by norm_num); split_ifs <;> simp)).1
        · exact (hd _ (by apply lt_min (by norm_num); split_ifs <;> simp)).2

theorem pieces_nil : pieces [] = [] := rfl

theorem pieces_step (l a r : List Char) (h : fgets 1023 l = some (a, r)) (hr : r.length < l.length) :
    pieces l = a :: pieces r := by
  unfold pieces
  cases hl : l.length with
  | zero => omega
  | succ n =>
    rw [fgetsAll, h]
    simp only
    rw [fgetsAll_fuel n r.length r (by omega) le_rfl]

theorem pieces_line (t l : List Char) (h : '\n' ∉ t) (hl : t.length ≤ 1022) :
    pieces (t ++ '\n' :: l) = (t ++ ['\n']) :: pieces l :=
  pieces_step _ _ _ (fgets_line 1023 t l h (by omega)) (by simp; omega)

theorem pieces_long (t l : List Char) (h : '\n' ∉ t) (hl : 1023 ≤ t.length) :
    pieces (t ++ l) = t.take 1023 :: pieces (t.drop 1023 ++ l) :=
  pieces_step _ _ _ (fgets_long 1023 t l h hl (by
    intro h0
    have := congrArg List.length h0
    rw [List.length_append, List.length_nil] at this
    omega)) (by simp; omega)

theorem pieces_file (d : List Item) (h : ∀ i ∈ d, i.Ok) : pieces (fileOf d) = d.map Item.text := by
  induction d with
  | nil => rfl
  | cons i d ih =>
    obtain ⟨t, h1, h2, h3⟩ := i.text_split (h i (by simp))
    have : fileOf (i :: d) = t ++ '\n' :: fileOf d := by
      simp [fileOf, h1]
    rw [this, pieces_line t _ h2 h3, ih (fun x hx => h x (by simp [hx]))]
    simp [h1]

theorem isNote_note (t : List Char) : isNote (Item.note t).text = true := by simp [isNote, Item.text]

theorem isNote_row (cs : List (List Char)) (h : (Item.row cs).Ok) : isNote (Item.row cs).text = false := by
  unfold isNote Item.text
  simp only [beq_eq_false_iff_ne]
  exact h.2.2.2

/-! ### Strings in buffers -/

/-- A buffer of `n` bytes holding a string. -/
def hold (n : Nat) (t : List Char) : List Char := t ++ List.replicate (n - t.length) nul

theorem cstr_text (t : List Char) (h : nul ∉ t) (l : List Char) : cstr (t ++ nul :: l) = t := by
  unfold cstr
  rw [List.takeWhile_append_of_pos]
  · simp
  · intro c hc
    simp only [decide_eq_true_eq]
    rintro rfl
    exact h hc

theorem cstr_self (t : List Char) (h : nul ∉ t) : cstr t = t := by
  unfold cstr
  rw [List.takeWhile_eq_self_iff]
  intro c hc
  simp only [decide_eq_true_eq]
  rintro rfl
  exact h hc

theorem hold_cons {n : Nat} {t : List Char} (h : t.length < n) :
    hold n t = t ++ nul :: List.replicate (n - t.length - 1) nul := by
  unfold hold
  obtain ⟨k, hk⟩ : ∃ k, n - t.length = k + 1 := ⟨n - t.length - 1, by omega⟩
  rw [hk]; simp [List.replicate_succ]

theorem readEntry_hold {n : Nat} {t : List Char} (h : t.length < n) (hz : nul ∉ t) : readEntry (hold n t) = .ok t := by
  unfold readEntry
  rw [hold_cons h, if_pos (by simp), cstr_text t hz]

theorem pushEntry_hold {n : Nat} {t : List Char} {c : Char} (h : t.length < n) (hz : nul ∉ t) :
    pushEntry (hold n t) c = .ok (hold n (t ++ [c])) := by
  unfold pushEntry
  rw [hold_cons h, if_pos (by simp), cstr_text t hz]
  congr 1
  unfold hold
  rw [List.set_append, if_neg (by omega)]
  simp only [Nat.sub_self, List.set_cons_zero, List.append_assoc, List.cons_append, List.nil_append,
    List.length_append, List.length_cons, List.length_nil]
  rw [Nat.sub_sub, Nat.zero_add]

theorem clearEntry_hold {n : Nat} {t : List Char} (h : t.length ≤ 100) (hn : 100 ≤ n) :
    clearEntry (hold n t) = hold n [] := by
  unfold clearEntry hold
  rw [List.drop_append, List.drop_eq_nil_of_le h]
  simp only [List.nil_append, List.drop_replicate, List.length_nil, Nat.sub_zero]
  rw [List.replicate_append_replicate]
  congr 1
  omega

section Loop
variable {S : Type} (skip : Char → Bool) (emit : S → List Char → Except Fault S)

/-- What the loop keeps of a cell. -/
def kept (c : List Char) : List Char := c.filter (fun x => !skip x)

theorem lineLoop_cell {n : Nat} (hn : 100 ≤ n) (c rest : List Char) (h1 : ',' ∉ c) (h2 : '\n' ∉ c) (h3 : nul ∉ c) :
    ∀ (e : List Char) (s : S), nul ∉ e → e.length + (kept skip c).length ≤ 99 →
      lineLoop skip emit (c ++ rest) (hold n e) s = lineLoop skip emit rest (hold n (e ++ kept skip c)) s := by
  induction c with
  | nil => intro e s _ _; simp [kept]
  | cons x c ih =>
    intro e s he hl
    have ih := ih (fun h => h1 (by simp [h])) (fun h => h2 (by simp [h])) (fun h => h3 (by simp [h]))
    rw [List.cons_append, lineLoop]
    by_cases hx : skip x = true
    · rw [if_pos hx]
      have hk : kept skip (x :: c) = kept skip c := by simp [kept, hx]
      rw [hk] at hl ⊢
      exact ih e s he hl
    · rw [if_neg hx, if_neg]
      · have hk : kept skip (x :: c) = x :: kept skip c := by simp [kept, hx]
        rw [hk, List.length_cons] at hl
        rw [pushEntry_hold (by omega) he, ok_bind, ih (e ++ [x]) s, hk]
        · simp
        · simp only [List.mem_append, List.mem_singleton, not_or]
          exact ⟨he, fun h => h3 (by simp [h])⟩
        · simp; omega
      · rintro (rfl | rfl)
        · exact h1 (by simp)
        · exact h2 (by simp)

theorem lineLoop_sep {n : Nat} (hn : 100 ≤ n) (hs : skip ',' = false ∧ skip '\n' = false) {x : Char} (hx : x = ',' ∨ x = '\n') (rest : List Char)
    (e : List Char) (s : S) (he : nul ∉ e) (hl : e.length ≤ 99) :
    lineLoop skip emit (x :: rest) (hold n e) s =
      (emit s e >>= fun s' => lineLoop skip emit rest (hold n []) s') := by
  rw [lineLoop]
  have : skip x = false := by rcases hx with rfl | rfl; exacts [hs.1, hs.2]
  rw [if_neg (by simp [this]), if_pos hx, readEntry_hold (by omega) he, ok_bind, clearEntry_hold (by omega) hn]

theorem kept_nul {c : List Char} (h : nul ∉ c) : nul ∉ kept skip c := fun hc => h (List.mem_filter.mp hc).1

theorem lineLoop_line {n : Nat} (hn : 100 ≤ n) (hs : skip ',' = false ∧ skip '\n' = false) (cs : List (List Char))
    (hne : cs ≠ []) (h : ∀ c ∈ cs, ',' ∉ c ∧ '\n' ∉ c ∧ nul ∉ c ∧ (kept skip c).length ≤ 99) (s : S) :
    lineLoop skip emit (line cs) (hold n []) s = (cs.map (kept skip)).foldlM emit s := by
  induction cs generalizing s with
  | nil => exact absurd rfl hne
  | cons c cs ih =>
    obtain ⟨h1, h2, h3, h4⟩ := h c (by simp)
    cases cs with
    | nil =>
      show lineLoop skip emit (c ++ ['\n']) (hold n []) s = _
      rw [lineLoop_cell skip emit hn c _ h1 h2 h3 [] s (by simp) (by simpa using h4), List.nil_append,
        lineLoop_sep skip emit hn hs (Or.inr rfl) _ _ _ (kept_nul skip h3) h4]
      simp only [List.map_cons, List.map_nil, List.foldlM_cons, List.foldlM_nil]
      rfl
    | cons d ds =>
      show lineLoop skip emit (c ++ ',' :: line (d :: ds)) (hold n []) s = _
      rw [lineLoop_cell skip emit hn c _ h1 h2 h3 [] s (by simp) (by simpa using h4), List.nil_append,
        lineLoop_sep skip emit hn hs (Or.inl rfl) _ _ _ (kept_nul skip h3) h4]
      rw [List.map_cons, List.foldlM_cons]
      congr 1
      funext s'
      exact ih (by simp) (fun x hx => h x (by simp [hx])) s'

end Loop

theorem kept_space (c : List Char) : kept (fun x => x = ' ') c = squeeze c := by
  unfold kept squeeze
  congr 1
  funext x
  by_cases h : x = ' ' <;> simp [h]

theorem blank_hold (n : Nat) : List.replicate n nul = hold n [] := by simp [hold]

theorem nul_line (cs : List (List Char)) (h : ∀ c ∈ cs, CellOk c) : nul ∉ line cs := by
  induction cs with
  | nil => decide
  | cons c cs ih =>
    have hc := (h c (by simp)).zero
    cases cs with
    | nil =>
      simp only [line, List.mem_append, not_or]
      exact ⟨hc, by decide⟩
    | cons d ds =>
      simp only [line, List.mem_append, List.mem_cons, not_or]
      refine ⟨hc, by decide, ?_⟩
      have := ih (fun x hx => h x (by simp [hx]))
      cases ds <;> simpa [line] using this

end Yac.Text
