import Verif.Text.CLemmas
import Verif.Text.Props

/-!
# C83: the CSV reader of the C interface; C84: the array files; C85: the byte readers

Files are described by `Item`, `fileOf` and `rowsOf` (CLemmas.lean): comments and rows of cells.
-/

namespace Yac.Text
open Yac.Num Yac.AprilGrid

/-! ### C83 -/

theorem rowsOf_note (t : List Char) (d : List Item) : rowsOf (.note t :: d) = rowsOf d := rfl
theorem rowsOf_row (cs : List (List Char)) (d : List Item) : rowsOf (.row cs :: d) = cs :: rowsOf d := rfl

theorem filter_rows (d : List Item) (h : ∀ i ∈ d, i.Ok) :
    ((d.map Item.text).filter (fun p => !isNote p)).length = (rowsOf d).length := by
  induction d with
  | nil => rfl
  | cons i d ih =>
    have ih := ih (fun x hx => h x (by simp [hx]))
    cases i with
    | note t =>
      rw [rowsOf_note, List.map_cons, List.filter_cons_of_neg (by simp [isNote_note]), ih]
    | row cs =>
      rw [rowsOf_row, List.map_cons, List.filter_cons_of_pos (by simp [isNote_row cs (h _ (by simp))]),
        List.length_cons, ih, List.length_cons]

/-- C83, rows: the number of lines that are no comments. -/
theorem C83_rows (d : List Item) (h : ∀ i ∈ d, i.Ok) : csvRowsC (some (fileOf d)) = .ok (rowsOf d).length := by
  simp only [csvRowsC, pieces_file d h, filter_rows d h]

/-- A file is not required to exist by the interface; a missing one is not reported by `-1` or `NULL`. -/
theorem C83_missing_refuted : csvRowsC none = .error .oob ∧ csvColsC none = .error .oob ∧
    csvFields none = .error .oob ∧ csvData none = .error .oob := ⟨rfl, rfl, rfl, rfl⟩

/-- A row of more than 1022 characters is counted more than once. -/
theorem C83_long_refuted (t : List Char) (h : '\n' ∉ t) (h0 : t.head? ≠ some '#') (h1 : 1023 ≤ t.length)
    (h2 : t.length ≤ 2045) (h3 : t[1023]? ≠ some '#') : csvRowsC (some (t ++ ['\n'])) = .ok 2 := by
  have hd : '\n' ∉ t.drop 1023 := fun hc => h (List.mem_of_mem_drop hc)
  have hp : pieces (t ++ ['\n']) = [t.take 1023, t.drop 1023 ++ ['\n']] := by
    rw [pieces_long t _ h h1, pieces_line _ [] hd (by simp; omega), pieces_nil]
  have n1 : isNote (t.take 1023) = false := by
    unfold isNote
    simp only [beq_eq_false_iff_ne, ne_eq]
    cases t with
    | nil => simp
    | cons c t => simpa using h0
  have n2 : isNote (t.drop 1023 ++ ['\n']) = false := by
    unfold isNote
    simp only [beq_eq_false_iff_ne, ne_eq]
    have : (t.drop 1023).head? = t[1023]? := by simp [List.head?_drop]
    cases hq : t.drop 1023 with
    | nil => simp
    | cons c l =>
      rw [hq] at this
      simp only [List.head?_cons, List.cons_append] at this ⊢
      rw [this]; exact h3
  simp only [csvRowsC, hp]
  simp [n1, n2]

example : csvRowsC (some (List.replicate 1500 '1' ++ ['\n'])) = .ok 2 :=
  C83_long_refuted _ (fun h => absurd (List.eq_of_mem_replicate h) (by decide)) (by decide) (by rw [List.length_replicate]; norm_num)
    (by rw [List.length_replicate]; norm_num) (by rw [List.getElem?_replicate]; decide)

theorem commas_line (cs : List (List Char)) (h : ∀ c ∈ cs, CellOk c) :
    ((line cs).filter (· = ',')).length = cs.length - 1 := by
  have h0 : ∀ c, CellOk c → c.filter (· = ',') = [] := by
    intro c hc
    rw [List.filter_eq_nil_iff]
    intro x hx hc'
    have : x = ',' := by simpa using hc'
    subst this
    exact hc.comma hx
  induction cs with
  | nil => rfl
  | cons c cs ih =>
    cases cs with
    | nil => simp [line, h0 c (h c (by simp))]
    | cons e es =>
      have ih := ih (fun x hx => h x (by simp [hx]))
      show ((c ++ ',' :: line (e :: es)).filter (· = ',')).length = _
      rw [List.filter_append, h0 c (h c (by simp)), List.nil_append, List.filter_cons_of_pos (by simp),
        List.length_cons, ih]
      simp

/-- The lines before the first row. -/
def notes (ts : List (List Char)) : List Item := ts.map Item.note

theorem firstLine_notes (ts : List (List Char)) (p : List Char) (ps : List (List Char)) (hp : isNote p = false)
    (j : Nat) (buf : List Char) (hb : ',' ∉ buf.drop j) (hl : buf.length = 1024)
    (ht : ∀ t ∈ ts, ',' ∉ (Item.note t).text.drop j ∧ (Item.note t).text.length ≤ 1023) :
    ∃ b : List Char, firstLine ((notes ts).map Item.text ++ p :: ps) buf = store b p ∧ ',' ∉ b.drop j ∧ b.length = 1024 := by
  induction ts generalizing buf with
  | nil => exact ⟨buf, by simp [notes, firstLine, hp], hb, hl⟩
  | cons t ts ih =>
    have h := ht t (by simp)
    obtain ⟨b, h1, h2⟩ := ih (store buf (Item.note t).text) (by
        unfold store
        rw [List.drop_append, List.mem_append, not_or]
        refine ⟨h.1, ?_⟩
        rcases Nat.lt_or_ge (Item.note t).text.length j with hj | hj
        rotate_left
        · rw [Nat.sub_eq_zero_of_le hj, List.drop_zero]
          simp only [List.mem_cons, not_or]
          refine ⟨by decide, fun hm => hb ?_⟩
          have : List.drop ((Item.note t).text.length + 1) buf = List.drop ((Item.note t).text.length + 1 - j) (List.drop j buf) := by
            rw [List.drop_drop]; congr 1; omega
          rw [this] at hm
          exact List.mem_of_mem_drop hm
        · obtain ⟨k, hk⟩ : ∃ k, j - (Item.note t).text.length = k + 1 := ⟨j - (Item.note t).text.length - 1, by omega⟩
          rw [hk, List.drop_succ_cons, List.drop_drop]
          have : (Item.note t).text.length + 1 + k = j := by omega
          rw [this]; exact hb)
      (by
        unfold store
        rw [List.length_append, List.length_cons, List.length_drop, hl]
        have := h.2
        omega) (fun x hx => ht x (by simp [hx]))
    refine ⟨b, ?_, h2⟩
    rw [← h1]
    simp [notes, firstLine, isNote_note]

theorem cols_of (cs : List (List Char)) (h : ∀ c ∈ cs, CellOk c) (b : List Char) (hb : b.length = 1024)
    (hl : (line cs).length ≤ 1023) (k : Nat)
    (hk : ((b.drop ((line cs).length + 1)).filter (· = ',')).length = k) :
    (((store b (line cs)).take 1024).filter (· = ',')).length = cs.length - 1 + k := by
  have hlen : (store b (line cs)).length = 1024 := by
    unfold store
    rw [List.length_append, List.length_cons, List.length_drop, hb]; omega
  rw [List.take_of_length_le (by omega)]
  unfold store
  rw [List.filter_append, List.length_append, commas_line cs h, List.filter_cons_of_neg (by decide), hk]

/-- C83, columns: the number of cells of the first row (`-1` if it has one cell), when no comment before it has a comma
beyond the end of that row. -/
theorem C83_cols_partial (ts : List (List Char)) (cs : List (List Char)) (rest : List Item)
    (h : ∀ i ∈ notes ts ++ .row cs :: rest, i.Ok)
    (ht : ∀ t ∈ ts, ',' ∉ (Item.note t).text.drop ((line cs).length + 1)) :
    csvColsC (some (fileOf (notes ts ++ .row cs :: rest))) = .ok (if 2 ≤ cs.length then (cs.length : ℤ) else -1) := by
  have hr : (Item.row cs).Ok := h _ (by simp)
  have hcs : cs.length ≠ 0 := by simpa using hr.2.1
  simp only [csvColsC, pieces_file _ h, List.map_append, List.map_cons]
  obtain ⟨b, h1, h2, h3⟩ := firstLine_notes ts (Item.row cs).text (rest.map Item.text) (isNote_row cs hr)
    ((line cs).length + 1) (List.replicate 1024 nul) (by
      intro hc
      have := List.eq_of_mem_replicate (List.mem_of_mem_drop hc)
      revert this; decide) List.length_replicate
    (fun t h' => ⟨ht t h', (h (.note t) (by simp [notes, h'])).1⟩)
  rw [h1, show (Item.row cs).text = line cs from rfl]
  have := cols_of cs hr.2.2.1 b h3 hr.1 0 (by
    rw [List.length_eq_zero_iff, List.filter_eq_nil_iff]
    intro x hx hc
    have : x = ',' := by simpa using hc
    subst this
    exact h2 hx)
  rw [this]
  congr 1
  split_ifs <;> omega

example : csvColsC (some "#a\n1,2,3\n".toList) = .ok 3 :=
  C83_cols_partial [['a']] [['1'], ['2'], ['3']] [] (by
    intro i hi
    simp only [notes, List.map_cons, List.map_nil, List.cons_append, List.nil_append, List.mem_cons, List.not_mem_nil,
      or_false] at hi
    rcases hi with rfl | rfl
    · exact ⟨by decide, by simp⟩
    · refine ⟨by decide, by simp, ?_, by decide⟩
      intro c hc
      simp only [List.mem_cons, List.not_mem_nil, or_false] at hc
      rcases hc with rfl | rfl | rfl <;> exact ⟨by decide, by decide, by decide, by decide⟩) (by decide)

/-- A comma at the end of a comment that is longer than the first row is counted as well. -/
theorem C83_cols_refuted (cs : List (List Char)) (rest : List Item) (h : ∀ i ∈ .row cs :: rest, i.Ok)
    (hl : (line cs).length ≤ 1019) :
    csvColsC (some (fileOf (.note (List.replicate (line cs).length ' ' ++ [',']) :: .row cs :: rest))) = .ok ((cs.length : ℤ) + 1) := by
  have hr : (Item.row cs).Ok := h _ (by simp)
  have hcs : cs.length ≠ 0 := by simpa using hr.2.1
  set t := List.replicate (line cs).length ' ' ++ [','] with htd
  have htx : (Item.note t).text = '#' :: (List.replicate (line cs).length ' ' ++ [',', '\n']) := by
    simp [Item.text, htd]
  have hok : ∀ i ∈ .note t :: .row cs :: rest, i.Ok := by
    intro i hi
    rcases List.mem_cons.mp hi with rfl | hi
    · refine ⟨?_, ?_⟩
      · rw [htx]; simp; omega
      · simp [htd]
    · exact h i hi
  simp only [csvColsC, pieces_file _ hok, List.map_cons, firstLine, isNote_note, if_true, isNote_row cs hr]
  simp only [Bool.false_eq_true, if_false]
  have := cols_of cs hr.2.2.1 (store (List.replicate 1024 nul) (Item.note t).text) (by
      unfold store
      rw [htx]
      simp only [List.length_append, List.length_cons, List.length_drop, List.length_replicate, List.length_nil]
      omega) hr.1 1 (by
    unfold store
    rw [htx]
    have e : '#' :: (List.replicate (line cs).length ' ' ++ [',', '\n']) =
        ('#' :: List.replicate (line cs).length ' ') ++ [',', '\n'] := by simp
    rw [e, List.append_assoc, List.drop_append, List.drop_eq_nil_of_le (by simp), List.nil_append]
    simp only [List.length_cons, List.length_replicate, Nat.sub_self, List.drop_zero, List.cons_append, List.nil_append]
    rw [List.filter_cons_of_pos (by decide), List.filter_cons_of_neg (by decide), List.filter_cons_of_neg (by decide),
      List.filter_eq_nil_iff.mpr]
    · rfl
    · intro x hx
      rw [List.eq_of_mem_replicate (List.mem_of_mem_drop hx)]
      decide)
  rw [show (Item.row cs).text = line cs from rfl, this]
  congr 1
  rw [if_pos (by omega)]
  omega

example : csvColsC (some "#    ,\n1,2\n".toList) = .ok 3 :=
  C83_cols_refuted [['1'], ['2']] [] (by
    intro i hi
    simp only [List.mem_cons, List.not_mem_nil, or_false] at hi
    subst hi
    refine ⟨by decide, by simp, ?_, by decide⟩
    intro c hc
    simp only [List.mem_cons, List.not_mem_nil, or_false] at hc
    rcases hc with rfl | rfl <;> exact ⟨by decide, by decide, by decide, by decide⟩) (by decide)

/-! The numbers -/

/-- The number a cell stands for: blanks are ignored. -/
def number (c : List Char) : ℚ := atof (squeeze c)

theorem putCells (k : Nat) (es : List (List Char)) : ∀ (d : Cells) (fin : List (Option ℚ)),
    d[k]? = some (some (fin ++ List.replicate es.length none)) →
    es.foldlM (putCell k) (d, fin.length) =
      .ok (d.set k (some (fin ++ es.map (fun e => some (atof e)))), fin.length + es.length) := by
  induction es with
  | nil =>
    intro d fin h
    have : d.set k (some fin) = d := by
      apply List.ext_getElem?
      intro i
      rw [List.getElem?_set]
      split_ifs with h1 h2
      · subst h1; simpa using h.symm
      · subst h1
        rw [List.getElem?_eq_none (by omega)] at h
        simp at h
      · rfl
    simp [this, pure, Except.pure]
  | cons e es ih =>
    intro d fin h
    have hk : k < d.length := by
      by_contra hc
      rw [List.getElem?_eq_none (by omega)] at h
      simp at h
    rw [List.foldlM_cons]
    have h1 : putCell k (d, fin.length) e =
        .ok (d.set k (some ((fin ++ [some (atof e)]) ++ List.replicate es.length none)), (fin ++ [some (atof e)]).length) := by
      unfold putCell
      simp only [h]
      rw [if_pos (by simp)]
      congr 1
      simp [List.replicate_succ]
    rw [h1, ok_bind, ih _ (fin ++ [some (atof e)]) (by rw [List.getElem?_set_self hk])]
    simp [Nat.add_comm, Nat.add_left_comm]

/-- What a row of cells is read as. -/
def rowNumbers (cs : List (List Char)) : Option (List (Option ℚ)) := some (cs.map fun c => some (number c))

theorem cells_kept {cs : List (List Char)} (h : (Item.row cs).Ok) :
    ∀ c ∈ cs, ',' ∉ c ∧ '\n' ∉ c ∧ nul ∉ c ∧ (kept (fun x => x = ' ') c).length ≤ 99 := by
  intro c hc
  have := h.2.2.1 c hc
  exact ⟨this.comma, this.newline, this.zero, by rw [kept_space]; exact this.short⟩

theorem dataLine_row (d : Cells) (k : Nat) (cs : List (List Char)) (h : (Item.row cs).Ok)
    (hk : d[k]? = some (some (List.replicate cs.length none))) :
    dataLine (d, k) (Item.row cs).text = .ok (d.set k (rowNumbers cs), k + 1) := by
  unfold dataLine
  rw [if_neg (by simp [isNote_row cs h])]
  show (lineLoop _ _ (cstr (line cs)) _ _ >>= _) = _
  rw [cstr_self _ (nul_line cs h.2.2.1), blank_hold, lineLoop_line _ _ (by norm_num) (by decide) cs h.2.1 (cells_kept h)]
  have := putCells k (cs.map squeeze) d [] (by simpa using hk)
  have e : cs.map (kept fun x => x = ' ') = cs.map squeeze := by
    apply List.map_congr_left; intro c _; exact kept_space c
  rw [e]
  simp only [List.length_nil] at this
  rw [this, ok_bind]
  simp [rowNumbers, Function.comp_def, number]

theorem dataLines (n : Nat) (d : List Item) (h : ∀ i ∈ d, i.Ok) (hn : ∀ r ∈ rowsOf d, r.length = n) :
    ∀ (fin : Cells) (a b : Nat), (rowsOf d).length ≤ a →
    (d.map Item.text).foldlM dataLine (fin ++ List.replicate a (some (List.replicate n none)) ++ List.replicate b none, fin.length) =
      .ok (fin ++ (rowsOf d).map rowNumbers ++ List.replicate (a - (rowsOf d).length) (some (List.replicate n none)) ++
        List.replicate b none, fin.length + (rowsOf d).length) := by
  induction d with
  | nil => intro fin a b _; simp [rowsOf, pure, Except.pure]
  | cons i d ih =>
    intro fin a b ha
    have hd : ∀ i ∈ d, i.Ok := fun x hx => h x (by simp [hx])
    cases i with
    | note t =>
      rw [List.map_cons, List.foldlM_cons]
      have : dataLine (fin ++ List.replicate a (some (List.replicate n none)) ++ List.replicate b none, fin.length)
          (Item.note t).text = .ok (fin ++ List.replicate a (some (List.replicate n none)) ++ List.replicate b none, fin.length) := by
        unfold dataLine
        rw [if_pos (isNote_note t)]
      rw [this, ok_bind]
      exact ih hd hn fin a b ha
    | row cs =>
      rw [rowsOf_row, List.length_cons] at ha
      have hcs : cs.length = n := hn cs (by rw [rowsOf_row]; simp)
      obtain ⟨a, rfl⟩ : ∃ a', a = a' + 1 := ⟨a - 1, by omega⟩
      rw [List.map_cons, List.foldlM_cons, dataLine_row _ _ cs (h _ (by simp)) (by
        rw [List.append_assoc, List.getElem?_append_right (le_refl _), Nat.sub_self, hcs]
        simp [List.replicate_succ]), ok_bind]
      have hset : (fin ++ List.replicate (a + 1) (some (List.replicate n none)) ++ List.replicate b none).set fin.length
          (rowNumbers cs) = (fin ++ [rowNumbers cs]) ++ List.replicate a (some (List.replicate n none)) ++ List.replicate b none := by
        rw [List.append_assoc, List.set_append, if_neg (by omega), Nat.sub_self]
        simp [List.replicate_succ]
      rw [hset]
      have := ih hd (fun r hr => hn r (by rw [rowsOf_row]; simp [hr])) (fin ++ [rowNumbers cs]) a b (by omega)
      rw [List.length_append, List.length_singleton] at this
      rw [this, rowsOf_row, List.map_cons, List.length_cons]
      simp only [List.append_assoc, List.cons_append]
      rw [show a + 1 - ((rowsOf d).length + 1) = a - (rowsOf d).length by omega]
      congr 2
      omega

theorem dataLines_uninit (n : Nat) (hn0 : 0 < n) (d : List Item) (h : ∀ i ∈ d, i.Ok) (hn : ∀ r ∈ rowsOf d, r.length = n) :
    ∀ (fin : Cells) (a b : Nat), a < (rowsOf d).length → (rowsOf d).length ≤ a + b →
    (d.map Item.text).foldlM dataLine (fin ++ List.replicate a (some (List.replicate n none)) ++ List.replicate b none, fin.length) =
      .error .uninit := by
  induction d with
  | nil => intro fin a b ha; simp [rowsOf] at ha
  | cons i d ih =>
    intro fin a b ha hb
    have hd : ∀ i ∈ d, i.Ok := fun x hx => h x (by simp [hx])
    cases i with
    | note t =>
      rw [List.map_cons, List.foldlM_cons]
      have : dataLine (fin ++ List.replicate a (some (List.replicate n none)) ++ List.replicate b none, fin.length)
          (Item.note t).text = .ok (fin ++ List.replicate a (some (List.replicate n none)) ++ List.replicate b none, fin.length) := by
        unfold dataLine
        rw [if_pos (isNote_note t)]
      rw [this, ok_bind]
      exact ih hd hn fin a b ha hb
    | row cs =>
      rw [rowsOf_row, List.length_cons] at ha hb
      have hr := h (.row cs) (by simp)
      have hcs : cs.length = n := hn cs (by rw [rowsOf_row]; simp)
      rw [List.map_cons, List.foldlM_cons]
      rcases Nat.eq_zero_or_pos a with rfl | hpos
      · -- the pointer was never set
        obtain ⟨b, rfl⟩ : ∃ b', b = b' + 1 := ⟨b - 1, by omega⟩
        have : dataLine (fin ++ List.replicate 0 (some (List.replicate n none)) ++ List.replicate (b + 1) none, fin.length)
            (Item.row cs).text = .error .uninit := by
          unfold dataLine
          rw [if_neg (by simp [isNote_row cs hr])]
          show (lineLoop _ _ (cstr (line cs)) _ _ >>= _) = _
          rw [cstr_self _ (nul_line cs hr.2.2.1), blank_hold,
            lineLoop_line _ _ (by norm_num) (by decide) cs hr.2.1 (cells_kept hr)]
          obtain ⟨c, cs', rfl⟩ : ∃ c cs', cs = c :: cs' := by
            cases cs with
            | nil => simp at hcs; omega
            | cons c cs' => exact ⟨c, cs', rfl⟩
          rw [List.map_cons, List.foldlM_cons]
          have : putCell fin.length (fin ++ List.replicate 0 (some (List.replicate n none)) ++ List.replicate (b + 1) none, 0)
              (kept (fun x => x = ' ') c) = .error .uninit := by
            unfold putCell
            rw [List.append_assoc, List.getElem?_append_right (le_refl _)]
            simp [List.replicate_succ]
          rw [this]
          rfl
        rw [this]
        rfl
      · obtain ⟨a, rfl⟩ : ∃ a', a = a' + 1 := ⟨a - 1, by omega⟩
        rw [dataLine_row _ _ cs hr (by
          rw [List.append_assoc, List.getElem?_append_right (le_refl _), Nat.sub_self, hcs]
          simp [List.replicate_succ]), ok_bind]
        have hset : (fin ++ List.replicate (a + 1) (some (List.replicate n none)) ++ List.replicate b none).set fin.length
            (rowNumbers cs) = (fin ++ [rowNumbers cs]) ++ List.replicate a (some (List.replicate n none)) ++ List.replicate b none := by
          rw [List.append_assoc, List.set_append, if_neg (by omega), Nat.sub_self]
          simp [List.replicate_succ]
        rw [hset]
        have := ih hd (fun r hr => hn r (by rw [rowsOf_row]; simp [hr])) (fin ++ [rowNumbers cs]) a b (by omega) (by omega)
        rw [List.length_append, List.length_singleton] at this
        exact this

/-- A table in a file: comments, then `rows` rows of `n ≥ 2` cells (with more comments among them); no leading comment has a
comma beyond the end of the first row. -/
structure Sheet (d : List Item) (n : Nat) : Prop where
  ok : ∀ i ∈ d, i.Ok
  cols : ∀ r ∈ rowsOf d, r.length = n
  two : 2 ≤ n
  head : ∃ ts cs rest, d = notes ts ++ .row cs :: rest ∧ ∀ t ∈ ts, ',' ∉ (Item.note t).text.drop ((line cs).length + 1)

theorem Sheet.colsC {d : List Item} {n : Nat} (h : Sheet d n) : csvColsC (some (fileOf d)) = .ok (n : ℤ) := by
  obtain ⟨ts, cs, rest, rfl, h2⟩ := h.head
  rw [C83_cols_partial ts cs rest h.ok h2]
  have hm : cs ∈ rowsOf (notes ts ++ .row cs :: rest) := by
    unfold rowsOf
    rw [List.mem_filterMap]
    exact ⟨.row cs, by simp, rfl⟩
  have := h.cols cs hm
  have := h.two
  rw [if_pos (by omega)]
  congr 2

/-- C83, a square table: every number is read. -/
theorem C83_data_partial (d : List Item) (n : Nat) (h : Sheet d n) (hs : (rowsOf d).length = n) :
    csvData (some (fileOf d)) = .ok (some ((rowsOf d).map rowNumbers)) := by
  have htwo := h.two
  unfold csvData
  simp only [C83_rows d h.ok, ok_bind, h.colsC]
  rw [if_neg (by omega)]
  unfold allocData
  rw [if_neg (by omega), ok_bind, pieces_file d h.ok]
  have := dataLines n d h.ok h.cols [] n ((rowsOf d).length - n) (by omega)
  simp only [List.nil_append, List.length_nil] at this
  rw [Int.toNat_natCast, this, ok_bind]
  simp [hs]

/-- Any other shape is undefined behaviour: a table with more columns than rows is written past the end of the pointer array,
one with more rows than columns goes through pointers that were never set. -/
theorem C83_data_refuted (d : List Item) (n : Nat) (h : Sheet d n) :
    ((rowsOf d).length < n → csvData (some (fileOf d)) = .error .oob) ∧
    (n < (rowsOf d).length → csvData (some (fileOf d)) = .error .uninit) := by
  have htwo := h.two
  constructor <;> intro hs
  all_goals
    unfold csvData
    simp only [C83_rows d h.ok, ok_bind, h.colsC]
    rw [if_neg (by omega)]
    unfold allocData
    rw [Int.toNat_natCast]
  · rw [if_pos hs]; rfl
  · rw [if_neg (by omega), ok_bind, pieces_file d h.ok]
    have := dataLines_uninit n (by omega) d h.ok h.cols [] n ((rowsOf d).length - n) (by omega) (by omega)
    simp only [List.nil_append, List.length_nil] at this
    rw [this]; rfl

theorem fgets_append {n : Nat} {l a r : List Char} (h : fgets n l = some (a, r)) : a ++ r = l := by
  unfold fgets at h
  split_ifs at h
  all_goals
    simp only [Option.some.injEq, Prod.mk.injEq] at h
    rw [← h.1, ← h.2, List.take_append_drop]

theorem fgetsAll_sub : ∀ (n : Nat) (l : List Char), ∀ p ∈ fgetsAll n l, ∀ c ∈ p, c ∈ l := by
  intro n
  induction n with
  | zero => intro l p hp; simp [fgetsAll] at hp
  | succ n ih =>
    intro l p hp c hc
    unfold fgetsAll at hp
    cases hf : fgets 1023 l with
    | none => rw [hf] at hp; simp at hp
    | some ar =>
      obtain ⟨a, r⟩ := ar
      rw [hf] at hp
      have happ : a ++ r = l := fgets_append hf
      rcases List.mem_cons.mp hp with rfl | hp
      · rw [← happ]; exact List.mem_append_left _ hc
      · rw [← happ]; exact List.mem_append_right _ (ih r p hp c hc)

theorem firstLine_sub (x : Char) (ps : List (List Char)) : ∀ buf : List Char, x ≠ nul → x ∉ buf → (∀ p ∈ ps, x ∉ p) →
    x ∉ firstLine ps buf := by
  have hst : ∀ buf p : List Char, x ≠ nul → x ∉ buf → x ∉ p → x ∉ store buf p := by
    intro buf p h0 h1 h2 hm
    unfold store at hm
    rcases List.mem_append.mp hm with hm | hm
    · exact h2 hm
    · rcases List.mem_cons.mp hm with hm | hm
      · exact h0 hm
      · exact h1 (List.mem_of_mem_drop hm)
  induction ps with
  | nil => intro buf _ h _; exact h
  | cons p ps ih =>
    intro buf h0 h1 h2
    unfold firstLine
    split_ifs
    · exact ih _ h0 (hst buf p h0 h1 (h2 p (by simp))) (fun q hq => h2 q (by simp [hq]))
    · exact hst buf p h0 h1 (h2 p (by simp))

/-- C83, a file without a comma: there is no table, whatever it contains. -/
theorem C83_none (f : List Char) (h : ',' ∉ f) : csvColsC (some f) = .ok (-1) ∧ csvData (some f) = .ok none := by
  have h1 : csvColsC (some f) = .ok (-1) := by
    unfold csvColsC
    simp only
    rw [List.filter_eq_nil_iff.mpr]
    · rfl
    · intro c hc hcc
      have hc' := List.mem_of_mem_take hc
      rw [decide_eq_true_iff] at hcc
      subst hcc
      refine firstLine_sub ',' (pieces f) _ (by decide) ?_ (fun p hp hm => h (fgetsAll_sub _ f p hp _ hm)) hc'
      intro hm
      have := List.eq_of_mem_replicate hm
      revert this; decide
  refine ⟨h1, ?_⟩
  have h2 : csvRowsC (some f) = .ok ((pieces f).filter (fun p => !isNote p)).length := rfl
  unfold csvData
  simp only
  rw [h2, ok_bind, h1, ok_bind, if_pos rfl]

example : ',' ∉ "12\n# x\n34\n".toList := by decide

/-- A row with more cells than the first one is written past its end. -/
theorem C83_ragged_refuted : csvData (some "1,2\n3,4,5\n".toList) = .error .oob := by decide +kernel

/-- The last number of a file that does not end with a newline is lost. -/
theorem C83_last_refuted : csvData (some "1,2\n3,4".toList) =
    .ok (some [some [some 1, some 2], some [some 3, none]]) := by decide +kernel

/-! Sample sheets -/

theorem cell_one (c : Char) (h : c ∈ ['1', '2', '3', '4', '5', '6']) : CellOk [c] := by
  simp only [List.mem_cons, List.not_mem_nil, or_false] at h
  rcases h with rfl | rfl | rfl | rfl | rfl | rfl <;> exact ⟨by decide, by decide, by decide, by decide⟩

/-- A comment and rows of two cells. -/
def sample (k : Nat) : List Item := .note ['a', ',', 'b'] :: List.replicate k (.row [['1'], [' ', '2']])

theorem sample_ok (k : Nat) (hk : 0 < k) : Sheet (sample k) 2 := by
  have hrow : (Item.row [['1'], [' ', '2']]).Ok := by
    refine ⟨by decide, by simp, ?_, by decide⟩
    intro c hc
    simp only [List.mem_cons, List.not_mem_nil, or_false] at hc
    rcases hc with rfl | rfl <;> exact ⟨by decide, by decide, by decide, by decide⟩
  have hrows : ∀ k, rowsOf (sample k) = List.replicate k [['1'], [' ', '2']] := by
    intro k
    unfold sample
    rw [rowsOf_note]
    induction k with
    | zero => rfl
    | succ k ih => rw [List.replicate_succ, rowsOf_row, ih, List.replicate_succ]
  refine ⟨?_, ?_, le_refl _, ?_⟩
  · intro i hi
    rcases List.mem_cons.mp hi with rfl | hi
    · exact ⟨by decide, by simp⟩
    · rw [List.eq_of_mem_replicate hi]; exact hrow
  · intro r hr
    rw [hrows] at hr
    rw [List.eq_of_mem_replicate hr]; rfl
  · obtain ⟨k, rfl⟩ : ∃ k', k = k' + 1 := ⟨k - 1, by omega⟩
    exact ⟨[['a', ',', 'b']], [['1'], [' ', '2']], List.replicate k (.row [['1'], [' ', '2']]), by
      simp [sample, notes, List.replicate_succ], by decide⟩

example : Sheet (sample 2) 2 ∧ (rowsOf (sample 2)).length = 2 := ⟨sample_ok 2 (by norm_num), rfl⟩
example : Sheet (sample 1) 2 ∧ (rowsOf (sample 1)).length < 2 := ⟨sample_ok 1 (by norm_num), by decide⟩
example : Sheet (sample 3) 2 ∧ 2 < (rowsOf (sample 3)).length := ⟨sample_ok 3 (by norm_num), by decide⟩
example : csvData (some "#a,b\n1, 2\n1, 2\n".toList) = .ok (some [some [some 1, some 2], some [some 1, some 2]]) := by
  decide +kernel

/-! The fields -/

/-- The name of a field: blanks and `#` are ignored. -/
def fieldName (c : List Char) : List Char := c.filter (fun x => x ≠ '#' ∧ x ≠ ' ')

theorem lastHeader_notes (ts : List (List Char)) (t : List Char) (p : List Char) (ps : List (List Char))
    (hp : isNote p = false) (h0 : List Char) :
    lastHeader ((notes (ts ++ [t])).map Item.text ++ p :: ps) h0 = cstr (Item.note t).text := by
  induction ts generalizing h0 with
  | nil => simp [notes, lastHeader, isNote_note, hp]
  | cons u ts ih =>
    have := ih (cstr (Item.note u).text)
    rw [← this]
    simp [notes, lastHeader, isNote_note]

theorem addFields (n : ℤ) (es : List (List Char)) : ∀ s : List (List Char), ((s.length : ℤ) ≤ n ∨ es ≠ []) →
    es.foldlM (addField n) s = if (s.length + es.length : ℤ) ≤ n then .ok (s ++ es) else .error .oob := by
  induction es with
  | nil =>
    intro s h
    rcases h with h | h
    · rw [if_pos (by simpa using h)]; simp [pure, Except.pure]
    · exact absurd rfl h
  | cons e es ih =>
    intro s _
    rw [List.foldlM_cons]
    unfold addField
    split_ifs with h1 h2 h2
    · rw [ok_bind]
      have := ih (s ++ [e]) (Or.inl (by simp; omega))
      unfold addField at this
      rw [this, if_pos (by push_cast at h2 ⊢; simp at h2 ⊢; omega)]
      simp
    · rw [ok_bind]
      have := ih (s ++ [e]) (Or.inl (by simp; omega))
      unfold addField at this
      rw [this, if_neg (by push_cast at h2 ⊢; simp at h2 ⊢; omega)]
    · exfalso
      push_cast [List.length_cons] at h2
      omega
    · rfl

/-- C83, fields: the names of the last comment before the first row, when it lists at most as many as `csv_cols` says;
otherwise a write past the end.  (If it lists fewer, the remaining `nb_fields` pointers are uninitialised.) -/
theorem C83_fields (ts : List (List Char)) (t : List Char) (names cs : List (List Char)) (rest : List Item) (n : ℤ)
    (h : ∀ i ∈ notes (ts ++ [t]) ++ .row cs :: rest, i.Ok) (hne : names ≠ [])
    (ht : (Item.note t).text = '#' :: line names)
    (hc : ∀ c ∈ names, ',' ∉ c ∧ '\n' ∉ c ∧ nul ∉ c ∧ (fieldName c).length ≤ 99)
    (hn : csvColsC (some (fileOf (notes (ts ++ [t]) ++ .row cs :: rest))) = .ok n) :
    csvFields (some (fileOf (notes (ts ++ [t]) ++ .row cs :: rest))) =
      if (names.length : ℤ) ≤ n then .ok (n, names.map fieldName) else .error .oob := by
  have hr : (Item.row cs).Ok := h _ (by simp)
  have hk : ∀ c, kept (fun c => c = '#' || c = ' ') c = fieldName c := by
    intro c
    unfold kept fieldName
    congr 1
    funext x
    by_cases h1 : x = '#' <;> by_cases h2 : x = ' ' <;> simp [h1, h2]
  unfold csvFields
  simp only [hn, ok_bind, pieces_file _ h, List.map_append, List.map_cons]
  rw [lastHeader_notes ts t _ _ (isNote_row cs hr), ht]
  obtain ⟨c, cs', rfl⟩ : ∃ c cs', names = c :: cs' := by
    cases names with
    | nil => exact absurd rfl hne
    | cons c cs' => exact ⟨c, cs', rfl⟩
  have hl : '#' :: line (c :: cs') = line (('#' :: c) :: cs') := by cases cs' <;> rfl
  have hcells : ∀ x ∈ (('#' :: c) :: cs'), ',' ∉ x ∧ '\n' ∉ x ∧ nul ∉ x ∧ (kept (fun c => c = '#' || c = ' ') x).length ≤ 99 := by
    intro x hx
    rw [hk]
    rcases List.mem_cons.mp hx with rfl | hx
    · obtain ⟨h1, h2, h3, h4⟩ := hc c (by simp)
      simp only [List.mem_cons, not_or]
      refine ⟨⟨by decide, h1⟩, ⟨by decide, h2⟩, ⟨by decide, h3⟩, ?_⟩
      simpa [fieldName] using h4
    · exact hc x (by simp [hx])
  have hz : nul ∉ line (('#' :: c) :: cs') := by
    have : ∀ l : List (List Char), (∀ x ∈ l, nul ∉ x) → nul ∉ line l := by
      intro l
      induction l with
      | nil => intro _; decide
      | cons a l ih =>
        intro hx
        have ha := hx a (by simp)
        cases l with
        | nil =>
          simp only [line, List.mem_append, not_or]
          exact ⟨ha, by decide⟩
        | cons b l =>
          have := ih (fun x h' => hx x (by simp [h']))
          show nul ∉ a ++ ',' :: line (b :: l)
          simp only [List.mem_append, List.mem_cons, not_or]
          exact ⟨ha, by decide, this⟩
    exact this _ (fun x hx => (hcells x hx).2.2.1)
  rw [hl, cstr_self _ hz, blank_hold, lineLoop_line _ _ (by norm_num) (by decide) _ (by simp) hcells]
  have he : (('#' :: c) :: cs').map (kept fun c => c = '#' || c = ' ') = (c :: cs').map fieldName := by
    rw [List.map_cons, List.map_cons]
    congr 1
    · rw [hk]; simp [fieldName]
    · apply List.map_congr_left; intro x _; exact hk x
  rw [he, addFields n _ [] (Or.inr (by simp))]
  simp only [List.length_nil, List.length_map, Nat.cast_zero, zero_add, List.nil_append]
  split_ifs <;> rfl

example : csvFields (some "#x, y\n1,2\n".toList) = .ok (2, [['x'], ['y']]) := by decide +kernel
example : csvFields (some "#x\n1,2\n".toList) = .ok (2, [['x']]) := by decide +kernel
example : csvFields (some "#x,y,z\n1,222\n".toList) = .error .oob := by decide +kernel
example : (∀ i ∈ notes ([] ++ [['x', ',', ' ', 'y']]) ++ .row [['1'], ['2']] :: [], i.Ok) ∧
    (Item.note ['x', ',', ' ', 'y']).text = '#' :: line [['x'], [' ', 'y']] := by
  refine ⟨?_, by decide⟩
  intro i hi
  simp only [notes, List.nil_append, List.map_cons, List.map_nil, List.cons_append, List.mem_cons, List.not_mem_nil, or_false] at hi
  rcases hi with rfl | rfl
  · exact ⟨by decide, by decide⟩
  · refine ⟨by decide, by simp, ?_, by decide⟩
    intro c hc
    simp only [List.mem_cons, List.not_mem_nil, or_false] at hc
    rcases hc with rfl | rfl <;> exact ⟨by decide, by decide, by decide, by decide⟩

end Yac.Text
