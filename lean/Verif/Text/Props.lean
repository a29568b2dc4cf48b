import Verif.Text.Lemmas
import Verif.Geom.RotProps

/-!
# C17-C19: files written by the library and read back
-/

namespace Yac.Text
open Yac.Num Yac.Geom

/-! ### Specification -/

/-- `y` is the double nearest to a six-decimal number nearest to `x`. -/
def Printed (x y : ℚ) : Prop := ∃ k : ℤ, |x - k / 10 ^ 6| ≤ 1 / 2 / 10 ^ 6 ∧ y = f64 (k / 10 ^ 6)

/-- Three printed components. -/
def Printed3 (a b : ℚ × ℚ × ℚ) : Prop := Printed a.1 b.1 ∧ Printed a.2.1 b.2.1 ∧ Printed a.2.2 b.2.2

/-- A matrix whose data has its shape. -/
def Table.WF (m : Table) : Prop := m.data.length = m.rows ∧ ∀ r ∈ m.data, r.length = m.cols

/-- What is read back for `x`. -/
def back (x : ℚ) : ℚ := f64 ((micro x : ℚ) / 10 ^ 6)

theorem printed_back (x : ℚ) : Printed x (back x) := ⟨micro x, micro_close x, rfl⟩

theorem parseReal_back (x : ℚ) (rest : List Char) (hr : NoDig rest) :
    parseReal (fmtF x ++ rest) = some (back x, rest) :=
  parseReal_fmtF x [] rest (by simp) hr

theorem noDig_nil : NoDig [] := by intro c h; cases h
theorem noDig_cons {c : Char} {l : List Char} (h : isDig c = false) : NoDig (c :: l) := by
  intro d hd; cases hd; exact h

theorem atof_back (x : ℚ) : atof (fmtF x) = back x := by
  have := parseReal_back x [] noDig_nil
  rw [List.append_nil] at this
  unfold atof
  rw [this]

/-- A printed and read value is within half a millionth, and the rounding of a double. -/
theorem printed_close {x y : ℚ} (h : Printed x y) :
    |y - x| ≤ 1 / 2 / 10 ^ 6 + (|x| + 1 / 2 / 10 ^ 6) / 2 ^ 53 := by
  obtain ⟨k, h1, rfl⟩ := h
  have h2 := f64_err ((k : ℚ) / 10 ^ 6)
  generalize (k : ℚ) / 10 ^ 6 = z at *
  generalize f64 z = w at *
  have h3 : |z| ≤ |x| + 1 / 2 / 10 ^ 6 := by
    have : |z| ≤ |x| + |x - z| := by
      have := abs_sub_abs_le_abs_sub z x
      rw [abs_sub_comm z x] at this
      linarith
    linarith
  have h4 : |w - x| ≤ |w - z| + |z - x| := abs_sub_le w z x
  rw [abs_sub_comm z x] at h4
  have h5 : |w - z| ≤ |z| / 2 ^ 53 := by
    rw [le_div_iff₀ (by norm_num)]; exact h2
  have h6 : |z| / 2 ^ 53 ≤ (|x| + 1 / 2 / 10 ^ 6) / 2 ^ 53 :=
    div_le_div_of_nonneg_right h3 (by norm_num)
  linarith

/-- Printing and reading a second time changes nothing (values up to 2^31). -/
theorem back_back (x : ℚ) (h : |x| ≤ 2 ^ 31) : back (back x) = back x := by
  have hc := micro_close x
  have he := f64_err ((micro x : ℚ) / 10 ^ 6)
  suffices hm : micro (back x) = micro x by
    conv_lhs => rw [back, hm]
    rfl
  have hb : back x = f64 ((micro x : ℚ) / 10 ^ 6) := rfl
  rw [← hb] at he
  generalize back x = y at *
  generalize micro x = k at *
  have hk : |(k : ℚ) / 10 ^ 6| ≤ 2 ^ 31 + 1 := by
    have := abs_sub_abs_le_abs_sub ((k : ℚ) / 10 ^ 6) x
    rw [abs_sub_comm] at this
    norm_num at hc h this ⊢
    linarith
  have hsmall : |y - (k : ℚ) / 10 ^ 6| ≤ 1 / 10 ^ 6 / 4 := by
    norm_num at hk he ⊢
    linarith
  have hval : |y * 10 ^ 6 - k| ≤ 1 / 4 := by
    have : y * 10 ^ 6 - k = (y - (k : ℚ) / 10 ^ 6) * 10 ^ 6 := by ring
    rw [this, abs_mul, abs_of_pos (show (0 : ℚ) < 10 ^ 6 by norm_num)]
    norm_num at hsmall ⊢
    linarith
  have hv := abs_le.mp hval
  unfold micro
  by_cases hy : y < 0
  · have hk0 : k ≤ 0 := by
      have : (k : ℚ) < 1 := by norm_num at hv ⊢; linarith [hv.1, hv.2]
      have : k < 1 := by exact_mod_cast this
      omega
    have hr : rneInt (|y| * 10 ^ 6) = -k := by
      apply rneInt_unique
      rw [abs_of_neg hy]
      push_cast
      rw [show -y * 10 ^ 6 - -(k : ℚ) = -(y * 10 ^ 6 - k) by ring, abs_neg]
      linarith
    rw [if_pos hy, hr]
    omega
  · have hk0 : 0 ≤ k := by
      have : (-1 : ℚ) < k := by norm_num at hv ⊢; linarith [hv.1, hv.2, not_lt.mp hy]
      have : -1 < k := by exact_mod_cast this
      omega
    have hr : rneInt (|y| * 10 ^ 6) = k := by
      apply rneInt_unique
      rw [abs_of_nonneg (not_lt.mp hy)]
      linarith
    rw [if_neg hy, hr]
    omega

/-! ### C17 -/

theorem rowText_no_nl (r : List ℚ) : '\n' ∉ rowText r := by
  induction r with
  | nil => simp [rowText]
  | cons x xs ih =>
    have hx := fmtF_not_mem x '\n' (by decide) (by decide) (by decide)
    cases xs with
    | nil => simpa [rowText] using hx
    | cons y ys =>
      simp only [rowText, List.mem_append, List.mem_cons, not_or]
      exact ⟨hx, by decide, ih⟩

theorem commas (r : List ℚ) : ((rowText r).filter (· = ',')).length = r.length - 1 := by
  have h0 : ∀ x, (fmtF x).filter (· = ',') = [] := by
    intro x
    rw [List.filter_eq_nil_iff]
    intro c hc h
    have : c = ',' := by simpa using h
    subst this
    exact fmtF_not_mem x ',' (by decide) (by decide) (by decide) hc
  induction r with
  | nil => rfl
  | cons x xs ih =>
    cases xs with
    | nil => simp [rowText, h0]
    | cons y ys =>
      simp only [rowText, List.filter_append, h0, List.nil_append]
      rw [List.filter_cons_of_pos (by simp), List.length_cons, ih]
      simp

theorem takeWhile_comma (t l : List Char) (h : ',' ∉ t) :
    (t ++ ',' :: l).takeWhile (· ≠ ',') = t ∧ (t ++ ',' :: l).dropWhile (· ≠ ',') = ',' :: l := by
  have hp : ∀ c ∈ t, (decide (c ≠ ',')) = true := by
    intro c hc
    simp only [decide_eq_true_eq]
    rintro rfl
    exact h hc
  rw [List.takeWhile_append_of_pos hp, List.dropWhile_append_of_pos hp]
  simp

theorem readRow_rowText (r : List ℚ) (e : List Char) :
    readRow r.length (some (rowText r), e) = r.map back := by
  induction r generalizing e with
  | nil => rfl
  | cons x xs ih =>
    have hx := fmtF_not_mem x ',' (by decide) (by decide) (by decide)
    cases xs with
    | nil =>
      simp only [List.length_cons, List.length_nil, readRow, rowText, nextField]
      rw [if_neg hx]
      simp [atof_back]
    | cons y ys =>
      have hr : rowText (x :: y :: ys) = fmtF x ++ ',' :: rowText (y :: ys) := rfl
      obtain ⟨t1, t2⟩ := takeWhile_comma (fmtF x) (rowText (y :: ys)) hx
      have hn : nextField (some (rowText (x :: y :: ys)), e) = (some (rowText (y :: ys)), fmtF x) := by
        unfold nextField
        rw [hr]
        simp only
        rw [if_pos (by simp), t1, t2]
        rfl
      rw [List.length_cons, readRow]
      simp only [hn, atof_back, List.map_cons]
      rw [ih]
      rfl

/-- What `csv2mat` returns for a file written by `mat2csv`. -/
theorem csv_back (m : Table) (h : m.WF) (hc : m.cols ≠ 1) (hr : m.rows ≠ 0 ∨ m.cols = 0) :
    csv2mat false (mat2csv m) = .ok ⟨m.rows, m.cols, m.data.map (fun r => r.map back)⟩ := by
  obtain ⟨h1, h2⟩ := h
  have hl : getLines (mat2csv m) = m.data.map rowText := getLines_flatMap _ rowText_no_nl _
  have hcols : csvCols (mat2csv m) = m.cols := by
    unfold csvCols
    rw [hl]
    cases hd : m.data with
    | nil =>
      rw [hd] at h1
      rcases hr with hr | hr
      · exact absurd h1.symm hr
      · simp [hr]
    | cons r rs =>
      have hlen := h2 r (by rw [hd]; simp)
      simp only [List.map_cons, List.head?_cons, Option.getD_some, commas, hlen]
      split_ifs <;> omega
  unfold csv2mat csvRows
  rw [hcols, hl]
  simp only [Bool.false_eq_true, false_and, if_false, List.length_map, h1, List.map_map,
    Function.comp_def]
  congr 2
  apply List.map_congr_left
  intro r hr'
  rw [← h2 r hr', readRow_rowText]

/-- C17 for matrices with no column or at least two: same shape, every entry to six decimals. -/
theorem C17_roundtrip_partial (m : Table) (h : m.WF) (hc : m.cols ≠ 1) (hr : m.rows ≠ 0 ∨ m.cols = 0) :
    ∃ d, csv2mat false (mat2csv m) = .ok ⟨m.rows, m.cols, d⟩ ∧
      List.Forall₂ (List.Forall₂ Printed) m.data d := by
  refine ⟨_, csv_back m h hc hr, ?_⟩
  rw [List.forall₂_map_right_iff]
  refine List.forall₂_same.mpr (fun r _ => ?_)
  rw [List.forall₂_map_right_iff]
  exact List.forall₂_same.mpr (fun x _ => printed_back x)

/-- C17: every entry comes back within half a millionth (and the rounding of a double). -/
theorem C17_close (m : Table) (h : m.WF) (hc : m.cols ≠ 1) (hr : m.rows ≠ 0 ∨ m.cols = 0) :
    ∃ d, csv2mat false (mat2csv m) = .ok ⟨m.rows, m.cols, d⟩ ∧
      List.Forall₂ (List.Forall₂ (fun x y =>
        |y - x| ≤ 1 / 2 / 10 ^ 6 + (|x| + 1 / 2 / 10 ^ 6) / 2 ^ 53)) m.data d := by
  obtain ⟨d, h1, h2⟩ := C17_roundtrip_partial m h hc hr
  exact ⟨d, h1, h2.imp (fun _ _ h => h.imp (fun _ _ => printed_close))⟩

/-- C17, stability: a second round trip returns the matrix of the first. -/
theorem C17_stable (m m' : Table) (h : m.WF) (hc : m.cols ≠ 1) (hr : m.rows ≠ 0 ∨ m.cols = 0)
    (hb : ∀ r ∈ m.data, ∀ x ∈ r, |x| ≤ 2 ^ 31) (h1 : csv2mat false (mat2csv m) = .ok m') :
    csv2mat false (mat2csv m') = .ok m' := by
  rw [csv_back m h hc hr] at h1
  injection h1 with h1
  subst h1
  rw [csv_back ⟨m.rows, m.cols, m.data.map (fun r => r.map back)⟩ ⟨by simp [h.1], by simpa using h.2⟩ hc hr]
  congr 2
  rw [List.map_map]
  apply List.map_congr_left
  intro r hr'
  simp only [Function.comp_def, List.map_map]
  apply List.map_congr_left
  intro x hx
  exact back_back x (hb r hr' x hx)

/-- C17 witness: two by two, with a negative number and one that needs rounding. -/
example : (⟨2, 2, [[1, -5 / 2], [1 / 3, 1000000]]⟩ : Table).WF ∧
    mat2csv ⟨2, 2, [[1, -5 / 2], [1 / 3, 1000000]]⟩ =
      "1.000000,-2.500000\n0.333333,1000000.000000\n".toList := by
  refine ⟨⟨rfl, by simp⟩, by decide +kernel⟩

/-- C17 is false for every matrix with one column: it comes back without columns. -/
theorem C17_column_refuted (m : Table) (h : m.WF) (hc : m.cols = 1) :
    csv2mat false (mat2csv m) = .ok ⟨m.rows, 0, m.data.map (fun _ => [])⟩ := by
  obtain ⟨h1, h2⟩ := h
  have hl : getLines (mat2csv m) = m.data.map rowText := getLines_flatMap _ rowText_no_nl _
  have hcols : csvCols (mat2csv m) = 0 := by
    unfold csvCols
    rw [hl]
    cases hd : m.data with
    | nil => rfl
    | cons r rs =>
      have hlen := h2 r (by rw [hd]; simp)
      simp only [List.map_cons, List.head?_cons, Option.getD_some, commas, hlen, hc]
      rfl
  unfold csv2mat csvRows
  rw [hcols, hl]
  simp only [Bool.false_eq_true, false_and, if_false, List.length_map, h1, List.map_map,
    Function.comp_def]
  rfl

/-- C17 is false for matrices without rows: the number of columns is lost. -/
theorem C17_empty_refuted (c : Nat) : csv2mat false (mat2csv ⟨0, c, []⟩) = .ok ⟨0, 0, []⟩ := by
  rfl

/-- C17, header: a header line is skipped, provided it has as many fields as the rows. -/
theorem C17_header (hd : List Char) (hn : '\n' ∉ hd) (m : Table) (h : m.WF) (hc : 2 ≤ m.cols)
    (hh : (hd.filter (· = ',')).length + 1 = m.cols) :
    ∃ d, csv2mat true (hd ++ '\n' :: mat2csv m) = .ok ⟨m.rows, m.cols, d⟩ ∧
      List.Forall₂ (List.Forall₂ Printed) m.data d := by
  obtain ⟨h1, h2⟩ := h
  have hl : getLines (hd ++ '\n' :: mat2csv m) = hd :: m.data.map rowText := by
    rw [getLines_cons_line _ hn]
    congr 1
    exact getLines_flatMap _ rowText_no_nl _
  have hcols : csvCols (hd ++ '\n' :: mat2csv m) = m.cols := by
    unfold csvCols
    rw [hl]
    have he : ((hd :: m.data.map rowText).head?.getD []) = hd := rfl
    rw [he]
    simp only
    rw [if_pos (by omega)]; omega
  refine ⟨m.data.map (fun r => r.map back), ?_, ?_⟩
  · unfold csv2mat csvRows
    rw [hcols, hl]
    simp only [List.cons_ne_nil, and_false, if_false, if_true, List.length_cons, List.length_map, h1,
      List.drop_succ_cons, List.drop_zero, List.map_map, Function.comp_def, Nat.add_sub_cancel]
    congr 2
    apply List.map_congr_left
    intro r hr'
    rw [← h2 r hr', readRow_rowText]
  · rw [List.forall₂_map_right_iff]
    refine List.forall₂_same.mpr (fun r _ => ?_)
    rw [List.forall₂_map_right_iff]
    exact List.forall₂_same.mpr (fun x _ => printed_back x)

example : csv2mat true ("#x,y\n".toList ++ mat2csv ⟨1, 2, [[1, 2]]⟩) = .ok ⟨1, 2, [[1, 2]]⟩ := by
  decide +kernel

/-! ### C18 -/

/-- A row of seven comma separated fields. -/
def line7 (t : ℤ) (a b c d e f : ℚ) : List Char :=
  fmtLd t ++ ',' :: fmtF a ++ ',' :: fmtF b ++ ',' :: fmtF c ++ ',' :: fmtF d ++ ',' :: fmtF e ++
    ',' :: fmtF f

theorem line7_no_nl (t : ℤ) (a b c d e f : ℚ) : '\n' ∉ line7 t a b c d e f := by
  have hx := fun x => fmtF_not_mem x '\n' (by decide) (by decide) (by decide)
  have ht := fmtLd_not_mem t '\n' (by decide) (by decide)
  simp only [line7, List.mem_append, List.mem_cons, not_or]
  simp only [hx, ht, not_false_eq_true, and_true, true_and]
  decide

theorem scan_lf (f : List Conv) (x : ℚ) (l : List Char) (hl : NoDig l) :
    scanf (.lf :: f) (fmtF x ++ l) = (.real (back x) :: (scanf f l).1, (scanf f l).2) := by
  simp only [scanf, parseReal_back x l hl]

theorem scan_lit (f : List Conv) (c : Char) (l : List Char) :
    scanf (.lit c :: f) (c :: l) = scanf f l := by
  simp [scanf]

theorem comma_noDig (l : List Char) : NoDig (',' :: l) := noDig_cons (by decide)

theorem imuRow_line (t : ℤ) (h1 : -2 ^ 63 ≤ t) (h2 : t < 2 ^ 63) (a b c d e f : ℚ)
    (ws rest : List Char) (hw : ∀ c ∈ ws, isSpace c = true) (hr : NoDig rest) :
    imuRow (ws ++ (line7 t a b c d e f ++ rest)) =
      .ok ((t, (back d, back e, back f), (back a, back b, back c)), rest) := by
  have hs : scanf imuFmt (ws ++ (line7 t a b c d e f ++ rest)) =
      ([.int t, .real (back a), .real (back b), .real (back c), .real (back d), .real (back e),
        .real (back f)], rest) := by
    unfold imuFmt line7
    simp only [List.append_assoc, List.cons_append]
    rw [scanf, parseInt_fmtLd t ws _ hw (comma_noDig _)]
    simp only [toULong_natAbs h1 h2, scan_lit]
    rw [scan_lf _ _ _ (comma_noDig _), scan_lit, scan_lf _ _ _ (comma_noDig _), scan_lit,
      scan_lf _ _ _ (comma_noDig _), scan_lit, scan_lf _ _ _ (comma_noDig _), scan_lit,
      scan_lf _ _ _ (comma_noDig _), scan_lit, scan_lf _ _ _ hr]
    rfl
  unfold imuRow
  rw [hs]

/-- An IMU sample: time, acceleration, angular velocity. -/
structure Sample where
  t : ℤ
  acc : ℚ × ℚ × ℚ
  gyr : ℚ × ℚ × ℚ

/-- Timestamps are 64-bit integers. -/
def Sample.Ok (s : Sample) : Prop := -2 ^ 63 ≤ s.t ∧ s.t < 2 ^ 63

theorem rowsM_lines {α β : Type} (f : List Char → Except Fault (β × List Char)) (txt : α → List Char)
    (val : α → β) (l : List α) (h : ∀ a ∈ l, ∀ ws rest, (∀ c ∈ ws, isSpace c = true) → NoDig rest →
      f (ws ++ (txt a ++ rest)) = .ok (val a, rest)) (ws : List Char) (hw : ∀ c ∈ ws, isSpace c = true) :
    rowsM f l.length (ws ++ l.flatMap (fun a => txt a ++ ['\n'])) = .ok (l.map val) := by
  induction l generalizing ws with
  | nil => rfl
  | cons a l ih =>
    rw [List.length_cons, rowsM, List.flatMap_cons, List.append_assoc (txt a), List.singleton_append,
      h a (by simp) ws _ hw (noDig_cons (by decide))]
    have := ih (fun a ha => h a (by simp [ha])) ['\n'] (by simp; rfl)
    rw [List.singleton_append] at this
    simp only [bind, Except.bind, this]
    rfl

/-- `skip_line` removes a short line. -/
theorem skipLine_line (t l : List Char) (ht : '\n' ∉ t) (hlen : t.length < 8191) :
    skipLine (t ++ '\n' :: l) = .ok l := by
  have hi : (t ++ '\n' :: l).idxOf '\n' = t.length := by
    rw [List.idxOf_append_of_notMem ht]
    simp
  unfold skipLine fgets
  rw [if_neg (by simp)]
  simp only [hi]
  rw [if_pos (by simp), Nat.min_eq_right (by omega)]
  simp

theorem loadRows_lines {α β : Type} (f : List Char → Except Fault (β × List Char)) (txt : α → List Char)
    (val : α → β) (hd : List Char) (hn : '\n' ∉ hd) (hlen : hd.length < 8191) (l : List α)
    (htxt : ∀ a, '\n' ∉ txt a)
    (h : ∀ a ∈ l, ∀ ws rest, (∀ c ∈ ws, isSpace c = true) → NoDig rest →
      f (ws ++ (txt a ++ rest)) = .ok (val a, rest)) :
    loadRows f (hd ++ '\n' :: l.flatMap (fun a => txt a ++ ['\n'])) = .ok (l.map val) := by
  unfold loadRows
  have hl : (getLines (hd ++ '\n' :: l.flatMap (fun a => txt a ++ ['\n']))).length = l.length + 1 := by
    rw [getLines_cons_line _ hn, getLines_flatMap _ htxt]
    simp
  rw [hl]
  simp only
  rw [skipLine_line _ _ hn hlen]
  exact rowsM_lines f txt val l h [] (by simp)

/-- C18, the format that can be loaded: a header line, then time, angular velocity, acceleration. -/
theorem C18_format (hd : List Char) (hn : '\n' ∉ hd) (hlen : hd.length < 8191) (l : List Sample)
    (hl : ∀ s ∈ l, s.Ok) :
    ∃ out, loadImu (hd ++ '\n' :: l.flatMap (fun s => line7 s.t s.gyr.1 s.gyr.2.1 s.gyr.2.2
        s.acc.1 s.acc.2.1 s.acc.2.2 ++ ['\n'])) = .ok out ∧
      List.Forall₂ (fun s (o : ImuRow) => o.1 = s.t ∧ Printed3 s.acc o.2.1 ∧ Printed3 s.gyr o.2.2)
        l out := by
  refine ⟨l.map (fun s => (s.t, (back s.acc.1, back s.acc.2.1, back s.acc.2.2),
    (back s.gyr.1, back s.gyr.2.1, back s.gyr.2.2))), ?_, ?_⟩
  · exact loadRows_lines imuRow _ _ hd hn hlen l (fun s => line7_no_nl _ _ _ _ _ _ _)
      (fun s hs ws rest hw hr => imuRow_line s.t (hl s hs).1 (hl s hs).2 _ _ _ _ _ _ ws rest hw hr)
  · rw [List.forall₂_map_right_iff]
    exact List.forall₂_same.mpr (fun s _ => ⟨rfl, ⟨printed_back _, printed_back _, printed_back _⟩,
      ⟨printed_back _, printed_back _, printed_back _⟩⟩)

/-- What `save_imu_data` writes. -/
theorem saveImu_eq (l : List Sample) :
    saveImu (l.map Sample.t) (l.map Sample.acc) (l.map Sample.gyr) =
      .ok (l.flatMap (fun s => line7 s.t s.acc.1 s.acc.2.1 s.acc.2.2 s.gyr.1 s.gyr.2.1 s.gyr.2.2 ++ ['\n'])) := by
  unfold saveImu
  rw [if_pos (by simp)]
  congr 1
  induction l with
  | nil => rfl
  | cons s l ih =>
    simp only [List.map_cons, List.zip_cons_cons, List.flatMap_cons, ih]
    simp [line7]

theorem natText_length {n k : Nat} (h : n < 10 ^ k) (hk : 0 < k) : (natText n).length ≤ k := by
  unfold natText
  split_ifs with h0
  · exact hk
  · rw [List.length_map, List.length_reverse]
    exact (Nat.digits_length_le_iff (by norm_num) n).mpr h

/-- A finite double. -/
def Finite (x : ℚ) : Prop := |x| < 2 ^ 1024

set_option exponentiation.threshold 2000 in
theorem big : (2 : ℚ) ^ 1024 * 10 ^ 6 + 1 / 2 < ((10 ^ 315 : Nat) : ℚ) := by norm_num

theorem fmtF_length {x : ℚ} (h : Finite x) : (fmtF x).length ≤ 317 := by
  have hu : (rneInt (|x| * 10 ^ 6)).natAbs < 10 ^ 315 := by
    have h1 := rneInt_close (|x| * 10 ^ 6)
    have h0 := rneInt_nonneg (x := |x| * 10 ^ 6) (by positivity)
    have h3 := big
    generalize 10 ^ 315 = N at *
    have : (rneInt (|x| * 10 ^ 6) : ℚ) < (N : ℚ) := by
      have h2 : |x| * 10 ^ 6 < 2 ^ 1024 * 10 ^ 6 := by
        apply mul_lt_mul_of_pos_right h (by positivity)
      rw [abs_le] at h1
      have h5 := h1.1
      clear h h1
      generalize (2 : ℚ) ^ 1024 * 10 ^ 6 = B at *
      generalize |x| * 10 ^ 6 = y at *
      linarith
    have h4 : rneInt (|x| * 10 ^ 6) < (N : ℤ) := by exact_mod_cast this
    omega
  unfold fmtF
  have hlen := natText_length (n := (rneInt (|x| * 10 ^ 6)).natAbs / 10 ^ 6) (k := 309)
    (by rw [Nat.div_lt_iff_lt_mul (by norm_num), ← pow_add]; exact hu) (by norm_num)
  clear hu
  simp only [List.length_append, List.length_cons, fixedDigits_length]
  generalize (natText ((rneInt (|x| * 10 ^ 6)).natAbs / 10 ^ 6)).length = k at *
  have hs : (if x < 0 then ['-'] else []).length ≤ 1 := by split_ifs <;> simp
  omega

theorem fmtLd_length {n : ℤ} (h1 : -2 ^ 63 ≤ n) (h2 : n < 2 ^ 63) : (fmtLd n).length ≤ 20 := by
  have hlen := natText_length (n := n.natAbs) (k := 19) (by omega) (by norm_num)
  unfold fmtLd
  simp only [List.length_append]
  split_ifs <;> simp <;> omega

/-- All components are finite doubles. -/
def Finite3 (a : ℚ × ℚ × ℚ) : Prop := Finite a.1 ∧ Finite a.2.1 ∧ Finite a.2.2

/-- C18 is false for every non-empty sequence of samples: the first sample is lost, and in the
others acceleration and angular velocity are exchanged. -/
theorem C18_roundtrip_refuted (s : Sample) (l : List Sample) (h : ∀ a ∈ s :: l, a.Ok)
    (hf : Finite3 s.acc ∧ Finite3 s.gyr) :
    ∃ file out, saveImu ((s :: l).map Sample.t) ((s :: l).map Sample.acc) ((s :: l).map Sample.gyr) =
        .ok file ∧ loadImu file = .ok out ∧
      List.Forall₂ (fun s (o : ImuRow) => o.1 = s.t ∧ Printed3 s.acc o.2.2 ∧ Printed3 s.gyr o.2.1)
        l out ∧
      ¬ List.Forall₂ (fun s (o : ImuRow) => o.1 = s.t ∧ Printed3 s.acc o.2.1 ∧ Printed3 s.gyr o.2.2)
        (s :: l) out := by
  refine ⟨_, l.map (fun s => (s.t, (back s.gyr.1, back s.gyr.2.1, back s.gyr.2.2),
    (back s.acc.1, back s.acc.2.1, back s.acc.2.2))), saveImu_eq _, ?_, ?_, ?_⟩
  · rw [List.flatMap_cons, List.append_assoc, List.singleton_append]
    refine loadRows_lines imuRow _ _ _ (line7_no_nl _ _ _ _ _ _ _) ?_ l
      (fun s => line7_no_nl _ _ _ _ _ _ _)
      (fun s hs ws rest hw hr => imuRow_line s.t (h s (by simp [hs])).1 (h s (by simp [hs])).2 _ _ _ _ _ _
        ws rest hw hr)
    obtain ⟨⟨f1, f2, f3⟩, f4, f5, f6⟩ := hf
    have := fmtF_length f1
    have := fmtF_length f2
    have := fmtF_length f3
    have := fmtF_length f4
    have := fmtF_length f5
    have := fmtF_length f6
    have := fmtLd_length (h s (by simp)).1 (h s (by simp)).2
    simp only [line7, List.length_append, List.length_cons]
    omega
  · rw [List.forall₂_map_right_iff]
    exact List.forall₂_same.mpr (fun s _ => ⟨rfl, ⟨printed_back _, printed_back _, printed_back _⟩,
      ⟨printed_back _, printed_back _, printed_back _⟩⟩)

  · intro h
    have := h.length_eq
    simp at this

/-- C18 on two samples. -/
example : (saveImu [10, 20] [(1, 2, 3), (4, 5, 6)] [(7, 8, 9), (10, 11, 12)] >>= loadImu) =
    .ok [(20, (10, 11, 12), (4, 5, 6))] := by decide +kernel

/-- C18 holds only for the empty sequence. -/
theorem C18_empty : (saveImu [] [] [] >>= loadImu) = .ok [] := by decide

/-! ### C19 -/

theorem poseText_eq (t : ℤ) (r : Vec3 ℚ) (q : Quat ℚ) :
    poseText t r q = (line7 t (r 0) (r 1) (r 2) q.x q.y q.z ++ ',' :: fmtF q.w) ++ ['\n'] := by
  simp [poseText, line7]

theorem poseRow_line (t : ℤ) (h1 : -2 ^ 63 ≤ t) (h2 : t < 2 ^ 63) (r : Vec3 ℚ) (q : Quat ℚ)
    (ws rest : List Char) (hw : ∀ c ∈ ws, isSpace c = true) (hr : NoDig rest) :
    poseRow (ws ++ ((line7 t (r 0) (r 1) (r 2) q.x q.y q.z ++ ',' :: fmtF q.w) ++ rest)) =
      .ok ((t, tfQuat ⟨back q.w, back q.x, back q.y, back q.z⟩ ![back (r 0), back (r 1), back (r 2)]),
        rest) := by
  have hs : scanf poseFmt (ws ++ ((line7 t (r 0) (r 1) (r 2) q.x q.y q.z ++ ',' :: fmtF q.w) ++ rest)) =
      ([.int t, .real (back (r 0)), .real (back (r 1)), .real (back (r 2)), .real (back q.x),
        .real (back q.y), .real (back q.z), .real (back q.w)], rest) := by
    unfold poseFmt line7
    simp only [List.append_assoc, List.cons_append]
    rw [scanf, parseInt_fmtLd t ws _ hw (comma_noDig _)]
    simp only [toLong_natAbs h1 h2, scan_lit]
    rw [scan_lf _ _ _ (comma_noDig _), scan_lit, scan_lf _ _ _ (comma_noDig _), scan_lit,
      scan_lf _ _ _ (comma_noDig _), scan_lit, scan_lf _ _ _ (comma_noDig _), scan_lit,
      scan_lf _ _ _ (comma_noDig _), scan_lit, scan_lf _ _ _ (comma_noDig _), scan_lit,
      scan_lf _ _ _ hr]
    rfl
  unfold poseRow
  rw [hs]

/-- A loaded pose: position and quaternion are the printed ones. -/
def PoseBack (quatOf : Mat4 ℚ → Quat ℚ) (T : Mat4 ℚ) (L : Mat4 ℚ) : Prop :=
  ∃ (r : Vec3 ℚ) (q : Quat ℚ), L = tfQuat q r ∧ (∀ i, Printed (tfTrans T i) (r i)) ∧
    Printed (quatOf T).w q.w ∧ Printed (quatOf T).x q.x ∧ Printed (quatOf T).y q.y ∧
    Printed (quatOf T).z q.z

theorem poseText_no_nl (t : ℤ) (r : Vec3 ℚ) (q : Quat ℚ) :
    '\n' ∉ line7 t (r 0) (r 1) (r 2) q.x q.y q.z ++ ',' :: fmtF q.w := by
  simp only [List.mem_append, List.mem_cons, not_or]
  exact ⟨line7_no_nl _ _ _ _ _ _ _, by decide, fmtF_not_mem _ _ (by decide) (by decide) (by decide)⟩

theorem savePoses_eq (quatOf : Mat4 ℚ → Quat ℚ) (l : List (ℤ × Mat4 ℚ)) :
    savePoses quatOf (l.map Prod.fst) (l.map Prod.snd) =
      .ok ("#ts,rx,ry,rz,qx,qy,qz,qw".toList ++ '\n' :: l.flatMap (fun e =>
        (line7 e.1 (tfTrans e.2 0) (tfTrans e.2 1) (tfTrans e.2 2) (quatOf e.2).x (quatOf e.2).y
          (quatOf e.2).z ++ ',' :: fmtF (quatOf e.2).w) ++ ['\n'])) := by
  unfold savePoses
  rw [if_pos (by simp)]
  have hh : poseHeader = "#ts,rx,ry,rz,qx,qy,qz,qw".toList ++ ['\n'] := by decide
  have hz : (l.map Prod.fst).zip (l.map Prod.snd) = l := by
    induction l with
    | nil => rfl
    | cons a l ih => simp only [List.map_cons, List.zip_cons_cons, ih]
  rw [hh, hz]
  simp only [poseText_eq, List.append_assoc, List.singleton_append]

theorem back_pose (quatOf : Mat4 ℚ → Quat ℚ) (T : Mat4 ℚ) :
    PoseBack quatOf T (tfQuat ⟨back (quatOf T).w, back (quatOf T).x, back (quatOf T).y, back (quatOf T).z⟩
      ![back (tfTrans T 0), back (tfTrans T 1), back (tfTrans T 2)]) := by
  refine ⟨_, _, rfl, ?_, printed_back _, printed_back _, printed_back _, printed_back _⟩
  intro i
  fin_cases i <;> exact printed_back _

/-- C19: timestamps, positions and quaternions come back in order, to six decimals. -/
theorem C19_roundtrip (quatOf : Mat4 ℚ → Quat ℚ) (l : List (ℤ × Mat4 ℚ))
    (h : ∀ e ∈ l, -2 ^ 63 ≤ e.1 ∧ e.1 < 2 ^ 63) :
    ∃ file out, savePoses quatOf (l.map Prod.fst) (l.map Prod.snd) = .ok file ∧
      loadPoses file = .ok out ∧
      List.Forall₂ (fun e o => o.1 = e.1 ∧ PoseBack quatOf e.2 o.2) l out := by
  refine ⟨_, l.map (fun e => (e.1, tfQuat ⟨back (quatOf e.2).w, back (quatOf e.2).x,
    back (quatOf e.2).y, back (quatOf e.2).z⟩ ![back (tfTrans e.2 0), back (tfTrans e.2 1),
    back (tfTrans e.2 2)])), savePoses_eq quatOf l, ?_, ?_⟩
  · exact loadRows_lines poseRow _ _ _ (by decide) (by decide) l
      (fun e => poseText_no_nl e.1 (tfTrans e.2) (quatOf e.2))
      (fun e he ws rest hw hr => poseRow_line e.1 (h e he).1 (h e he).2 (tfTrans e.2) (quatOf e.2)
        ws rest hw hr)
  · rw [List.forall₂_map_right_iff]
    exact List.forall₂_same.mpr (fun e _ => ⟨rfl, back_pose quatOf e.2⟩)

/-- C19, accuracy of the loaded rotation: when the quaternion has components in `[-1, 1]`, no entry
of the rotation matrix is off by more than `10⁻⁵`. -/
theorem C19_rotation (quatOf : Mat4 ℚ → Quat ℚ) (T L : Mat4 ℚ) (h : PoseBack quatOf T L)
    (hq : |(quatOf T).w| ≤ 1 ∧ |(quatOf T).x| ≤ 1 ∧ |(quatOf T).y| ≤ 1 ∧ |(quatOf T).z| ≤ 1)
    (i j : Fin 3) : |tfRot L i j - (quatOf T).toRot i j| ≤ 1 / 10 ^ 5 := by
  obtain ⟨r, q, rfl, -, hw, hx, hy, hz⟩ := h
  have small : ∀ {a b : ℚ}, |a| ≤ 1 → Printed a b → |b - a| ≤ 51 / 10 ^ 8 := by
    intro a b ha h
    have := printed_close h
    have h2 : (|a| + 1 / 2 / 10 ^ 6) / 2 ^ 53 ≤ (1 + 1 / 2 / 10 ^ 6) / 2 ^ 53 :=
      div_le_div_of_nonneg_right (by linarith) (by norm_num)
    norm_num at this h2 ⊢
    linarith
  have ew := small hq.1 hw
  have ex := small hq.2.1 hx
  have ey := small hq.2.2.1 hy
  have ez := small hq.2.2.2 hz
  obtain ⟨bw, bx, bY, bz⟩ := hq
  generalize quatOf T = p at *
  obtain ⟨pw, px, py, pz⟩ := p
  obtain ⟨qw, qx, qy, qz⟩ := q
  have prod : ∀ {a b c d : ℚ}, |a| ≤ 1 → |b| ≤ 1 → |c - a| ≤ 51 / 10 ^ 8 → |d - b| ≤ 51 / 10 ^ 8 →
      |c * d - a * b| ≤ 11 / 10 ^ 7 := by
    intro a b c d ha hb hc hd
    have e : c * d - a * b = a * (d - b) + (c - a) * b + (c - a) * (d - b) := by ring
    rw [e]
    have h1 : |a * (d - b)| ≤ 1 * (51 / 10 ^ 8) := by
      rw [abs_mul]; exact mul_le_mul ha hd (abs_nonneg _) (by norm_num)
    have h2 : |(c - a) * b| ≤ 51 / 10 ^ 8 * 1 := by
      rw [abs_mul]; exact mul_le_mul hc hb (abs_nonneg _) (by norm_num)
    have h3 : |(c - a) * (d - b)| ≤ 51 / 10 ^ 8 * (51 / 10 ^ 8) := by
      rw [abs_mul]; exact mul_le_mul hc hd (abs_nonneg _) (by norm_num)
    have h4 := abs_add_le (a * (d - b) + (c - a) * b) ((c - a) * (d - b))
    have h5 := abs_add_le (a * (d - b)) ((c - a) * b)
    norm_num at h1 h2 h3 h4 h5 ⊢
    linarith
  simp only at *
  have xx := abs_le.mp (prod bx bx ex ex)
  have yy := abs_le.mp (prod bY bY ey ey)
  have zz := abs_le.mp (prod bz bz ez ez)
  have xy := abs_le.mp (prod bx bY ex ey)
  have xz := abs_le.mp (prod bx bz ex ez)
  have yz := abs_le.mp (prod bY bz ey ez)
  have wx := abs_le.mp (prod bw bx ew ex)
  have wy := abs_le.mp (prod bw bY ew ey)
  have wz := abs_le.mp (prod bw bz ew ez)
  rw [show tfRot (tfQuat ⟨qw, qx, qy, qz⟩ r) = Quat.toRot ⟨qw, qx, qy, qz⟩ from tfRot_tf _ _]
  norm_num at xx yy zz xy xz yz wx wy wz
  rw [abs_le]
  fin_cases i <;> fin_cases j <;> simp [Quat.toRot] <;> norm_num <;> constructor <;>
    linarith [xx.1, xx.2, yy.1, yy.2, zz.1, zz.2, xy.1, xy.2, xz.1, xz.2, yz.1, yz.2, wx.1, wx.2,
      wy.1, wy.2, wz.1, wz.2]

/-- C19, `load_pose`: the first pose of the file, or the identity. -/
theorem C19_load_pose (quatOf : Mat4 ℚ → Quat ℚ) (l : List (ℤ × Mat4 ℚ))
    (h : ∀ e ∈ l, -2 ^ 63 ≤ e.1 ∧ e.1 < 2 ^ 63) :
    ∃ file T, savePoses quatOf (l.map Prod.fst) (l.map Prod.snd) = .ok file ∧
      loadPose file = .ok T ∧ (l = [] → T = 1) ∧ ∀ e, l.head? = some e → PoseBack quatOf e.2 T := by
  have hl := savePoses_eq quatOf l
  cases l with
  | nil =>
    refine ⟨_, 1, hl, ?_, fun _ => rfl, fun e he => by cases he⟩
    have : (getLines ("#ts,rx,ry,rz,qx,qy,qz,qw".toList ++ '\n' :: ([] : List Char))).length = 1 := by decide
    unfold loadPose
    rw [List.flatMap_nil, this]
    simp only
    rw [skipLine_line _ _ (by decide) (by decide)]
    rfl
  | cons e l =>
    refine ⟨_, _, hl, ?_, (fun h => by cases h), fun e' he => by
      obtain rfl : e = e' := by simpa using he
      exact back_pose quatOf e.2⟩
    have : (getLines ("#ts,rx,ry,rz,qx,qy,qz,qw".toList ++ '\n' :: (e :: l).flatMap (fun e =>
        (line7 e.1 (tfTrans e.2 0) (tfTrans e.2 1) (tfTrans e.2 2) (quatOf e.2).x (quatOf e.2).y
          (quatOf e.2).z ++ ',' :: fmtF (quatOf e.2).w) ++ ['\n']))).length = l.length + 2 := by
      rw [getLines_cons_line _ (by decide), getLines_flatMap _
        (fun e : ℤ × Mat4 ℚ => poseText_no_nl e.1 (tfTrans e.2) (quatOf e.2))]
      simp
    unfold loadPose
    rw [this]
    simp only
    rw [skipLine_line _ _ (by decide) (by decide), List.flatMap_cons, List.append_assoc _ ['\n']]
    have hrow := poseRow_line e.1 (h e (by simp)).1 (h e (by simp)).2 (tfTrans e.2) (quatOf e.2) []
      ('\n' :: l.flatMap (fun e =>
        (line7 e.1 (tfTrans e.2 0) (tfTrans e.2 1) (tfTrans e.2 2) (quatOf e.2).x (quatOf e.2).y
          (quatOf e.2).z ++ ',' :: fmtF (quatOf e.2).w) ++ ['\n'])) (by simp) (noDig_cons (by decide))
    rw [List.nil_append] at hrow
    simp only [bind, Except.bind, List.singleton_append]
    rw [hrow]

/-- C19 witness: a pose with the identity rotation. -/
example : (savePoses (fun _ => ⟨1, 0, 0, 0⟩) [7] [tfQuat ⟨1, 0, 0, 0⟩ ![1, 2, -3]] >>= loadPoses) =
    .ok [(7, tfQuat ⟨1, 0, 0, 0⟩ ![1, 2, -3])] := by decide +kernel

/-! ### Malformed rows, lengths -/

/-- Comma separated numbers after the timestamp. -/
def fields (xs : List ℚ) : List Char := xs.flatMap (fun x => ',' :: fmtF x)

/-- The conversions for `n` further numbers. -/
def moreFmt (n : Nat) : List Conv := (List.replicate n [Conv.lit ',', Conv.lf]).flatten

theorem fields_noDig (xs : List ℚ) {rest : List Char} (h : NoDig rest) : NoDig (fields xs ++ rest) := by
  cases xs with
  | nil => exact h
  | cons x xs => exact comma_noDig _

/-- Where a comma is missing, the conversion stops. -/
theorem scan_stop (n : Nat) (xs : List ℚ) (rest : List Char) (hn : xs.length < n) (hr : NoDig rest)
    (hc : rest.head? ≠ some ',') : (scanf (moreFmt n) (fields xs ++ rest)).1 = xs.map (fun x => Val.real (back x)) := by
  induction n generalizing xs with
  | zero => omega
  | succ n ih =>
    have e : moreFmt (n + 1) = Conv.lit ',' :: Conv.lf :: moreFmt n := by
      simp [moreFmt, List.replicate_succ]
    rw [e]
    cases xs with
    | nil =>
      cases rest with
      | nil => rfl
      | cons c rest =>
        have : c ≠ ',' := fun h => hc (by rw [h]; rfl)
        simp [fields, scanf, this]
    | cons x xs =>
      have e2 : fields (x :: xs) ++ rest = ',' :: (fmtF x ++ (fields xs ++ rest)) := by simp [fields]
      rw [e2, scan_lit, scan_lf _ _ _ (fields_noDig xs hr)]
      rw [List.map_cons, ← ih xs (by simpa using hn)]

/-- C18: a row whose separators are not commas, or with too few fields, is refused (the number before the wrong
separator is not continued by an exponent). -/
theorem C18_malformed (t : ℤ) (xs : List ℚ) (rest : List Char) (hn : xs.length < 6) (hr : NoDig rest)
    (hc : rest.head? ≠ some ',') : imuRow (fmtLd t ++ (fields xs ++ rest)) = .error .fatal := by
  have h := scan_stop 6 xs rest hn hr hc
  have e : imuFmt = Conv.lu :: moreFmt 6 := by decide
  have hp := parseInt_fmtLd t [] _ (by simp) (fields_noDig xs hr)
  unfold imuRow
  rw [e, scanf]
  rw [List.nil_append] at hp
  rw [hp]
  simp only
  generalize scanf (moreFmt 6) (fields xs ++ rest) = r at h ⊢
  obtain ⟨r1, r2⟩ := r
  have hl : r1.length < 6 := by rw [show r1 = _ from h]; simpa using hn
  clear h
  split
  · rename_i heq
    injection heq with h1 _
    injection h1 with _ h1
    simp only at h1; rw [h1] at hl
    simp at hl
  · rfl

example : imuRow "12,1.0;2.0,3.0,4.0,5.0,6.0\n".toList = .error .fatal := by decide

/-- C19: likewise for poses. -/
theorem C19_malformed (t : ℤ) (xs : List ℚ) (rest : List Char) (hn : xs.length < 7) (hr : NoDig rest)
    (hc : rest.head? ≠ some ',') : poseRow (fmtLd t ++ (fields xs ++ rest)) = .error .fatal := by
  have h := scan_stop 7 xs rest hn hr hc
  have e : poseFmt = Conv.ld :: moreFmt 7 := by decide
  have hp := parseInt_fmtLd t [] _ (by simp) (fields_noDig xs hr)
  unfold poseRow
  rw [e, scanf]
  rw [List.nil_append] at hp
  rw [hp]
  simp only
  generalize scanf (moreFmt 7) (fields xs ++ rest) = r at h ⊢
  obtain ⟨r1, r2⟩ := r
  have hl : r1.length < 7 := by rw [show r1 = _ from h]; simpa using hn
  clear h
  split
  · rename_i heq
    injection heq with h1 _
    injection h1 with _ h1
    simp only at h1; rw [h1] at hl
    simp at hl
  · rfl

/-- C18: measurements that do not come in equal numbers are refused. -/
theorem C18_lengths (ts : List ℤ) (acc gyr : List (ℚ × ℚ × ℚ)) :
    (∃ file, saveImu ts acc gyr = .ok file) ↔ acc.length = ts.length ∧ gyr.length = ts.length := by
  unfold saveImu
  by_cases h : ts.length = acc.length ∧ ts.length = gyr.length
  · rw [if_pos h]; exact ⟨fun _ => ⟨h.1.symm, h.2.symm⟩, fun _ => ⟨_, rfl⟩⟩
  · rw [if_neg h]
    refine ⟨fun ⟨_, h'⟩ => (nomatch h'), fun h' => absurd ⟨h'.1.symm, h'.2.symm⟩ h⟩

/-- C19: with fewer poses than timestamps `save_poses` reads past the end. -/
theorem C19_lengths (quatOf : Mat4 ℚ → Quat ℚ) (ts : List ℤ) (poses : List (Mat4 ℚ)) (h : poses.length < ts.length) :
    savePoses quatOf ts poses = .error .oob := by
  unfold savePoses
  rw [if_neg (by omega)]

end Yac.Text
