import Verif.GridFile.Lemmas

/-! # C141: the files of AprilGrids, character by character -/

namespace Yac.GridFile
open Yac.Text Yac.Num Yac.AprilGrid Yac.AprilGrid.Spec
open Yac.Data (V2 V2Line loadLine2 withTarget)

/-- The timestamp fits into 64 bits and the number of corners into an `int`. -/
structure Sized (ts : ℤ) (rows cols : ℕ) : Prop where
  time : -2 ^ 63 ≤ ts ∧ ts < 2 ^ 63
  tagRows : (rows : ℤ) < 2 ^ 31
  tagCols : (cols : ℤ) < 2 ^ 31
  corners : (rows * cols * 4 : ℤ) < 2 ^ 31

theorem fits_line {ts : ℤ} {rows cols : ℕ} (hz : Sized ts rows cols) (size spacing : ℚ) {m : CMap ℚ} {e : (ℤ × ℤ) × (ℚ × ℚ)}
    (he : e ∈ held rows cols m) : Fits (lineFor id id ts rows cols size spacing e) := by
  obtain ⟨⟨t, c⟩, kp⟩ := e
  obtain ⟨⟨h1, h2, h3, h4⟩, -⟩ := (mem_held _ _ _ _ _ _).mp he
  have := hz.corners
  refine ⟨hz.time, hz.tagRows, hz.tagCols, ⟨?_, ?_⟩, ⟨?_, ?_⟩⟩ <;> simp only [lineFor] <;> omega

theorem save_text {ts : ℤ} {rows cols : ℕ} {size spacing : ℚ} {m : CMap ℚ} {extra : ℕ} {g : Grid ℚ}
    (h : Rel ts rows cols size spacing m extra g) :
    saveText g = .ok (header ++ ((held rows cols m).map (lineFor id id ts rows cols size spacing)).flatMap
      (fun l => lineText l ++ ['\n'])) := by
  unfold saveText
  rw [save_eq id id h]
  rfl

/-- **C141, round trip.**  A grid with corners that is saved and loaded into any grid of the same size (or an empty one) is loaded
completely: the same time, size of the target and corners; every keypoint to the tenth decimal, everything else to the sixth. -/
theorem C141_roundtrip (ts : ℤ) (rows cols : ℕ) (size spacing : ℚ) (hz : Sized ts rows cols) (ops : List (Op ℚ))
    (hv : ∀ op ∈ ops, OpValid rows cols op) (g : Grid ℚ) (hg : run (new ts rows cols size spacing) ops = .ok g)
    (hne : ∃ t c, Valid rows cols t c ∧ (Spec.run ops t c).isSome) (g0 : Grid ℚ)
    (h0 : g0.data = [] ∨ g0.data.length = rows * cols * 4) :
    ∃ file g', saveText g = .ok file ∧ loadText g0 file = .ok (0, g') ∧
      g'.init = true ∧ g'.timestamp = ts ∧ g'.tagRows = rows ∧ g'.tagCols = cols ∧
      PrintedTo 6 size g'.tagSize ∧ PrintedTo 6 spacing g'.tagSpacing ∧ g'.detected = true ∧
      g'.nbDetections = Spec.size rows cols (Spec.run ops) ∧
      ∀ t c, Valid rows cols t c →
        has g' t c = .ok (Spec.run ops t c).isSome ∧
        ∀ kp, Spec.run ops t c = some kp →
          (∃ x y, keypoint g' t c = .ok (x, y) ∧ PrintedTo 10 kp.1 x ∧ PrintedTo 10 kp.2 y) ∧
          ∃ r, readRow g'.data (t * 4 + c) = .ok r ∧ PrintedTo 6 (boardPoint cols size spacing t.toNat c.toNat).1 r.px ∧
            PrintedTo 6 (boardPoint cols size spacing t.toNat c.toNat).2.1 r.py ∧
            PrintedTo 6 (boardPoint cols size spacing t.toNat c.toNat).2.2 r.pz := by
  obtain ⟨g1, hg1, hr⟩ := run_rel ts rows cols size spacing ops hv
  rw [hg] at hg1; cases hg1
  obtain ⟨file, g', hs, hl, e1, e2, e3, e4, e5, e6, e7, e8, e9⟩ :=
    C06_save_load_partial (bk 6) (bk 10) ts rows cols size spacing ops hv g hg hne g0 h0
  rw [save_eq _ _ hr] at hs
  cases hs
  refine ⟨_, g', save_text hr, ?_, e1, e2, e3, e4, by rw [e5]; exact printed_bk _ _, by rw [e6]; exact printed_bk _ _, e7, e8, ?_⟩
  · rw [load_text g0 _ (by
      intro l hl
      obtain ⟨e, he, rfl⟩ := List.mem_map.mp hl
      exact fits_line hz size spacing he)]
    have : ((held rows cols (Spec.run ops)).map (lineFor id id ts rows cols size spacing)).map pr =
        (held rows cols (Spec.run ops)).map (lineFor (bk 6) (bk 10) ts rows cols size spacing) := by
      rw [List.map_map]; rfl
    rw [this, hl]
    rfl
  · intro t c htc
    obtain ⟨a1, a2⟩ := e9 t c htc
    refine ⟨a1, fun kp hkp => ?_⟩
    obtain ⟨b1, b2⟩ := a2 kp hkp
    exact ⟨⟨_, _, b1, printed_bk _ _, printed_bk _ _⟩, _, b2, printed_bk _ _, printed_bk _ _, printed_bk _ _⟩

/-- **C141, refuted.**  If saving is interrupted in the timestamp of a line, what is left of the file is loaded as a grid with corners
whose time is the timestamp without its last digits; that something is wrong shows only in the value returned, which the
preprocessing (calib_data.cpp:205-210) does not look at. -/
theorem C141_torn_refuted (ts : ℤ) (rows cols : ℕ) (size spacing : ℚ) (hz : Sized ts rows cols) (ops : List (Op ℚ))
    (hv : ∀ op ∈ ops, OpValid rows cols op) (g : Grid ℚ) (hg : run (new ts rows cols size spacing) ops = .ok g)
    (n : ℕ) (hn : 0 < n) (hnn : n < Spec.size rows cols (Spec.run ops)) (j : ℕ) (hj : 10 ^ j ≤ ts) :
    ∃ file part g', saveText g = .ok file ∧ part <+: file ∧ loadText default part = .ok (-1, g') ∧
      g'.timestamp = ts / 10 ^ j ∧ g'.detected = true ∧ g'.nbDetections = n ∧ g'.tagRows = rows ∧ g'.tagCols = cols := by
  obtain ⟨g1, hg1, hr⟩ := run_rel ts rows cols size spacing ops hv
  rw [hg] at hg1; cases hg1
  obtain ⟨k, rfl⟩ : ∃ k : ℕ, ts = k := ⟨ts.toNat, by have : (0 : ℤ) < 10 ^ j := by positivity
                                                     omega⟩
  have hk : 10 ^ j ≤ k := by exact_mod_cast hj
  obtain ⟨r, hr1, -⟩ := natText_prefix k j hk
  set es := held rows cols (Spec.run ops) with hes
  have hlen : n < es.length := hnn
  set f := lineFor id id (k : ℤ) rows cols size spacing with hf
  have hts : ¬ (n = 0 ∨ es = []) := by
    rintro (h | h)
    · omega
    · rw [h] at hlen; simp at hlen
  have hfits : ∀ l ∈ (es.take n).map f, Fits l := by
    intro l hl
    obtain ⟨e, he, rfl⟩ := List.mem_map.mp hl
    exact fits_line hz size spacing (List.mem_of_mem_take he)
  have hld : ∀ m : ℕ, fmtLd (m : ℤ) = natText m := by
    intro m; unfold fmtLd; simp
  obtain ⟨gl, l1, -, l3⟩ := load_entries (bk 6) (bk 10) (k : ℤ) rows cols size spacing default (Or.inl rfl) (es.take n) (by
    rintro ⟨⟨t, c⟩, kp⟩ he
    exact ((mem_held _ _ _ _ _ _).mp (List.mem_of_mem_take he)).1)
  have hL := l3 (fun h => hts (List.take_eq_nil_iff.mp h))
  refine ⟨_, header ++ (((es.take n).map f).flatMap (fun l => lineText l ++ ['\n']) ++ natText (k / 10 ^ j)),
    { gl with timestamp := (k : ℤ) / 10 ^ j }, save_text hr, ?_, ?_, rfl, hL.hdet, ?_, hL.hrows, hL.hcols⟩
  · rw [List.prefix_append_right_inj]
    have hsplit : es = es.take n ++ es[n] :: es.drop (n + 1) := by
      rw [List.cons_getElem_drop_succ, List.take_append_drop]
    rw [← hes, ← hf]
    conv_rhs => rw [hsplit]
    rw [List.map_append, List.flatMap_append, List.prefix_append_right_inj, List.map_cons, List.flatMap_cons]
    refine ⟨?_, ?_⟩
    · exact r ++ ((lineText (f es[n]) ++ ['\n']).drop (natText k).length) ++ ((es.drop (n + 1)).map f).flatMap (fun l => lineText l ++ ['\n'])
    · have hstart : ∃ rest, lineText (f es[n]) ++ ['\n'] = natText k ++ rest := by
        refine ⟨(lineText (f es[n]) ++ ['\n']).drop (natText k).length, ?_⟩
        · have : natText k <+: lineText (f es[n]) ++ ['\n'] := by
            unfold lineText
            rw [show (f es[n]).ts = (k : ℤ) from rfl, hld k, List.append_assoc]
            exact List.prefix_append ..
          obtain ⟨rest, hrest⟩ := this
          rw [← hrest, List.drop_left]
      obtain ⟨rest, hrest⟩ := hstart
      rw [hrest, List.drop_left, hr1]
      simp
  · unfold loadText
    have hne : natText (k / 10 ^ j) ≠ [] := natText_ne _
    have hnl : '\n' ∉ natText (k / 10 ^ j) := fun h => by
      have := natText_dig _ _ h
      exact absurd this (by decide)
    rw [header_eq, text_rows _ _ hnl, if_neg hne]
    simp only
    rw [skipLine_line _ _ head'_nl (by have := head'_len; omega), AprilGrid.ok_bind]
    have := loop_lines ((es.take n).map f) hfits 1 (clear default) [] (natText (k / 10 ^ j)) (by simp)
    rw [List.nil_append] at this
    rw [this]
    have hm : ((es.take n).map f).foldlM (fun g l => loadLine g (pr l)) (clear default) = .ok gl := by
      rw [← List.foldlM_map (f := pr) (g := loadLine), List.map_map]
      exact l1
    rw [hm, AprilGrid.ok_bind, if_neg (fun h => hts (List.take_eq_nil_iff.mp (List.map_eq_nil_iff.mp h)))]
    unfold loadLoop
    have hscan : scanf fmt12 (['\n'] ++ natText (k / 10 ^ j)) = ([.int ((k / 10 ^ j : ℕ) : ℤ)], []) := by
      have h2 : ((k / 10 ^ j : ℕ) : ℤ) < 2 ^ 63 := by
        have := Nat.div_le_self k (10 ^ j)
        have := hz.time.2
        omega
      have := scan_ld (fmt12.tail) ((k / 10 ^ j : ℕ) : ℤ) (by have := Int.natCast_nonneg (k / 10 ^ j); omega) h2 ['\n'] [] (by simp; rfl) noDig_nil
      rw [List.append_nil, hld] at this
      rw [show fmt12 = .ld :: fmt12.tail from rfl, this]
      rfl
    rw [hscan]
    simp only
    rw [if_pos (by simp)]
    simp only [assign]
    congr 2
  · rw [show ({ gl with timestamp := (k : ℤ) / 10 ^ j } : Grid ℚ).nbDetections = gl.nbDetections from rfl, hL.nb, List.length_take]
    simp; omega

/-! ### The second format -/

/-- A line `key: value`. -/
def keyLine (key : String) (v : List Char) : List Char := key.toList ++ ':' :: ' ' :: v

/-- A file in the second format; the code has no function that writes one.  `gap` and `title` are the lines that are skipped. -/
def v2Text (f : V2 ℚ) (gap title : List Char) : List Char :=
  keyLine "timestamp" (fmtLd f.ts) ++ '\n' :: (keyLine "num_rows" (fmtLd f.rows) ++ '\n' :: (keyLine "num_cols" (fmtLd f.cols) ++ '\n' ::
    (keyLine "tag_size" (fmtFix 6 f.size) ++ '\n' :: (keyLine "tag_spacing" (fmtFix 6 f.spacing) ++ '\n' :: (gap ++ '\n' ::
      (keyLine "corners_detected" (fmtLd f.corners) ++ '\n' :: (title ++ '\n' :: f.lines.flatMap (fun l =>
        fmtLd l.tag ++ ',' :: (fmtLd l.corner ++ ',' :: (fmtFix 6 l.kx ++ ',' :: (fmtFix 6 l.ky ++ ',' :: (fmtFix 6 l.px ++ ',' ::
          (fmtFix 6 l.py ++ ',' :: (fmtFix 6 l.pz ++ ['\n']))))))))))))))

/-- The numbers of the file, after printing and reading. -/
def pr2 (f : V2 ℚ) : V2 ℚ :=
  { f with size := bk 6 f.size, spacing := bk 6 f.spacing,
           lines := f.lines.map (fun l => ⟨l.tag, l.corner, bk 6 l.kx, bk 6 l.ky, bk 6 l.px, bk 6 l.py, bk 6 l.pz⟩) }

/-- The integers fit into their variables, the lines into the buffer. -/
structure Fits2 (f : V2 ℚ) (gap title : List Char) : Prop where
  ts : -2 ^ 63 ≤ f.ts ∧ f.ts < 2 ^ 63
  rows : (f.rows : ℤ) < 2 ^ 31
  cols : (f.cols : ℤ) < 2 ^ 31
  corners : (f.corners : ℤ) < 2 ^ 31
  size : Finite f.size
  spacing : Finite f.spacing
  gap : '\n' ∉ gap ∧ gap.length < 1023
  title : '\n' ∉ title ∧ title.length < 1023
  lines : ∀ l ∈ f.lines, (-2 ^ 31 ≤ l.tag ∧ l.tag < 2 ^ 31) ∧ -2 ^ 31 ≤ l.corner ∧ l.corner < 2 ^ 31

theorem strtok_key (key v : List Char) (h0 : key ≠ []) (hk : ':' ∉ key) : strtok (key ++ ':' :: v) = some (key, v) := by
  have h1 : (key ++ ':' :: v).dropWhile (fun c => c = ':') = key ++ ':' :: v := by
    cases key with
    | nil => exact absurd rfl h0
    | cons a k => simp at hk; simp [Ne.symm hk.1]
  have h2 : ∀ k : List Char, ':' ∉ k → (k ++ ':' :: v).takeWhile (fun c => c ≠ ':') = k ∧
      (k ++ ':' :: v).dropWhile (fun c => c ≠ ':') = ':' :: v := by
    intro k hk
    induction k with
    | nil => simp
    | cons a k ih => simp at hk ih ⊢; have := ih hk.2; simp [Ne.symm hk.1, this]
  unfold strtok
  rw [h1]
  simp only
  rw [if_neg (by simp), (h2 key hk).1, (h2 key hk).2]
  rfl

theorem strtok_value (v : List Char) (h0 : v ≠ []) (hk : ':' ∉ v) : strtok v = some (v, []) := by
  have h1 : v.dropWhile (fun c => c = ':') = v := by
    cases v with
    | nil => exact absurd rfl h0
    | cons a k => simp at hk; simp [Ne.symm hk.1]
  have h2 : ∀ k : List Char, ':' ∉ k → k.takeWhile (fun c => c ≠ ':') = k ∧ k.dropWhile (fun c => c ≠ ':') = [] := by
    intro k hk
    induction k with
    | nil => simp
    | cons a k ih => simp at hk ih ⊢; have := ih hk.2; simp [Ne.symm hk.1]; exact this
  unfold strtok
  rw [h1]
  simp only
  rw [if_neg h0, (h2 v hk).1, (h2 v hk).2]
  rfl

/-- One line `key: value` is read. -/
theorem parse_key (key : String) (v rest : List Char) (h0 : key.toList ≠ []) (hk : ':' ∉ key.toList) (hkn : '\n' ∉ key.toList)
    (hv : ':' ∉ v) (hvn : '\n' ∉ v) (hl : key.toList.length + v.length < 1020) :
    parseLine key (keyLine key v ++ '\n' :: rest) = .ok (' ' :: (v ++ ['\n']), rest) := by
  unfold parseLine keyLine
  rw [fgets_line 1023 _ rest (by simp [hkn, hvn]) (by simp; omega)]
  simp only
  rw [show key.toList ++ ':' :: ' ' :: v ++ ['\n'] = key.toList ++ ':' :: (' ' :: (v ++ ['\n'])) by simp, strtok_key _ _ h0 hk]
  simp only
  rw [if_neg (by simp), strtok_value _ (by simp) (by simp [hv])]

theorem skip_line (t l : List Char) (ht : '\n' ∉ t) (hl : t.length < 1023) : skip (t ++ '\n' :: l) = l := by
  unfold skip
  rw [fgets_line 1023 t l ht hl]

theorem atol_text (n : ℤ) (h1 : -2 ^ 63 ≤ n) (h2 : n < 2 ^ 63) : atol (' ' :: (fmtLd n ++ ['\n'])) = n := by
  unfold atol
  have := parseInt_fmtLd n [' '] ['\n'] (by simp; rfl) (noDig_cons (by decide))
  rw [List.singleton_append] at this
  rw [this]
  exact toLong_natAbs h1 h2

theorem atoi_text (n : ℤ) (h1 : -2 ^ 31 ≤ n) (h2 : n < 2 ^ 31) : atoi (' ' :: (fmtLd n ++ ['\n'])) = n := by
  unfold atoi
  rw [atol_text n (by omega) (by omega), wrap32_id h1 h2]

theorem atof_text (x : ℚ) : atof (' ' :: (fmtFix 6 x ++ ['\n'])) = bk 6 x := by
  unfold atof
  have := parseReal_fmtFix 6 x [' '] ['\n'] (by simp; rfl) (noDig_cons (by decide))
  rw [List.singleton_append] at this
  rw [this]

theorem corner_scan (l : V2Line ℚ) (h : (-2 ^ 31 ≤ l.tag ∧ l.tag < 2 ^ 31) ∧ -2 ^ 31 ≤ l.corner ∧ l.corner < 2 ^ 31)
    (ws rest : List Char) (hw : ∀ c ∈ ws, isSpace c = true) (hr : NoDig rest) :
    scanf fmt7 (ws ++ (fmtLd l.tag ++ ',' :: (fmtLd l.corner ++ ',' :: (fmtFix 6 l.kx ++ ',' :: (fmtFix 6 l.ky ++ ',' ::
      (fmtFix 6 l.px ++ ',' :: (fmtFix 6 l.py ++ ',' :: (fmtFix 6 l.pz ++ rest)))))))) =
      ([.int l.tag, .int l.corner, .real (bk 6 l.kx), .real (bk 6 l.ky), .real (bk 6 l.px), .real (bk 6 l.py), .real (bk 6 l.pz)],
        rest) := by
  obtain ⟨⟨g1, g2⟩, k1, k2⟩ := h
  unfold fmt7
  rw [scan_ld _ _ (by omega) (by omega) _ _ hw (comma_noDig _), scan_lit, scan_ld' _ _ (by omega) (by omega) _ (comma_noDig _), scan_lit,
    scan_fix _ _ _ _ (comma_noDig _), scan_lit, scan_fix _ _ _ _ (comma_noDig _), scan_lit, scan_fix _ _ _ _ (comma_noDig _), scan_lit,
    scan_fix _ _ _ _ (comma_noDig _), scan_lit, scan_fix _ _ _ _ hr]
  rfl

theorem corner_loop (ls : List (V2Line ℚ))
    (h : ∀ l ∈ ls, (-2 ^ 31 ≤ l.tag ∧ l.tag < 2 ^ 31) ∧ -2 ^ 31 ≤ l.corner ∧ l.corner < 2 ^ 31) : ∀ (n : ℕ) (g : Grid ℚ)
    (ws : List Char), (∀ c ∈ ws, isSpace c = true) →
    cornerLoop n g (ws ++ ls.flatMap (fun l => fmtLd l.tag ++ ',' :: (fmtLd l.corner ++ ',' :: (fmtFix 6 l.kx ++ ',' ::
      (fmtFix 6 l.ky ++ ',' :: (fmtFix 6 l.px ++ ',' :: (fmtFix 6 l.py ++ ',' :: (fmtFix 6 l.pz ++ ['\n'])))))))) =
      ((ls.map (fun l => (⟨l.tag, l.corner, bk 6 l.kx, bk 6 l.ky, bk 6 l.px, bk 6 l.py, bk 6 l.pz⟩ : V2Line ℚ))).take n).foldlM
        loadLine2 g >>= fun g => if ls.length < n then .error .fatal else .ok g := by
  induction ls with
  | nil =>
    intro n g ws hw
    cases n with
    | zero => rfl
    | succ n =>
      have : scanf fmt7 ws = ([], ws) := by
        have hd : ws.dropWhile isSpace = [] := by
          rw [List.dropWhile_eq_nil_iff]; intro c hc; simpa using hw c hc
        unfold fmt7
        rw [scanf]
        unfold parseInt
        rw [hd]
        rfl
      simp only [List.flatMap_nil, List.append_nil, cornerLoop, this, cornerLine, AprilGrid.error_bind]
      rfl
  | cons l ls ih =>
    intro n g ws hw
    cases n with
    | zero => rfl
    | succ n =>
      have hl := h l (by simp)
      rw [List.flatMap_cons, cornerLoop]
      simp only [List.append_assoc, List.cons_append, List.nil_append]
      rw [corner_scan l hl ws _ hw (noDig_cons (by decide))]
      simp only [cornerLine]
      rw [wrap32_id hl.1.1 hl.1.2, wrap32_id hl.2.1 hl.2.2, List.map_cons, List.take_succ_cons, List.foldlM_cons]
      cases loadLine2 g ⟨l.tag, l.corner, bk 6 l.kx, bk 6 l.ky, bk 6 l.px, bk 6 l.py, bk 6 l.pz⟩ with
      | error e => rfl
      | ok g1 =>
        rw [AprilGrid.ok_bind, AprilGrid.ok_bind]
        have := ih (fun l hl => h l (by simp [hl])) n g1 ['\n'] (by simp; rfl)
        simp only [List.singleton_append] at this
        rw [this]
        simp

theorem fmtFix6 (x : ℚ) : fmtFix 6 x = fmtF x := rfl

/-- **C141, second format.**  A file in the second format is read as it says: target, and as many corners as announced; if there are
fewer, the program stops. -/
theorem C141_second (f : V2 ℚ) (gap title : List Char) (h : Fits2 f gap title) (g : Grid ℚ) :
    loadv2Text g (v2Text f gap title) = Data.loadv2 g (.v2 (pr2 f)) := by
  have cL := fun n : ℤ => fmtLd_not_mem n ':' (by decide) (by decide)
  have nL := fun n : ℤ => fmtLd_not_mem n '\n' (by decide) (by decide)
  have cF := fun x => fmtFix_not_mem 6 x ':' (by decide) (by decide) (by decide)
  have nF := fun x => fmtFix_not_mem 6 x '\n' (by decide) (by decide) (by decide)
  have lL := fun {n : ℤ} (h1 : -2 ^ 63 ≤ n) (h2 : n < 2 ^ 63) => fmtLd_length h1 h2
  have hr := h.rows
  have hc := h.cols
  have hk := h.corners
  have l1 := lL h.ts.1 h.ts.2
  have l2 := lL (n := (f.rows : ℤ)) (by omega) (by omega)
  have l3 := lL (n := (f.cols : ℤ)) (by omega) (by omega)
  have l4 := fmtF_length h.size
  have l5 := fmtF_length h.spacing
  have l6 := lL (n := (f.corners : ℤ)) (by omega) (by omega)
  rw [← fmtFix6] at l4 l5
  unfold loadv2Text v2Text
  rw [parse_key "timestamp" _ _ (by decide) (by decide) (by decide) (cL _) (nL _) (by
    have : ("timestamp".toList).length = 9 := by decide
    omega), AprilGrid.ok_bind]
  simp only
  rw [parse_key "num_rows" _ _ (by decide) (by decide) (by decide) (cL _) (nL _) (by
    have : ("num_rows".toList).length = 8 := by decide
    omega), AprilGrid.ok_bind]
  simp only
  rw [parse_key "num_cols" _ _ (by decide) (by decide) (by decide) (cL _) (nL _) (by
    have : ("num_cols".toList).length = 8 := by decide
    omega), AprilGrid.ok_bind]
  simp only
  rw [parse_key "tag_size" _ _ (by decide) (by decide) (by decide) (cF _) (nF _) (by
    have : ("tag_size".toList).length = 8 := by decide
    omega), AprilGrid.ok_bind]
  simp only
  rw [parse_key "tag_spacing" _ _ (by decide) (by decide) (by decide) (cF _) (nF _) (by
    have : ("tag_spacing".toList).length = 11 := by decide
    omega), AprilGrid.ok_bind]
  simp only
  rw [skip_line gap _ h.gap.1 h.gap.2, parse_key "corners_detected" _ _ (by decide) (by decide) (by decide) (cL _) (nL _) (by
    have : ("corners_detected".toList).length = 16 := by decide
    omega), AprilGrid.ok_bind]
  simp only
  rw [skip_line title _ h.title.1 h.title.2, atol_text _ h.ts.1 h.ts.2, atoi_text _ (by omega) hr, atoi_text _ (by omega) hc,
    atoi_text _ (by omega) hk, atof_text, atof_text, Int.toNat_natCast, Int.toNat_natCast, Int.toNat_natCast]
  have := corner_loop f.lines h.lines f.corners (withTarget g f.ts f.rows f.cols (bk 6 f.size) (bk 6 f.spacing)) [] (by simp)
  rw [List.nil_append] at this
  rw [this]
  unfold Data.loadv2 pr2
  simp only [List.length_map]

/-- **C141, refuted.**  What `save` writes cannot be read as the second format (the program stops), and a file in the second format
is read as the first as a grid without corners: only the value returned says that nothing was read. -/
theorem C141_formats_refuted (g g0 : Grid ℚ) (file : List Char) (hs : saveText g = .ok file) (f : V2 ℚ) (gap title : List Char)
    (h : Fits2 f gap title) :
    loadv2Text g0 file = .error .fatal ∧ loadText g0 (v2Text f gap title) = .ok (-1, clear g0) := by
  constructor
  · unfold saveText at hs
    cases hls : AprilGrid.save id id g with
    | error e => rw [hls] at hs; cases hs
    | ok ls =>
      rw [hls, AprilGrid.ok_bind] at hs
      cases hs
      unfold loadv2Text parseLine
      rw [header_eq, fgets_line 1023 _ _ head'_nl (by have := head'_len; omega)]
      simp only
      rw [strtok_value (head' ++ ['\n']) (by simp) (by decide +kernel)]
      simp only
      rw [if_pos (by decide +kernel)]
      rfl
  · have nL := fun n : ℤ => fmtLd_not_mem n '\n' (by decide) (by decide)
    have l1 := fmtLd_length h.ts.1 h.ts.2
    have hn : '\n' ∉ keyLine "timestamp" (fmtLd f.ts) := by
      unfold keyLine
      have : '\n' ∉ "timestamp".toList := by decide
      simp only [List.mem_append, List.mem_cons, not_or]
      exact ⟨this, by decide, by decide, nL _⟩
    have hlen : (keyLine "timestamp" (fmtLd f.ts)).length < 8191 := by
      unfold keyLine
      have : ("timestamp".toList).length = 9 := by decide
      simp only [List.length_append, List.length_cons]
      omega
    have hn2 : '\n' ∉ keyLine "num_rows" (fmtLd f.rows) := by
      unfold keyLine
      have : '\n' ∉ "num_rows".toList := by decide
      simp only [List.mem_append, List.mem_cons, not_or]
      exact ⟨this, by decide, by decide, nL _⟩
    unfold loadText v2Text
    rw [getLines_cons_line _ hn, getLines_cons_line _ hn2]
    simp only [List.length_cons]
    rw [skipLine_line _ _ hn hlen, AprilGrid.ok_bind, loadLoop]
    have : ∀ rest, scanf fmt12 (keyLine "num_rows" (fmtLd f.rows) ++ rest) = ([], keyLine "num_rows" (fmtLd f.rows) ++ rest) := by
      intro rest
      have hh : keyLine "num_rows" (fmtLd f.rows) = 'n' :: ("um_rows".toList ++ ':' :: ' ' :: fmtLd f.rows) := rfl
      rw [hh, List.cons_append]
      unfold fmt12
      rw [scanf]
      rfl
    rw [this]
    simp only
    rw [if_pos (by simp)]
    rfl

end Yac.GridFile
