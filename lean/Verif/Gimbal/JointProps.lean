import Verif.Gimbal.FileProps

namespace Yac.Gimbal
open Yac.Text Yac.Num

/-! ### `string_split` -/

theorem getAll_count (d : Char) : ∀ s : Str, s ≠ [] →
    (getAll d s).length = s.count d + (if s.getLast? = some d then 0 else 1) := by
  intro s
  induction hn : s.length using Nat.strong_induction_on generalizing s with
  | _ n ih =>
    intro h0
    by_cases hd : d ∈ s
    · obtain ⟨t, l, rfl, ht⟩ := List.eq_append_cons_of_mem hd
      rw [getAll_cons d t ht]
      by_cases hl : l = []
      · subst hl
        simp [getAll, List.count_eq_zero_of_not_mem ht]
      · have := ih l.length (by rw [← hn]; simp; omega) l rfl hl
        rw [List.length_cons, this, List.count_append, List.count_cons_self, List.count_eq_zero_of_not_mem ht]
        have hg : (t ++ d :: l).getLast? = l.getLast? := by
          rw [List.getLast?_append, List.getLast?_cons]
          cases hq : l.getLast? with
          | none => simp at hq; exact absurd hq hl
          | some z => simp [List.getLast?_eq_some_getLast hl] at hq; simp [hq, List.getLastD_eq_getLast?, List.getLast?_eq_some_getLast hl]
        rw [hg]; omega
    · rw [getAll_last d s hd h0, List.count_eq_zero_of_not_mem hd, if_neg (fun h => hd (List.mem_of_getLast? h))]
      rfl

/-- Splitting a line: the non-empty pieces between the delimiters.  Without assertions there is never a write beyond
the array; with assertions the program stops exactly when a piece is empty. -/
theorem C124_split (d : Char) (s : Str) (h0 : s ≠ []) :
    (∃ n, split false d s = .ok (n, (getAll d s).filter (fun t => t ≠ [])) ∧ n = (getAll d s).length) ∧
    (([] ∉ getAll d s) → split true d s = .ok ((getAll d s).length, getAll d s)) ∧
    (([] ∈ getAll d s) → split true d s = .error .fatal) := by
  have hc := getAll_count d s h0
  have hle : (tokens d s).length ≤ (getAll d s).length := List.length_filter_le _ _
  refine ⟨⟨(getAll d s).length, ?_, rfl⟩, fun h => ?_, fun h => ?_⟩
  · unfold split
    simp only [← hc]
    rw [if_neg (by simp), if_neg (by omega)]; rfl
  · have e : tokens d s = getAll d s := by
      unfold tokens
      rw [List.filter_eq_self]
      intro t ht
      simp only [decide_eq_true_eq]
      rintro rfl; exact h ht
    unfold split
    simp only [← hc, e]
    rw [if_neg (by simp), if_neg (by omega)]
  · have hlt : (tokens d s).length < (getAll d s).length := by
      unfold tokens
      rw [List.length_filter_lt_length_iff_exists]
      exact ⟨[], h, by simp⟩
    unfold split
    simp only [← hc]
    rw [if_pos ⟨trivial, by omega⟩]

example : [] ∈ getAll ',' "1,,2\n".toList ∧ split false ',' "1,,2\n".toList = .ok (3, ["1".toList, "2\n".toList]) :=
  ⟨by decide, by decide⟩

/-! ### The joint file -/

theorem getAll_row (ts : Str) (hts : ',' ∉ ts) (angles : List Str) (h : ∀ a ∈ angles, ',' ∉ a) :
    getAll ',' (ts ++ angles.flatMap (fun a => ',' :: a) ++ ['\n']) =
      match angles.getLast? with
      | none => [ts ++ ['\n']]
      | some a => ts :: angles.dropLast ++ [a ++ ['\n']] := by
  induction angles generalizing ts with
  | nil =>
    simp only [List.flatMap_nil, List.append_nil, List.getLast?_nil]
    rw [getAll_last _ _ _ (by simp)]
    simp only [List.mem_append, not_or]
    exact ⟨hts, by decide⟩
  | cons a as ih =>
    have e : ts ++ (a :: as).flatMap (fun a => ',' :: a) ++ ['\n'] =
        ts ++ ',' :: (a ++ as.flatMap (fun a => ',' :: a) ++ ['\n']) := by simp
    rw [e, getAll_cons _ _ hts, ih a (h a (by simp)) (fun x hx => h x (by simp [hx]))]
    cases as with
    | nil => simp
    | cons b bs => simp [List.getLast?_cons]

theorem strtol_ts (ts : ℤ) (h : -2 ^ 63 ≤ ts ∧ ts < 2 ^ 63) : strtol (fmtLd ts) = ts := by
  have hp := parseInt_fmtLd ts [] [] (by simp) (by intro c hc; simp at hc)
  simp only [List.nil_append, List.append_nil] at hp
  unfold strtol
  rw [hp]
  exact toLong_natAbs h.1 h.2

theorem row_line (n : Nat) (r : RowText) (ok : r.Ok n) (rest : Str) :
    getLine 1023 (r.text ++ rest) = some (r.text, rest) := by
  have e : r.text ++ rest = (fmtLd r.ts ++ r.angles.flatMap (fun a => ',' :: a)) ++ '\n' :: rest := by simp [RowText.text]
  have hnot : ∀ c : Char, c ≠ '-' → isDig c = false → c ≠ ',' → (∀ a ∈ r.angles, c ∉ a) →
      c ∉ fmtLd r.ts ++ r.angles.flatMap (fun a => ',' :: a) := by
    intro c h1 h2 h3 h4 hc
    rw [List.mem_append] at hc
    rcases hc with hc | hc
    · exact fmtLd_not_mem _ _ h1 h2 hc
    · obtain ⟨a, ha, hca⟩ := List.mem_flatMap.mp hc
      rcases List.mem_cons.mp hca with h | h
      · exact h3 h
      · exact h4 a ha h
  rw [e, getLine_line]
  · rfl
  · exact hnot _ (by decide) (by decide) (by decide) (fun a ha h => ((ok.cells a ha).2 _ h).2.1 rfl)
  · exact hnot _ (by decide) (by decide) (by decide) (fun a ha h => ((ok.cells a ha).2 _ h).2.2 rfl)
  · have := ok.fits
    unfold RowText.text at this
    simp only [List.length_append, List.length_cons, List.length_nil] at this ⊢
    omega

theorem fmtLd_ne (ts : ℤ) : fmtLd ts ≠ [] := by
  unfold fmtLd
  simp [natText_ne]

theorem row_split (chk : Bool) (n : Nat) (r : RowText) (ok : r.Ok n) (h0 : n ≠ 0) :
    split chk ',' r.text = .ok (n + 1, fmtLd r.ts :: r.angles.dropLast ++ [(r.angles.getLastD []) ++ ['\n']]) := by
  have hne : r.text ≠ [] := by simp [RowText.text]
  have hg := getAll_row (fmtLd r.ts) (fmtLd_not_mem _ _ (by decide) (by decide)) r.angles
    (fun a ha h => ((ok.cells a ha).2 _ h).1 rfl)
  have hang : r.angles ≠ [] := by
    intro h; have := ok.count; rw [h] at this; exact h0 (by simpa using this.symm)
  obtain ⟨a, ha⟩ : ∃ a, r.angles.getLast? = some a := ⟨_, List.getLast?_eq_some_getLast hang⟩
  rw [ha] at hg
  simp only at hg
  have hg' : getAll ',' r.text = fmtLd r.ts :: r.angles.dropLast ++ [a ++ ['\n']] := hg
  have hlen : (getAll ',' r.text).length = n + 1 := by
    rw [hg']
    simp only [List.length_append, List.length_cons, List.length_dropLast, List.length_nil, ok.count]
    omega
  have hno : [] ∉ getAll ',' r.text := by
    rw [hg']
    simp only [List.cons_append, List.mem_cons, List.mem_append, List.not_mem_nil, or_false, not_or]
    refine ⟨(fmtLd_ne _).symm, fun h => (ok.cells [] (List.mem_of_mem_dropLast h)).1 rfl, by simp⟩
  have hD : r.angles.getLastD [] = a := by rw [List.getLastD_eq_getLast?, ha]; rfl
  obtain ⟨⟨m, hm, hmn⟩, h2, -⟩ := C124_split ',' r.text hne
  cases chk with
  | true => rw [h2 hno, hlen, hg', hD]
  | false =>
    rw [hm, hmn, hlen]
    have e : (getAll ',' r.text).filter (fun t => t ≠ []) = getAll ',' r.text := by
      rw [List.filter_eq_self]
      intro t ht
      simp only [decide_eq_true_eq]
      rintro rfl; exact hno ht
    rw [e, hg', hD]

/-- One row with three angles. -/
theorem loadView_row (chk : Bool) (r : RowText) (ok : r.Ok 3) (rest : Str) :
    loadView chk 3 (r.text ++ rest) = .ok ((r.ts, r.angle), rest) := by
  unfold loadView
  rw [row_line 3 r ok]
  simp only
  rw [row_split chk 3 r ok (by norm_num), okb']
  obtain ⟨a, b, c, hh⟩ := List.length_eq_three.mp ok.count
  unfold splitAt RowText.angle
  rw [hh]
  simp only [List.dropLast, List.getLastD_eq_getLast?, List.getLast?, List.cons_append, List.nil_append,
    List.getElem?_cons_zero, List.getElem?_cons_succ, okb', List.getD_cons_zero, List.getD_cons_succ]
  rw [if_neg (by norm_num), strtol_ts r.ts ok.ts]
  congr 3
  simp [atof_nl]

theorem loadViews_rows (chk : Bool) (rows : List RowText) (ok : ∀ r ∈ rows, r.Ok 3) (rest : Str) (j : Joints) :
    loadViews chk 3 rows.length j (rows.flatMap RowText.text ++ rest) =
      .ok { j with timestamps := j.timestamps ++ rows.map (·.ts),
                   angles := rows.foldl (fun m r => SMap.set r.ts r.angle m) j.angles } := by
  induction rows generalizing j with
  | nil => simp [loadViews]
  | cons r rows ih =>
    rw [List.flatMap_cons, List.append_assoc, List.length_cons, loadViews, loadView_row chk r (ok r (by simp)), okb']
    simp only
    rw [ih (fun x hx => ok x (by simp [hx]))]
    simp

theorem find_rows (rows : List RowText) (m : List (ℤ × (ℚ × ℚ × ℚ))) (ts : ℤ) :
    SMap.find ts (rows.foldl (fun m r => SMap.set r.ts r.angle m) m) =
      match rows.reverse.find? (fun r => r.ts = ts) with
      | some r => some r.angle
      | none => SMap.find ts m := by
  induction rows generalizing m with
  | nil => rfl
  | cons r rows ih =>
    rw [List.foldl_cons, ih, List.reverse_cons, List.find?_append]
    cases hq : rows.reverse.find? (fun r => r.ts = ts) with
    | some q => rfl
    | none =>
      simp only [Option.none_or]
      rw [SMap.find_set]
      by_cases h : r.ts = ts
      · simp [h]
      · have h' : ¬ ts = r.ts := fun e => h e.symm
        simp [h, h']

/-- A joint file with three angles per row: the timestamps in the order of the file, and for every timestamp the
angles of its last row. -/
theorem C124_joints (chk : Bool) (note0 note1 : Str) (rows : List RowText) (h0 : '\n' ∉ note0 ∧ note0.length < 9045)
    (h1 : '\n' ∉ note1 ∧ note1.length < 9045) (hn : rows.length < 2 ^ 31) (ok : ∀ r ∈ rows, r.Ok 3) :
    ∃ j, loadJoints chk (some (jointText 3 note0 note1 rows)) = .ok j ∧ j.numViews = rows.length ∧ j.numJoints = 3 ∧
      j.timestamps = rows.map (·.ts) ∧
      ∀ ts, SMap.find ts j.angles = (rows.reverse.find? (fun r => r.ts = ts)).map RowText.angle := by
  have e : jointText 3 note0 note1 rows = kv 0 "num_views".toList (natText rows.length) ++
      (kv 0 "num_joints".toList (natText 3) ++ (note0 ++ '\n' :: (note1 ++ '\n' :: (rows.flatMap RowText.text ++ [])))) := by
    simp only [jointText, List.append_assoc, List.cons_append, List.nil_append, List.append_nil]
  unfold loadJoints
  simp only
  rw [e, keyInt_kv 0 _ _ _ (by decide) (by decide) hn, okb']
  simp only
  rw [keyInt_kv 0 _ 3 _ (by decide) (by decide) (by norm_num), okb']
  simp only
  rw [skip_line _ _ h0.1 h0.2, skip_line _ _ h1.1 h1.2, Int.toNat_natCast]
  have hv := loadViews_rows chk rows ok [] ⟨(rows.length : ℤ), ((3 : ℕ) : ℤ), [], []⟩
  rw [show (3 : ℤ) = ((3 : ℕ) : ℤ) from rfl] at hv
  rw [hv]
  refine ⟨_, rfl, rfl, rfl, by simp, fun ts => ?_⟩
  simp only
  rw [find_rows]
  cases rows.reverse.find? (fun r => r.ts = ts) <;> rfl

/-- Rows with fewer than three angles: the program reads a missing string (or stops, if the number of angles is not the
announced one and assertions are compiled in). -/
theorem C124_joints_refuted (chk : Bool) (n joints : Nat) (hj : joints < 2 ^ 31) (hn0 : n ≠ 0) (hn : n < 3) (note0 note1 : Str)
    (r : RowText) (rows : List RowText) (h0 : '\n' ∉ note0 ∧ note0.length < 9045) (h1 : '\n' ∉ note1 ∧ note1.length < 9045)
    (hl : (r :: rows).length < 2 ^ 31) (ok : r.Ok n) :
    loadJoints chk (some (jointText joints note0 note1 (r :: rows))) =
      .error (if chk = true ∧ joints ≠ n then .fatal else .oob) := by
  have e : jointText joints note0 note1 (r :: rows) = kv 0 "num_views".toList (natText (r :: rows).length) ++
      (kv 0 "num_joints".toList (natText joints) ++ (note0 ++ '\n' :: (note1 ++ '\n' :: (r.text ++ rows.flatMap RowText.text)))) := by
    simp only [jointText, List.append_assoc, List.cons_append, List.nil_append, List.flatMap_cons]
  unfold loadJoints
  simp only
  rw [e, keyInt_kv 0 _ _ _ (by decide) (by decide) hl, okb']
  simp only
  rw [keyInt_kv 0 _ joints _ (by decide) (by decide) hj, okb']
  simp only
  rw [skip_line _ _ h0.1 h0.2, skip_line _ _ h1.1 h1.2, Int.toNat_natCast, List.length_cons, loadViews]
  have hv : loadView chk joints (r.text ++ rows.flatMap RowText.text) =
      .error (if chk = true ∧ joints ≠ n then .fatal else .oob) := by
    unfold loadView
    rw [row_line n r ok]
    simp only
    rw [row_split chk n r ok hn0, okb']
    simp only [splitAt, List.cons_append, List.getElem?_cons_zero, okb', List.getElem?_cons_succ]
    by_cases hc : chk = true ∧ joints ≠ n
    · rw [if_pos hc, if_pos ⟨hc.1, by push_cast; omega⟩]
    · rw [if_neg hc, if_neg (fun h => hc ⟨h.1, fun h' => h.2 (by push_cast; omega)⟩)]
      have hlen : (r.angles.dropLast ++ [r.angles.getLastD [] ++ ['\n']]).length = n := by
        simp only [List.length_append, List.length_dropLast, List.length_cons, List.length_nil, ok.count]; omega
      generalize r.angles.dropLast ++ [r.angles.getLastD [] ++ ['\n']] = l at hlen ⊢
      have h2 : l[2]? = none := by rw [List.getElem?_eq_none_iff]; omega
      have hx : ∀ i : Nat, (∃ t, l[i]? = some t) ∨ l[i]? = none := fun i => by cases h : l[i]? <;> simp
      rw [h2]
      rcases hx 0 with ⟨t, ht⟩ | ht <;> rcases hx 1 with ⟨u, hu⟩ | hu <;> simp only [ht, hu] <;> rfl
  rw [hv]; rfl

/-! ### Concrete cases -/

/-- Two rows with the same timestamp. -/
def demoRows : List RowText := [⟨5, ["0.5".toList, "1".toList, "-2.25".toList]⟩, ⟨5, ["1.5".toList, "1".toList, "0".toList]⟩]

theorem demoRows_ok : ∀ r ∈ demoRows, r.Ok 3 := by
  intro r hr
  simp only [demoRows, List.mem_cons, List.not_mem_nil, or_false] at hr
  rcases hr with rfl | rfl
  · exact ⟨by norm_num, rfl, by decide, by decide⟩
  · exact ⟨by norm_num, rfl, by decide, by decide⟩

/-- Both timestamps stay in the list, the angles of the first row are lost. -/
example : ∃ j, loadJoints true (some (jointText 3 "".toList "ts,j0,j1,j2".toList demoRows)) = .ok j ∧
    j.timestamps = [5, 5] ∧ SMap.find 5 j.angles = some (RowText.angle ⟨5, ["1.5".toList, "1".toList, "0".toList]⟩) := by
  obtain ⟨j, h1, -, -, h2, h3⟩ := C124_joints true "".toList "ts,j0,j1,j2".toList demoRows ⟨by decide, by decide⟩
    ⟨by decide, by decide⟩ (by decide) demoRows_ok
  exact ⟨j, h1, by rw [h2]; rfl, by rw [h3]; rfl⟩

/-- A camera section with the equidistant model. -/
def demoCam : CamText := ⟨"cam0:".toList, 2, ["752".toList, "480".toList], "pinhole".toList, "equi4".toList,
  ["458.5".toList, "457.25".toList, "367".toList, "248".toList], ["0.1".toList, "0".toList, "0".toList, "0".toList]⟩

theorem numOk_of (c : Str) (h : (c.all fun x => x ≠ ',' && x ≠ ']' && x ≠ '[' && x ≠ ':' && x ≠ '\n' && x ≠ nul) &&
    decide ((squeeze c).length ≤ 99) = true) : NumOk c := by
  simp only [Bool.and_eq_true, List.all_eq_true, decide_eq_true_eq] at h
  refine ⟨fun x hx => ?_, h.2⟩
  obtain ⟨⟨⟨⟨⟨h1, h2⟩, h3⟩, h4⟩, h5⟩, h6⟩ := h.1 x hx
  exact ⟨h1, h2, h3, h4, h5, h6⟩

theorem demoCam_ok : demoCam.Ok 752 480 where
  head := ⟨by decide, by decide⟩
  indent := by decide
  res := ⟨rfl, fun c hc => numOk_of c (by revert c; decide), by unfold Fits; decide⟩
  size := by decide +kernel
  projModel := ⟨by decide, by decide⟩
  distModel := ⟨by decide, by decide⟩
  proj := ⟨rfl, fun c hc => numOk_of c (by revert c; decide), by unfold Fits; decide⟩
  dist := ⟨rfl, fun c hc => numOk_of c (by revert c; decide), by unfold Fits; decide⟩

/-- A transform. -/
def demoExt : List Str := ["0.5".toList, "0".toList, "0".toList, "0".toList, "0".toList, "0".toList, "1".toList]

theorem demoExt_ok (k : Str) (h : k.length ≤ 900) : VecOk 7 0 k demoExt := by
  refine ⟨rfl, fun c hc => numOk_of c (by revert c; decide), ?_⟩
  have e : (vec demoExt).length = 23 := by decide
  unfold Fits kv
  simp only [List.length_append, List.length_cons, List.length_replicate, List.length_nil, e]; omega

/-- A configuration with one camera. -/
def demoConf : ConfText := ⟨2, [demoCam], demoExt, demoExt, demoExt, demoExt, demoExt, demoExt⟩

theorem demoConf_ok : demoConf.Ok [(752, 480)] where
  few := by decide
  links := by decide
  cams := .cons demoCam_ok .nil
  cam0 := demoExt_ok _ (by decide)
  cam1 := demoExt_ok _ (by decide)
  effector := demoExt_ok _ (by decide)
  link0 := demoExt_ok _ (by decide)
  link1 := demoExt_ok _ (by decide)
  gimbal := demoExt_ok _ (by decide)

/-- The models of the file are ignored: an equidistant camera is read as `radtan4`. -/
theorem C124_models_refuted : ∃ (c : ConfText) (sizes : List (ℤ × ℤ)) (k : Config), c.Ok sizes ∧
    loadConfig (some c.text) = .ok k ∧ k ≠ c.config sizes ∧ c.cams.map (·.distModel) = ["equi4".toList] ∧
    k.cams.map (·.distModel) = ["radtan4".toList] := by
  have h := C124_config_partial demoConf _ demoConf_ok []
  rw [List.append_nil] at h
  refine ⟨demoConf, _, _, demoConf_ok, h, fun e => ?_, rfl, rfl⟩
  have := congrArg (fun k : Config => k.cams.map (·.distModel)) e
  exact absurd this (by decide)

example : loadConfig (some (resultsText demoCam demoCam demoExt demoExt demoExt demoExt demoExt demoExt demoExt)) = .error .fatal :=
  C124_results_refuted demoCam demoCam 752 480 752 480 demoCam_ok
    ⟨⟨by decide, by decide⟩, demoCam_ok.indent, demoCam_ok.res, demoCam_ok.size, demoCam_ok.projModel, demoCam_ok.distModel,
      demoCam_ok.proj, demoCam_ok.dist⟩ _ _ _ _ _ _ _ (demoExt_ok _ (by decide))

example : keyReals 7 "cam0_ext".toList (kv 0 "cam0_ext".toList (vec ["1".toList, "2".toList])) = .ok ([1, 2, 0, 0, 0, 0, 0], []) := by
  decide +kernel

example (chk : Bool) : loadJoints chk (some (jointText 2 [] [] [⟨5, ["0.5".toList, "1".toList]⟩])) = .error .oob := by
  rw [C124_joints_refuted chk 2 2 (by norm_num) (by norm_num) (by norm_num) [] [] ⟨5, ["0.5".toList, "1".toList]⟩ []
    ⟨by simp, by simp⟩ ⟨by simp, by simp⟩ (by norm_num) ⟨by norm_num, rfl, by decide, by decide⟩]
  simp

end Yac.Gimbal
