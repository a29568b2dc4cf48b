import Verif.Save.ViMore

/-! # C127: the tables of poses, speeds and biases -/

namespace Yac.Save
open Yac.Config Yac.Text Yac.Fmt Yac.Ctor

/-! ### Integers -/

theorem f64_int {n : ℤ} (h : |n| < 2 ^ 53) : Num.f64 (n : ℚ) = n := f64_double ⟨n, 0, h, by simp⟩

theorem asDouble_fmtLd {n : ℤ} (h : |n| < 2 ^ 53) : asDouble (fmtLd n) = some (n : ℚ) := by
  have hs := strtod_text (n : ℚ) n.natAbs [] [] [] 0 rfl (by intro c hc; cases hc) rfl
  have hm : minus (n : ℚ) ++ natText n.natAbs ++ [] ++ [] = fmtLd n := by
    unfold minus fmtLd
    by_cases hn : n < 0
    · rw [if_pos (by exact_mod_cast hn), if_pos hn]; simp
    · rw [if_neg (by exact_mod_cast hn), if_neg hn]; simp
  rw [hm] at hs
  rw [asDouble_of hs]
  congr 1
  have hv : signed (decide ((n : ℚ) < 0)) (((n.natAbs : ℚ) + (natOf [] : ℚ) / 10 ^ ([] : List Char).length) * 10 ^ (0 : ℤ)) = n := by
    have h0 : ((natOf [] : ℕ) : ℚ) = 0 := by rfl
    rw [h0]
    have ha : ((n.natAbs : ℕ) : ℚ) = |(n : ℚ)| := by rw [Nat.cast_natAbs]; exact Int.cast_abs
    rw [ha]
    simp only [zero_div, add_zero, zpow_zero, mul_one]
    have h := signed_abs (n : ℚ) |(n : ℚ)|
    rw [sub_self, abs_zero, abs_eq_zero] at h
    linarith
  rw [hv]
  exact f64_int h

theorem token_fmtLd (n : ℤ) : Token (fmtLd n) := by
  refine ⟨?_, fun c hc => dig_token ?_⟩
  · unfold fmtLd
    intro h
    exact natText_ne _ (List.append_eq_nil_iff.mp h).2
  · rcases fmtLd_chars n c hc with h | h <;> simp [h]

/-! ### The lines -/

/-- The texts of a line. -/
def lineTokens (l : ℤ × List ℚ) : List (List Char) :=
  fmtLd (Num.tsdecomp Num.f64 l.1).1 :: fmtLd (Num.tsdecomp Num.f64 l.1).2 :: l.2.map fmtF

theorem token_line (l : ℤ × List ℚ) : ∀ t ∈ lineTokens l, Token t := by
  intro t ht
  unfold lineTokens at ht
  rcases List.mem_cons.mp ht with rfl | ht
  · exact token_fmtLd _
  rcases List.mem_cons.mp ht with rfl | ht
  · exact token_fmtLd _
  obtain ⟨x, _, rfl⟩ := List.mem_map.mp ht
  exact token_fmtF x

theorem cells_seq (ts : List (List Char)) (ht : ∀ t ∈ ts, Token t) (l : List Char) :
    cells (ts.flatMap (fun t => t ++ ",".toList) ++ l) = ts ++ cells l := by
  induction ts with
  | nil => rfl
  | cons a t ih =>
    have := cells_cons (ws := []) (by intro c hc; cases hc) (ht a (by simp)) (t.flatMap (fun t => t ++ ",".toList) ++ l)
    rw [ih (fun t h => ht t (by simp [h]))] at this
    rw [List.cons_append, ← this]
    congr 1
    simp

theorem line_text (l : ℤ × List ℚ) : tableLine l.1 l.2 = "    ".toList ++ (lineTokens l).flatMap (fun t => t ++ ",".toList) ++ "\n".toList := by
  unfold tableLine lineTokens
  simp [List.flatMap_map]

theorem cells_blank {ws : List Char} (h : ∀ c ∈ ws, isSpace c = true) (h0 : ws ≠ []) : cells ws = [[]] := by
  have hn : ',' ∉ ws := fun hc => absurd (h _ hc) (by decide)
  unfold cells
  rw [getAll_last _ _ hn h0]
  simp only [List.map_cons, List.map_nil]
  congr 1
  unfold trim
  rw [List.dropWhile_eq_nil_iff.mpr h]
  rfl

theorem cells_lines (lines : List (ℤ × List ℚ)) : ∀ {ws : List Char}, (∀ c ∈ ws, isSpace c = true) →
    cells (ws ++ lines.flatMap (fun l => tableLine l.1 l.2) ++ "  ".toList) = lines.flatMap lineTokens ++ [[]] := by
  induction lines with
  | nil =>
    intro ws hw
    simp only [List.flatMap_nil, List.append_nil, List.nil_append]
    exact cells_blank (fun c hc => by
      rcases List.mem_append.mp hc with h | h
      · exact hw c h
      · exact List.all_eq_true.mp (show "  ".toList.all isSpace = true by decide) c h) (by simp)
  | cons a t ih =>
    intro ws hw
    have hi := ih (ws := "\n".toList) (fun c hc => List.all_eq_true.mp (show "\n".toList.all isSpace = true by decide) c hc)
    have hw' : ∀ c ∈ ws ++ "    ".toList, isSpace c = true := fun c hc => by
      rcases List.mem_append.mp hc with h | h
      · exact hw c h
      · exact List.all_eq_true.mp (show "    ".toList.all isSpace = true by decide) c h
    have h1 := cells_cons hw' (token_fmtLd (Num.tsdecomp Num.f64 a.1).1)
      ((fmtLd (Num.tsdecomp Num.f64 a.1).2 :: a.2.map fmtF).flatMap (fun t => t ++ ",".toList) ++
        ("\n".toList ++ t.flatMap (fun l => tableLine l.1 l.2) ++ "  ".toList))
    rw [cells_seq _ (fun t ht => token_line a t (List.mem_cons_of_mem _ ht)), hi] at h1
    rw [List.flatMap_cons, line_text]
    have hr : lineTokens a ++ t.flatMap lineTokens ++ [[]] = fmtLd (Num.tsdecomp Num.f64 a.1).1 ::
        ((fmtLd (Num.tsdecomp Num.f64 a.1).2 :: a.2.map fmtF) ++ (t.flatMap lineTokens ++ [[]])) := by
      simp [lineTokens]
    rw [List.flatMap_cons, hr, ← h1]
    congr 1
    simp [lineTokens, List.append_assoc]

theorem table_items (lines : List (ℤ × List ℚ)) :
    items ("\n".toList ++ lines.flatMap (fun l => tableLine l.1 l.2) ++ "  ".toList) = lines.flatMap lineTokens := by
  have := cells_lines lines (ws := "\n".toList) (fun c hc => List.all_eq_true.mp (show "\n".toList.all isSpace = true by decide) c hc)
  unfold items
  rw [this]
  simp

/-! ### Timestamps -/

theorem trunc_near (p : ℚ) : |(Num.truncQ p : ℚ)| ≤ |p| ∧ |p - Num.truncQ p| < 1 := by
  unfold Num.truncQ
  by_cases h0 : 0 ≤ p
  · rw [if_pos h0, abs_of_nonneg h0]
    have f1 : ((p.floor : ℤ) : ℚ) ≤ p := Rat.floor_le p
    have f2 : p < p.floor + 1 := by exact_mod_cast Rat.lt_floor_add_one p
    have f3 : (0 : ℤ) ≤ p.floor := Rat.le_floor_iff.mpr (by exact_mod_cast h0)
    have f4 : (0 : ℚ) ≤ p.floor := by exact_mod_cast f3
    rw [abs_of_nonneg f4, abs_of_nonneg (by linarith)]
    exact ⟨f1, by linarith⟩
  · rw [if_neg h0]
    have hn : p < 0 := not_le.mp h0
    rw [abs_of_neg hn]
    have f1 : (((-p).floor : ℤ) : ℚ) ≤ -p := Rat.floor_le _
    have f2 : -p < (-p).floor + 1 := by exact_mod_cast Rat.lt_floor_add_one (-p)
    have f3 : (0 : ℤ) ≤ (-p).floor := Rat.le_floor_iff.mpr (by push_cast; linarith)
    have f4 : (0 : ℚ) ≤ (-p).floor := by exact_mod_cast f3
    push_cast
    rw [abs_neg, abs_of_nonneg f4, abs_of_nonpos (by linarith)]
    exact ⟨f1, by linarith⟩

theorem trunc_int (n : ℤ) : Num.truncQ (n : ℚ) = n := by
  have := (trunc_near (n : ℚ)).2
  have h : |n - Num.truncQ n| < 1 := by exact_mod_cast this
  have := Int.abs_lt_one_iff.mp h
  omega

theorem decomp_bounds {ts : ℤ} (h : |ts| ≤ 2 ^ 62) :
    |(Num.tsdecomp Num.f64 ts).1| ≤ 4611686018 ∧ (Num.tsdecomp Num.f64 ts).1 * 1000000000 + (Num.tsdecomp Num.f64 ts).2 = ts ∧
      |(Num.tsdecomp Num.f64 ts).2| < 2 ^ 53 := by
  have e : Num.tsdecomp Num.f64 ts = (Num.truncQ (Num.f64 (Num.f64 ts * Num.f64 (1 / 1000000000))),
    ts - Num.truncQ (Num.f64 (Num.f64 (Num.truncQ (Num.f64 (Num.f64 ts * Num.f64 (1 / 1000000000))) : ℤ) * Num.f64 1000000000))) := rfl
  rw [e]
  have ea := Num.f64_err (ts : ℚ)
  have ee := Num.f64_err (1 / 1000000000 : ℚ)
  have ep := Num.f64_err (Num.f64 ts * Num.f64 (1 / 1000000000))
  have ht := trunc_near (Num.f64 (Num.f64 ts * Num.f64 (1 / 1000000000)))
  generalize Num.f64 (Num.f64 ts * Num.f64 (1 / 1000000000)) = p at ep ht ⊢
  generalize Num.f64 (ts : ℚ) = a at ea ep
  generalize Num.f64 (1 / 1000000000) = q at ee ep
  have hts : |(ts : ℚ)| ≤ 2 ^ 62 := by exact_mod_cast h
  have b1 : |a - ts| ≤ 512 := by linarith
  have b2 : |q - 1 / 1000000000| ≤ 1 / 1000000000 / 2 ^ 53 := by
    rw [abs_of_pos (by norm_num : (0 : ℚ) < 1 / 1000000000)] at ee
    rw [le_div_iff₀ (by norm_num)]
    exact ee
  have b3 : |a| ≤ 2 ^ 62 + 512 := by
    have := abs_add_le (a - ts) ts
    rw [sub_add_cancel] at this
    linarith
  have b4 : |q| ≤ 10001 / 10000000000000 := by
    have := abs_add_le (q - 1 / 1000000000) (1 / 1000000000)
    rw [sub_add_cancel, abs_of_pos (by norm_num : (0 : ℚ) < 1 / 1000000000)] at this
    norm_num at b2 this ⊢
    linarith
  have b5 : |a * q| ≤ 5000000000 := by
    rw [abs_mul]
    calc |a| * |q| ≤ (2 ^ 62 + 512) * (10001 / 10000000000000) := mul_le_mul b3 b4 (abs_nonneg _) (by norm_num)
      _ ≤ _ := by norm_num
  have b6 : |p - a * q| ≤ 1 / 1000000 := by
    have : |p - a * q| * 2 ^ 53 ≤ 5000000000 := ep.trans b5
    have h2 : (2 : ℚ) ^ 53 = 9007199254740992 := by norm_num
    rw [h2] at this
    linarith
  have b7 : |p - ts * (1 / 1000000000)| ≤ 1 / 300000 := by
    have e1 : p - ts * (1 / 1000000000) = (p - a * q) + (a - ts) * q + ts * (q - 1 / 1000000000) := by ring
    have e2 := abs_add_le (p - a * q + (a - ts) * q) (ts * (q - 1 / 1000000000))
    have e3 := abs_add_le (p - a * q) ((a - ts) * q)
    rw [← e1] at e2
    have e4 : |(a - ts) * q| ≤ 512 * (10001 / 10000000000000) := by
      rw [abs_mul]
      exact mul_le_mul b1 b4 (abs_nonneg _) (by norm_num)
    have e5 : |ts * (q - 1 / 1000000000)| ≤ 2 ^ 62 * (1 / 1000000000 / 2 ^ 53) := by
      rw [abs_mul]
      exact mul_le_mul hts b2 (abs_nonneg _) (by norm_num)
    norm_num at e4 e5 b6 ⊢
    norm_num at e2 e3
    linarith
  have hs1 : |(Num.truncQ p : ℚ)| < 4611686019 := by
    have := abs_add_le (p - ts * (1 / 1000000000)) (ts * (1 / 1000000000))
    rw [sub_add_cancel] at this
    have h2 : |(ts : ℚ) * (1 / 1000000000)| ≤ 2 ^ 62 * (1 / 1000000000) := by
      rw [abs_mul, abs_of_pos (by norm_num : (0 : ℚ) < 1 / 1000000000)]
      exact mul_le_mul_of_nonneg_right hts (by norm_num)
    have h3 := ht.1
    norm_num at h2 b7 this ⊢
    linarith
  have hs : |Num.truncQ p| ≤ 4611686018 := by
    have : |Num.truncQ p| < 4611686019 := by exact_mod_cast hs1
    omega
  have hn : |(ts : ℚ) - Num.truncQ p * 1000000000| < 2 ^ 53 := by
    have e1 : (ts : ℚ) - Num.truncQ p * 1000000000 = ((p - Num.truncQ p) - (p - ts * (1 / 1000000000))) * 1000000000 := by ring
    rw [e1, abs_mul, abs_of_pos (by norm_num : (0 : ℚ) < 1000000000)]
    have := abs_sub (p - Num.truncQ p) (p - ts * (1 / 1000000000))
    have h2 := ht.2
    have h3 : (2 : ℚ) ^ 53 = 9007199254740992 := by norm_num
    rw [h3]
    linarith
  generalize Num.truncQ p = s at hs hn ⊢
  have k1 : Num.f64 (s : ℚ) = s := f64_int (by omega)
  have k2 : Num.f64 (1000000000 : ℚ) = 1000000000 := by
    have := f64_int (n := 1000000000) (by norm_num)
    exact_mod_cast this
  have k3 : Num.f64 ((s : ℚ) * 1000000000) = ((s * 1000000000 : ℤ) : ℚ) := by
    have : ((s * 1000000000 : ℤ) : ℚ) = (s : ℚ) * 1000000000 := by push_cast; ring
    rw [this]
    refine f64_double ⟨s * 1953125, 9, ?_, ?_⟩
    · rw [abs_mul]
      have : |(1953125 : ℤ)| = 1953125 := rfl
      rw [this]
      omega
    · push_cast
      norm_num
      ring
  rw [k1, k2, k3, trunc_int]
  refine ⟨hs, by ring, ?_⟩
  exact_mod_cast hn

theorem double_f64 : VI.Double Num.f64 := by
  intro m hm e
  by_cases h : |m| < 2 ^ 53
  · exact f64_double ⟨m, e, h, by simp⟩
  · have hm' : |m| = 2 ^ 53 := by omega
    rcases abs_eq (by norm_num : (0 : ℤ) ≤ 2 ^ 53) |>.mp hm' with rfl | rfl
    · refine f64_double ⟨1, e + 53, by norm_num, ?_⟩
      rw [zpow_add₀ (by norm_num)]
      push_cast
      norm_num
      ring
    · refine f64_double ⟨-1, e + 53, by norm_num, ?_⟩
      rw [zpow_add₀ (by norm_num)]
      push_cast
      norm_num
      ring

/-! ### The table -/

/-- The row that is read. -/
def rowRead (l : ℤ × List ℚ) : List ℚ := VI.rowOf (fun v => v) (Num.tsdecomp Num.f64 l.1, l.2.map (fun v => val (fmtF v)))

theorem read_line {l : ℤ × List ℚ} (h : |l.1| ≤ 2 ^ 62) : (lineTokens l).map asDouble = (rowRead l).map some := by
  obtain ⟨h1, -, h3⟩ := decomp_bounds h
  unfold lineTokens rowRead VI.rowOf
  simp only [List.map_cons, List.map_map]
  rw [asDouble_fmtLd (by omega), asDouble_fmtLd h3]
  congr 2
  exact List.map_congr_left (fun v _ => (val_F v).1)

theorem length_flat {α β : Type} (f : α → List β) (k : ℕ) (l : List α) (h : ∀ a ∈ l, (f a).length = k) : (l.flatMap f).length = l.length * k := by
  induction l with
  | nil => simp
  | cons a t ih =>
    rw [List.flatMap_cons, List.length_append, h a (by simp), ih (fun b hb => h b (by simp [hb])), List.length_cons]
    ring

theorem get_flat {α β : Type} (f : α → List β) (k : ℕ) (l : List α) (h : ∀ a ∈ l, (f a).length = k) {i j : ℕ} {a : α} (hi : l[i]? = some a) (hj : j < k) :
    (l.flatMap f)[i * k + j]? = (f a)[j]? := by
  induction l generalizing i with
  | nil => cases hi
  | cons b t ih =>
    rw [List.flatMap_cons]
    cases i with
    | zero =>
      cases hi
      rw [List.getElem?_append_left (by rw [h _ (by simp)]; omega)]
      simp
    | succ i =>
      rw [List.getElem?_append_right (by rw [h b (by simp)]; nlinarith)]
      rw [h b (by simp)]
      have : (i + 1) * k + j - k = i * k + j := by
        have : (i + 1) * k = i * k + k := by ring
        omega
      rw [this]
      exact ih (fun c hc => h c (by simp [hc])) hi

theorem read_table {D : Dec} (hD : Reads D) {cols : ℕ} (hc : IsInt cols) (lines : List (ℤ × List ℚ)) (hl : IsInt lines.length)
    (hk : ∀ l ∈ lines, |l.1| ≤ 2 ^ 62 ∧ l.2.length + 2 = cols) :
    readMatX D.int asDouble (tableNode cols lines) = .ok (lines.map rowRead) := by
  have hn : MatrixNode D.int (tableNode cols lines) (lines.length : ℤ) (cols : ℤ)
      ((items ("\n".toList ++ lines.flatMap (fun l => tableLine l.1 l.2) ++ "  ".toList)).map .scalar) :=
    ⟨_, _, _, rfl, ⟨[], _, rfl, by simp⟩, first_lookup.mpr rfl, first_lookup.mpr rfl, hD.int _ hl.1 hl.2, hD.int _ hc.1 hc.2⟩
  have hlen : ∀ l ∈ lines, (lineTokens l).length = cols := by
    intro l h
    rw [← (hk l h).2]
    simp [lineTokens]
  rw [C22_matx_partial _ hn, table_items]
  refine ⟨by omega, by omega, ?_, by simp, fun i row hi => ?_⟩
  · rw [List.length_map, length_flat _ cols _ hlen]
    simp
  · rw [List.getElem?_map, Option.map_eq_some_iff] at hi
    obtain ⟨l, hi, rfl⟩ := hi
    have hm := List.mem_of_getElem? hi
    have hr := read_line (hk l hm).1
    have hrl : (rowRead l).length = cols := by
      have := congrArg List.length hr
      simp only [List.length_map] at this
      rw [← this]
      exact hlen l hm
    refine ⟨by simpa using hrl, fun j v hj => ?_⟩
    have hjc : j < cols := by
      rw [← hrl]
      exact (List.getElem?_eq_some_iff.mp hj).1
    have h1 : (((lineTokens l).map asDouble)[j]?) = some (some v) := by rw [hr, List.getElem?_map, hj]; rfl
    rw [List.getElem?_map, Option.map_eq_some_iff] at h1
    obtain ⟨s, hs, he⟩ := h1
    refine ⟨s, ?_, he⟩
    rw [List.getElem?_map]
    have := get_flat lineTokens cols lines hlen hi hjc
    simp only [Int.toNat_natCast] at this ⊢
    rw [this, hs]
    rfl

/-- The value of the last view with a time. -/
def lastView (lines : List (ℤ × List ℚ)) (t : ℤ) : Option (List ℚ) := ((lines.filter (fun l => decide (l.1 = t))).getLast?).map Prod.snd

/-- The values are the same up to six decimals. -/
def ColsNear (v w : List ℚ) : Prop := List.Forall₂ (fun a b => |b - a| ≤ 5.0001 / 10 ^ 7 + |a| / 2 ^ 53) v w

/-- Either table: the file can be read, and a calibrator that loads it gets for every view whose time is in the table the values
of the (last) saved view with that time up to six decimals; timestamps are exact up to the year 2116. -/
theorem C127_table (D : Dec) (hD : Reads D) (cols : ℕ) (hc : IsInt cols) (lines : List (ℤ × List ℚ)) (hl : IsInt lines.length)
    (hk : ∀ l ∈ lines, |l.1| ≤ 2 ^ 62 ∧ l.2.length + 2 = cols) (vals : List (ℤ × List ℚ)) :
    ∃ rows out, readMatX D.int asDouble (tableNode cols lines) = .ok rows ∧ VI.loadTable Num.f64 .ok (some rows) vals = .ok out ∧
      List.Forall₂ (fun p q => q.1 = p.1 ∧ ∀ v, lastView lines p.1 = some v → ColsNear v q.2) vals out ∧
      List.Forall₂ (fun p q => lastView lines p.1 = none → q = p) vals out := by
  have hload := (VI.C118_tables (V := List ℚ) Num.f64 double_f64 .ok (fun v => v) (fun _ => rfl)
    (lines.map (fun l => (Num.tsdecomp Num.f64 l.1, l.2.map (fun v => val (fmtF v))))) (fun r hr => by
      obtain ⟨l, hm, rfl⟩ := List.mem_map.mp hr
      exact (decomp_bounds (hk l hm).1).1) vals).1
  have hrows : (lines.map (fun l => (Num.tsdecomp Num.f64 l.1, l.2.map (fun v => val (fmtF v))))).map (VI.rowOf (fun v => v)) = lines.map rowRead := by
    rw [List.map_map]
    rfl
  rw [hrows] at hload
  have hpairs : (lines.map (fun l => (Num.tsdecomp Num.f64 l.1, l.2.map (fun v => val (fmtF v))))).map
      (fun r => (r.1.1 * 1000000000 + r.1.2, r.2)) = lines.map (fun l => (l.1, l.2.map (fun v => val (fmtF v)))) := by
    rw [List.map_map]
    refine List.map_congr_left (fun l hm => ?_)
    show ((Num.tsdecomp Num.f64 l.1).1 * 1000000000 + (Num.tsdecomp Num.f64 l.1).2, _) = _
    rw [(decomp_bounds (hk l hm).1).2.1]
  rw [hpairs] at hload
  have hlast : ∀ t, VI.lastOf (lines.map (fun l => (l.1, l.2.map (fun v => val (fmtF v))))) t =
      (lastView lines t).map (fun w => w.map (fun v => val (fmtF v))) := by
    intro t
    unfold VI.lastOf lastView
    rw [List.filter_map]
    have : ((fun r : ℤ × List ℚ => decide (r.1 = t)) ∘ (fun l : ℤ × List ℚ => (l.1, l.2.map (fun v => val (fmtF v))))) =
        (fun l => decide (l.1 = t)) := rfl
    rw [this, List.getLast?_map, Option.map_map, Option.map_map]
    rfl
  refine ⟨_, _, read_table hD hc lines hl hk, hload, ?_, ?_⟩
  · rw [List.forall₂_map_right_iff]
    refine List.forall₂_same.mpr (fun p _ => ⟨rfl, fun v hv => ?_⟩)
    rw [hlast, hv]
    show ColsNear v (v.map (fun v => val (fmtF v)))
    unfold ColsNear
    rw [List.forall₂_map_right_iff]
    refine List.forall₂_same.mpr (fun x _ => ?_)
    obtain ⟨y, h1, h2⟩ := C126_f x
    unfold val
    rw [h1]
    exact h2
  · rw [List.forall₂_map_right_iff]
    refine List.forall₂_same.mpr (fun p _ hv => ?_)
    rw [hlast, hv]
    rfl

/-- The tables of the results: poses (9 columns) and speeds with biases (11 columns) of the views. -/
theorem C127_views (D : Dec) (hD : Reads D) (c : ViCalib) (x : Extra) (N : ℕ) (T_WF : M4) (h : Complete c N T_WF)
    (hl : IsInt c.views.length) (ht : ∀ v ∈ c.views, |v.ts| ≤ 2 ^ 62) (vals vals' : List (ℤ × List ℚ)) :
    ∃ m p s rows rows' out out', saveVi c x = .ok (.map m) ∧ First m "imu_poses".toList p ∧ First m "speed_biases".toList s ∧
      readMatX D.int asDouble p = .ok rows ∧ VI.loadTable Num.f64 .ok (some rows) vals = .ok out ∧
      readMatX D.int asDouble s = .ok rows' ∧ VI.loadTable Num.f64 .ok (some rows') vals' = .ok out' ∧
      List.Forall₂ (fun p q => q.1 = p.1 ∧ ∀ v, lastView (c.views.map (fun v => (v.ts, List.ofFn v.r ++ List.ofFn v.q))) p.1 = some v →
        ColsNear v q.2) vals out ∧
      List.Forall₂ (fun p q => q.1 = p.1 ∧ ∀ v, lastView (c.views.map (fun v => (v.ts, List.ofFn v.sb))) p.1 = some v →
        ColsNear v q.2) vals' out' := by
  obtain ⟨T0, h0⟩ := find_some h.exts (i := 0) (by have := h.some_camera; omega)
  have h0 : SMap.find 0 c.exts = some T0 := h0
  obtain ⟨r1, o1, a1, a2, a3, -⟩ := C127_table D hD 9 ⟨by norm_num, by norm_num⟩ (c.views.map poseCols) (by simpa using hl) (by
    intro l hm
    obtain ⟨v, hv, rfl⟩ := List.mem_map.mp hm
    exact ⟨ht v hv, by simp [poseCols]⟩) vals
  obtain ⟨r2, o2, b1, b2, b3, -⟩ := C127_table D hD 11 ⟨by norm_num, by norm_num⟩ (c.views.map sbCols) (by simpa using hl) (by
    intro l hm
    obtain ⟨v, hv, rfl⟩ := List.mem_map.mp hm
    exact ⟨ht v hv, by simp [sbCols]⟩) vals'
  refine ⟨_, _, _, r1, r2, o1, o2, save_eq c x h h0, first_lookup.mpr ?_, first_lookup.mpr ?_, a1, a2, b1, b2, a3, b3⟩
  · rw [doc_lit _ _ _ _ _ _ (by decide) (by decide)]; rfl
  · rw [doc_lit _ _ _ _ _ _ (by decide) (by decide)]; rfl

end Yac.Save
