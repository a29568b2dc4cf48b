import Verif.Text.CProps

/-!
# C84: the array files of the C interface; C85: the byte readers
-/

namespace Yac.Text
open Yac.Num Yac.AprilGrid

/-! ### C84 -/

theorem putArrays {α : Type} (extra : Nat) (zero : α) (conv : ℚ → Except Fault α) (es : List (List Char)) (vs : List α)
    (hv : es.map (fun e => conv (atof e)) = vs.map Except.ok) : ∀ (fin : List α) (k : Nat), es.length ≤ k →
    es.foldlM (putArray extra zero conv) (some (fin ++ List.replicate k zero), fin.length) =
      .ok (some (fin ++ vs ++ List.replicate (k - es.length) zero), fin.length + es.length) := by
  induction es generalizing vs with
  | nil =>
    intro fin k _
    have : vs = [] := by simpa using hv.symm
    subst this
    simp [pure, Except.pure]
  | cons e es ih =>
    intro fin k hk
    cases vs with
    | nil => simp at hv
    | cons v vs =>
      simp only [List.map_cons, List.cons.injEq] at hv
      obtain ⟨hv0, hv⟩ := hv
      rw [List.length_cons] at hk
      obtain ⟨k, rfl⟩ : ∃ k', k = k' + 1 := ⟨k - 1, by omega⟩
      rw [List.foldlM_cons]
      have : putArray extra zero conv (some (fin ++ List.replicate (k + 1) zero), fin.length) e =
          .ok (some ((fin ++ [v]) ++ List.replicate k zero), (fin ++ [v]).length) := by
        unfold putArray
        simp only [hv0, ok_bind]
        unfold putAt
        rw [if_pos (by simp)]
        congr 1
        simp [List.replicate_succ]
      rw [this, ok_bind, ih vs hv (fin ++ [v]) k (by omega)]
      simp only [List.append_assoc, List.cons_append, List.nil_append, List.length_append, List.length_cons,
        List.length_nil]
      rw [show k + 1 - (es.length + 1) = k - es.length by omega]
      congr 2
      omega

theorem putArrays_oob {α : Type} (extra : Nat) (zero : α) (conv : ℚ → Except Fault α) (es : List (List Char)) (vs : List α)
    (hv : es.map (fun e => conv (atof e)) = vs.map Except.ok) : ∀ (fin : List α) (k : Nat), k < es.length →
    es.foldlM (putArray extra zero conv) (some (fin ++ List.replicate k zero), fin.length) = .error .oob := by
  induction es generalizing vs with
  | nil => intro fin k h; simp at h
  | cons e es ih =>
    intro fin k hk
    cases vs with
    | nil => simp at hv
    | cons v vs =>
      simp only [List.map_cons, List.cons.injEq] at hv
      obtain ⟨hv0, hv⟩ := hv
      rw [List.length_cons] at hk
      rw [List.foldlM_cons]
      cases k with
      | zero =>
        have : putArray extra zero conv (some (fin ++ List.replicate 0 zero), fin.length) e = .error .oob := by
          unfold putArray
          simp only [hv0, ok_bind]
          unfold putAt
          rw [if_neg (by simp)]
        rw [this]; rfl
      | succ k =>
        have : putArray extra zero conv (some (fin ++ List.replicate (k + 1) zero), fin.length) e =
            .ok (some ((fin ++ [v]) ++ List.replicate k zero), (fin ++ [v]).length) := by
          unfold putArray
          simp only [hv0, ok_bind]
          unfold putAt
          rw [if_pos (by simp)]
          congr 1
          simp [List.replicate_succ]
        rw [this, ok_bind]
        exact ih vs hv (fin ++ [v]) k (by omega)

theorem arrayLine_row {α : Type} (extra : Nat) (zero : α) (conv : ℚ → Except Fault α) (cs : List (List Char))
    (h : (Item.row cs).Ok) :
    arrayLine extra zero conv (Item.row cs).text =
      ((cs.map squeeze).foldlM (putArray extra zero conv) (none, 0) >>= fun s => .ok s.1) := by
  unfold arrayLine
  rw [show (Item.row cs).text = line cs from rfl, cstr_self _ (nul_line cs h.2.2.1), blank_hold,
    lineLoop_line _ _ (by norm_num) (by decide) cs h.2.1 (cells_kept h)]
  congr 2
  apply List.map_congr_left
  intro c _
  exact kept_space c

/-- A row whose first cell announces `n` elements and whose cells are the numbers `vs`. -/
structure Announces {α : Type} (conv : ℚ → Except Fault α) (cs : List (List Char)) (n : Nat) (vs : List α) : Prop where
  size : ∃ c cs', cs = c :: cs' ∧ truncQ (number c) = n ∧ n < 2 ^ 64
  vals : cs.map (fun c => conv (number c)) = vs.map Except.ok

theorem arrayLine_spec {α : Type} (extra : Nat) (zero : α) (conv : ℚ → Except Fault α) (cs : List (List Char)) (n : Nat)
    (vs : List α) (h : (Item.row cs).Ok) (ha : Announces conv cs n vs) :
    arrayLine extra zero conv (Item.row cs).text =
      if cs.length ≤ n + extra then .ok (some (vs ++ List.replicate (n + extra - cs.length) zero)) else .error .oob := by
  rw [arrayLine_row extra zero conv cs h]
  obtain ⟨c, cs', rfl, h1, h2⟩ := ha.size
  have hv := ha.vals
  have hstart : ∀ es, (squeeze c :: es).foldlM (putArray extra zero conv) (none, 0) =
      (squeeze c :: es).foldlM (putArray extra zero conv) (some ([] ++ List.replicate (n + extra) zero), ([] : List α).length) := by
    intro es
    rw [List.foldlM_cons, List.foldlM_cons]
    congr 1
    unfold putArray toSize
    simp only
    rw [show atof (squeeze c) = number c from rfl, h1, if_pos ⟨by positivity, by exact_mod_cast h2⟩]
    simp [ok_bind]
  rw [List.map_cons, hstart, ← List.map_cons]
  have hv' : ((c :: cs').map squeeze).map (fun e => conv (atof e)) = vs.map Except.ok := by
    rw [List.map_map]; exact hv
  split_ifs with hl
  · rw [putArrays extra zero conv _ vs hv' [] (n + extra) (by simpa using hl), ok_bind]
    simp
  · rw [putArrays_oob extra zero conv _ vs hv' [] (n + extra) (by simp at hl ⊢; omega)]
    rfl

theorem arraySteps {α : Type} (f : List Char → Except Fault (Option (List α))) (out : List (List Char) → Option (List α))
    (d : List Item) (h : ∀ i ∈ d, i.Ok) (hf : ∀ cs ∈ rowsOf d, f (Item.row cs).text = .ok (out cs)) :
    ∀ (fin : List (Option (List α))),
    (d.map Item.text).foldlM (arrayStep f) (fin ++ List.replicate (rowsOf d).length none, fin.length) =
      .ok (fin ++ (rowsOf d).map out, fin.length + (rowsOf d).length) := by
  induction d with
  | nil => intro fin; simp [rowsOf, pure, Except.pure]
  | cons i d ih =>
    intro fin
    have hd : ∀ i ∈ d, i.Ok := fun x hx => h x (by simp [hx])
    rw [List.map_cons, List.foldlM_cons]
    cases i with
    | note t =>
      rw [rowsOf_note]
      have : arrayStep f (fin ++ List.replicate (rowsOf d).length none, fin.length) (Item.note t).text =
          .ok (fin ++ List.replicate (rowsOf d).length none, fin.length) := by
        unfold arrayStep
        rw [if_pos (isNote_note t)]
      rw [this, ok_bind]
      exact ih hd hf fin
    | row cs =>
      rw [rowsOf_row]
      have : arrayStep f (fin ++ List.replicate (cs :: rowsOf d).length none, fin.length) (Item.row cs).text =
          .ok ((fin ++ [out cs]) ++ List.replicate (rowsOf d).length none, (fin ++ [out cs]).length) := by
        unfold arrayStep
        rw [if_neg (by simp [isNote_row cs (h _ (by simp))]), hf cs (by rw [rowsOf_row]; simp), ok_bind, if_pos (by simp)]
        congr 1
        simp [List.replicate_succ]
      rw [this, ok_bind, ih hd (fun c hc => hf c (by rw [rowsOf_row]; simp [hc]))]
      simp only [List.append_assoc, List.map_cons, List.cons_append, List.nil_append, List.length_append, List.length_cons,
        List.length_nil]
      congr 2
      omega

theorem row_ok {d : List Item} (h : ∀ i ∈ d, i.Ok) {cs : List (List Char)} (hc : cs ∈ rowsOf d) : (Item.row cs).Ok := by
  unfold rowsOf at hc
  rw [List.mem_filterMap] at hc
  obtain ⟨i, h1, h2⟩ := hc
  cases i with
  | note t => simp at h2
  | row x =>
    simp only [Option.some.injEq] at h2
    subst h2
    exact h _ h1

/-- C84, integers: one array per row, the announced length first; missing elements are zero.  Lines fit the buffer and every
number fits an `int`. -/
theorem C84_integers_partial (d : List Item) (h : ∀ i ∈ d, i.Ok) (n : List (List Char) → Nat) (vs : List (List Char) → List ℤ)
    (ha : ∀ cs ∈ rowsOf d, Announces toInt32 cs (n cs) (vs cs) ∧ cs.length ≤ n cs + 1) :
    loadIarrays (some (fileOf d)) =
      .ok ((rowsOf d).map fun cs => some (vs cs ++ List.replicate (n cs + 1 - cs.length) 0)) := by
  unfold loadIarrays loadArrays
  simp only [C83_rows d h, ok_bind, pieces_file d h]
  have := arraySteps (arrayLine 1 0 toInt32) (fun cs => some (vs cs ++ List.replicate (n cs + 1 - cs.length) 0)) d h (by
    intro cs hc
    rw [arrayLine_spec 1 0 toInt32 cs (n cs) (vs cs) (row_ok h hc) (ha cs hc).1, if_pos (ha cs hc).2]) []
  simp only [List.nil_append, List.length_nil] at this
  rw [this, ok_bind]

/-- What `toInt32` accepts: the integer part of a number that fits an `int`. -/
theorem C84_int (x : ℚ) (v : ℤ) (h : toInt32 x = .ok v) : -2 ^ 31 ≤ v ∧ v < 2 ^ 31 ∧ |x - v| < 1 := by
  unfold toInt32 at h
  split_ifs at h with hb
  simp only [Except.ok.injEq] at h
  subst h
  refine ⟨hb.1, hb.2, ?_⟩
  unfold truncQ
  split_ifs with h0
  · have h1 := Int.floor_le x
    have h2 := Int.lt_floor_add_one x
    rw [abs_lt]
    have e : (x.floor : ℤ) = ⌊x⌋ := rfl
    rw [e]
    constructor <;> linarith
  · have h1 := Int.floor_le (-x)
    have h2 := Int.lt_floor_add_one (-x)
    have e : ((-x).floor : ℤ) = ⌊-x⌋ := rfl
    rw [e, abs_lt]
    push_cast
    constructor <;> linarith

/-- C84, doubles: every row that announces the number of elements that follow it is written past the end of its array. -/
theorem C84_doubles_refuted (ts : List (List Char)) (cs : List (List Char)) (rest : List Item)
    (h : ∀ i ∈ notes ts ++ .row cs :: rest, i.Ok) (vs : List ℚ)
    (ha : Announces (fun x : ℚ => (.ok x : Except Fault ℚ)) cs (cs.length - 1) vs) :
    loadDarrays (some (fileOf (notes ts ++ .row cs :: rest))) = .error .oob := by
  have hr : (Item.row cs).Ok := h _ (by simp)
  have hcs : cs.length ≠ 0 := by simpa using hr.2.1
  unfold loadDarrays loadArrays
  simp only [C83_rows _ h, ok_bind, pieces_file _ h]
  have hl := arrayLine_spec 0 (0 : ℚ) (fun x : ℚ => (.ok x : Except Fault ℚ)) cs (cs.length - 1) vs hr ha
  rw [if_neg (by omega)] at hl
  have hskip : ∀ (s : List (Option (List ℚ)) × Nat) (ps : List (List Char)),
      ((notes ts).map Item.text ++ ps).foldlM (arrayStep (arrayLine 0 0 .ok)) s = ps.foldlM (arrayStep (arrayLine 0 0 .ok)) s := by
    intro s ps
    clear h
    induction ts with
    | nil => rfl
    | cons t ts ih =>
      have : arrayStep (arrayLine 0 0 .ok) s (Item.note t).text = .ok s := by
        unfold arrayStep
        rw [if_pos (isNote_note t)]
      show (((Item.note t).text :: ((notes ts).map Item.text ++ ps)).foldlM _ s) = _
      rw [List.foldlM_cons, this, ok_bind, ih]
  rw [List.map_append, List.map_cons, hskip, List.foldlM_cons]
  unfold arrayStep
  rw [if_neg (by simp [isNote_row cs hr]), hl]
  rfl

/-- C84, doubles: a row that announces more elements than it has is read, with zeros at the end. -/
theorem C84_doubles_partial (d : List Item) (h : ∀ i ∈ d, i.Ok) (n : List (List Char) → Nat)
    (ha : ∀ cs ∈ rowsOf d, Announces (fun x : ℚ => (.ok x : Except Fault ℚ)) cs (n cs) (cs.map number) ∧ cs.length ≤ n cs) :
    loadDarrays (some (fileOf d)) =
      .ok ((rowsOf d).map fun cs => some (cs.map number ++ List.replicate (n cs - cs.length) 0)) := by
  unfold loadDarrays loadArrays
  simp only [C83_rows d h, ok_bind, pieces_file d h]
  have := arraySteps (arrayLine 0 (0 : ℚ) .ok) (fun cs => some (cs.map number ++ List.replicate (n cs - cs.length) 0)) d h (by
    intro cs hc
    rw [arrayLine_spec 0 (0 : ℚ) .ok cs (n cs) (cs.map number) (row_ok h hc) (ha cs hc).1, Nat.add_zero,
      if_pos (ha cs hc).2]) []
  simp only [List.nil_append, List.length_nil] at this
  rw [this, ok_bind]

theorem arrayFold_length {α : Type} (f : List Char → Except Fault (Option (List α))) (ps : List (List Char)) :
    ∀ (s s' : List (Option (List α)) × Nat), ps.foldlM (arrayStep f) s = .ok s' → s'.1.length = s.1.length := by
  induction ps with
  | nil => intro s s' h; simp [pure, Except.pure] at h; rw [h]
  | cons p ps ih =>
    intro s s' h
    rw [List.foldlM_cons] at h
    cases h1 : arrayStep f s p with
    | error e => rw [h1] at h; cases h
    | ok s1 =>
      rw [h1, ok_bind] at h
      rw [ih s1 s' h]
      unfold arrayStep at h1
      by_cases hn : isNote p = true
      · rw [if_pos hn] at h1
        simp only [Except.ok.injEq] at h1; rw [h1]
      · rw [if_neg hn] at h1
        cases h2 : f p with
        | error e => rw [h2] at h1; cases h1
        | ok a =>
          rw [h2, ok_bind] at h1
          split_ifs at h1
          simp only [Except.ok.injEq] at h1
          rw [← h1]; simp

/-- An array whose row has more than 1022 characters is split: more than one array is delivered. -/
theorem C84_long_refuted (t : List Char) (h : '\n' ∉ t) (h0 : t.head? ≠ some '#') (h1 : 1023 ≤ t.length)
    (h2 : t.length ≤ 2045) (h3 : t[1023]? ≠ some '#') (l : List (Option (List ℤ)))
    (hl : loadIarrays (some (t ++ ['\n'])) = .ok l) : l.length = 2 := by
  unfold loadIarrays loadArrays at hl
  simp only [C83_long_refuted t h h0 h1 h2 h3, ok_bind] at hl
  cases hf : (pieces (t ++ ['\n'])).foldlM (arrayStep (arrayLine 1 0 toInt32)) (List.replicate 2 none, 0) with
  | error e => rw [hf] at hl; cases hl
  | ok s =>
    rw [hf, ok_bind] at hl
    simp only [Except.ok.injEq] at hl
    rw [← hl, arrayFold_length _ _ _ _ hf]
    simp

/-- A missing file is not reported. -/
theorem C84_missing_refuted : loadIarrays none = .error .oob ∧ loadDarrays none = .error .oob := ⟨rfl, rfl⟩

example : loadIarrays (some "# n, data\n2, -7, 8\n0\n".toList) = .ok [some [2, -7, 8], some [0]] := by decide +kernel
example : loadIarrays (some "3,1\n".toList) = .ok [some [3, 1, 0, 0]] := by decide +kernel
example : loadIarrays (some "1,5,6\n".toList) = .error .oob := by decide +kernel
example : loadDarrays (some "2,0.5,8\n".toList) = .error .oob := by decide +kernel
example : loadDarrays (some "3,0.5,8\n".toList) = .ok [some [3, 1 / 2, 8]] := by decide +kernel

example : (∀ i ∈ [Item.row [['2'], ['5'], ['6']]], i.Ok) ∧
    Announces toInt32 [['2'], ['5'], ['6']] 2 [2, 5, 6] ∧
    Announces (fun x : ℚ => (.ok x : Except Fault ℚ)) [['2'], ['5'], ['6']] 2 [2, 5, 6] := by
  refine ⟨?_, ⟨⟨_, _, rfl, by decide +kernel, by norm_num⟩, by decide +kernel⟩,
    ⟨⟨_, _, rfl, by decide +kernel, by norm_num⟩, by decide +kernel⟩⟩
  intro i hi
  simp only [List.mem_cons, List.not_mem_nil, or_false] at hi
  subst hi
  refine ⟨by decide, by simp, ?_, by decide⟩
  intro c hc
  apply (fun h => h) (show CellOk c from ?_)
  simp only [List.mem_cons, List.not_mem_nil, or_false] at hc
  rcases hc with rfl | rfl | rfl <;> exact cell_one _ (by decide)

/-! ### C85 -/

theorem byteAt_lt {d : List UInt8} {i a : Nat} (h : byteAt d i = .ok a) : a < 256 := by
  unfold byteAt at h
  cases hd : d[i]? with
  | none => rw [hd] at h; cases h
  | some b =>
    rw [hd] at h
    simp only [Except.ok.injEq] at h
    rw [← h]; exact b.toNat_lt

/-- Little-endian value of bytes. -/
def littleEndian : List Nat → Nat
  | [] => 0
  | b :: l => b + 256 * littleEndian l

/-- The signed number with the given remainder. -/
def SignedOf (bits : Nat) (n : Nat) (v : ℤ) : Prop :=
  -(2 ^ (bits - 1) : ℤ) ≤ v ∧ v < 2 ^ (bits - 1) ∧ v % 2 ^ bits = n

theorem signedOf_toSigned (bits n : Nat) (hb : 0 < bits) (hn : n < 2 ^ bits) : SignedOf bits n (toSigned bits n) := by
  obtain ⟨b, rfl⟩ : ∃ b, bits = b + 1 := ⟨bits - 1, by omega⟩
  unfold SignedOf toSigned
  simp only [Nat.add_sub_cancel]
  have hp : (2 : ℤ) ^ (b + 1) = 2 * 2 ^ b := by ring
  have hpn : (2 : ℕ) ^ (b + 1) = 2 * 2 ^ b := by ring
  have hz : ((2 ^ b : ℕ) : ℤ) = 2 ^ b := by push_cast; rfl
  rw [hp]
  rw [hpn] at hn
  generalize hP : (2 : ℕ) ^ b = P at *
  rw [← hz]
  split_ifs with h
  · refine ⟨by omega, by omega, Int.emod_eq_of_lt (by omega) (by omega)⟩
  · refine ⟨by omega, by omega, ?_⟩
    rw [Int.sub_emod_right]
    exact Int.emod_eq_of_lt (by omega) (by omega)

/-- C85, unsigned: the little-endian value of the bytes at the offset. -/
theorem C85_unsigned (d : List UInt8) (o : Nat) :
    uint16 d o = (if o + 2 ≤ d.length then .ok (littleEndian (((d.drop o).take 2).map UInt8.toNat)) else .error .oob) ∧
    uint32 d o = (if o + 4 ≤ d.length then .ok (littleEndian (((d.drop o).take 4).map UInt8.toNat)) else .error .oob) := by
  have hb : ∀ i, (h : i < d.length) → byteAt d i = .ok (d[i].toNat) := by
    intro i h
    simp [byteAt, List.getElem?_eq_getElem h]
  have he : ∀ i, d.length ≤ i → byteAt d i = .error .oob := by
    intro i h
    simp [byteAt, List.getElem?_eq_none h]
  constructor
  · unfold uint16
    split_ifs with h
    · rw [hb _ (by omega : o + 1 < d.length), ok_bind, hb _ (by omega : o < d.length), ok_bind]
      have e : (d.drop o).take 2 = [d[o], d[o + 1]] := by
        rw [List.drop_eq_getElem_cons (by omega : o < d.length), List.take_succ_cons,
          List.drop_eq_getElem_cons (by omega : o + 1 < d.length), List.take_succ_cons, List.take_zero]
      rw [e]
      congr 1
      have := UInt8.toNat_lt d[o]
      rw [← Nat.shiftLeft_add_eq_or_of_lt (by omega), Nat.shiftLeft_eq]
      simp [littleEndian]
      omega
    · rw [he _ (by omega)]; rfl
  · unfold uint32
    split_ifs with h
    · rw [hb _ (by omega : o + 3 < d.length), ok_bind, hb _ (by omega : o + 2 < d.length), ok_bind,
        hb _ (by omega : o + 1 < d.length), ok_bind, hb _ (by omega : o < d.length), ok_bind]
      have e : (d.drop o).take 4 = [d[o], d[o + 1], d[o + 2], d[o + 3]] := by
        rw [List.drop_eq_getElem_cons (by omega : o < d.length), List.take_succ_cons,
          List.drop_eq_getElem_cons (by omega : o + 1 < d.length), List.take_succ_cons,
          List.drop_eq_getElem_cons (by omega : o + 1 + 1 < d.length), List.take_succ_cons,
          List.drop_eq_getElem_cons (by omega : o + 1 + 1 + 1 < d.length), List.take_succ_cons, List.take_zero]
      rw [e]
      congr 1
      simp only [List.map_cons, List.map_nil, littleEndian]
      have h0 := UInt8.toNat_lt d[o]
      have h1 := UInt8.toNat_lt d[o + 1]
      have h2 := UInt8.toNat_lt d[o + 2]
      have h3 := UInt8.toNat_lt d[o + 3]
      generalize d[o].toNat = a at *
      generalize d[o + 1].toNat = b at *
      generalize d[o + 2].toNat = c at *
      generalize d[o + 3].toNat = e at *
      have s1 : e <<< 24 ||| c <<< 16 = e <<< 24 + c <<< 16 :=
        (Nat.shiftLeft_add_eq_or_of_lt (by rw [Nat.shiftLeft_eq]; omega) e).symm
      have s2 : (e <<< 24 + c <<< 16) ||| b <<< 8 = e <<< 24 + c <<< 16 + b <<< 8 := by
        have : e <<< 24 + c <<< 16 = (e * 256 + c) <<< 16 := by simp only [Nat.shiftLeft_eq]; ring
        rw [this]
        exact (Nat.shiftLeft_add_eq_or_of_lt (by rw [Nat.shiftLeft_eq]; omega) _).symm
      have s3 : (e <<< 24 + c <<< 16 + b <<< 8) ||| a = e <<< 24 + c <<< 16 + b <<< 8 + a := by
        have : e <<< 24 + c <<< 16 + b <<< 8 = ((e * 256 + c) * 256 + b) <<< 8 := by simp only [Nat.shiftLeft_eq]; ring
        rw [this]
        exact (Nat.shiftLeft_add_eq_or_of_lt (by omega) _).symm
      rw [s1, s2, s3]
      simp only [Nat.shiftLeft_eq]
      ring
    · by_cases h3 : o + 3 < d.length
      · omega
      · rw [he _ (by omega)]; rfl

theorem littleEndian_lt (l : List UInt8) : littleEndian (l.map UInt8.toNat) < 256 ^ l.length := by
  induction l with
  | nil => simp [littleEndian]
  | cons b l ih =>
    have := UInt8.toNat_lt b
    simp only [List.map_cons, littleEndian, List.length_cons, pow_succ]
    omega

/-- C85, signed: the number of 8, 16 or 32 bits with that remainder. -/
theorem C85_signed (d : List UInt8) (o : Nat) :
    (∀ a, byteAt d o = .ok a → ∃ v, int8 d o = .ok v ∧ SignedOf 8 a v) ∧
    (∀ n, uint16 d o = .ok n → ∃ v, int16 d o = .ok v ∧ SignedOf 16 n v) ∧
    (∀ n, uint32 d o = .ok n → ∃ v, sint32 d o = .ok v ∧ SignedOf 32 n v) := by
  have hu := C85_unsigned d o
  refine ⟨?_, ?_, ?_⟩
  · intro a h
    exact ⟨toSigned 8 a, by unfold int8; rw [h, ok_bind], signedOf_toSigned 8 a (by norm_num) (by have := byteAt_lt h; omega)⟩
  · intro n h
    refine ⟨toSigned 16 n, by unfold int16; rw [h, ok_bind], signedOf_toSigned 16 n (by norm_num) ?_⟩
    rw [hu.1] at h
    split_ifs at h with hl
    simp only [Except.ok.injEq] at h
    rw [← h]
    have := littleEndian_lt ((d.drop o).take 2)
    rw [List.length_take, List.length_drop, min_eq_left (by omega)] at this
    omega
  · intro n h
    refine ⟨toSigned 32 n, by unfold sint32; rw [h, ok_bind], signedOf_toSigned 32 n (by norm_num) ?_⟩
    rw [hu.2] at h
    split_ifs at h with hl
    simp only [Except.ok.injEq] at h
    rw [← h]
    have := littleEndian_lt ((d.drop o).take 4)
    rw [List.length_take, List.length_drop, min_eq_left (by omega)] at this
    omega

example : uint32 [1, 2, 3, 4, 5] 1 = .ok 0x05040302 := by decide
example : int16 [0xfe, 0xff] 0 = .ok (-2) := by decide
example : uint16 [1, 2] 1 = .error .oob := by decide

end Yac.Text
