import Verif.AprilGrid.Reads

/-! Lemmas about `save` and `load`. -/

namespace Yac.AprilGrid
open Spec
variable {K : Type} [Field K]
variable {ts : Int} {rows cols : Nat} {size spacing : K} {m : CMap K} {extra : Nat} {g : Grid K}

/-- The line written for a held corner. -/
def lineFor (p6 p10 : K → K) (ts : Int) (rows cols : Nat) (size spacing : K)
    (e : (Int × Int) × (K × K)) : Line K :=
  let p := boardAt cols size spacing e.1
  ⟨ts, rows, cols, p6 size, p6 spacing, p10 e.2.1, p10 e.2.2, p6 p.1, p6 p.2.1, p6 p.2.2,
    e.1.1, e.1.2⟩

theorem save_eq (p6 p10 : K → K) (h : Rel ts rows cols size spacing m extra g) :
    save p6 p10 g = .ok ((held rows cols m).map (lineFor p6 p10 ts rows cols size spacing)) := by
  rw [save]
  split_ifs with hd
  · rw [h.toCore.length, h.data, tableOf, forRows_tab, h.hts, h.hrows, h.hcols, h.hsize, h.hspacing]
    refine (congrArg Except.ok (fold_rows cols size spacing m
      (fun (acc : List (Line K)) i r => acc ++ [⟨ts, rows, cols, p6 size, p6 spacing,
          p10 r.kx, p10 r.ky, p6 r.px, p6 r.py, p6 r.pz,
          ((i / 4 : Nat) : Int), ((i % 4 : Nat) : Int)⟩]) _ _)).trans ?_
    rw [foldl_append_map, held_map]
    simp only [heldIdx, List.map_map, Function.comp_def, rowFor, lineFor, boardAt,
      Int.toNat_natCast, List.nil_append]
  · have h0 : ¬ (0 < g.nbDetections) := by
      have := h.det; simpa [hd] using this
    have : (List.range (rows * cols * 4)).countP (heldAt m) = 0 := by
      have := h.nb; omega
    simp [held_nil_of_count this]

/-- Row `i` after loading a file that holds `o` for its corner. -/
def rowLoaded (p6 p10 : K → K) (cols : Nat) (size spacing : K) (i : Nat) (o : Option (K × K)) :
    Row K :=
  match o with
  | none => zeroRow
  | some kp =>
    let p := boardPoint cols size spacing (i / 4) (i % 4)
    ⟨1, p10 kp.1, p10 kp.2, p6 p.1, p6 p.2.1, p6 p.2.2⟩

/-- The map given by a list of entries (the last one for a corner counts). -/
def entriesMap (es : List ((Int × Int) × (K × K))) : CMap K :=
  es.foldl (fun mm e t c => if t = e.1.1 ∧ c = e.1.2 then some e.2 else mm t c) none_

omit [Field K] in
theorem entriesMap_concat (es : List ((Int × Int) × (K × K))) (e : (Int × Int) × (K × K)) :
    entriesMap (es ++ [e]) =
      fun t c => if t = e.1.1 ∧ c = e.1.2 then some e.2 else entriesMap es t c := by
  simp [entriesMap]

omit [Field K] in
theorem entriesMap_mem (es : List ((Int × Int) × (K × K))) (hnd : (es.map Prod.fst).Nodup)
    (t c : Int) (kp : K × K) : entriesMap es t c = some kp ↔ ((t, c), kp) ∈ es := by
  induction es using List.reverseRecOn with
  | nil => simp [entriesMap, none_]
  | append_singleton es e ih =>
    rw [entriesMap_concat]
    rw [List.map_append, List.nodup_append] at hnd
    obtain ⟨h1, h2, h3⟩ := hnd
    simp only [List.mem_append, List.mem_singleton]
    by_cases hk : t = e.1.1 ∧ c = e.1.2
    · rw [if_pos hk]
      have hkey : (t, c) = e.1 := by rw [hk.1, hk.2]
      have : ((t, c), kp) ∉ es := by
        intro hm
        exact h3 (t, c) (List.mem_map.mpr ⟨_, hm, rfl⟩) e.1 (by simp) hkey
      simp only [this, false_or, Option.some.injEq]
      constructor
      · intro h; rw [hkey, ← h]
      · intro h; rw [← h]
    · rw [if_neg hk, ih h1]
      have : ((t, c), kp) ≠ e := by rintro rfl; exact hk ⟨rfl, rfl⟩
      simp [this]

omit [Field K] in
theorem held_keys_nodup (rows cols : Nat) (m : CMap K) :
    ((held rows cols m).map Prod.fst).Nodup := by
  rw [List.Nodup, List.pairwise_map]
  refine (held_sorted rows cols m).imp ?_
  intro a b h he
  rw [he] at h
  omega

omit [Field K] in
theorem entriesMap_held (m : CMap K) {t c : Int} (hv : Valid rows cols t c) :
    entriesMap (held rows cols m) t c = m t c := by
  apply Option.ext
  intro kp
  rw [entriesMap_mem _ (held_keys_nodup _ _ _), mem_held]
  simp [hv]

/-- State after loading the entries `es`. -/
structure Loaded (p6 p10 : K → K) (ts : Int) (rows cols : Nat) (size spacing : K)
    (es : List ((Int × Int) × (K × K))) (g : Grid K) : Prop where
  hts : g.timestamp = ts
  hrows : g.tagRows = rows
  hcols : g.tagCols = cols
  hsize : g.tagSize = p6 size
  hspacing : g.tagSpacing = p6 spacing
  hdet : g.detected = true
  nb : g.nbDetections = es.length
  data : g.data = tab (rows * cols * 4) (fun i => rowLoaded p6 p10 cols size spacing i
    (entriesMap es ((i / 4 : Nat) : Int) ((i % 4 : Nat) : Int)))

theorem load_entries (p6 p10 : K → K) (ts : Int) (rows cols : Nat) (size spacing : K)
    (g0 : Grid K) (h0 : g0.data = [] ∨ g0.data.length = rows * cols * 4)
    (es : List ((Int × Int) × (K × K))) (hv : ∀ e ∈ es, Valid rows cols e.1.1 e.1.2) :
    ∃ g, (es.map (lineFor p6 p10 ts rows cols size spacing)).foldlM loadLine (clear g0) = .ok g ∧
      (es = [] → g = clear g0) ∧ (es ≠ [] → Loaded p6 p10 ts rows cols size spacing es g) := by
  induction es using List.reverseRecOn with
  | nil => exact ⟨_, rfl, fun _ => rfl, fun h => absurd rfl h⟩
  | append_singleton es e ih =>
    obtain ⟨g, hg, hnil, hne⟩ := ih (fun x hx => hv x (List.mem_append_left _ hx))
    have hve := hv e (by simp)
    obtain ⟨⟨et, ec⟩, kp⟩ := e
    simp only at hve
    obtain ⟨t, c, rfl, rfl, ht, hc, hidx, hlt, hd4, hm4⟩ := valid_index hve
    -- the data table the line is written to
    have hdata : (if g.data.isEmpty then List.replicate (rows * cols * 4) (zeroRow : Row K) else g.data) =
        tab (rows * cols * 4) (fun i => rowLoaded p6 p10 cols size spacing i
          (entriesMap es ((i / 4 : Nat) : Int) ((i % 4 : Nat) : Int))) ∧ g.nbDetections = es.length := by
      by_cases hes : es = []
      · subst hes
        rw [hnil rfl]
        refine ⟨?_, by simp [clear]⟩
        have : (fun i => rowLoaded p6 p10 cols size spacing i
          (entriesMap ([] : List ((Int × Int) × (K × K))) ((i / 4 : Nat) : Int) ((i % 4 : Nat) : Int))) =
          fun _ => (zeroRow : Row K) := by
          funext i; simp [entriesMap, none_, rowLoaded]
        rw [this, ← tab_const]
        rcases h0 with h0 | h0
        · simp [clear, h0]
        · have hne0 : ¬ (clear g0).data.isEmpty = true := by
            have hl : (clear g0).data.length = rows * cols * 4 := by simp [clear, h0]
            intro he
            rw [List.isEmpty_iff] at he
            rw [he, List.length_nil] at hl; omega
          rw [if_neg hne0]
          simp only [clear]
          rw [List.map_const', h0]
      · have hL := hne hes
        refine ⟨?_, hL.nb⟩
        have : ¬ g.data.isEmpty = true := by
          intro he
          rw [List.isEmpty_iff] at he
          have := congrArg List.length hL.data
          rw [he, List.length_nil, tab_length] at this; omega
        rw [if_neg this, hL.data]
    let D : List (Row K) := tab (rows * cols * 4) (fun i => rowLoaded p6 p10 cols size spacing i
          (entriesMap es ((i / 4 : Nat) : Int) ((i % 4 : Nat) : Int)))
    let R : Row K := rowLoaded p6 p10 cols size spacing (t * 4 + c) (some kp)
    have hstep : loadLine g (lineFor p6 p10 ts rows cols size spacing (((t : Int), (c : Int)), kp)) =
        .ok { g with timestamp := ts, tagRows := rows, tagCols := cols, tagSize := p6 size,
                     tagSpacing := p6 spacing, detected := true,
                     data := D.set (t * 4 + c) R,
                     nbDetections := g.nbDetections + 1 } := by
      rw [loadLine]
      simp only [lineFor]
      rw [hdata.1, hidx, writeRow_nat _ _ _ (by simpa using hlt), ok_bind, pure_eq_ok]
      simp only [D, R, rowLoaded, boardAt, Int.toNat_natCast, hd4, hm4]
    have hfull := foldlM_concat loadLine (es.map (lineFor p6 p10 ts rows cols size spacing))
      (lineFor p6 p10 ts rows cols size spacing (((t : Int), (c : Int)), kp)) (clear g0)
    rw [hg, ok_bind, hstep] at hfull
    refine ⟨_, by rw [List.map_append]; exact hfull, fun h => absurd h (by simp), fun _ => ?_⟩
    · refine ⟨rfl, rfl, rfl, rfl, rfl, rfl, ?_, ?_⟩
      · simp [hdata.2]
      · simp only [D, R]
        rw [tab_set]
        apply tab_congr
        intro i _
        rw [entriesMap_concat]
        by_cases hi : i = t * 4 + c
        · subst hi; simp [hd4, hm4]
        · have : ¬ (((i / 4 : Nat) : Int) = (t : Int) ∧ ((i % 4 : Nat) : Int) = (c : Int)) := by
            rw [index_eq_iff _ _ _ hc]; exact hi
          simp only [if_neg hi, if_neg this]

theorem load_save (p6 p10 : K → K) (h : Rel ts rows cols size spacing m extra g)
    (hne : held rows cols m ≠ []) (g0 : Grid K)
    (h0 : g0.data = [] ∨ g0.data.length = rows * cols * 4) :
    ∃ file g', save p6 p10 g = .ok file ∧ load g0 file = .ok g' ∧ g'.init = true ∧
      Loaded p6 p10 ts rows cols size spacing (held rows cols m) g' := by
  obtain ⟨g', hg', _, hL⟩ := load_entries p6 p10 ts rows cols size spacing g0 h0 (held rows cols m)
    (by rintro ⟨⟨t, c⟩, kp⟩ he; exact ((mem_held _ _ _ _ _ _).mp he).1)
  have hL := hL hne
  refine ⟨_, { g' with init := true }, save_eq p6 p10 h, ?_, rfl, ?_⟩
  · rw [load, hg', ok_bind, pure_eq_ok]
  · exact ⟨hL.hts, hL.hrows, hL.hcols, hL.hsize, hL.hspacing, hL.hdet, hL.nb, hL.data⟩

theorem Loaded.row {p6 p10 : K → K} {ts : Int} {rows cols : Nat} {size spacing : K} {m : CMap K}
    {g : Grid K} (h : Loaded p6 p10 ts rows cols size spacing (held rows cols m) g) {t c : Int}
    (hv : Valid rows cols t c) :
    readRow g.data (t * 4 + c) =
      .ok (rowLoaded p6 p10 cols size spacing (t.toNat * 4 + c.toNat) (m t c)) := by
  have he := entriesMap_held (m := m) hv
  obtain ⟨t, c, rfl, rfl, ht, hc, hidx, hlt, hd4, hm4⟩ := valid_index hv
  have hlen : t * 4 + c < g.data.length := by rw [h.data]; simpa using hlt
  rw [hidx, readRow_nat _ _ hlen]
  simp only [h.data, tab_get, hd4, hm4, Int.toNat_natCast, he]

end Yac.AprilGrid
