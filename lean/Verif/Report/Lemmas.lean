import Verif.Report.Spec
import Verif.Csv.Props
import Mathlib.Data.List.Induction

/-! # C136: lemmas -/

namespace Yac.Report
open Yac.Text Yac.Fmt Yac.Csv

/-! ### Texts -/

/-- Blanks, then a token, each with a comma in between. -/
def weave : List (Str × Str) → Str
  | [] => []
  | [a] => a.1 ++ a.2
  | a :: b :: t => a.1 ++ a.2 ++ ",".toList ++ weave (b :: t)

/-- Blanks and a token. -/
def Piece (p : Str × Str) : Prop := (∀ c ∈ p.1, isSpace c = true) ∧ Token p.2

theorem cells_weave {l : List (Str × Str)} (hl : ∀ p ∈ l, Piece p) (hn : l ≠ []) {ws : Str} (hw : ∀ c ∈ ws, isSpace c = true) :
    cells (weave l ++ ws) = l.map Prod.snd := by
  induction l with
  | nil => exact absurd rfl hn
  | cons a t ih =>
    have ha := hl a (by simp)
    cases t with
    | nil => exact cells_last ha.1 ha.2 hw
    | cons b t =>
      have hi := ih (fun p hp => hl p (by simp [hp])) (by simp)
      have := cells_cons ha.1 ha.2 (weave (b :: t) ++ ws)
      rw [hi] at this
      rw [List.map_cons, ← this]
      congr 1
      show a.1 ++ a.2 ++ ",".toList ++ weave (b :: t) ++ ws = _
      simp [List.append_assoc]

theorem weave_append {a b : List (Str × Str)} (ha : a ≠ []) (hb : b ≠ []) : weave (a ++ b) = weave a ++ ",".toList ++ weave b := by
  induction a with
  | nil => exact absurd rfl ha
  | cons x a ih =>
    cases a with
    | nil =>
      cases b with
      | nil => exact absurd rfl hb
      | cons y b => rfl
    | cons y a =>
      show x.1 ++ x.2 ++ ",".toList ++ weave ((y :: a) ++ b) = x.1 ++ x.2 ++ ",".toList ++ weave (y :: a) ++ ",".toList ++ weave b
      rw [ih (by simp)]
      simp only [List.append_assoc]

/-- A row: its text is a weave of these tokens. -/
def RowText (text : Str) (tokens : List Str) : Prop :=
  ∃ l : List (Str × Str), l ≠ [] ∧ (∀ p ∈ l, Piece p) ∧ text = weave l ∧ tokens = l.map Prod.snd

theorem weave_shift {l : List (Str × Str)} (hn : l ≠ []) (hl : ∀ p ∈ l, Piece p) {ws : Str} (hw : ∀ c ∈ ws, isSpace c = true) :
    ∃ l' : List (Str × Str), l' ≠ [] ∧ (∀ p ∈ l', Piece p) ∧ ws ++ weave l = weave l' ∧ l'.map Prod.snd = l.map Prod.snd := by
  cases l with
  | nil => exact absurd rfl hn
  | cons a t =>
    refine ⟨(ws ++ a.1, a.2) :: t, by simp, ?_, ?_, rfl⟩
    · intro p hp
      rcases List.mem_cons.mp hp with rfl | hp
      · refine ⟨fun c hc => ?_, (hl a (by simp)).2⟩
        rcases List.mem_append.mp hc with h | h
        · exact hw c h
        · exact (hl a (by simp)).1 c h
      · exact hl p (by simp [hp])
    · cases t with
      | nil => simp [weave]
      | cons b t => simp [weave, List.append_assoc]

theorem blank_nl : ∀ c ∈ "\n".toList, isSpace c = true :=
  fun c hc => List.all_eq_true.mp (show "\n".toList.all isSpace = true by decide) c hc

theorem blank_four : ∀ c ∈ "    ".toList, isSpace c = true :=
  fun c hc => List.all_eq_true.mp (show "    ".toList.all isSpace = true by decide) c hc

theorem row_shift {text : Str} {tokens : List Str} (h : RowText text tokens) : RowText ("\n".toList ++ text) tokens := by
  obtain ⟨l, hn, hl, rfl, rfl⟩ := h
  obtain ⟨l', h1, h2, h3, h4⟩ := weave_shift hn hl blank_nl
  exact ⟨l', h1, h2, h3, h4.symm⟩

/-- Rows that are glued make one row and the end of a line. -/
theorem glue_row {texts : List Str} {tokens : List (List Str)} (h : List.Forall₂ RowText texts tokens) (hn : texts ≠ []) :
    ∃ t, glue texts = t ++ "\n".toList ∧ RowText t tokens.flatten := by
  induction h with
  | nil => exact absurd rfl hn
  | @cons a ts as tss h1 h2 ih =>
    cases h2 with
    | nil => exact ⟨a, rfl, by simpa using h1⟩
    | @cons b us bs uss h3 h4 =>
      obtain ⟨t, e1, e2⟩ := ih (by simp)
      obtain ⟨l, ln, hl, rfl, rfl⟩ := h1
      obtain ⟨l', ln', hl', e3, e4⟩ := row_shift e2
      refine ⟨weave l ++ ",".toList ++ ("\n".toList ++ t), ?_, l ++ l', by simp [ln], ?_, ?_, ?_⟩
      · show weave l ++ ",\n".toList ++ glue (b :: bs) = _
        rw [e1]
        simp [List.append_assoc]
      · intro p hp
        rcases List.mem_append.mp hp with h | h
        · exact hl p h
        · exact hl' p h
      · rw [weave_append ln ln', e3]
      · rw [List.map_append, ← e4, List.flatten_cons]

theorem tokens_of {text : Str} {tokens : List Str} (h : RowText text tokens) : ∀ t ∈ tokens, Token t := by
  obtain ⟨l, -, hl, -, rfl⟩ := h
  intro t ht
  obtain ⟨p, hp, rfl⟩ := List.mem_map.mp ht
  exact (hl p hp).2

/-- The entries of a table. -/
theorem glue_items {texts : List Str} {tokens : List (List Str)} (h : List.Forall₂ RowText texts tokens) :
    items (body (glue texts)) = tokens.flatten := by
  by_cases hn : texts = []
  · subst hn
    cases h
    rfl
  · obtain ⟨t, e1, e2⟩ := glue_row h hn
    have e2' := e2
    obtain ⟨l, ln, hl, e3, e4⟩ := row_shift e2
    have : body (glue texts) = weave l ++ ("\n".toList ++ "  ".toList) := by
      unfold body
      rw [e1, ← e3]
      simp [List.append_assoc]
    rw [this]
    have hc := cells_weave hl ln (ws := "\n".toList ++ "  ".toList)
      (fun c hc => List.all_eq_true.mp (show ("\n".toList ++ "  ".toList).all isSpace = true by decide) c hc)
    rw [← e4] at hc
    exact items_of hc (tokens_of e2')

/-- Cells with commas, indented. -/
theorem csv_row {tokens : List Str} (hn : tokens ≠ []) (h : ∀ t ∈ tokens, Token t) : RowText ("    ".toList ++ csv tokens) tokens := by
  have hc : csv tokens = weave (tokens.map (fun t => ([], t))) := by
    clear h hn
    induction tokens with
    | nil => rfl
    | cons a t ih =>
      cases t with
      | nil => rfl
      | cons b t =>
        show a ++ ",".toList ++ csv (b :: t) = [] ++ a ++ ",".toList ++ weave _
        rw [ih]
        rfl
  obtain ⟨l, h1, h2, h3, h4⟩ := weave_shift (l := tokens.map (fun t => (([] : Str), t))) (by simpa using hn)
    (by
      intro p hp
      obtain ⟨t, ht, rfl⟩ := List.mem_map.mp hp
      exact ⟨(by intro c hc; cases hc), h t ht⟩) blank_four
  refine ⟨l, h1, h2, by rw [hc, h3], ?_⟩
  rw [h4, List.map_map]
  simp [Function.comp_def]

theorem token_flag (b : Bool) : Token (flagText b) := by
  have : flagText b = fmtLd (bit b) := by cases b <;> rfl
  rw [this]
  exact Save.token_fmtLd _

theorem int_flag (b : Bool) : IntCell (bit b) (flagText b) := by
  have : flagText b = fmtLd (bit b) := by cases b <;> rfl
  rw [this]
  exact (says_int _).2

theorem token_nat (n : ℕ) : Token (natText n) := by
  rw [← Save.fmtLd_nat]
  exact Save.token_fmtLd _

/-- The rows of a map. -/
theorem forall_map {α β γ : Type} {R : β → γ → Prop} (l : List α) (f : α → β) (g : α → γ) (h : ∀ a ∈ l, R (f a) (g a)) :
    List.Forall₂ R (l.map f) (l.map g) := by
  induction l with
  | nil => exact .nil
  | cons a t ih => exact .cons (h a (by simp)) (ih (fun x hx => h x (by simp [hx])))

theorem forall_flatten {β γ : Type} {R : β → γ → Prop} {l : List (List β)} {m : List (List γ)} (h : List.Forall₂ (List.Forall₂ R) l m) :
    List.Forall₂ R l.flatten m.flatten := by
  induction h with
  | nil => exact .nil
  | cons h1 _ ih =>
    rw [List.flatten_cons, List.flatten_cons]
    exact List.rel_append h1 ih

/-- A table from rows that have texts with tokens with meanings. -/
theorem table_is {α : Type} (l : List α) (text : α → Str) (tokens : α → List Str) (means : α → List (Str → Prop)) (rows cols : ℕ)
    (hr : rows = l.length) (hc : ∀ a ∈ l, (means a).length = cols) (ht : ∀ a ∈ l, RowText (text a) (tokens a))
    (hm : ∀ a ∈ l, List.Forall₂ (fun m c => m c) (means a) (tokens a)) : TableIs ⟨rows, cols, body (glue (l.map text))⟩ (l.map means) := by
  refine ⟨by rw [List.length_map]; exact hr, ?_, ?_⟩
  · intro r h
    obtain ⟨a, ha, rfl⟩ := List.mem_map.mp h
    exact hc a ha
  · show List.Forall₂ _ _ (items (body (glue (l.map text))))
    rw [glue_items (forall_map l text tokens ht)]
    exact forall_flatten (forall_map l means tokens hm)

theorem mapM_ok {α β : Type} (l : List α) (f : α → Except Fault β) (g : α → β) (h : ∀ a ∈ l, f a = .ok (g a)) : l.mapM f = .ok (l.map g) := by
  induction l with
  | nil => rfl
  | cons a t ih =>
    rw [List.mapM_cons, h a (by simp), ih (fun x hx => h x (by simp [hx]))]
    rfl

/-! ### The history -/

theorem foldl_put {V : Type} (ts : ℤ) (es : List (ℤ × V)) (m : List (ℤ × List (ℤ × V))) (hn : es ≠ []) :
    SMap.find ts (es.foldl (put ts) m) = some (es.foldl (fun x e => SMap.set e.1 e.2 x) ((SMap.find ts m).getD [])) := by
  induction es generalizing m with
  | nil => exact absurd rfl hn
  | cons e es ih =>
    rw [List.foldl_cons, List.foldl_cons]
    have hp : SMap.find ts (put ts m e) = some (SMap.set e.1 e.2 ((SMap.find ts m).getD [])) := by
      unfold put
      rw [SMap.find_set, if_pos rfl]
    by_cases h : es = []
    · subst h
      exact hp
    · rw [ih _ h, hp]
      rfl

theorem foldl_put_ne {V : Type} {ts t : ℤ} (h : t ≠ ts) (es : List (ℤ × V)) (m : List (ℤ × List (ℤ × V))) :
    SMap.find t (es.foldl (put ts) m) = SMap.find t m := by
  induction es generalizing m with
  | nil => rfl
  | cons e es ih =>
    rw [List.foldl_cons, ih]
    unfold put
    rw [SMap.find_set, if_neg h]

theorem foldl_set_ne {V : Type} {i : ℤ} (es : List (ℤ × V)) (m : List (ℤ × V)) (h : i ∉ es.map Prod.fst) :
    SMap.find i (es.foldl (fun x e => SMap.set e.1 e.2 x) m) = SMap.find i m := by
  induction es generalizing m with
  | nil => rfl
  | cons e es ih =>
    rw [List.map_cons, List.mem_cons, not_or] at h
    rw [List.foldl_cons, ih _ h.2, SMap.find_set, if_neg h.1]

theorem foldl_set {V : Type} (es : List (ℤ × V)) (hd : (es.map Prod.fst).Nodup) (m : List (ℤ × V)) {i : ℤ} {v : V} (h : (i, v) ∈ es) :
    SMap.find i (es.foldl (fun x e => SMap.set e.1 e.2 x) m) = some v := by
  induction es generalizing m with
  | nil => cases h
  | cons e es ih =>
    rw [List.map_cons, List.nodup_cons] at hd
    rw [List.foldl_cons]
    rcases List.mem_cons.mp h with rfl | h
    · rw [foldl_set_ne _ _ hd.1, SMap.find_set, if_pos rfl]
    · exact ih hd.2 _ h

/-- The last snapshot at a time. -/
def lastAt (snaps : List Snap) (t : ℤ) : Option Snap := (snaps.filter (fun s => decide (s.ts = t))).getLast?

theorem lastAt_concat (snaps : List Snap) (s : Snap) (t : ℤ) : lastAt (snaps ++ [s]) t = if s.ts = t then some s else lastAt snaps t := by
  unfold lastAt
  rw [List.filter_append]
  by_cases h : s.ts = t
  · rw [if_pos h]
    simp [h]
  · rw [if_neg h]
    simp [h]

theorem after_concat (snaps : List Snap) (s : Snap) : after (snaps ++ [s]) = track (after snaps) s := by
  unfold after
  rw [List.foldl_append]
  rfl

theorem after_times (snaps : List Snap) : (after snaps).times = snaps.map Snap.ts := by
  induction snaps using List.reverseRecOn with
  | nil => rfl
  | append_singleton snaps s ih =>
    rw [after_concat, List.map_append, ← ih]
    rfl

theorem after_find {V : Type} (get : Hist → List (ℤ × V)) (val : Snap → V) (h0 : get Hist.empty = [])
    (h : ∀ x s, get (track x s) = SMap.set s.ts (val s) (get x)) (snaps : List Snap) (t : ℤ) :
    SMap.find t (get (after snaps)) = (lastAt snaps t).map val := by
  induction snaps using List.reverseRecOn with
  | nil => show SMap.find t (get Hist.empty) = none; rw [h0]; rfl
  | append_singleton snaps s ih =>
    rw [after_concat, h, SMap.find_set, lastAt_concat, ih]
    by_cases hs : s.ts = t
    · rw [if_pos hs.symm, if_pos hs]; rfl
    · rw [if_neg (fun e => hs e.symm), if_neg hs]

theorem after_nested {V : Type} (get : Hist → List (ℤ × List (ℤ × V))) (val : Snap → List (ℤ × V)) (h0 : get Hist.empty = [])
    (h : ∀ x s, get (track x s) = (val s).foldl (put s.ts) (get x)) {idxs : List ℤ} (hd : idxs.Nodup) (snaps : List Snap)
    (hs : ∀ s ∈ snaps, (val s).map Prod.fst = idxs) {t i : ℤ} {s : Snap} {v : V} (hl : lastAt snaps t = some s) (hv : (i, v) ∈ val s) :
    ∃ m, SMap.find t (get (after snaps)) = some m ∧ SMap.find i m = some v := by
  induction snaps using List.reverseRecOn generalizing s v with
  | nil => cases hl
  | append_singleton snaps x ih =>
    rw [lastAt_concat] at hl
    rw [after_concat, h]
    by_cases hx : x.ts = t
    · rw [if_pos hx] at hl
      cases hl
      subst hx
      have hx' : ((val x).map Prod.fst).Nodup := by rw [hs x (by simp)]; exact hd
      rw [foldl_put _ _ _ (by intro e; rw [e] at hv; cases hv)]
      exact ⟨_, rfl, foldl_set _ hx' _ hv⟩
    · rw [if_neg hx] at hl
      rw [foldl_put_ne (fun e => hx e.symm)]
      exact ih (fun s hs' => hs s (by simp [hs'])) hl hv

theorem lastAt_some {snaps : List Snap} {s : Snap} (h : s ∈ snaps) : lastAt snaps s.ts = some (shown snaps s) := by
  unfold lastAt shown
  have hn : snaps.filter (fun s' => decide (s'.ts = s.ts)) ≠ [] := by
    intro e
    have : s ∈ snaps.filter (fun s' => decide (s'.ts = s.ts)) := List.mem_filter.mpr ⟨h, by simp⟩
    rw [e] at this
    cases this
  rw [List.getLast?_eq_getLast_of_ne_nil hn]
  rfl

theorem shown_mem {snaps : List Snap} {s : Snap} (h : s ∈ snaps) : shown snaps s ∈ snaps ∧ (shown snaps s).ts = s.ts := by
  have := lastAt_some h
  unfold lastAt at this
  have hm := List.mem_of_getLast? this
  rw [List.mem_filter] at hm
  exact ⟨hm.1, by simpa using hm.2⟩

theorem at_find {V : Type} {m : List (ℤ × V)} {k : ℤ} {v : V} (h : SMap.find k m = some v) : atKey m k = .ok v := by
  unfold atKey; rw [h]

theorem okb {α β : Type} (a : α) (f : α → Except Fault β) : (Except.ok a >>= f) = f a := rfl

end Yac.Report
