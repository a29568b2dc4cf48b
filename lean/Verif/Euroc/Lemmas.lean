import Verif.Euroc.Spec
import Verif.Ctor.Lemmas
import Verif.Text.Props
import Verif.Timeline.Props

/-! # Lemmas for C122 -/

namespace Yac.Euroc
open Yac.Config Yac.Num Yac.Ctor
open Yac.Text (isDig natOf isSpace fmtLd parseReal parseInt scanf Conv rowsM loadRows getLines skipLine)

/-! ### Numbers -/

theorem value_eq (x : Dcm) : x.value = f64 (Text.signed x.neg ((natOf x.ip : ℚ) + x.frac)) := by
  unfold Dcm.value Text.signed
  cases x.neg with
  | false => simp
  | true => simp

/-- Text after a number: a comma, white space, or nothing. -/
def Stop (l : Str) : Prop := ∀ c, l.head? = some c → c = ',' ∨ isSpace c = true

theorem stop_noDig {l : Str} (h : Stop l) : Text.NoDig l := by
  intro c hc
  rcases h c hc with rfl | h
  · decide
  · cases hd : isDig c with
    | false => rfl
    | true => rw [Text.not_space_of_dig hd] at h; cases h

theorem stop_no_point {l : Str} (h : Stop l) : l.head? ≠ some '.' := by
  intro hc
  rcases h _ hc with h | h
  · revert h; decide
  · revert h; decide

theorem stop_cons_comma (l : Str) : Stop (',' :: l) := by intro c hc; cases hc; exact Or.inl rfl

theorem parseReal_text (x : Dcm) (hx : x.Ok) (rest : Str) (hr : Stop rest) : parseReal (x.text ++ rest) = some (x.value, rest) := by
  obtain ⟨neg, ip, fp⟩ := x
  obtain ⟨h0, h1, h2⟩ := hx
  simp only at h0 h1 h2
  obtain ⟨c, cs, rfl⟩ := List.exists_cons_of_ne_nil h0
  have hc := h1 c List.mem_cons_self
  have hhead : ∀ tail : Str, ((c :: cs) ++ tail).head? = some c := fun _ => rfl
  rw [value_eq]
  unfold Dcm.text parseReal
  cases fp with
  | none =>
    simp only [List.append_nil]
    have hs := Text.sign_text (ws := []) (l := (c :: cs) ++ rest) neg (by simp) (hhead rest) hc
    simp only [List.nil_append] at hs
    rw [List.append_assoc, hs]
    obtain ⟨e1, e2⟩ := Text.takeWhile_dig (c :: cs) rest h1 (stop_noDig hr)
    simp only [e1, e2]
    cases rest with
    | nil => simp [Dcm.frac]
    | cons d r =>
      have : d ≠ '.' := fun h => stop_no_point hr (by rw [h]; rfl)
      split
      · rename_i r' heq
        cases heq
        exact absurd rfl this
      · simp [Dcm.frac]
  | some f =>
    simp only
    have hs := Text.sign_text (ws := []) (l := (c :: cs) ++ (('.' :: f) ++ rest)) neg (by simp) (hhead _) hc
    simp only [List.nil_append] at hs
    rw [List.append_assoc, List.append_assoc, hs]
    obtain ⟨e1, e2⟩ := Text.takeWhile_dig (c :: cs) (('.' :: f) ++ rest) h1 (Text.noDig_cons (by decide))
    obtain ⟨e3, e4⟩ := Text.takeWhile_dig f rest (h2 f rfl) (stop_noDig hr)
    simp only [e1, e2]
    show (if _ then _ else _) = _
    rw [show List.append f rest = f ++ rest from rfl, e3, e4, if_neg (by rintro ⟨h, -⟩; cases h)]
    rfl

theorem scan_fields (rest : Str) (hr : Stop rest) : ∀ (xs : List Dcm), (∀ x ∈ xs, x.Ok) →
    scanf (Text.moreFmt xs.length) (xs.flatMap (fun x => ',' :: x.text) ++ rest) = (xs.map (fun x => .real x.value), rest) := by
  intro xs
  induction xs with
  | nil => intro _; rfl
  | cons x xs ih =>
    intro h
    have ih := ih (fun y hy => h y (List.mem_cons_of_mem _ hy))
    have hf : Text.moreFmt (x :: xs).length = Conv.lit ',' :: Conv.lf :: Text.moreFmt xs.length := by
      simp [Text.moreFmt, List.replicate_succ]
    have hst : Stop (xs.flatMap (fun x => ',' :: x.text) ++ rest) := by
      cases xs with
      | nil => exact hr
      | cons y ys => exact stop_cons_comma _
    rw [hf, List.flatMap_cons, List.append_assoc, List.cons_append, Text.scan_lit]
    simp only [scanf, parseReal_text x (h x List.mem_cons_self) _ hst, ih, List.map_cons]

theorem scan_line {n : ℕ} (s : Line n) (hs : s.Ok) (ws rest : Str) (hw : ∀ c ∈ ws, isSpace c = true) (hr : Stop rest) :
    scanf (.lu :: Text.moreFmt n) (ws ++ (s.text ++ rest)) = (.int s.t :: List.ofFn (fun i => Text.Val.real (s.x i).value), rest) := by
  have hst : Stop ((List.ofFn s.x).flatMap (fun x => ',' :: x.text) ++ rest) := by
    cases n with
    | zero => simpa using hr
    | succ n => rw [List.ofFn_succ]; exact stop_cons_comma _
  have h := scan_fields rest hr (List.ofFn s.x) (fun x hx => by
    obtain ⟨i, rfl⟩ := (List.mem_ofFn' _ _).mp hx
    exact hs.2.2 i)
  rw [List.length_ofFn] at h
  unfold Line.text
  rw [List.append_assoc, scanf, Text.parseInt_fmtLd s.t ws _ hw (stop_noDig hst)]
  simp only [Text.toULong_natAbs (show -2 ^ 63 ≤ s.t by have := hs.1; omega) hs.2.1, h, List.map_ofFn]
  rfl

/-! ### Lines -/

/-- The end of a line. -/
theorem eol_cases (cr : Bool) : (∀ c ∈ csv.eol cr, isSpace c = true) ∧ ∃ e : Str, csv.eol cr = e ++ ['\n'] ∧ '\n' ∉ e ∧ e.length ≤ 1 := by
  cases cr with
  | false => exact ⟨by decide, [], rfl, by simp, by simp⟩
  | true => exact ⟨by decide, ['\r'], rfl, by decide, by simp⟩

/-- White space or the end of the file. -/
def Space (l : Str) : Prop := ∀ c, l.head? = some c → isSpace c = true

theorem Space.stop {l : Str} (h : Space l) : Stop l := fun c hc => Or.inr (h c hc)

theorem rowsM_csv {α β : Type} (cr : Bool) (f : Str → Except Fault (β × Str)) (txt : α → Str) (val : α → β) (l : List α)
    (h : ∀ a ∈ l, ∀ ws rest, (∀ c ∈ ws, isSpace c = true) → Space rest → f (ws ++ (txt a ++ rest)) = .ok (val a, rest)) :
    ∀ (ws tail : Str), (∀ c ∈ ws, isSpace c = true) →
    rowsM f l.length (ws ++ (l.flatMap (fun a => txt a ++ csv.eol cr) ++ tail)) = .ok (l.map val) := by
  obtain ⟨he, -⟩ := eol_cases cr
  induction l with
  | nil => intro ws tail hw; rfl
  | cons a l ih =>
    intro ws tail hw
    have hsp : Space (csv.eol cr ++ (l.flatMap (fun a => txt a ++ csv.eol cr) ++ tail)) := by
      intro c hc
      apply he
      cases cr with
      | false => cases hc; exact List.mem_cons_self
      | true => cases hc; exact List.mem_cons_self
    rw [List.length_cons, rowsM, List.flatMap_cons, List.append_assoc, List.append_assoc (txt a),
      h a List.mem_cons_self ws _ hw hsp]
    have := ih (fun a ha => h a (List.mem_cons_of_mem _ ha)) (csv.eol cr) tail he
    simp only [bind, Except.bind, this]
    rfl

theorem lines_csv (cr : Bool) (hd : Str) (hn : '\n' ∉ hd) (lines : List Str) (hl : ∀ s ∈ lines, '\n' ∉ s) :
    (getLines (csv cr hd lines)).length = lines.length + 1 := by
  obtain ⟨-, e, he, hen, -⟩ := eol_cases cr
  unfold csv
  rw [he]
  have h1 : hd ++ (e ++ ['\n']) ++ lines.flatMap (fun l => l ++ (e ++ ['\n'])) =
      (hd ++ e) ++ '\n' :: lines.flatMap (fun l => (l ++ e) ++ ['\n']) := by
    simp [List.append_assoc]
  rw [h1, Text.getLines_cons_line _ (by rw [List.mem_append]; rintro (h | h); exacts [hn h, hen h])]
  have h2 : lines.flatMap (fun l => (l ++ e) ++ ['\n']) = (lines.attach).flatMap (fun l => (l.1 ++ e) ++ ['\n']) := by
    have h3 : lines.map (fun l => (l ++ e) ++ ['\n']) = (lines.attach).map (fun l => (l.1 ++ e) ++ ['\n']) := by simp
    rw [List.flatMap_def, List.flatMap_def, h3]
  rw [h2, Text.getLines_flatMap (fun l : {s // s ∈ lines} => l.1 ++ e) (fun a => by
    rw [List.mem_append]; rintro (h | h); exacts [hl a.1 a.2 h, hen h])]
  simp

theorem loadRows_csv {α β : Type} (cr : Bool) (hd : Str) (hh : HeaderOk hd) (f : Str → Except Fault (β × Str)) (txt : α → Str)
    (val : α → β) (l : List α) (htxt : ∀ a ∈ l, '\n' ∉ txt a)
    (h : ∀ a ∈ l, ∀ ws rest, (∀ c ∈ ws, isSpace c = true) → Space rest → f (ws ++ (txt a ++ rest)) = .ok (val a, rest)) :
    loadRows f (csv cr hd (l.map txt)) = .ok (l.map val) := by
  unfold loadRows
  rw [lines_csv cr hd hh.1 _ (by
    intro s hs
    obtain ⟨a, ha, rfl⟩ := List.mem_map.mp hs
    exact htxt a ha), List.length_map]
  simp only
  obtain ⟨-, e, he, hen, hel⟩ := eol_cases cr
  have h1 : csv cr hd (l.map txt) = (hd ++ e) ++ '\n' :: l.flatMap (fun a => txt a ++ csv.eol cr) := by
    unfold csv
    rw [List.flatMap_map, he]
    simp [List.append_assoc]
  rw [h1, Text.skipLine_line _ _ (by rw [List.mem_append]; rintro (h | h); exacts [hh.1 h, hen h])
    (by rw [List.length_append]; have := hh.2; omega)]
  have := rowsM_csv cr f txt val l h [] [] (by simp)
  rw [List.append_nil, List.nil_append] at this
  exact this

/-- An extra line that is blank: the row cannot be read. -/
theorem rowsM_fail {α β : Type} (cr : Bool) (f : Str → Except Fault (β × Str)) (txt : α → Str) (val : α → β) (l : List α)
    (h : ∀ a ∈ l, ∀ ws rest, (∀ c ∈ ws, isSpace c = true) → Space rest → f (ws ++ (txt a ++ rest)) = .ok (val a, rest))
    (hf : ∀ ws, (∀ c ∈ ws, isSpace c = true) → f ws = .error .fatal) :
    ∀ (ws tail : Str), (∀ c ∈ ws, isSpace c = true) → (∀ c ∈ tail, isSpace c = true) →
    rowsM f (l.length + 1) (ws ++ (l.flatMap (fun a => txt a ++ csv.eol cr) ++ tail)) = .error .fatal := by
  obtain ⟨he, -⟩ := eol_cases cr
  induction l with
  | nil =>
    intro ws tail hw ht
    show f (ws ++ ([] ++ tail)) >>= _ = _
    rw [List.nil_append, hf _ (by intro c hc; rcases List.mem_append.mp hc with hc | hc; exacts [hw c hc, ht c hc])]
    rfl
  | cons a l ih =>
    intro ws tail hw ht
    have hsp : Space (csv.eol cr ++ (l.flatMap (fun a => txt a ++ csv.eol cr) ++ tail)) := by
      intro c hc
      apply he
      cases cr with
      | false => cases hc; exact List.mem_cons_self
      | true => cases hc; exact List.mem_cons_self
    rw [List.length_cons, rowsM, List.flatMap_cons, List.append_assoc, List.append_assoc (txt a),
      h a List.mem_cons_self ws _ hw hsp]
    have := ih (fun a ha => h a (List.mem_cons_of_mem _ ha)) (csv.eol cr) tail he ht
    simp only [bind, Except.bind, this]

/-! ### Top-level keys -/

theorem parseTop_iff {V : Type} (read : Y → Except Fault V) (m : List (Str × Y)) (key : Str) (hk : Plain key)
    (optional : Bool) (old : V) (r : (ℤ × V) × Y) :
    parseWith read (.map m) key optional old = .ok r ↔ r.2 = .map m ∧
      ((r.1.1 = 0 ∧ Gives (.map m) [key] read r.1.2) ∨ (r.1.1 = -1 ∧ optional = true ∧ Absent (.map m) [key] ∧ r.1.2 = old)) := by
  obtain ⟨⟨c, v⟩, y⟩ := r
  have hp : ∀ k ∈ [key], Plain k := by intro k h; simp only [List.mem_cons, List.not_mem_nil, or_false] at h; rw [h]; exact hk
  have hdot : dotted [key] = key := dotted_one key
  by_cases h : ∃ n, Reach (.map m) [key] n
  · obtain ⟨n, hn⟩ := h
    have := (C21_found read hp hn optional old).2
    rw [hdot] at this
    rw [this, bind_iff]
    constructor
    · rintro ⟨a, h1, h2⟩
      cases h2
      exact ⟨rfl, Or.inl ⟨rfl, n, hn, h1⟩⟩
    · rintro ⟨rfl, ⟨h1, n', hn', h2⟩ | ⟨-, -, h1, -⟩⟩
      · obtain rfl := reach_unique hn hn'
        simp only at h1
        exact ⟨v, h2, by rw [← h1]⟩
      · exact absurd ⟨n, hn⟩ h1
  · have he : descend (Text.getAll '.' key) (.map m) = .ok (none, .map m) := by
      have := getAll_dotted [key] hp
      rw [hdot] at this
      rw [this]
      rcases first_or m key with ⟨c, hc⟩ | h'
      · exact absurd ⟨c, reach_one.mpr hc⟩ h
      · simp only [descend, asMap, bind, Except.bind, lookup_missing h']
    unfold parseWith getNode
    rw [he]
    cases optional with
    | true =>
      constructor
      · intro h1; cases h1; exact ⟨rfl, Or.inr ⟨rfl, rfl, h, rfl⟩⟩
      · rintro ⟨h0, ⟨-, n, hn, -⟩ | ⟨h1, -, -, h2⟩⟩
        · exact absurd ⟨n, hn⟩ h
        · simp only at h0 h1 h2
          subst h0 h1 h2
          rfl
    | false =>
      constructor
      · intro h1; cases h1
      · rintro ⟨h0, ⟨-, n, hn, -⟩ | ⟨-, h1, -⟩⟩
        · exact absurd ⟨n, hn⟩ h
        · cases h1

theorem bind_top {V β : Type} (read : Y → Except Fault V) (m : List (Str × Y)) (key : Str) (hk : Plain key)
    (optional : Bool) (old : V) (f : (ℤ × V) × Y → Except Fault β) (b : β) (hf : ∀ c c' v, f ((c, v), .map m) = f ((c', v), .map m)) :
    parseWith read (.map m) key optional old >>= f = .ok b ↔ ∃ v, (Gives (.map m) [key] read v ∨
      optional = true ∧ Absent (.map m) [key] ∧ v = old) ∧ f ((0, v), .map m) = .ok b := by
  rw [bind_iff]
  constructor
  · rintro ⟨⟨⟨c, v⟩, y⟩, h1, h2⟩
    obtain ⟨e1, e2⟩ := (parseTop_iff read m key hk optional old _).mp h1
    simp only at e1 e2
    subst e1
    refine ⟨v, ?_, by rw [hf 0 c]; exact h2⟩
    rcases e2 with ⟨-, h⟩ | ⟨-, h⟩
    · exact Or.inl h
    · exact Or.inr h
  · rintro ⟨v, h | h, h2⟩
    · exact ⟨_, (parseTop_iff read m key hk optional old ((0, v), .map m)).mpr ⟨rfl, Or.inl ⟨rfl, h⟩⟩, h2⟩
    · exact ⟨_, (parseTop_iff read m key hk optional old ((-1, v), .map m)).mpr ⟨rfl, Or.inr ⟨rfl, h⟩⟩, by rw [hf (-1) 0]; exact h2⟩

theorem readTop_iff (D : Dec) (m : List (Str × Y)) (optional : Bool) : ∀ (t : List (String × Val)) (_ : ∀ e ∈ t, Plain e.1.toList)
    (r : List (Str × Val) × Y), readTop D optional (keys t) (.map m) = .ok r ↔ r.2 = .map m ∧ TopIs D (.map m) optional t r.1 := by
  intro t
  induction t with
  | nil =>
    intro _ r
    obtain ⟨vals, y⟩ := r
    constructor
    · intro h; cases h; exact ⟨rfl, List.Forall₂.nil⟩
    · rintro ⟨h1, h2⟩
      simp only at h1 h2
      subst h1
      cases h2
      rfl
  | cons e t ih =>
    intro ht r
    obtain ⟨k, d⟩ := e
    have hk := ht (k, d) List.mem_cons_self
    have ih := ih (fun e he => ht e (List.mem_cons_of_mem _ he))
    obtain ⟨vals, y⟩ := r
    show parseT (D.like d) (.map m) k.toList optional d >>= (fun r =>
      readTop D optional (keys t) r.2 >>= fun q => .ok ((k.toList, r.1.2) :: q.1, q.2)) = .ok (vals, y) ↔ _
    have e := fun r => parseTop_iff (asT (D.like d)) m k.toList hk optional d r
    constructor
    · intro h
      obtain ⟨⟨⟨c, v⟩, y1⟩, h1, h2⟩ := (bind_iff _ _ _).mp h
      unfold parseT at h1
      rw [caught_iff] at h1
      obtain ⟨e1, e2⟩ := (e _).mp h1
      simp only at e1 e2 h2
      subst e1
      obtain ⟨q, h3, h4⟩ := (bind_iff _ _ _).mp h2
      cases h4
      obtain ⟨f1, f2⟩ := (ih q).mp h3
      refine ⟨f1, List.Forall₂.cons ⟨rfl, ?_⟩ f2⟩
      rcases e2 with ⟨-, e2⟩ | ⟨-, e2⟩
      · left; rw [gives_asT] at e2; exact e2
      · right; exact e2
    · rintro ⟨h1, h2⟩
      simp only at h1 h2
      subst h1
      unfold TopIs at h2
      cases h2 with
      | @cons _ w _ ws hd ht' =>
        obtain ⟨wk, wv⟩ := w
        simp only at hd
        obtain ⟨rfl, hd⟩ := hd
        have hq := (ih (ws, .map m)).mpr ⟨rfl, ht'⟩
        have : ∃ c, parseT (D.like d) (.map m) k.toList optional d = .ok ((c, wv), .map m) := by
          unfold parseT
          simp only [caught_iff]
          rcases hd with hd | hd
          · exact ⟨0, (e _).mpr ⟨rfl, Or.inl ⟨rfl, (gives_asT _ _ _ _).mpr hd⟩⟩⟩
          · exact ⟨-1, (e _).mpr ⟨rfl, Or.inr ⟨rfl, hd⟩⟩⟩
        obtain ⟨c, hc⟩ := this
        exact (bind_iff _ _ _).mpr ⟨_, hc, (bind_iff _ _ _).mpr ⟨_, hq, rfl⟩⟩

theorem bind_readTop {β : Type} (D : Dec) (m : List (Str × Y)) (optional : Bool) (t : List (String × Val)) (t' : List (Str × Val))
    (he : t' = keys t) (ht : (t.map Prod.fst).all (fun k => !k.toList.isEmpty && !k.toList.contains '.') = true)
    (f : List (Str × Val) × Y → Except Fault β) (b : β) :
    readTop D optional t' (.map m) >>= f = .ok b ↔ ∃ vals, TopIs D (.map m) optional t vals ∧ f (vals, .map m) = .ok b := by
  subst he
  have hp : ∀ e ∈ t, Plain e.1.toList := fun e he => plain_lit _ (List.all_eq_true.mp ht _ (List.mem_map_of_mem he))
  rw [bind_iff]
  constructor
  · rintro ⟨⟨v, y⟩, h1, h2⟩
    obtain ⟨e1, e2⟩ := (readTop_iff D m optional t hp _).mp h1
    simp only at e1 e2
    subst e1
    exact ⟨v, e2, h2⟩
  · rintro ⟨v, h1, h2⟩
    exact ⟨(v, .map m), (readTop_iff D m optional t hp _).mpr ⟨rfl, h1⟩, h2⟩

end Yac.Euroc
