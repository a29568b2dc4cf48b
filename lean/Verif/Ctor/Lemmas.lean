import Verif.Ctor.Spec

/-! # Reading a well-formed configuration -/

namespace Yac.Ctor
open Yac.Config
open Yac.Text (natText)

theorem bind_iff {α β : Type} (x : Except Fault α) (f : α → Except Fault β) (b : β) :
    x >>= f = .ok b ↔ ∃ a, x = .ok a ∧ f a = .ok b := by
  cases x with
  | error e => exact ⟨(fun h => by cases h), fun ⟨a, h, _⟩ => (by cases h)⟩
  | ok a => exact ⟨fun h => ⟨a, rfl, h⟩, fun ⟨a', h, h'⟩ => by cases h; exact h'⟩

/-- The paths that the constructors look at. -/
def Path (ks : List Str) : Prop := (∃ k, ks = [k] ∧ Plain k) ∨ ∃ s k, ks = [s, k] ∧ IsSection s ∧ Plain s ∧ Plain k

theorem Path.plain {ks : List Str} (h : Path ks) : ∀ k ∈ ks, Plain k := by
  intro k hk
  rcases h with ⟨a, rfl, h⟩ | ⟨a, b, rfl, -, h1, h2⟩
  · simp only [List.mem_cons, List.not_mem_nil, or_false] at hk; rw [hk]; exact h
  · simp only [List.mem_cons, List.not_mem_nil, or_false] at hk
    rcases hk with rfl | rfl
    · exact h1
    · exact h2

theorem reach_one {m : List (Str × Y)} {k : Str} {n : Y} : Reach (.map m) [k] n ↔ First m k n := by
  constructor
  · intro h
    cases h with
    | step hf r => cases r; exact hf
  · exact fun h => .step h (.here _)

theorem first_unique {m : List (Str × Y)} {k : Str} {c d : Y} (h : First m k c) (h' : First m k d) : c = d := by
  have := lookup_first h
  rw [lookup_first h'] at this
  injection this with this
  exact this.symm

theorem not_first {m : List (Str × Y)} {k : Str} {c : Y} (h : ∀ e ∈ m, e.1 ≠ k) : ¬ First m k c := by
  rintro ⟨a, b, rfl, -⟩
  exact h (k, c) (by simp) rfl

theorem descend_absent {doc : Y} (hd : Sections doc) {ks : List Str} (hp : Path ks) (ha : Absent doc ks) :
    descend ks doc = .ok (none, doc) := by
  obtain ⟨m, rfl, hm⟩ := hd
  rcases hp with ⟨k, rfl, -⟩ | ⟨s, k, rfl, hs, -, -⟩
  · rcases first_or m k with ⟨c, hc⟩ | h
    · exact absurd ⟨c, reach_one.mpr hc⟩ ha
    · simp only [descend, asMap, bind, Except.bind, lookup_missing h]
  · rcases first_or m s with ⟨c, hc⟩ | h
    · obtain ⟨l, rfl⟩ := hm s c hs hc
      rcases first_or l k with ⟨e, he⟩ | h
      · exact absurd ⟨e, .step hc (reach_one.mpr he)⟩ ha
      · simp only [descend, asMap, bind, Except.bind, lookup_first hc, lookup_missing h]
        obtain ⟨a, b, rfl, hab⟩ := hc
        rw [update_split a b _ _ _ hab]
    · simp only [descend, asMap, bind, Except.bind, lookup_missing h]

theorem reach_unique {y n n' : Y} {ks : List Str} (h : Reach y ks n) (h' : Reach y ks n') : n = n' := by
  have := descend_reach h
  rw [descend_reach h'] at this
  injection this with this
  injection this with this
  injection this with this
  exact this.symm

theorem parseWith_iff {V : Type} (read : Y → Except Fault V) {doc : Y} (hd : Sections doc) {ks : List Str} (hp : Path ks)
    (key : Str) (hk : key = dotted ks) (optional : Bool) (old : V) (r : (ℤ × V) × Y) :
    parseWith read doc key optional old = .ok r ↔ r.2 = doc ∧
      ((r.1.1 = 0 ∧ Gives doc ks read r.1.2) ∨ (r.1.1 = -1 ∧ optional = true ∧ Absent doc ks ∧ r.1.2 = old)) := by
  subst hk
  obtain ⟨⟨c, v⟩, y⟩ := r
  by_cases h : ∃ n, Reach doc ks n
  · obtain ⟨n, hn⟩ := h
    rw [(C21_found read hp.plain hn optional old).2, bind_iff]
    constructor
    · rintro ⟨a, h1, h2⟩
      cases h2
      exact ⟨rfl, Or.inl ⟨rfl, n, hn, h1⟩⟩
    · rintro ⟨rfl, ⟨h1, n', hn', h2⟩ | ⟨-, -, h1, -⟩⟩
      · obtain rfl := reach_unique hn hn'
        simp only at h1
        exact ⟨v, h2, by rw [← h1]⟩
      · exact absurd ⟨n, hn⟩ h1
  · have he : descend (Text.getAll '.' (dotted ks)) doc = .ok (none, doc) := by
      rw [getAll_dotted ks hp.plain]; exact descend_absent hd hp h
    unfold parseWith getNode
    rw [he]
    cases optional with
    | true =>
      constructor
      · intro h1; cases h1; exact ⟨rfl, Or.inr ⟨rfl, rfl, h, rfl⟩⟩
      · rintro ⟨h0, ⟨-, n, hn, -⟩ | ⟨h1, -, -, h2⟩⟩
        · exact absurd ⟨n, hn⟩ h
        · simp only at h0 h1 h2
          subst h0 h1 h2
          rfl
    | false =>
      constructor
      · intro h1; cases h1
      · rintro ⟨h0, ⟨-, n, hn, -⟩ | ⟨-, h1, -⟩⟩
        · exact absurd ⟨n, hn⟩ h
        · cases h1

theorem caught_iff {α : Type} (x : Except Fault α) (a : α) : caught x = .ok a ↔ x = .ok a := by
  cases x with
  | error e => exact ⟨(fun h => by cases h), fun h => (by cases h)⟩
  | ok b => exact Iff.rfl

theorem gives_asT {V : Type} (dec : Str → Option V) (doc : Y) (ks : List Str) (v : V) :
    Gives doc ks (asT dec) v ↔ GivesScalar doc ks dec v := by
  constructor
  · rintro ⟨n, hn, h⟩
    cases n with
    | scalar s =>
      unfold asT at h
      cases hs : dec s with
      | none => simp only [hs] at h; cases h
      | some w => simp only [hs] at h; cases h; exact ⟨s, hn, hs⟩
    | null => cases h
    | seq l => cases h
    | map l => cases h
  · rintro ⟨s, hn, h⟩
    exact ⟨_, hn, by simp only [asT, h]⟩

theorem parseT_iff {V : Type} (dec : Str → Option V) {doc : Y} (hd : Sections doc) {ks : List Str} (hp : Path ks)
    (key : Str) (hk : key = dotted ks) (optional : Bool) (old : V) (r : (ℤ × V) × Y) :
    parseT dec doc key optional old = .ok r ↔ r.2 = doc ∧
      ((r.1.1 = 0 ∧ GivesScalar doc ks dec r.1.2) ∨ (r.1.1 = -1 ∧ optional = true ∧ Absent doc ks ∧ r.1.2 = old)) := by
  unfold parseT
  rw [caught_iff, parseWith_iff (asT dec) hd hp key hk, gives_asT]

theorem hasKey_iff {doc : Y} (hd : Sections doc) {ks : List Str} (hp : Path ks) (key : Str) (hk : key = dotted ks) (r : Bool × Y) :
    hasKey doc key = .ok r ↔ r.2 = doc ∧ (r.1 = false ↔ Absent doc ks) := by
  subst hk
  obtain ⟨b, y⟩ := r
  by_cases h : ∃ n, Reach doc ks n
  · obtain ⟨n, hn⟩ := h
    rw [(C21_found (V := Unit) (fun _ => .ok ()) hp.plain hn false ()).1]
    constructor
    · intro h; cases h
      exact ⟨rfl, by simp [Absent]; exact ⟨n, hn⟩⟩
    · rintro ⟨h0, h1⟩
      simp only at h0 h1
      subst h0
      cases b with
      | true => rfl
      | false => exact absurd ⟨n, hn⟩ (h1.mp rfl)
  · have he : descend (Text.getAll '.' (dotted ks)) doc = .ok (none, doc) := by
      rw [getAll_dotted ks hp.plain]; exact descend_absent hd hp h
    unfold hasKey
    rw [he]
    constructor
    · intro h1; cases h1; exact ⟨rfl, by simp [Absent]; exact fun n hn => h ⟨n, hn⟩⟩
    · rintro ⟨h0, h1⟩
      simp only at h0 h1
      subst h0
      obtain rfl := h1.mpr h
      rfl

/-! ### Names -/

theorem camName_plain (n : ℕ) : Plain (camName n) := by
  refine ⟨by unfold camName; simp, ?_⟩
  unfold camName
  rw [List.mem_append]
  rintro (h | h)
  · revert h; decide
  · have := Text.natText_dig n _ h
    revert this; decide

theorem extName_plain (n : ℕ) : Plain (extName n) := by
  refine ⟨by unfold extName; simp, ?_⟩
  unfold extName
  rw [List.mem_append]
  rintro (h | h)
  · revert h; decide
  · exact (camName_plain n).2 h

theorem dotted_two (s k : Str) : dotted [s, k] = s ++ '.' :: k := by
  simp [dotted, List.intercalate]

theorem dotted_one (k : Str) : dotted [k] = k := by simp [dotted, List.intercalate]

/-- A literal key. -/
theorem plain_lit (k : Str) (h : (!k.isEmpty && !k.contains '.') = true) : Plain k := by
  rw [Bool.and_eq_true] at h
  refine ⟨fun e => by rw [e] at h; simp at h, fun hc => ?_⟩
  have := h.2
  rw [Bool.not_eq_true', ← Bool.not_eq_true, List.contains_iff_mem] at this
  exact this hc

theorem path_cam (n : ℕ) (k : Str) (h : (!k.isEmpty && !k.contains '.') = true) : Path [camName n, k] :=
  Or.inr ⟨_, _, rfl, Or.inr (Or.inr (Or.inr ⟨n, rfl⟩)), camName_plain n, plain_lit k h⟩

theorem path_one (k : Str) (h : (!k.isEmpty && !k.contains '.') = true) : Path [k] := Or.inl ⟨k, rfl, plain_lit k h⟩

/-- The names of a table are keys without dots. -/
def NamesOk (t : List (Str × Val)) : Prop := ∀ e ∈ t, Plain e.1

theorem readTable_iff (D : Dec) {doc : Y} (hd : Sections doc) {sec : Str} (hs : IsSection sec) (hs' : Plain sec) (optional : Bool) :
    ∀ (t : List (Str × Val)) (_ : NamesOk t) (r : List (Str × Val) × Y),
      readTable D sec optional t doc = .ok r ↔ r.2 = doc ∧ TableIs D doc sec optional t r.1 := by
  intro t
  induction t with
  | nil =>
    intro _ r
    obtain ⟨vals, y⟩ := r
    constructor
    · intro h; cases h; exact ⟨rfl, .nil⟩
    · rintro ⟨h, h'⟩; cases h'; simp only at h; subst h; rfl
  | cons e t ih =>
    intro ht r
    obtain ⟨k, d⟩ := e
    obtain ⟨vals, y⟩ := r
    have ht' : NamesOk t := fun e he => ht e (List.mem_cons_of_mem _ he)
    have hp : Path [sec, k] := Or.inr ⟨_, _, rfl, hs, hs', ht (k, d) List.mem_cons_self⟩
    unfold readTable
    rw [bind_iff]
    constructor
    · rintro ⟨a, h1, h2⟩
      obtain ⟨q, h3, h4⟩ := (bind_iff _ _ _).mp h2
      obtain ⟨e1, e2⟩ := (parseT_iff _ hd hp _ (dotted_two _ _).symm _ _ _).mp h1
      rw [e1] at h3
      obtain ⟨e3, e4⟩ := (ih ht' q).mp h3
      cases h4
      refine ⟨e3, .cons ⟨rfl, ?_⟩ e4⟩
      rcases e2 with ⟨-, h⟩ | ⟨-, h1, h2, h3⟩
      · exact Or.inl h
      · exact Or.inr ⟨h1, h2, h3⟩
    · rintro ⟨h0, h⟩
      simp only at h0
      subst h0
      cases h with
      | @cons _ v _ vs h1 h2 =>
        obtain ⟨vk, vv⟩ := v
        obtain ⟨rfl, h1⟩ := h1
        classical
        refine ⟨((if Absent y [sec, vk] then -1 else 0, vv), y), ?_, ?_⟩
        · rw [parseT_iff _ hd hp _ (dotted_two _ _).symm]
          refine ⟨rfl, ?_⟩
          rcases h1 with h | ⟨h, h', h''⟩
          · left
            obtain ⟨s, hs, -⟩ := id h
            exact ⟨if_neg (fun hc => hc ⟨_, hs⟩), h⟩
          · right; exact ⟨if_pos h', h, h', h''⟩
        · rw [bind_iff]
          exact ⟨(vs, y), (ih ht' (vs, y)).mpr ⟨rfl, h2⟩, rfl⟩

end Yac.Ctor
