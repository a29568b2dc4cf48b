import Verif.Config.Model
import Verif.Text.Lemmas

/-!
# C21, C22: configuration lookup and the shapes of vectors and matrices
-/

namespace Yac.Config
open Yac.Text

/-! ### Specification -/

/-- `(k, c)` is the first pair of the map with the key `k`. -/
def First (m : List (Str × Y)) (k : Str) (c : Y) : Prop :=
  ∃ a b, m = a ++ (k, c) :: b ∧ ∀ e ∈ a, e.1 ≠ k

/-- The node reached from `y` by descending the keys in order through maps. -/
inductive Reach : Y → List Str → Y → Prop
  | here (y : Y) : Reach y [] y
  | step {m : List (Str × Y)} {k : Str} {ks : List Str} {c n : Y} (h : First m k c)
      (r : Reach c ks n) : Reach (.map m) (k :: ks) n

/-- A key of the path is missing from the map (or the empty value) it is looked up in. -/
inductive Missing : Y → List Str → Prop
  | null (k : Str) (ks : List Str) : Missing .null (k :: ks)
  | key {m : List (Str × Y)} {k : Str} (ks : List Str) (h : ∀ e ∈ m, e.1 ≠ k) :
      Missing (.map m) (k :: ks)
  | step {m : List (Str × Y)} {k : Str} {ks : List Str} {c : Y} (h : First m k c)
      (r : Missing c ks) : Missing (.map m) (k :: ks)

/-- The path goes through a scalar. -/
inductive Blocked : Y → List Str → Prop
  | scalar (s : Str) (k : Str) (ks : List Str) : Blocked (.scalar s) (k :: ks)
  | step {m : List (Str × Y)} {k : Str} {ks : List Str} {c : Y} (h : First m k c)
      (r : Blocked c ks) : Blocked (.map m) (k :: ks)

/-- A key without dots. -/
def Plain (k : Str) : Prop := k ≠ [] ∧ '.' ∉ k

/-- The keys joined by dots. -/
def dotted (ks : List Str) : Str := ['.'].intercalate ks

/-! ### Lemmas -/

theorem getAll_dotted (ks : List Str) (h : ∀ k ∈ ks, Plain k) : getAll '.' (dotted ks) = ks := by
  induction ks with
  | nil => rfl
  | cons k ks ih =>
    have hk := h k (by simp)
    cases ks with
    | nil =>
      have : dotted [k] = k := by simp [dotted, List.intercalate]
      rw [this]
      exact getAll_last '.' k hk.2 hk.1
    | cons k' ks =>
      have : dotted (k :: k' :: ks) = k ++ '.' :: dotted (k' :: ks) := by
        simp [dotted, List.intercalate]
      rw [this, getAll_cons '.' k hk.2, ih (fun q hq => h q (by simp [hq]))]

theorem lookup_first {m : List (Str × Y)} {k : Str} {c : Y} (h : First m k c) :
    lookup m k = some c := by
  obtain ⟨a, b, rfl, ha⟩ := h
  unfold lookup
  rw [List.find?_append, List.find?_eq_none.mpr (by simpa using ha)]
  simp

theorem lookup_missing {m : List (Str × Y)} {k : Str} (h : ∀ e ∈ m, e.1 ≠ k) :
    lookup m k = none := by
  unfold lookup
  rw [List.find?_eq_none.mpr (by simpa using h)]
  rfl

theorem first_or (m : List (Str × Y)) (k : Str) :
    (∃ c, First m k c) ∨ ∀ e ∈ m, e.1 ≠ k := by
  induction m with
  | nil => right; simp
  | cons e m ih =>
    by_cases he : e.1 = k
    · left; exact ⟨e.2, [], m, by rw [← he]; rfl, by simp⟩
    · rcases ih with ⟨c, a, b, rfl, ha⟩ | ih
      · left
        refine ⟨c, e :: a, b, rfl, ?_⟩
        intro x hx
        rcases List.mem_cons.mp hx with rfl | hx
        · exact he
        · exact ha x hx
      · right
        intro x hx
        rcases List.mem_cons.mp hx with rfl | hx
        · exact he
        · exact ih x hx

theorem update_split (a b : List (Str × Y)) (k : Str) (c d : Y) (ha : ∀ e ∈ a, e.1 ≠ k) :
    update (a ++ (k, c) :: b) k d = a ++ (k, d) :: b := by
  induction a with
  | nil => simp [update]
  | cons e a ih =>
    rw [List.cons_append, update, if_neg (ha e (by simp)), ih (fun x hx => ha x (by simp [hx]))]
    rfl

theorem descend_reach {y n : Y} {ks : List Str} (h : Reach y ks n) :
    descend ks y = .ok (some n, y) := by
  induction h with
  | here y => rfl
  | step hf r ih =>
    simp only [descend, asMap, bind, Except.bind, lookup_first hf, ih]
    obtain ⟨a, b, rfl, ha⟩ := hf
    rw [update_split a b _ _ _ ha]

theorem descend_blocked {y : Y} {ks : List Str} (h : Blocked y ks) : descend ks y = .error .exn := by
  induction h with
  | scalar s k ks => rfl
  | step hf r ih =>
    simp only [descend, asMap, bind, Except.bind, lookup_first hf, ih]

/-- Equal but for empty values having become empty maps. -/
inductive Same : Y → Y → Prop
  | refl (y : Y) : Same y y
  | null : Same .null (.map [])
  | step {c d : Y} (a b : List (Str × Y)) (k : Str) (ha : ∀ e ∈ a, e.1 ≠ k) (r : Same c d) :
      Same (.map (a ++ (k, c) :: b)) (.map (a ++ (k, d) :: b))

theorem descend_missing {y : Y} {ks : List Str} (h : Missing y ks) :
    ∃ y', descend ks y = .ok (none, y') ∧ Same y y' := by
  induction h with
  | null k ks => exact ⟨.map [], rfl, .null⟩
  | @key m k ks h =>
    refine ⟨.map m, ?_, .refl _⟩
    simp only [descend, asMap, bind, Except.bind, lookup_missing h]
  | @step m k ks c hf r ih =>
    obtain ⟨y', e, s⟩ := ih
    have hl := lookup_first hf
    obtain ⟨a, b, rfl, ha⟩ := hf
    refine ⟨.map (a ++ (k, y') :: b), ?_, .step a b k ha s⟩
    simp only [descend, asMap, bind, Except.bind, hl, e, update_split a b k c y' ha]

theorem same_first {c0 d0 : Y} {a b : List (Str × Y)} {k0 : Str} (ha : ∀ e ∈ a, e.1 ≠ k0) {k : Str}
    {c : Y} (h : First (a ++ (k0, c0) :: b) k c) :
    (k = k0 ∧ c = c0 ∧ First (a ++ (k0, d0) :: b) k d0) ∨ First (a ++ (k0, d0) :: b) k c := by
  have h1 := lookup_first h
  by_cases hk : k = k0
  · subst hk
    have h2 := lookup_first (m := a ++ (k, c0) :: b) ⟨a, b, rfl, ha⟩
    rw [h1] at h2
    injection h2 with h2
    exact Or.inl ⟨rfl, h2, a, b, rfl, ha⟩
  · right
    rcases first_or (a ++ (k0, d0) :: b) k with ⟨c', hc'⟩ | hn
    · have : lookup (a ++ (k0, c0) :: b) k = lookup (a ++ (k0, d0) :: b) k := by
        simp [lookup, List.find?_append, List.find?_cons, Ne.symm hk]
      rw [h1, lookup_first hc'] at this
      injection this with this
      rw [this]; exact hc'
    · exfalso
      obtain ⟨a', b', e, -⟩ := h
      have hm : (k, c) ∈ a ++ (k0, c0) :: b := by rw [e]; simp
      rcases List.mem_append.mp hm with hm | hm
      · exact hn (k, c) (by simp [hm]) rfl
      · rcases List.mem_cons.mp hm with hm | hm
        · exact hk (congrArg Prod.fst hm)
        · exact hn (k, c) (by simp [hm]) rfl

theorem same_reach {y y' n : Y} {ks : List Str} (s : Same y y') (h : Reach y ks n) :
    ∃ n', Reach y' ks n' ∧ Same n n' := by
  induction s generalizing ks n with
  | refl y => exact ⟨n, h, .refl n⟩
  | null => cases h; exact ⟨_, .here _, .null⟩
  | @step c0 d0 a b k0 ha r ih =>
    cases h with
    | here => exact ⟨_, .here _, .step a b k0 ha r⟩
    | @step _ k ks c _ hf hr =>
      rcases same_first (d0 := d0) ha hf with ⟨rfl, rfl, hf'⟩ | hf'
      · obtain ⟨n', r1, r2⟩ := ih hr
        exact ⟨n', .step hf' r1, r2⟩
      · exact ⟨n, .step hf' hr, .refl n⟩

theorem same_missing {y y' : Y} {ks : List Str} (s : Same y y') (h : Missing y ks) :
    Missing y' ks := by
  induction s generalizing ks with
  | refl y => exact h
  | null => cases h; exact .key _ (by simp)
  | @step c0 d0 a b k0 ha r ih =>
    cases h with
    | key ks hn =>
      refine .key ks (fun e he => ?_)
      rcases List.mem_append.mp he with he | he
      · exact hn e (by simp [he])
      · rcases List.mem_cons.mp he with rfl | he
        · exact hn (k0, c0) (by simp)
        · exact hn e (by simp [he])
    | @step _ k ks c hf hr =>
      rcases same_first (d0 := d0) ha hf with ⟨rfl, rfl, hf'⟩ | hf'
      · exact .step hf' (ih hr)
      · exact .step hf' hr

theorem same_blocked {y y' : Y} {ks : List Str} (s : Same y y') (h : Blocked y ks) :
    Blocked y' ks := by
  induction s generalizing ks with
  | refl y => exact h
  | null => cases h
  | @step c0 d0 a b k0 ha r ih =>
    cases h with
    | @step _ k ks c hf hr =>
      rcases same_first (d0 := d0) ha hf with ⟨rfl, rfl, hf'⟩ | hf'
      · exact .step hf' (ih hr)
      · exact .step hf' hr

theorem same_asT {V : Type} (dec : Str → Option V) {n n' : Y} (s : Same n n') :
    asT dec n = asT dec n' := by
  cases s <;> rfl

/-! ### C21 -/

/-- C21: with a node at the path, mandatory or not, `parse` reads that node and returns 0,
`yaml_has_key` says yes, and the configuration is left as it is. -/
theorem C21_found {V : Type} (read : Y → Except Fault V) {cfg n : Y} {ks : List Str}
    (hk : ∀ k ∈ ks, Plain k) (h : Reach cfg ks n) (optional : Bool) (old : V) :
    hasKey cfg (dotted ks) = .ok (true, cfg) ∧
    parseWith read cfg (dotted ks) optional old = (read n >>= fun v => .ok ((0, v), cfg)) := by
  unfold hasKey parseWith getNode
  rw [getAll_dotted ks hk, descend_reach h]
  exact ⟨rfl, rfl⟩

/-- C21 for plain values: a scalar that converts is delivered, anything else is fatal. -/
theorem C21_value {V : Type} (dec : Str → Option V) {cfg n : Y} {ks : List Str}
    (hk : ∀ k ∈ ks, Plain k) (h : Reach cfg ks n) (optional : Bool) (old v : V) :
    (∀ s, n = .scalar s → dec s = some v →
      parseT dec cfg (dotted ks) optional old = .ok ((0, v), cfg)) ∧
    ((∀ s v, n = .scalar s → dec s ≠ some v) →
      parseT dec cfg (dotted ks) optional old = .error .fatal) := by
  unfold parseT
  rw [(C21_found (asT dec) hk h optional old).2]
  constructor
  · rintro s rfl hv
    simp only [asT, hv]; rfl
  · intro hn
    cases n with
    | scalar s =>
      cases hd : dec s with
      | none => simp only [asT, hd]; rfl
      | some w => exact absurd hd (hn s w rfl)
    | null => rfl
    | seq l => rfl
    | map m => rfl

/-- C21: with a key of the path missing, a mandatory `parse` is fatal, an optional one returns -1
with the output as it was, and `yaml_has_key` says no. -/
theorem C21_missing {V : Type} (read : Y → Except Fault V) {cfg : Y} {ks : List Str}
    (hk : ∀ k ∈ ks, Plain k) (h : Missing cfg ks) (old : V) :
    parseWith read cfg (dotted ks) false old = .error .fatal ∧
    (∃ cfg', parseWith read cfg (dotted ks) true old = .ok ((-1, old), cfg')) ∧
    ∃ cfg', hasKey cfg (dotted ks) = .ok (false, cfg') := by
  obtain ⟨y', e, -⟩ := descend_missing h
  unfold hasKey parseWith getNode
  rw [getAll_dotted ks hk, e]
  exact ⟨rfl, ⟨y', rfl⟩, y', rfl⟩

/-- C21: a lookup that found nothing changes no later lookup (of a path not through a sequence). -/
theorem C21_later {V : Type} (dec : Str → Option V) {cfg cfg' : Y} {ks ks' : List Str} {o : Option Y}
    (hk : ∀ k ∈ ks, Plain k) (hk' : ∀ k ∈ ks', Plain k) (hm : Missing cfg ks)
    (hg : getNode cfg (dotted ks) true = .ok (o, cfg'))
    (h : (∃ n, Reach cfg ks' n) ∨ Missing cfg ks' ∨ Blocked cfg ks') (optional : Bool) (old : V) :
    (parseT dec cfg' (dotted ks') optional old).map Prod.fst =
      (parseT dec cfg (dotted ks') optional old).map Prod.fst ∧
    (hasKey cfg' (dotted ks')).map Prod.fst = (hasKey cfg (dotted ks')).map Prod.fst := by
  obtain ⟨y', e, s⟩ := descend_missing hm
  have : y' = cfg' := by
    unfold getNode at hg
    rw [getAll_dotted ks hk, e] at hg
    replace hg : (Except.ok (none, y') : Except Fault (Option Y × Y)) = .ok (o, cfg') := hg
    injection hg with hg
    exact congrArg Prod.snd hg
  subst this
  unfold parseT hasKey parseWith getNode
  rw [getAll_dotted ks' hk']
  rcases h with ⟨n, h⟩ | h | h
  · obtain ⟨n', h', sn⟩ := same_reach s h
    rw [descend_reach h, descend_reach h']
    refine ⟨?_, rfl⟩
    show (caught (asT dec n' >>= fun v => Except.ok ((0, v), y'))).map Prod.fst =
      (caught (asT dec n >>= fun v => Except.ok ((0, v), cfg))).map Prod.fst
    rw [same_asT dec sn]
    cases asT dec n' <;> rfl
  · obtain ⟨z, e1, -⟩ := descend_missing h
    obtain ⟨z', e2, -⟩ := descend_missing (same_missing s h)
    rw [e1, e2]
    cases optional <;> exact ⟨rfl, rfl⟩
  · rw [descend_blocked h, descend_blocked (same_blocked s h)]
    exact ⟨rfl, rfl⟩

/-- C21 refuted: a path through a scalar holds no node, but the lookup throws, even for an optional
key and in `yaml_has_key`. -/
theorem C21_scalar_refuted {V : Type} (read : Y → Except Fault V) {cfg : Y} {ks : List Str}
    (hk : ∀ k ∈ ks, Plain k) (h : Blocked cfg ks) (optional : Bool) (old : V) :
    (∀ n, ¬Reach cfg ks n) ∧ hasKey cfg (dotted ks) = .error .exn ∧
    parseWith read cfg (dotted ks) optional old = .error .exn := by
  refine ⟨fun n hn => ?_, ?_⟩
  · have := descend_reach hn
    rw [descend_blocked h] at this
    cases this
  · unfold hasKey parseWith getNode
    rw [getAll_dotted ks hk, descend_blocked h]
    exact ⟨rfl, rfl⟩

/-- The path goes through a sequence. -/
inductive ThroughSeq : Y → List Str → Prop
  | seq (l : List Y) (k : Str) (ks : List Str) : ThroughSeq (.seq l) (k :: ks)
  | step {m : List (Str × Y)} {k : Str} {ks : List Str} {c : Y} (h : First m k c)
      (r : ThroughSeq c ks) : ThroughSeq (.map m) (k :: ks)

/-- C21: the cases above are all there are. -/
theorem C21_cases (cfg : Y) (ks : List Str) :
    (∃ n, Reach cfg ks n) ∨ Missing cfg ks ∨ Blocked cfg ks ∨ ThroughSeq cfg ks := by
  induction ks generalizing cfg with
  | nil => exact Or.inl ⟨cfg, .here cfg⟩
  | cons k ks ih =>
    cases cfg with
    | null => exact Or.inr (Or.inl (.null k ks))
    | scalar s => exact Or.inr (Or.inr (Or.inl (.scalar s k ks)))
    | seq l => exact Or.inr (Or.inr (Or.inr (.seq l k ks)))
    | map m =>
      rcases first_or m k with ⟨c, hc⟩ | hn
      · rcases ih c with ⟨n, h⟩ | h | h | h
        · exact Or.inl ⟨n, .step hc h⟩
        · exact Or.inr (Or.inl (.step hc h))
        · exact Or.inr (Or.inr (Or.inl (.step hc h)))
        · exact Or.inr (Or.inr (Or.inr (.step hc h)))
      · exact Or.inr (Or.inl (.key ks hn))

/-- C21: for paths not through a sequence, `yaml_has_key` says yes exactly when `parse` finds a
node. -/
theorem C21_has_key {cfg : Y} {ks : List Str} (hk : ∀ k ∈ ks, Plain k) (hs : ¬ThroughSeq cfg ks) :
    (∃ cfg', hasKey cfg (dotted ks) = .ok (true, cfg')) ↔ ∃ n, Reach cfg ks n := by
  constructor
  · rintro ⟨c, h⟩
    rcases C21_cases cfg ks with h' | h' | h' | h'
    · exact h'
    · obtain ⟨-, -, c', e⟩ := C21_missing (V := Unit) (fun _ => .ok ()) hk h' ()
      rw [h] at e; cases e
    · have e := (C21_scalar_refuted (V := Unit) (fun _ => .ok ()) hk h' true ()).2.1
      rw [h] at e; cases e
    · exact absurd h' hs
  · rintro ⟨n, h⟩
    exact ⟨cfg, (C21_found (V := Unit) (fun _ => .ok ()) hk h true ()).1⟩

/-- A decimal digit as a number. -/
def digit (s : Str) : Option Nat := match s with
  | [c] => if c.isDigit then some (c.toNat - '0'.toNat) else none
  | _ => none

/-- `{cam: {rate: 5, res: [7, 9]}, name: 3}`. -/
def exCfg : Y := .map [("cam".toList, .map [("rate".toList, .scalar "5".toList),
  ("res".toList, .seq [.scalar "7".toList, .scalar "9".toList])]), ("name".toList, .scalar "3".toList)]

theorem exCfg_rate : Reach exCfg ["cam".toList, "rate".toList] (.scalar "5".toList) :=
  .step ⟨[], _, rfl, by simp⟩ (.step ⟨[], _, rfl, by simp⟩ (.here _))

theorem exCfg_plain : ∀ k ∈ ["cam".toList, "rate".toList], Plain k := by
  intro k hk
  simp at hk
  rcases hk with rfl | rfl <;> exact ⟨by decide, by decide⟩

/-- C21 witness: `cam.rate` is 5. -/
example : dotted ["cam".toList, "rate".toList] = "cam.rate".toList ∧
    parseT digit exCfg "cam.rate".toList false 0 = .ok ((0, 5), exCfg) :=
  ⟨by decide, (C21_value digit exCfg_plain exCfg_rate false 0 5).1 _ rfl (by decide)⟩

/-- C21 witness: `cam.fps` is missing. -/
example : Missing exCfg ["cam".toList, "fps".toList] ∧
    (parseT digit exCfg "cam.fps".toList true 8).map Prod.fst = .ok (-1, 8) :=
  ⟨.step ⟨[], _, rfl, by simp⟩ (.key [] (by simp)), rfl⟩

/-- C21 witness: `name.first` goes through a scalar. -/
example : Blocked exCfg ["name".toList, "first".toList] :=
  .step ⟨[_], [], rfl, by simp⟩ (.scalar _ _ _)

/-- C21 refuted for paths through a sequence: asking for the missing optional key `cam.res.x`
changes the configuration, and the vector `cam.res` that was readable before is not afterwards. -/
theorem C21_seq_refuted :
    parseStd digit exCfg "cam.res".toList false [] = .ok ((0, [7, 9]), exCfg) ∧
    ∃ cfg', parseT digit exCfg "cam.res.x".toList true 8 = .ok ((-1, 8), cfg') ∧
      parseStd digit cfg' "cam.res".toList false [] = .error .fatal := by
  refine ⟨rfl, _, rfl, rfl⟩

/-- C21 for `std::vector`: the converted elements, in order, after what the output held. -/
theorem C21_vector_partial {V : Type} (dec : Str → Option V) {cfg : Y} {ks : List Str} {l : List Y}
    (hk : ∀ k ∈ ks, Plain k) (h : Reach cfg ks (.seq l)) (optional : Bool) (old vs : List V)
    (hv : List.Forall₂ (fun n v => ∃ s, n = Y.scalar s ∧ dec s = some v) l vs) :
    parseStd dec cfg (dotted ks) optional old = .ok ((0, old ++ vs), cfg) := by
  unfold parseStd
  rw [(C21_found (readStd dec old) hk h optional old).2]
  have : readStd dec old (.seq l) = .ok (old ++ vs) := by
    unfold readStd
    clear h
    induction hv generalizing old with
    | nil => simp; rfl
    | @cons n v l vs hn _ ih =>
      obtain ⟨s, rfl, hd⟩ := hn
      show List.foldlM _ old (Y.scalar s :: l) = _
      rw [List.foldlM_cons]
      simp only [asT, hd]
      have := ih (old ++ [v])
      rw [List.append_assoc] at this
      exact this
  rw [this]
  rfl

/-- C21 refuted for `std::vector`: two reads of the same key into the same variable give its elements
twice. -/
theorem C21_append_refuted : ∃ v, parseStd digit exCfg "cam.res".toList false [] = .ok ((0, v), exCfg) ∧
    parseStd digit exCfg "cam.res".toList false v = .ok ((0, v ++ v), exCfg) ∧ v ++ v ≠ v :=
  ⟨[7, 9], rfl, rfl, by decide⟩

/-! ### C22 -/

/-- Element `k` of the sequence is a scalar that converts to `v`. -/
def Holds {V : Type} (dec : Str → Option V) (l : List Y) (k : Nat) (v : V) : Prop :=
  ∃ s, l[k]? = some (.scalar s) ∧ dec s = some v

theorem elem_seq {V : Type} (dec : Str → Option V) (l : List Y) (k : Nat) (v : V) :
    elem dec (.seq l) k = .ok v ↔ Holds dec l k v := by
  unfold elem Holds
  show (match l[k]? with | some c => asT dec c | none => Except.error Fault.exn) = .ok v ↔ _
  cases l[k]? with
  | none => exact ⟨(fun h => by cases h), fun ⟨s, h, _⟩ => by cases h⟩
  | some c =>
    cases c with
    | scalar s =>
      show (match dec s with | some v => Except.ok v | none => Except.error Fault.exn) = _ ↔ _
      cases hd : dec s with
      | none =>
        refine ⟨(fun h => by cases h), fun ⟨s', h, h'⟩ => ?_⟩
        injection h with h; injection h with h; subst h
        rw [hd] at h'; cases h'
      | some w =>
        constructor
        · intro h; injection h with h; subst h; exact ⟨s, rfl, hd⟩
        · rintro ⟨s', h, h'⟩
          injection h with h; injection h with h; subst h
          rw [hd] at h'; injection h' with h'; rw [h']
    | null => exact ⟨(fun h => by cases h), fun ⟨s, h, _⟩ => by cases h⟩
    | seq _ => exact ⟨(fun h => by cases h), fun ⟨s, h, _⟩ => by cases h⟩
    | map _ => exact ⟨(fun h => by cases h), fun ⟨s, h, _⟩ => by cases h⟩

theorem elems_seq {V : Type} (dec : Str → Option V) (l : List Y) (i n : Nat) (vs : List V) :
    elems dec (.seq l) i n = .ok vs ↔
      vs.length = n ∧ ∀ k v, vs[k]? = some v → Holds dec l (i + k) v := by
  induction n generalizing i vs with
  | zero =>
    constructor
    · intro h; injection h with h; subst h; exact ⟨rfl, by simp⟩
    · rintro ⟨h, -⟩; rw [List.eq_nil_of_length_eq_zero h]; rfl
  | succ n ih =>
    rw [elems]
    constructor
    · intro h
      cases he : elem dec (.seq l) i with
      | error f => rw [he] at h; cases h
      | ok v =>
        rw [he] at h
        replace h : (elems dec (.seq l) (i + 1) n >>= fun vs => Except.ok (v :: vs)) = .ok vs := h
        cases hr : elems dec (.seq l) (i + 1) n with
        | error f => rw [hr] at h; cases h
        | ok ws =>
          rw [hr] at h
          injection h with h
          subst h
          obtain ⟨h1, h2⟩ := (ih (i + 1) ws).mp hr
          refine ⟨by simp [h1], ?_⟩
          rintro (_ | k) w hw
          · simp at hw; subst hw; exact (elem_seq dec l i v).mp he
          · have := h2 k w (by simpa using hw)
            rwa [show i + 1 + k = i + (k + 1) by omega] at this
    · rintro ⟨h1, h2⟩
      cases vs with
      | nil => simp at h1
      | cons v ws =>
        have e0 : elem dec (.seq l) i = .ok v := (elem_seq dec l i v).mpr (h2 0 v rfl)
        have e1 : elems dec (.seq l) (i + 1) n = .ok ws := by
          refine (ih (i + 1) ws).mpr ⟨by simpa using h1, fun k w hw => ?_⟩
          have := h2 (k + 1) w (by simpa using hw)
          rwa [show i + (k + 1) = i + 1 + k by omega] at this
        rw [e0, e1]; rfl

/-- C22, vectors: accepted only with at least as many elements as the type has, of which the first
are taken in order. -/
theorem C22_vector_partial {V : Type} (dec : Str → Option V) (n : Nat) (hn : 0 < n) (l : List Y)
    (vs : List V) :
    readVec dec n (.seq l) = .ok vs ↔ vs.length = n ∧ n ≤ l.length ∧
      ∀ k v, vs[k]? = some v → Holds dec l k v := by
  unfold readVec checkVector
  have key : elems dec (.seq l) 0 n = .ok vs ↔ vs.length = n ∧ n ≤ l.length ∧
      ∀ k v, vs[k]? = some v → Holds dec l k v := by
    rw [elems_seq]
    simp only [zero_add]
    constructor
    · rintro ⟨h1, h2⟩
      refine ⟨h1, ?_, h2⟩
      have hk : n - 1 < vs.length := by omega
      obtain ⟨s, hs, -⟩ := h2 (n - 1) _ (List.getElem?_eq_getElem hk)
      have := (List.getElem?_eq_some_iff.mp hs).1
      omega
    · rintro ⟨h1, -, h2⟩; exact ⟨h1, h2⟩
  by_cases h0 : size (.seq l) = 0 ∧ size (.seq l) ≠ n
  · rw [if_pos h0]
    refine ⟨(fun h => by cases h), fun ⟨_, h2, _⟩ => ?_⟩
    have : l.length = 0 := h0.1
    omega
  · rw [if_neg h0]
    exact key

/-- C22 refuted for vectors: for every size a longer vector is accepted. -/
theorem C22_vector_refuted (n : Nat) (hn : 0 < n) : ∃ l : List Y, l.length ≠ n ∧
    ∃ vs, readVec digit n (.seq l) = .ok vs := by
  refine ⟨List.replicate (n + 1) (.scalar "7".toList), by simp, List.replicate n 7, ?_⟩
  rw [C22_vector_partial digit n hn]
  refine ⟨by simp, by simp, fun k v hv => ?_⟩
  rw [List.getElem?_replicate] at hv
  by_cases hk : k < n
  · rw [if_pos hk] at hv
    injection hv with hv
    subst hv
    exact ⟨"7".toList, by rw [List.getElem?_replicate, if_pos (by omega)], rfl⟩
  · rw [if_neg hk] at hv; cases hv

/-- C22 witness: `[7, 9]` as a vector of two. -/
example : readVec digit 2 (.seq [.scalar "7".toList, .scalar "9".toList]) = .ok [7, 9] ∧
    readVec digit 2 (.seq [.scalar "7".toList]) = .error .exn ∧
    readVec digit 2 (.seq []) = .error .fatal := ⟨rfl, rfl, rfl⟩

/-- C22, vectors of any size: all elements, in order. -/
theorem C22_vecx {V : Type} (dec : Str → Option V) (l : List Y) (vs : List V) :
    readVecX dec (.seq l) = .ok vs ↔ vs.length = l.length ∧
      ∀ k v, vs[k]? = some v → Holds dec l k v := by
  unfold readVecX
  rw [elems_seq]
  simp [size]

/-- C22 refuted: a plain value is taken for an empty vector. -/
theorem C22_scalar_refuted {V : Type} (dec : Str → Option V) (s : Str) :
    readVecX dec (.scalar s) = .ok [] := rfl

/-- A matrix node with the fields `rows`, `cols` and `data`. -/
def MatrixNode (decI : Str → Option Int) (y : Y) (rows cols : Int) (l : List Y) : Prop :=
  ∃ m r c, y = .map m ∧ First m "rows".toList (.scalar r) ∧ First m "cols".toList (.scalar c) ∧
    First m "data".toList (.seq l) ∧ decI r = some rows ∧ decI c = some cols

theorem checkMatrix_node {decI : Str → Option Int} {y : Y} {rows cols : Int} {l : List Y}
    (h : MatrixNode decI y rows cols l) (nb : Option Nat) :
    checkMatrix decI nb y =
      if l.length = nb.getD l.length then .ok (rows, cols, .seq l) else .error .fatal := by
  obtain ⟨m, r, c, rfl, hr, hc, hd, e1, e2⟩ := h
  simp only [checkMatrix, need, field, lookup_first hr, lookup_first hc, lookup_first hd, asT, e1, e2,
    bind, Except.bind]
  rfl

theorem mapM_ok {α β : Type} (f : α → Except Fault β) (l : List α) (bs : List β) :
    l.mapM f = .ok bs ↔ List.Forall₂ (fun a b => f a = .ok b) l bs := by
  induction l generalizing bs with
  | nil =>
    constructor
    · intro h; injection h with h; subst h; exact .nil
    · intro h; cases h; rfl
  | cons a l ih =>
    rw [List.mapM_cons]
    constructor
    · intro h
      cases ha : f a with
      | error e => rw [ha] at h; cases h
      | ok b =>
        rw [ha] at h
        replace h : (l.mapM f >>= fun bs => Except.ok (b :: bs)) = .ok bs := h
        cases hl : l.mapM f with
        | error e => rw [hl] at h; cases h
        | ok cs =>
          rw [hl] at h
          injection h with h
          subst h
          exact .cons ha ((ih cs).mp hl)
    · intro h
      cases h with
      | @cons _ b _ cs h1 h2 =>
        rw [h1, (ih cs).mpr h2]; rfl

/-- `M` has the given number of rows and columns, and its entry `(i, j)` is element
`i * cols + j`. -/
def RowMajor {V : Type} (dec : Str → Option V) (l : List Y) (rows cols : Nat) (M : List (List V)) :
    Prop :=
  M.length = rows ∧ ∀ i row, M[i]? = some row → row.length = cols ∧
    ∀ j v, row[j]? = some v → Holds dec l (i * cols + j) v

theorem rows_spec {V : Type} (dec : Str → Option V) (l : List Y) (rows cols : Nat)
    (M : List (List V)) :
    (List.range rows).mapM (fun i => elems dec (.seq l) (i * cols) cols) = .ok M ↔
      RowMajor dec l rows cols M := by
  rw [mapM_ok, List.forall₂_iff_get]
  unfold RowMajor
  constructor
  · rintro ⟨h1, h2⟩
    have h1' : M.length = rows := by rw [← h1, List.length_range]
    refine ⟨h1', fun i row hr => ?_⟩
    obtain ⟨hi, e⟩ := List.getElem?_eq_some_iff.mp hr
    have := h2 i (by rw [h1]; exact hi) hi
    simp only [List.get_eq_getElem, List.getElem_range, e] at this
    exact (elems_seq dec l _ _ _).mp this
  · rintro ⟨h1, h2⟩
    refine ⟨by rw [List.length_range, h1], fun i hi hi' => ?_⟩
    simp only [List.get_eq_getElem, List.getElem_range]
    exact (elems_seq dec l _ _ _).mpr (h2 i _ (List.getElem?_eq_getElem hi'))

/-- C22, matrices of fixed size: accepted exactly with `n * n` convertible elements, filled row by
row. -/
theorem C22_matrix {V : Type} {decI : Str → Option Int} (dec : Str → Option V) {y : Y}
    {rows cols : Int} {l : List Y} (h : MatrixNode decI y rows cols l) (n : Nat)
    (M : List (List V)) :
    readMat decI dec n y = .ok M ↔ l.length = n * n ∧ RowMajor dec l n n M := by
  unfold readMat
  rw [checkMatrix_node h]
  simp only [Option.getD_some]
  by_cases hl : l.length = n * n
  · rw [if_pos hl]
    show (List.range n).mapM _ = _ ↔ _
    rw [rows_spec]
    exact ⟨fun h => ⟨hl, h⟩, fun h => h.2⟩
  · rw [if_neg hl]
    exact ⟨(fun h => by cases h), fun h => absurd h.1 hl⟩

/-- C22: a node without the three fields is no matrix. -/
theorem C22_fields {V : Type} (decI : Str → Option Int) (dec : Str → Option V)
    (m : List (Str × Y)) (k : Str) (hk : k = "rows".toList ∨ k = "cols".toList ∨ k = "data".toList)
    (h : ∀ e ∈ m, e.1 ≠ k) (n : Nat) :
    readMat decI dec n (.map m) = .error .fatal ∧ readMatX decI dec (.map m) = .error .fatal := by
  have hc : ∀ nb, checkMatrix decI nb (.map m) = .error .fatal := by
    intro nb
    have hn : ∀ j, need (.map m) j = .error .fatal ∨ ∃ c, need (.map m) j = .ok c := by
      intro j
      cases hl : lookup m j with
      | none => left; simp only [need, field, hl]; rfl
      | some c => right; refine ⟨c, ?_⟩; simp only [need, field, hl]; rfl
    have hk' : need (.map m) k = .error .fatal := by
      simp only [need, field, lookup_missing h]; rfl
    unfold checkMatrix
    rcases hn "rows".toList with e | ⟨c1, e⟩
    · rw [e]; rfl
    rcases hn "cols".toList with e' | ⟨c2, e'⟩
    · rw [e, e']; rfl
    rcases hn "data".toList with e'' | ⟨c3, e''⟩
    · rw [e, e', e'']; rfl
    rcases hk with rfl | rfl | rfl
    · rw [hk'] at e; cases e
    · rw [hk'] at e'; cases e'
    · rw [hk'] at e''; cases e''
  unfold readMat readMatX
  rw [hc, hc]
  exact ⟨rfl, rfl⟩

/-- `{rows: r, cols: c, data: [...]}`. -/
def matNode (r c : Str) (data : List Y) : Y :=
  .map [("rows".toList, .scalar r), ("cols".toList, .scalar c), ("data".toList, .seq data)]

/-- A digit as an integer. -/
def digitI (s : Str) : Option Int := (digit s).map Int.ofNat

theorem matNode_spec (r c : Str) (data : List Y) (rows cols : Int) (h1 : digitI r = some rows)
    (h2 : digitI c = some cols) : MatrixNode digitI (matNode r c data) rows cols data :=
  ⟨_, r, c, rfl, ⟨[], _, rfl, by simp⟩, ⟨[_], _, rfl, by simp⟩, ⟨[_, _], [], rfl, by simp⟩, h1, h2⟩

/-- C22 witness: a 2 by 2 matrix. -/
example : readMat digitI digit 2 (matNode "2".toList "2".toList
    [.scalar "1".toList, .scalar "2".toList, .scalar "3".toList, .scalar "4".toList]) =
    .ok [[1, 2], [3, 4]] := rfl

/-- C22 refuted for the shape of fixed matrices: `rows` and `cols` are not compared, here a 1 by 4
matrix is read as a 2 by 2 one. -/
theorem C22_shape_refuted : readMat digitI digit 2 (matNode "1".toList "4".toList
    [.scalar "1".toList, .scalar "2".toList, .scalar "3".toList, .scalar "4".toList]) =
    .ok [[1, 2], [3, 4]] := rfl

/-- C22, matrices of any size: accepted only with at least `rows * cols` elements, filled row by
row. -/
theorem C22_matx_partial {V : Type} {decI : Str → Option Int} (dec : Str → Option V) {y : Y}
    {rows cols : Int} {l : List Y} (h : MatrixNode decI y rows cols l) (M : List (List V)) :
    readMatX decI dec y = .ok M ↔ 0 ≤ rows ∧ 0 ≤ cols ∧ rows.toNat * cols.toNat ≤ l.length ∧
      RowMajor dec l rows.toNat cols.toNat M := by
  unfold readMatX
  rw [checkMatrix_node h]
  simp only [Option.getD_none, if_true]
  show (if 0 ≤ rows ∧ 0 ≤ cols then (List.range rows.toNat).mapM
    (fun i => elems dec (.seq l) (i * cols.toNat) cols.toNat) else .error .fatal) = .ok M ↔ _
  by_cases hp : 0 ≤ rows ∧ 0 ≤ cols
  · rw [if_pos hp, rows_spec]
    refine ⟨fun hM => ⟨hp.1, hp.2, ?_, hM⟩, fun hM => hM.2.2.2⟩
    obtain ⟨h1, h2⟩ := hM
    by_cases hr : rows.toNat = 0
    · rw [hr]; omega
    by_cases hc : cols.toNat = 0
    · rw [hc]; omega
    have hi : rows.toNat - 1 < M.length := by omega
    obtain ⟨h3, h4⟩ := h2 _ _ (List.getElem?_eq_getElem hi)
    have hj : cols.toNat - 1 < M[rows.toNat - 1].length := by omega
    obtain ⟨s, hs, -⟩ := h4 _ _ (List.getElem?_eq_getElem hj)
    have := (List.getElem?_eq_some_iff.mp hs).1
    obtain ⟨a, ha⟩ : ∃ a, rows.toNat = a + 1 := ⟨rows.toNat - 1, by omega⟩
    rw [ha] at this ⊢
    rw [Nat.add_sub_cancel] at this
    rw [Nat.add_mul]
    omega
  · rw [if_neg hp]
    exact ⟨(fun h => by cases h), fun h => absurd ⟨h.1, h.2.1⟩ hp⟩

/-- C22 refuted for matrices of any size: surplus elements are ignored. -/
theorem C22_matx_refuted : readMatX digitI digit (matNode "1".toList "2".toList
    [.scalar "1".toList, .scalar "2".toList, .scalar "3".toList]) = .ok [[1, 2]] ∧
    (3 : Nat) ≠ 1 * 2 := ⟨rfl, by decide⟩

/-- C22 witness: too few elements are not accepted. -/
example : readMatX digitI digit (matNode "2".toList "2".toList
    [.scalar "1".toList, .scalar "2".toList, .scalar "3".toList]) = .error .exn := rfl

end Yac.Config
