import Verif.Disk.DirProps

/-!
# C131: making directories, and the files saved in them
-/

namespace Yac.Disk

/-- Something stands in the way of the directory `cur/cs`: a file on the way, or a directory in
which nothing may be made. -/
def Blocked (d : Disk) (cur : Path) (cs : List Name) : Prop :=
  ∃ a n b, cs = a ++ n :: b ∧
    ((∃ bytes, d.node (cur ++ a ++ [n]) = some (.file bytes)) ∨
      (d.node (cur ++ a ++ [n]) = none ∧ d.writable (cur ++ a) = false))

/-- The disk `d'` is `d` with new, empty directories on the way to `cur/cs` only. -/
structure Grown (d d' : Disk) (cur : Path) (cs : List Name) : Prop where
  cwd : d'.cwd = d.cwd
  readable : d'.readable = d.readable
  writable : d'.writable = d.writable
  free : d'.free = d.free
  node : ∀ r, d'.node r = d.node r ∨
    (d.node r = none ∧ d'.node r = some .dir ∧ ∃ a b, cs = a ++ b ∧ a ≠ [] ∧ r = cur ++ a)

theorem mkdirs_spec : ∀ (cs : List Name) (d : Disk) (cur : Path), (∀ c ∈ cs, GoodName c) →
    Grown d (mkdirs d cur cs).2 cur cs ∧ ((mkdirs d cur cs).1 = true ↔ ¬ Blocked d cur cs) ∧
    ((mkdirs d cur cs).1 = true → ∀ a b, cs = a ++ b → a ≠ [] →
      (mkdirs d cur cs).2.node (cur ++ a) = some .dir) := by
  intro cs
  induction cs with
  | nil =>
    intro d cur _
    refine ⟨⟨rfl, rfl, rfl, rfl, fun r => Or.inl rfl⟩, ?_, ?_⟩
    · simp [mkdirs, Blocked]
    · intro _ a b h ha
      have := congrArg List.length h
      simp only [List.length_nil, List.length_append] at this
      exact absurd (List.length_eq_zero_iff.mp (by omega)) ha
  | cons c cs ih =>
    intro d cur hg
    have hc := stepTo_good cur (hg c (by simp))
    have hg' : ∀ x ∈ cs, GoodName x := fun x hx => hg x (by simp [hx])
    cases hn : d.node (cur ++ [c]) with
    | some x =>
      cases x with
      | file bytes =>
        have e : mkdirs d cur (c :: cs) = (false, d) := by simp [mkdirs, hc, hn]
        rw [e]
        refine ⟨⟨rfl, rfl, rfl, rfl, fun r => Or.inl rfl⟩, ?_, by intro h; cases h⟩
        simp only [Bool.false_eq_true, false_iff, not_not]
        exact ⟨[], c, cs, rfl, Or.inl ⟨bytes, by simpa using hn⟩⟩
      | dir =>
        have e : mkdirs d cur (c :: cs) = mkdirs d (cur ++ [c]) cs := by simp [mkdirs, hc, hn]
        rw [e]
        obtain ⟨h1, h2, h3⟩ := ih d (cur ++ [c]) hg'
        refine ⟨⟨h1.cwd, h1.readable, h1.writable, h1.free, fun r => ?_⟩, ?_, ?_⟩
        · rcases h1.node r with h | ⟨ha, hb, a, b, rfl, ha', rfl⟩
          · exact Or.inl h
          · exact Or.inr ⟨ha, hb, c :: a, b, rfl, by simp, by simp⟩
        · rw [h2, not_iff_not]
          constructor
          · rintro ⟨a, n, b, rfl, h⟩
            exact ⟨c :: a, n, b, rfl, by simpa using h⟩
          · rintro ⟨a, n, b, hab, h⟩
            cases a with
            | nil =>
              simp only [List.nil_append, List.cons.injEq] at hab
              obtain ⟨rfl, rfl⟩ := hab
              simp [hn] at h
            | cons x a =>
              simp only [List.cons_append, List.cons.injEq] at hab
              obtain ⟨rfl, rfl⟩ := hab
              exact ⟨a, n, b, rfl, by simpa using h⟩
        · intro h a b hab ha
          cases a with
          | nil => exact absurd rfl ha
          | cons x a =>
            simp only [List.cons_append, List.cons.injEq] at hab
            obtain ⟨rfl, rfl⟩ := hab
            by_cases ha0 : a = []
            · subst ha0
              rcases h1.node (cur ++ [c]) with h | ⟨h, -⟩
              · rw [h, hn]
              · rw [hn] at h; cases h
            · have := h3 h a b rfl ha0
              simpa using this
    | none =>
      by_cases hw : d.writable cur = true
      · have e : mkdirs d cur (c :: cs) =
            mkdirs (d.set (cur ++ [c]) (some .dir)) (cur ++ [c]) cs := by
          simp [mkdirs, hc, hn, hw]
        rw [e]
        obtain ⟨h1, h2, h3⟩ := ih (d.set (cur ++ [c]) (some .dir)) (cur ++ [c]) hg'
        have hne : ∀ a : List Name, a ≠ [] →
            (d.set (cur ++ [c]) (some .dir)).node (cur ++ [c] ++ a) = d.node (cur ++ [c] ++ a) := by
          intro a ha
          simp only [Disk.set]
          rw [if_neg]
          intro h
          have := congrArg List.length h
          simp only [List.length_append, List.length_singleton] at this
          exact ha (List.length_eq_zero_iff.mp (by omega))
        refine ⟨⟨h1.cwd, h1.readable, h1.writable, h1.free, fun r => ?_⟩, ?_, ?_⟩
        · rcases h1.node r with h | ⟨ha, hb, a, b, rfl, ha', rfl⟩
          · by_cases hr : r = cur ++ [c]
            · right
              refine ⟨hr ▸ hn, ?_, [c], cs, rfl, by simp, hr⟩
              rw [h]; simp [Disk.set, hr]
            · left; rw [h]; simp [Disk.set, hr]
          · right
            rw [hne a ha'] at ha
            exact ⟨ha, hb, c :: a, b, rfl, by simp, by simp⟩
        · rw [h2, not_iff_not]
          constructor
          · rintro ⟨a, n, b, rfl, h⟩
            refine ⟨c :: a, n, b, rfl, ?_⟩
            rw [List.append_assoc (cur ++ [c]), hne _ (by simp)] at h
            simpa [Disk.set] using h
          · rintro ⟨a, n, b, hab, h⟩
            cases a with
            | nil =>
              simp only [List.nil_append, List.cons.injEq] at hab
              obtain ⟨rfl, rfl⟩ := hab
              simp [hn, hw] at h
            | cons x a =>
              simp only [List.cons_append, List.cons.injEq] at hab
              obtain ⟨rfl, rfl⟩ := hab
              refine ⟨a, n, b, rfl, ?_⟩
              rw [List.append_assoc (cur ++ [c]), hne _ (by simp)]
              simpa [Disk.set] using h
        · intro h a b hab ha
          cases a with
          | nil => exact absurd rfl ha
          | cons x a =>
            simp only [List.cons_append, List.cons.injEq] at hab
            obtain ⟨rfl, rfl⟩ := hab
            by_cases ha0 : a = []
            · subst ha0
              rcases h1.node (cur ++ [c]) with h | ⟨h, -⟩
              · rw [h]; simp [Disk.set]
              · simp [Disk.set] at h
            · have := h3 h a b rfl ha0
              simpa using this
      · have e : mkdirs d cur (c :: cs) = (false, d) := by simp [mkdirs, hc, hn, hw]
        rw [e]
        refine ⟨⟨rfl, rfl, rfl, rfl, fun r => Or.inl rfl⟩, ?_, by intro h; cases h⟩
        simp only [Bool.false_eq_true, false_iff, not_not]
        exact ⟨[], c, cs, rfl, Or.inr ⟨by simpa using hn, by simpa using hw⟩⟩

/-- A path that the shell takes as it is. -/
def Simple (s : List Char) : Prop :=
  s ≠ [] ∧ s.all plain = true ∧ s.head? ≠ some '-' ∧ ∀ n ∈ pieces s, GoodName n

theorem simple_blank {s : List Char} (h : s.all plain = true) : ' ' ∉ s := by
  intro hb
  have := List.all_eq_true.mp h ' ' hb
  exact absurd this (by decide)

theorem shWords_simple {s : List Char} (h : Simple s) : shWords s = some [s] := by
  unfold shWords
  rw [if_pos, piecesBy_none ' ' s [] (simple_blank h.2.1)]
  · simp [h.1]
  · rw [List.all_eq_true]
    intro c hc
    simp [List.all_eq_true.mp h.2.1 c hc]

theorem dirCreate_simple (d : Disk) {s : List Char} (h : Simple s) :
    dirCreate true d s = some (if (mkdirs d (startOf d s) (pieces s)).1 then 0 else 256,
      (mkdirs d (startOf d s) (pieces s)).2) := by
  unfold dirCreate system
  rw [if_neg (by decide), shWords_simple h]
  have : s.head? ≠ some '-' := h.2.2.1
  simp [mkdirAll, this]

theorem walk_dirs (d : Disk) (cur : Path) (cs : List Name) (hg : ∀ c ∈ cs, GoodName c)
    (h : ∀ a b, cs = a ++ b → d.node (cur ++ a) = some .dir) : walk d cur cs = .ok (cur ++ cs) := by
  induction cs generalizing cur with
  | nil => simp [walk]
  | cons c cs ih =>
    have h0 := h [] (c :: cs) rfl
    simp only [List.append_nil] at h0
    simp only [walk, h0]
    rw [stepTo_good cur (hg c (by simp)), ih _ (fun x hx => hg x (by simp [hx]))]
    · simp
    · intro a b hab
      have := h (c :: a) b (by simp [hab])
      simpa using this

theorem names_of_dirs (d : Disk) (s : List Char) (hs : s ≠ []) (hg : ∀ c ∈ pieces s, GoodName c)
    (h : ∀ a b, pieces s = a ++ b → d.node (startOf d s ++ a) = some .dir) :
    Names d s (startOf d s ++ pieces s) := by
  unfold Names resolve comps
  rw [if_neg hs, walk_append, walk_dirs d _ _ hg h]
  have := h (pieces s) [] (by simp)
  by_cases hl : s.getLast? = some '/'
  · rw [if_pos hl]; simp [walk, this, stepTo]
  · rw [if_neg hl]; rfl

theorem start_dir {d : Disk} (ht : Tree d) (s : List Char) : d.node (startOf d s) = some .dir := by
  unfold startOf
  split_ifs
  · exact ht.root
  · exact ht.here

/-- **C131 (making directories).** For a path without characters that are special to the shell,
`dir_create` returns 0 exactly if nothing is in the way; the path then names a directory.  In any
case nothing else changes than that directories on the way are made. -/
theorem C131_mkdir_partial (d : Disk) (ht : Tree d) (s : List Char) (hs : Simple s) :
    ∃ (r : Int) (d' : Disk), dirCreate true d s = some (r, d') ∧
      Grown d d' (startOf d s) (pieces s) ∧ (r = 0 ↔ ¬ Blocked d (startOf d s) (pieces s)) ∧
      (r = 0 → Names d' s (startOf d s ++ pieces s) ∧
        d'.node (startOf d s ++ pieces s) = some .dir) := by
  obtain ⟨h1, h2, h3⟩ := mkdirs_spec (pieces s) d (startOf d s) hs.2.2.2
  refine ⟨_, _, dirCreate_simple d hs, h1, ?_, ?_⟩
  · rw [← h2]
    by_cases h : (mkdirs d (startOf d s) (pieces s)).1 = true <;> simp [h]
  · intro h0
    have ho : (mkdirs d (startOf d s) (pieces s)).1 = true := by
      by_contra h
      rw [if_neg h] at h0
      exact absurd h0 (by decide)
    have hst : startOf (mkdirs d (startOf d s) (pieces s)).2 s = startOf d s := by
      have := h1.cwd
      generalize mkdirs d (startOf d s) (pieces s) = m at this
      unfold startOf; rw [this]
    have hall : ∀ a b, pieces s = a ++ b →
        (mkdirs d (startOf d s) (pieces s)).2.node (startOf d s ++ a) = some .dir := by
      intro a b hab
      by_cases ha : a = []
      · subst ha
        rw [List.append_nil]
        rcases h1.node (startOf d s) with h | ⟨h, -⟩
        · rw [h, start_dir ht]
        · rw [start_dir ht] at h; cases h
      · exact h3 ho a b hab ha
    refine ⟨?_, hall (pieces s) [] (by simp)⟩
    have := names_of_dirs (mkdirs d (startOf d s) (pieces s)).2 s hs.1 hs.2.2.2 (by rw [hst]; exact hall)
    rw [hst] at this
    exact this

/-- **C131 (failures), refuted.** `create_dir` is documented to return -1 for failure, but if
something is in the way it returns 0, and the directory is not there. -/
theorem C131_create_dir_refuted (d : Disk) (s : List Char) (hs : Simple s)
    (hf : ∃ a n b bytes, pieces s = a ++ n :: b ∧
      d.node (startOf d s ++ a ++ [n]) = some (.file bytes)) :
    ∃ d', createDir true d s = some (0, d') ∧ (∃ d'', dirCreate true d s = some (256, d'')) ∧
      (Tree d' → d'.node (startOf d s ++ pieces s) ≠ some .dir) := by
  obtain ⟨a, n, b, bytes, hp, hx⟩ := hf
  obtain ⟨h1, h2, h3⟩ := mkdirs_spec (pieces s) d (startOf d s) hs.2.2.2
  have hblock : Blocked d (startOf d s) (pieces s) := ⟨a, n, b, hp, Or.inl ⟨bytes, hx⟩⟩
  have hno : (mkdirs d (startOf d s) (pieces s)).1 = false := by
    by_contra h
    simp only [Bool.not_eq_false] at h
    exact h2.mp h hblock
  have hd := dirCreate_simple d hs
  rw [hno] at hd
  refine ⟨(mkdirs d (startOf d s) (pieces s)).2, ?_, ⟨_, by simpa using hd⟩, ?_⟩
  · unfold createDir
    unfold dirCreate at hd
    rw [hd]; simp
  · intro ht' hdir
    have hk : (mkdirs d (startOf d s) (pieces s)).2.node (startOf d s ++ a ++ [n]) =
        some (.file bytes) := by
      rcases h1.node (startOf d s ++ a ++ [n]) with h | ⟨h, -⟩
      · rw [h, hx]
      · rw [hx] at h; cases h
    have e : startOf d s ++ pieces s = (startOf d s ++ a ++ [n]) ++ b := by rw [hp]; simp
    by_cases hb : b = []
    · rw [e, hb, List.append_nil, hk] at hdir; cases hdir
    · have := ancestor_dir ht' (startOf d s ++ a ++ [n]) b hb (by rw [← e, hdir]; simp)
      rw [hk] at this; cases this

/-- **C131 (blanks), refuted.** A name with a blank makes two directories instead of the one that
was asked for. -/
theorem C131_blank_refuted (d : Disk) (hw : d.writable d.cwd = true) (a b : Name)
    (ha : Simple a) (hb : Simple b) (ha' : GoodName a) (hb' : GoodName b)
    (hna : d.node (d.cwd ++ [a]) = none) (hnb : d.node (d.cwd ++ [b]) = none) :
    ∃ d', dirCreate true d (a ++ ' ' :: b) = some (0, d') ∧
      d'.node (d.cwd ++ [a]) = some .dir ∧ d'.node (d.cwd ++ [b]) = some .dir ∧
      d'.node (d.cwd ++ [a ++ ' ' :: b]) = d.node (d.cwd ++ [a ++ ' ' :: b]) := by
  have hsw : shWords (a ++ ' ' :: b) = some [a, b] := by
    unfold shWords
    rw [if_pos, piecesBy_append, piecesBy_none ' ' a [] (simple_blank ha.2.1),
      piecesBy_none ' ' b [] (simple_blank hb.2.1)]
    · simp [ha.1, hb.1]
    · rw [List.all_eq_true]
      intro c hc
      rw [List.mem_append, List.mem_cons] at hc
      rcases hc with h | rfl | h
      · simp [List.all_eq_true.mp ha.2.1 c h]
      · decide
      · simp [List.all_eq_true.mp hb.2.1 c h]
  have hrel : ∀ (d : Disk) (n : Name), GoodName n → startOf d n = d.cwd := by
    intro d n hn
    unfold startOf
    rw [if_neg]
    intro h
    obtain ⟨c, l, rfl⟩ := List.exists_cons_of_ne_nil hn.1
    have hc : c = '/' := by simpa using h
    exact hn.2.1 (by simp [hc])
  have h1 : mkdirs d (startOf d a) (pieces a) = (true, d.set (d.cwd ++ [a]) (some .dir)) := by
    rw [hrel d a ha', pieces_name ha']
    simp [mkdirs, stepTo_good _ ha', hna, hw]
  have hne : a ≠ a ++ ' ' :: b := by
    intro h
    have := congrArg List.length h
    simp at this
  have hne' : b ≠ a ++ ' ' :: b := by
    intro h
    have := congrArg List.length h
    simp at this
    omega
  have hfin : ∃ d', mkdirAll d [a, b] = (true, d') ∧ d'.node (d.cwd ++ [a]) = some .dir ∧
      d'.node (d.cwd ++ [b]) = some .dir ∧
      d'.node (d.cwd ++ [a ++ ' ' :: b]) = d.node (d.cwd ++ [a ++ ' ' :: b]) := by
    simp only [mkdirAll, h1]
    rw [hrel _ b hb', pieces_name hb']
    by_cases hab : b = a
    · subst hab
      refine ⟨d.set (d.cwd ++ [b]) (some .dir), ?_, ?_, ?_, ?_⟩
      · simp [mkdirs, stepTo_good _ hb', Disk.set]
      · simp [Disk.set]
      · simp [Disk.set]
      · simp [Disk.set]
    · refine ⟨(d.set (d.cwd ++ [a]) (some .dir)).set (d.cwd ++ [b]) (some .dir), ?_, ?_, ?_, ?_⟩
      · simp [mkdirs, stepTo_good _ hb', Disk.set, hnb, hab, hw]
      · simp [Disk.set]
      · simp [Disk.set]
      · simp [Disk.set, hne'.symm]
  obtain ⟨d', e1, e2, e3, e4⟩ := hfin
  refine ⟨d', ?_, e2, e3, e4⟩
  unfold dirCreate system
  rw [if_neg (by decide), hsw]
  have h1' : a.head? ≠ some '-' := ha.2.2.1
  have h2' : b.head? ≠ some '-' := hb.2.2.1
  simp [h1', h2', e1]

/-! ### Where detections are saved -/

theorem plain_sep {s : List Char} (h : s.all plain = true) (hs : '/' ∉ s) :
    ∀ c ∈ s, Fs.isSep c = false := by
  intro c hc
  have h1 := List.all_eq_true.mp h c hc
  have h2 : c ≠ '/' := fun e => hs (e ▸ hc)
  have h3 : c ≠ '\\' := by rintro rfl; exact absurd h1 (by decide)
  simp [Fs.isSep, h2, h3]

/-- **C131 (saving).** A detection that is saved as a new file `dir/name`, where nothing stands in
the way of the directory, makes the directory and opens that file. -/
theorem C131_save_partial (d : Disk) (ht : Tree d) (s : List Char) (n : Name) (hs : Simple s)
    (hn : GoodName n) (hnp : n.all plain = true)
    (hb : ¬ Blocked d (startOf d s) (pieces s))
    (hnew : d.node (startOf d s ++ pieces s ++ [n]) = none)
    (hw : d.writable (startOf d s ++ pieces s) = true) :
    ∃ d', saveOpen true d (s ++ '/' :: n) = some (.ok (startOf d s ++ pieces s ++ [n]), d') ∧
      d'.node (startOf d s ++ pieces s ++ [n]) = some (.file []) ∧
      d'.node (startOf d s ++ pieces s) = some .dir := by
  obtain ⟨r, d1, h1, h2, h3, h4⟩ := C131_mkdir_partial d ht s hs
  have h0 := h3.mpr hb
  obtain ⟨h5, h6⟩ := h4 h0
  have hch := names_child h5 h6 hn
  have hd1 : d1.node (startOf d s ++ pieces s ++ [n]) = none := by
    rcases h2.node (startOf d s ++ pieces s ++ [n]) with h | ⟨-, -, a, b, hab, -, h⟩
    · rw [h, hnew]
    · exfalso
      have l1 := congrArg List.length h
      have l2 := congrArg List.length hab
      simp only [List.length_append, List.length_singleton] at l1 l2
      omega
  have hname := (Fs.C20_fname s n '/' (by decide) (plain_sep hnp hn.2.1)).2.1
  refine ⟨d1.set (startOf d s ++ pieces s ++ [n]) (some (.file [])), ?_, by simp [Disk.set], ?_⟩
  · unfold saveOpen
    rw [hname, h1]
    simp only [h0]
    rw [if_neg (by simp)]
    have : fopenW d1 (s ++ '/' :: n) =
        .ok (startOf d s ++ pieces s ++ [n], d1.set (startOf d s ++ pieces s ++ [n]) (some (.file []))) := by
      unfold fopenW
      rw [show resolve d1 (s ++ '/' :: n) = _ from hch]
      simp only [hd1]
      rw [if_pos]
      rw [h2.writable]
      simpa using hw
    rw [this]
  · simp only [Disk.set]
    rw [if_neg, h6]
    intro h
    have := congrArg List.length h
    simp only [List.length_append, List.length_singleton] at this
    omega

/-- **C131 (saving to a plain file name), refuted.** Saving a detection as `name`, without a
directory, makes a directory of that name and fails. -/
theorem C131_save_plain_refuted (d : Disk) (ht : Tree d) (n : Name) (hs : Simple n)
    (hn : GoodName n) (hnew : d.node (d.cwd ++ [n]) = none) (hw : d.writable d.cwd = true) :
    ∃ d', saveOpen true d n = some (.error (-1), d') ∧ d'.node (d.cwd ++ [n]) = some .dir := by
  have hst : startOf d n = d.cwd := by
    unfold startOf
    rw [if_neg]
    intro h
    obtain ⟨c, l, rfl⟩ := List.exists_cons_of_ne_nil hn.1
    have hc : c = '/' := by simpa using h
    exact hn.2.1 (by simp [hc])
  obtain ⟨r, d1, h1, h2, h3, h4⟩ := C131_mkdir_partial d ht n hs
  rw [hst, pieces_name hn] at h2 h3 h4
  have h0 : r = 0 := h3.mpr (by
    rintro ⟨a, m, b, hab, h⟩
    have ha : a = [] := by
      cases a with
      | nil => rfl
      | cons x a => simp at hab
    subst ha
    have : m = n := by simp at hab; exact hab.1.symm
    subst this
    simp [hnew, hw] at h)
  obtain ⟨h5, h6⟩ := h4 h0
  refine ⟨d1, ?_, h6⟩
  have hname := (Fs.C20_fname [] n '/' (by decide) (plain_sep hs.2.1 hn.2.1)).2.2.2
  unfold saveOpen
  rw [hname, h1]
  simp only [h0]
  rw [if_neg (by simp)]
  have : fopenW d1 n = .error .isdir := by
    unfold fopenW
    rw [show resolve d1 n = _ from h5]
    simp [h6]
  rw [this]

/-! ### Witnesses -/

/-- A disk with `/data`, `/data/a.csv`, `/data/old`, `/data/old/b.csv` and `/file`. -/
def demo : Disk where
  node p :=
    if p = [] ∨ p = ["data".toList] ∨ p = ["data".toList, "old".toList] then some .dir
    else if p = ["data".toList, "a.csv".toList] then some (.file [1, 2, 3])
    else if p = ["data".toList, "old".toList, "b.csv".toList] then some (.file [])
    else if p = ["file".toList] then some (.file [7]) else none
  cwd := ["data".toList]
  readable _ := true
  writable _ := true
  free := 10

/-- What reading its directories yields. -/
def demoRead (p : Path) : List Name :=
  if p = [] then ["data".toList, ".".toList, "..".toList, "file".toList]
  else if p = ["data".toList] then ["old".toList, "..".toList, "a.csv".toList, ".".toList]
  else [".".toList, "b.csv".toList, "..".toList]

theorem demo_cases (p : Path) (h : demo.node p ≠ none) :
    p = [] ∨ p = ["data".toList] ∨ p = ["data".toList, "old".toList] ∨
      p = ["data".toList, "a.csv".toList] ∨ p = ["file".toList] ∨
      p = ["data".toList, "old".toList, "b.csv".toList] := by
  by_contra hc
  push Not at hc
  apply h
  simp only [demo]
  rw [if_neg (by simp only [not_or]; exact ⟨hc.1, hc.2.1, hc.2.2.1⟩), if_neg hc.2.2.2.1,
    if_neg hc.2.2.2.2.2, if_neg hc.2.2.2.2.1]

instance (n : Name) : Decidable (GoodName n) := by unfold GoodName; infer_instance

instance (d : Disk) (s : List Char) (p : Path) : Decidable (Names d s p) := by
  unfold Names; infer_instance

theorem snoc_one {p : Path} {n x : Name} (h : p ++ [n] = [x]) : p = [] ∧ n = x := by
  have := List.append_inj' (s₂ := ([] : Path)) (t₂ := [x]) h rfl
  simpa using this

theorem snoc_two {p : Path} {n x y : Name} (h : p ++ [n] = [x, y]) : p = [x] ∧ n = y := by
  have := List.append_inj' (s₂ := ([x] : Path)) (t₂ := [y]) h rfl
  simpa using this

theorem snoc_three {p : Path} {n x y z : Name} (h : p ++ [n] = [x, y, z]) :
    p = [x, y] ∧ n = z := by
  have := List.append_inj' (s₂ := ([x, y] : Path)) (t₂ := [z]) h rfl
  simpa using this

theorem demo_tree : Tree demo := by
  refine ⟨by decide, ?_, by decide⟩
  intro p n h
  rcases demo_cases _ h with e | e | e | e | e | e
  · simp at e
  · obtain ⟨rfl, rfl⟩ := snoc_one e; decide
  · obtain ⟨rfl, rfl⟩ := snoc_two e; decide
  · obtain ⟨rfl, rfl⟩ := snoc_two e; decide
  · obtain ⟨rfl, rfl⟩ := snoc_one e; decide
  · obtain ⟨rfl, rfl⟩ := snoc_three e; decide

theorem demo_reads : Reads demoRead demo := by
  intro p hp
  rcases demo_cases p (by rw [hp]; simp) with rfl | rfl | rfl | rfl | rfl | rfl
  · refine ⟨by decide, fun n => ⟨fun h => ?_, ?_⟩⟩
    · have : n = "data".toList ∨ n = ".".toList ∨ n = "..".toList ∨ n = "file".toList := by
        simpa [demoRead] using h
      rcases this with rfl | rfl | rfl | rfl <;> decide
    · rintro (rfl | rfl | h)
      · decide
      · decide
      · rcases demo_cases _ h with e | e | e | e | e | e
        · simp at e
        · obtain ⟨-, rfl⟩ := snoc_one e; decide
        · exact absurd (snoc_two e).1 (by decide)
        · exact absurd (snoc_two e).1 (by decide)
        · obtain ⟨-, rfl⟩ := snoc_one e; decide
        · exact absurd (snoc_three e).1 (by decide)
  · refine ⟨by decide, fun n => ⟨fun h => ?_, ?_⟩⟩
    · have : n = "old".toList ∨ n = "..".toList ∨ n = "a.csv".toList ∨ n = ".".toList := by
        simpa [demoRead] using h
      rcases this with rfl | rfl | rfl | rfl <;> decide
    · rintro (rfl | rfl | h)
      · decide
      · decide
      · rcases demo_cases _ h with e | e | e | e | e | e
        · simp at e
        · exact absurd (snoc_one e).1 (by decide)
        · obtain ⟨-, rfl⟩ := snoc_two e; decide
        · obtain ⟨-, rfl⟩ := snoc_two e; decide
        · exact absurd (snoc_one e).1 (by decide)
        · exact absurd (snoc_three e).1 (by decide)
  · refine ⟨by decide, fun n => ⟨fun h => ?_, ?_⟩⟩
    · have : n = ".".toList ∨ n = "b.csv".toList ∨ n = "..".toList := by
        simpa [demoRead] using h
      rcases this with rfl | rfl | rfl <;> decide
    · rintro (rfl | rfl | h)
      · decide
      · decide
      · rcases demo_cases _ h with e | e | e | e | e | e
        · simp at e
        · exact absurd (snoc_one e).1 (by decide)
        · exact absurd (snoc_two e).1 (by decide)
        · exact absurd (snoc_two e).1 (by decide)
        · exact absurd (snoc_one e).1 (by decide)
        · obtain ⟨-, rfl⟩ := snoc_three e; decide
  · exact absurd hp (by decide)
  · exact absurd hp (by decide)
  · exact absurd hp (by decide)

/-- A copy inside the working directory, with a buffer of two bytes. -/
example : ∃ d', fileCopy 2 4 demo "a.csv".toList "/data/old/b".toList = .ok (0, d') ∧
    d'.node ["data".toList, "old".toList, "b".toList] = some (.file [1, 2, 3]) := by
  obtain ⟨d', h1, h2, -⟩ := C131_copy_same demo "a.csv".toList "/data/old/b".toList
    ["data".toList, "a.csv".toList] ["data".toList, "old".toList, "b".toList] [1, 2, 3] 2 4
    (by decide) (by decide) (by decide) (by decide) rfl (by decide) (Or.inr ⟨by decide, rfl⟩)
    (by decide) (by decide)
  exact ⟨d', h1, h2⟩

/-- Only one byte is left on the disk: the copy is cut off, and success is reported. -/
example : ∃ d', fileCopy 2 4 { demo with free := 1 } "a.csv".toList "b".toList = .ok (0, d') ∧
    d'.node ["data".toList, "b".toList] = some (.file [1]) := by
  obtain ⟨d', h1, h2, -⟩ := C131_copy { demo with free := 1 } "a.csv".toList "b".toList
    ["data".toList, "a.csv".toList] ["data".toList, "b".toList] [1, 2, 3] 2 4
    (by decide) (by decide) (by decide) (by decide) rfl (by decide) (Or.inr ⟨by decide, rfl⟩)
    (by decide)
  exact ⟨d', h1, h2⟩

example : ∃ d', fileCopy 2 4 demo "a.csv".toList "../data/a.csv".toList = .ok (0, d') ∧
    d'.node ["data".toList, "a.csv".toList] = some (.file []) :=
  C131_copy_self_refuted demo _ _ _ [1, 2, 3] 2 4 (by decide) (by decide) (by decide) rfl
    (by decide) rfl

example : fileCopy 2 4 demo "nothing".toList "b".toList = .error .oob :=
  C131_copy_missing_refuted demo _ _ 2 4 (Or.inl fun p => by
    intro h
    have := (fopenR_iff _ _ _).mp h
    have e : resolve demo "nothing".toList = .ok ["data".toList, "nothing".toList] := by decide
    have hp := this.1
    unfold Names at hp
    rw [e] at hp
    cases hp
    exact this.2.1 (by decide))

example : fileExists demo "/data".toList = true ∧ fileExists demo "x".toList = false ∧
    dirExists demo "/data/".toList = .ok true ∧ dirExists demo "x".toList = .ok false ∧
    dirExists demo "/file".toList = .error .fatal := by decide

example : Names demo "/data/a.csv".toList ["data".toList, "a.csv".toList] :=
  C131_names demo demo_tree ["data".toList, "a.csv".toList] (by decide) (by decide)

example : listFiles demoRead demo "/data".toList ["k".toList] =
    .ok (0, ["a.csv".toList, "k".toList, "old".toList]) := by decide

/-- `/data/old` is removed with its file. -/
example : ∃ d', removeDir demoRead demo "old/".toList = (0, d') ∧
    d'.node ["data".toList, "old".toList, "b.csv".toList] = none ∧
    d'.node ["file".toList] = some (.file [7]) := by
  obtain ⟨d', h1, h2, h3⟩ := C131_remove_partial demoRead demo demo_tree demo_reads "old/".toList
    ["data".toList, "old".toList] (by unfold Direct; decide) (by decide) (by decide) rfl rfl rfl (by
      intro n m
      by_contra h
      rcases demo_cases _ h with e | e | e | e | e | e <;> simp at e)
  exact ⟨d', h1, h2 _ ⟨["b.csv".toList], rfl⟩, h3 _ (by decide)⟩

/-- `/data` stays because `/data/old` is not empty, but `/data/a.csv` is gone. -/
example : ∃ d', removeDir demoRead demo "/data".toList = (0, d') ∧
    d'.node ["data".toList] = some .dir ∧ d'.node ["data".toList, "a.csv".toList] = none := by
  obtain ⟨d', h1, h2, -, h4⟩ := C131_remove_refuted demoRead demo demo_tree demo_reads
    "/data".toList ["data".toList] (by unfold Direct; decide) (by decide) (by decide) rfl rfl rfl
    "old".toList "b.csv".toList (by decide)
  exact ⟨d', h1, h2, h4 "a.csv".toList [1, 2, 3] (by decide)⟩

example : ∃ (r : Int) (d' : Disk), dirCreate true demo "new/deep".toList = some (r, d') ∧ r = 0 ∧
    d'.node ["data".toList, "new".toList, "deep".toList] = some .dir := by
  refine ⟨_, _, rfl, ?_, ?_⟩ <;> decide

example : Simple "grid.csv".toList ∧ Simple "/data/new".toList := by
  unfold Simple; decide

example : ∃ d', saveOpen true demo "grid.csv".toList = some (.error (-1), d') ∧
    d'.node ["data".toList, "grid.csv".toList] = some .dir :=
  C131_save_plain_refuted demo demo_tree "grid.csv".toList (by unfold Simple; decide) (by decide)
    (by decide) rfl

example : ∃ d', saveOpen true demo "/data/old/x".toList =
    some (.ok ["data".toList, "old".toList, "x".toList], d') := by
  obtain ⟨d', h, -⟩ := C131_save_partial demo demo_tree "/data/old".toList "x".toList
    (by unfold Simple; decide) (by decide) (by decide) (by
      rintro ⟨a, n, b, hab, h⟩
      have hp : pieces "/data/old".toList = ["data".toList, "old".toList] := by decide
      rw [hp] at hab
      match a, hab with
      | [], hab =>
        simp only [List.nil_append, List.cons.injEq] at hab
        obtain ⟨rfl, rfl⟩ := hab
        revert h; simp [startOf, demo]
      | [x], hab =>
        simp only [List.cons_append, List.nil_append, List.cons.injEq] at hab
        obtain ⟨rfl, rfl, rfl⟩ := hab
        revert h; simp [startOf, demo]
      | x :: y :: a, hab =>
        have := congrArg List.length hab
        simp at this) (by decide) rfl
  exact ⟨d', h⟩

example : ∃ d', dirCreate true demo "my data".toList = some (0, d') ∧
    d'.node ["data".toList, "my".toList] = some .dir := by
  obtain ⟨d', h1, h2, -⟩ := C131_blank_refuted demo rfl "my".toList "data".toList
    (by unfold Simple; decide) (by unfold Simple; decide) (by decide) (by decide) (by decide)
    (by decide)
  exact ⟨d', h1, h2⟩

example : ∃ d', createDir true demo "/file/x".toList = some (0, d') := by
  obtain ⟨d', h, -⟩ := C131_create_dir_refuted demo "/file/x".toList (by unfold Simple; decide)
    ⟨[], "file".toList, ["x".toList], [7], by decide, by decide⟩
  exact ⟨d', h⟩

/-- C131: when no process can be started, both functions say so and the disk is as before. -/
theorem C131_no_process (d : Disk) (s : List Char) :
    createDir false d s = some (-1, d) ∧ dirCreate false d s = some (-1, d) := ⟨rfl, rfl⟩

/-- **C131 (removing).** If the string names no directory that may be read, `remove_dir` says so and the disk is as before. -/
theorem C131_remove_missing (readdir : Path → List Name) (d : Disk) (s : List Char)
    (h : ∀ p, Names d s p → d.node p = some .dir → d.readable p = false) : removeDir readdir d s = (-1, d) := by
  unfold removeDir
  cases ho : opendir d s with
  | error e => rfl
  | ok p =>
    obtain ⟨h1, h2, h3⟩ := (opendir_iff d s p).mp ho
    rw [h p h1 h2] at h3
    cases h3

/-- C131 witness: a file, and a path where nothing is. -/
example : removeDir demoRead demo "/data/nothing".toList = (-1, demo) ∧ demo.node ["data".toList, "nothing".toList] = none :=
  ⟨rfl, rfl⟩

end Yac.Disk
