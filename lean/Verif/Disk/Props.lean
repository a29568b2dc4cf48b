import Verif.Disk.Model
import Mathlib.Data.List.Induction

/-!
# C131: operations on files and directories
-/

namespace Yac.Disk

/-! ### Specification -/

/-- A name that a file or directory can have. -/
def GoodName (n : Name) : Prop := n ≠ [] ∧ '/' ∉ n ∧ n ≠ ['.'] ∧ n ≠ ['.', '.']

/-- The disk is a tree: the root is a directory, and what exists lies in a directory. -/
structure Tree (d : Disk) : Prop where
  root : d.node [] = some .dir
  parent : ∀ p n, d.node (p ++ [n]) ≠ none → d.node p = some .dir ∧ GoodName n
  here : d.node d.cwd = some .dir

/-- Reading a directory yields every entry once, and `.` and `..`. -/
def Reads (readdir : Path → List Name) (d : Disk) : Prop :=
  ∀ p, d.node p = some .dir → (readdir p).Nodup ∧
    ∀ n, n ∈ readdir p ↔ n = ['.'] ∨ n = ['.', '.'] ∨ d.node (p ++ [n]) ≠ none

/-- The string names the path `p`. -/
def Names (d : Disk) (s : List Char) (p : Path) : Prop := resolve d s = .ok p

/-- A file can be written at `q`: there is one that may be written, or one may be made. -/
def CanWrite (d : Disk) (q : Path) : Prop :=
  (∃ old, d.node q = some (.file old) ∧ d.writable q = true) ∨
    (d.node q = none ∧ d.writable q.dropLast = true)

/-- The bytes that fit into the file at `q`. -/
def room (d : Disk) (q : Path) : Nat :=
  d.free + match d.node q with
    | some (.file old) => old.length
    | _ => 0

/-! ### Path strings -/

theorem piecesBy_append (sep : Char) (s t : List Char) (cur : Name) :
    piecesBy sep (s ++ sep :: t) cur = piecesBy sep s cur ++ piecesBy sep t [] := by
  induction s generalizing cur with
  | nil => by_cases h : cur = [] <;> simp [piecesBy, h]
  | cons c s ih =>
    simp only [List.cons_append, piecesBy]
    by_cases hc : c = sep
    · by_cases h : cur = [] <;> simp [hc, h, ih]
    · simp [hc, ih]

theorem piecesBy_none (sep : Char) (s : List Char) (cur : Name) (h : sep ∉ s) :
    piecesBy sep s cur = if cur ++ s = [] then [] else [cur ++ s] := by
  induction s generalizing cur with
  | nil => simp [piecesBy]
  | cons c s ih =>
    have hc : c ≠ sep := fun e => h (by simp [e])
    have hs : sep ∉ s := fun e => h (by simp [e])
    simp [piecesBy, hc, ih _ hs]

theorem pieces_name {n : Name} (h : GoodName n) : pieces n = [n] := by
  unfold pieces
  rw [piecesBy_none _ _ _ h.2.1]
  simp [h.1]

/-- A name in a directory, as `list_dir` and `remove_dir` write it. -/
theorem comps_child (s : List Char) {n : Name} (h : GoodName n) :
    comps (s ++ '/' :: n) = pieces s ++ [n] := by
  unfold comps
  have hl : (s ++ '/' :: n).getLast? ≠ some '/' := by
    rw [List.getLast?_append]
    obtain ⟨l, c, rfl⟩ : ∃ l c, n = l ++ [c] := ⟨n.dropLast, n.getLast h.1, (List.dropLast_append_getLast h.1).symm⟩
    have : c ≠ '/' := fun e => h.2.1 (by simp [e])
    have e : ('/' :: (l ++ [c])).getLast? = some c := by
      rw [← List.cons_append, List.getLast?_append]; rfl
    rw [e]; simpa using this
  rw [if_neg hl, List.append_nil]
  unfold pieces
  rw [piecesBy_append]
  have := pieces_name h
  unfold pieces at this
  rw [this]

theorem walk_append (d : Disk) (cur : Path) (a b : List Name) :
    walk d cur (a ++ b) = match walk d cur a with
      | .ok p => walk d p b
      | .error e => .error e := by
  induction a generalizing cur with
  | nil => simp [walk]
  | cons c a ih =>
    simp only [List.cons_append, walk]
    cases d.node cur with
    | none => rfl
    | some n => cases n with
      | file _ => rfl
      | dir => exact ih _

theorem stepTo_good (cur : Path) {n : Name} (h : GoodName n) : stepTo cur n = cur ++ [n] := by
  unfold stepTo
  rw [if_neg h.2.2.1, if_neg h.2.2.2]

theorem walk_pieces {d : Disk} {s : List Char} {p : Path} (h : Names d s p) :
    s ≠ [] ∧ walk d (startOf d s) (pieces s) = .ok p := by
  unfold Names resolve at h
  by_cases hs : s = []
  · rw [if_pos hs] at h; cases h
  · rw [if_neg hs] at h
    refine ⟨hs, ?_⟩
    unfold comps at h
    by_cases hl : s.getLast? = some '/'
    · rw [if_pos hl, walk_append] at h
      cases hw : walk d (startOf d s) (pieces s) with
      | error e => rw [hw] at h; cases h
      | ok p' =>
        rw [hw] at h
        simp only [walk] at h
        cases hn : d.node p' with
        | none => rw [hn] at h; cases h
        | some x =>
          rw [hn] at h
          cases x with
          | file _ => cases h
          | dir => simpa [stepTo] using h
    · rw [if_neg hl, List.append_nil] at h
      exact h

/-- An entry of a directory that a string names is named by the string, a slash and its name. -/
theorem names_child {d : Disk} {s : List Char} {p : Path} (h : Names d s p)
    (hd : d.node p = some .dir) {n : Name} (hn : GoodName n) :
    Names d (s ++ '/' :: n) (p ++ [n]) := by
  obtain ⟨hs, hw⟩ := walk_pieces h
  unfold Names resolve
  rw [if_neg (by simp), comps_child s hn]
  have : startOf d (s ++ '/' :: n) = startOf d s := by
    unfold startOf
    obtain ⟨c, l, rfl⟩ := List.exists_cons_of_ne_nil hs
    rfl
  rw [this, walk_append, hw]
  simp [walk, hd, stepTo_good _ hn]

/-- The absolute path string of a path. -/
def absStr (p : Path) : List Char := p.flatMap (fun n => '/' :: n)

theorem pieces_abs (p : Path) (hp : ∀ n ∈ p, GoodName n) : pieces (absStr p) = p := by
  induction p using List.reverseRecOn with
  | nil => rfl
  | append_singleton p n ih =>
    have hn : GoodName n := hp n (by simp)
    have : absStr (p ++ [n]) = absStr p ++ '/' :: n := by simp [absStr]
    rw [this]
    unfold pieces at *
    rw [piecesBy_append, ih (fun m hm => hp m (by simp [hm]))]
    have := pieces_name hn
    unfold pieces at this
    rw [this]

/-- **C131 (names).** What exists in the tree is named by its absolute path string. -/
theorem C131_names (d : Disk) (ht : Tree d) (p : Path) (hne : p ≠ []) (hp : d.node p ≠ none) :
    Names d (absStr p) p := by
  have key : ∀ p : Path, p ≠ [] → d.node p ≠ none → Names d (absStr p) p := by
    intro p
    induction p using List.reverseRecOn with
    | nil => intro h; exact absurd rfl h
    | append_singleton p n ih =>
      intro _ hx
      obtain ⟨hd, hn⟩ := ht.parent p n hx
      have e : absStr (p ++ [n]) = absStr p ++ '/' :: n := by simp [absStr]
      by_cases h0 : p = []
      · subst h0
        unfold Names resolve
        have := comps_child [] hn
        rw [e]
        simp only [absStr, List.flatMap_nil, List.nil_append] at this ⊢
        rw [if_neg (by simp), this]
        simp [startOf, pieces, piecesBy, walk, ht.root, stepTo_good _ hn]
      · rw [e]
        exact names_child (ih h0 (by rw [hd]; simp)) hd hn
  exact key p hne hp

/-! ### Copying -/

theorem copyLoop_spec (bufsiz : Nat) (hb : 0 < bufsiz) (src dest : Path) (hne : src ≠ dest)
    (bytes : List UInt8) :
    ∀ (fuel off : Nat) (d : Disk) (done : List UInt8), d.node src = some (.file bytes) →
      d.node dest = some (.file done) → bytes.length - off < fuel → off ≤ bytes.length →
      ∃ d', copyLoop bufsiz src dest fuel off d = .ok d' ∧
        d'.node dest = some (.file (done ++ (bytes.drop off).take d.free)) ∧
        (∀ r, r ≠ dest → d'.node r = d.node r) ∧ d'.cwd = d.cwd ∧ d'.readable = d.readable ∧
        d'.writable = d.writable := by
  intro fuel
  induction fuel with
  | zero => intro off d done _ _ h; omega
  | succ fuel ih =>
    intro off d done hs hd hf ho
    rw [copyLoop]
    have hbuf : fread d src off bufsiz = (bytes.drop off).take bufsiz := by
      unfold fread; rw [hs]
    rw [hbuf]
    by_cases he : (bytes.drop off).take bufsiz = []
    · rw [if_pos he]
      have : bytes.drop off = [] := by
        rcases List.take_eq_nil_iff.mp he with h | h
        · omega
        · exact h
      refine ⟨d, rfl, ?_, fun _ _ => rfl, rfl, rfl, rfl⟩
      rw [this, hd]; simp
    · rw [if_neg he]
      have hlt : off < bytes.length := by
        by_contra h
        apply he
        rw [List.drop_eq_nil_of_le (by omega)]; simp
      have hlen : ((bytes.drop off).take bufsiz).length = min bufsiz (bytes.length - off) := by
        simp
      have hw : fwrite d dest ((bytes.drop off).take bufsiz) =
          { d.set dest (some (.file (done ++ ((bytes.drop off).take bufsiz).take d.free))) with
            free := d.free - ((bytes.drop off).take bufsiz).length } := by
        unfold fwrite; rw [hd]
      rw [hw]
      obtain ⟨d', h1, h2, h3, h4, h5, h6⟩ := ih (off + ((bytes.drop off).take bufsiz).length)
        { d.set dest (some (.file (done ++ ((bytes.drop off).take bufsiz).take d.free))) with
            free := d.free - ((bytes.drop off).take bufsiz).length }
        (done ++ ((bytes.drop off).take bufsiz).take d.free)
        (by simp [Disk.set, hne, hs]) (by simp [Disk.set]) (by rw [hlen]; omega)
        (by rw [hlen]; omega)
      refine ⟨d', h1, ?_, ?_, h4, h5, h6⟩
      · rw [h2]
        simp only [List.append_assoc]
        congr 3
        rw [← List.drop_drop]
        generalize bytes.drop off = l
        have e : l.drop (l.take bufsiz).length = l.drop bufsiz := by
          rw [List.length_take]
          rcases Nat.le_total bufsiz l.length with h | h
          · rw [Nat.min_eq_left h]
          · rw [Nat.min_eq_right h, List.drop_eq_nil_of_le (le_refl _), List.drop_eq_nil_of_le h]
        rw [e]
        conv_rhs => rw [← List.take_append_drop bufsiz l, List.take_append]
      · intro r hr
        rw [h3 r hr]
        simp [Disk.set, hr]

/-- **C131 (copying).** A file is copied to another path: of its contents what fits on the disk,
and nothing else changes. -/
theorem C131_copy (d : Disk) (src dest : List Char) (p q : Path) (bytes : List UInt8)
    (bufsiz fuel : Nat) (hb : 0 < bufsiz) (hf : bytes.length < fuel)
    (hp : Names d src p) (hx : d.node p = some (.file bytes)) (hr : d.readable p = true)
    (hq : Names d dest q) (hw : CanWrite d q) (hne : p ≠ q) :
    ∃ d', fileCopy bufsiz fuel d src dest = .ok (0, d') ∧
      d'.node q = some (.file (bytes.take (room d q))) ∧ ∀ r, r ≠ q → d'.node r = d.node r := by
  have h1 : fopenR d src = .ok p := by
    unfold fopenR
    rw [show resolve d src = .ok p from hp]
    simp [hx, hr]
  obtain ⟨d1, h2, h3, h4⟩ : ∃ d1, fopenW d dest = .ok (q, d1) ∧
      d1.node = (d.set q (some (.file []))).node ∧ d1.free = room d q := by
    unfold fopenW room
    rw [show resolve d dest = .ok q from hq]
    rcases hw with ⟨old, ho, hw⟩ | ⟨ho, hw⟩
    · exact ⟨{ d.set q (some (.file [])) with free := d.free + old.length }, by simp [ho, hw], rfl,
        by simp [ho]⟩
    · exact ⟨d.set q (some (.file [])), by simp [ho, hw], rfl, by simp [ho, Disk.set]⟩
  obtain ⟨d2, e1, e2, e3, -⟩ := copyLoop_spec bufsiz hb p q hne bytes fuel 0 d1 []
    (by rw [h3]; simp [Disk.set, hne, hx]) (by rw [h3]; simp [Disk.set]) (by omega) (by omega)
  refine ⟨d2, ?_, ?_, ?_⟩
  · unfold fileCopy
    simp only [h1, h2, e1]
  · rw [e2, h4]; simp
  · intro r hr'
    rw [e3 r hr', h3]
    simp [Disk.set, hr']

/-- **C131 (copying, room for all).** If the contents fit, the copy is the same. -/
theorem C131_copy_same (d : Disk) (src dest : List Char) (p q : Path) (bytes : List UInt8)
    (bufsiz fuel : Nat) (hb : 0 < bufsiz) (hf : bytes.length < fuel)
    (hp : Names d src p) (hx : d.node p = some (.file bytes)) (hr : d.readable p = true)
    (hq : Names d dest q) (hw : CanWrite d q) (hne : p ≠ q) (hroom : bytes.length ≤ room d q) :
    ∃ d', fileCopy bufsiz fuel d src dest = .ok (0, d') ∧ d'.node q = some (.file bytes) ∧
      ∀ r, r ≠ q → d'.node r = d.node r := by
  obtain ⟨d', h1, h2, h3⟩ := C131_copy d src dest p q bytes bufsiz fuel hb hf hp hx hr hq hw hne
  refine ⟨d', h1, ?_, h3⟩
  rw [h2, List.take_of_length_le hroom]

/-- **C131 (copying onto itself), refuted.** A file that is copied onto itself is emptied, and the
call reports success. -/
theorem C131_copy_self_refuted (d : Disk) (src dest : List Char) (p : Path) (bytes : List UInt8)
    (bufsiz fuel : Nat) (hf : 0 < fuel) (hp : Names d src p)
    (hx : d.node p = some (.file bytes)) (hr : d.readable p = true) (hq : Names d dest p)
    (hw : d.writable p = true) :
    ∃ d', fileCopy bufsiz fuel d src dest = .ok (0, d') ∧ d'.node p = some (.file []) := by
  have h1 : fopenR d src = .ok p := by
    unfold fopenR
    rw [show resolve d src = .ok p from hp]
    simp [hx, hr]
  obtain ⟨d1, h2, h3⟩ : ∃ d1, fopenW d dest = .ok (p, d1) ∧ d1.node p = some (.file []) := by
    unfold fopenW
    rw [show resolve d dest = .ok p from hq]
    exact ⟨{ d.set p (some (.file [])) with free := d.free + bytes.length }, by simp [hx, hw],
      by simp [Disk.set]⟩
  obtain ⟨k, rfl⟩ : ∃ k, fuel = k + 1 := ⟨fuel - 1, by omega⟩
  refine ⟨d1, ?_, h3⟩
  unfold fileCopy
  simp [h1, h2, copyLoop, fread, h3]

/-- **C131 (missing files), refuted.** The documentation promises -1 for a source, and -2 for a
destination, that cannot be opened; instead the behaviour is undefined. -/
theorem C131_copy_missing_refuted (d : Disk) (src dest : List Char) (bufsiz fuel : Nat)
    (h : (∀ p, fopenR d src ≠ .ok p) ∨ ∀ r, fopenW d dest ≠ .ok r) :
    fileCopy bufsiz fuel d src dest = .error .oob := by
  unfold fileCopy
  cases h1 : fopenR d src with
  | error e => rfl
  | ok p =>
    cases h2 : fopenW d dest with
    | error e => rfl
    | ok r =>
      rcases h with h | h
      · exact absurd h1 (h p)
      · exact absurd h2 (h r)

/-! ### What exists -/

theorem fopenR_iff (d : Disk) (s : List Char) (p : Path) :
    fopenR d s = .ok p ↔ Names d s p ∧ d.node p ≠ none ∧ d.readable p = true := by
  unfold fopenR Names
  cases h : resolve d s with
  | error e => simp
  | ok p' =>
    constructor
    · intro h1
      cases hn : d.node p' with
      | none => simp [hn] at h1
      | some n =>
        by_cases hr : d.readable p' = true
        · simp only [hn, hr, if_true, Except.ok.injEq] at h1
          subst h1
          exact ⟨rfl, by simp [hn], hr⟩
        · simp [hn, hr] at h1
    · rintro ⟨h1, h2, h3⟩
      cases h1
      obtain ⟨n, hn⟩ := Option.ne_none_iff_exists'.mp h2
      simp [hn, h3]

/-- **C131 (existence).** `file_exists` tells whether there is something at the path that may be
read. -/
theorem C131_file_exists (d : Disk) (s : List Char) :
    fileExists d s = true ↔ ∃ p, Names d s p ∧ d.node p ≠ none ∧ d.readable p = true := by
  unfold fileExists
  constructor
  · intro h
    cases h1 : fopenR d s with
    | error e => rw [h1] at h; cases h
    | ok p => exact ⟨p, (fopenR_iff d s p).mp h1⟩
  · rintro ⟨p, h⟩
    rw [(fopenR_iff d s p).mpr h]

/-- **C131 (existence of files), refuted.** Every directory that may be read is reported to be a
file. -/
theorem C131_file_exists_refuted (d : Disk) (s : List Char) (p : Path) (hp : Names d s p)
    (hd : d.node p = some .dir) (hr : d.readable p = true) : fileExists d s = true :=
  (C131_file_exists d s).mpr ⟨p, hp, by simp [hd], hr⟩

theorem opendir_iff (d : Disk) (s : List Char) (p : Path) :
    opendir d s = .ok p ↔ Names d s p ∧ d.node p = some .dir ∧ d.readable p = true := by
  unfold opendir Names
  cases h : resolve d s with
  | error e => simp
  | ok p' =>
    constructor
    · intro h1
      cases hn : d.node p' with
      | none => simp [hn] at h1
      | some n =>
        cases n with
        | file b => simp [hn] at h1
        | dir =>
          by_cases hr : d.readable p' = true
          · simp only [hn, hr, if_true, Except.ok.injEq] at h1
            subst h1
            exact ⟨rfl, hn, hr⟩
          · simp [hn, hr] at h1
    · rintro ⟨h1, h2, h3⟩
      cases h1
      simp [h2, h3]

/-- **C131 (existence of directories).** `dir_exists` says yes exactly for directories that may be
read, and no exactly if nothing is there (or on the way there). -/
theorem C131_dir_exists (d : Disk) (s : List Char) :
    (dirExists d s = .ok true ↔ ∃ p, Names d s p ∧ d.node p = some .dir ∧ d.readable p = true) ∧
    (dirExists d s = .ok false ↔
      resolve d s = .error .noent ∨ ∃ p, Names d s p ∧ d.node p = none) := by
  constructor
  · unfold dirExists
    constructor
    · intro h
      cases h1 : opendir d s with
      | ok p => exact ⟨p, (opendir_iff d s p).mp h1⟩
      | error e => rw [h1] at h; cases e <;> cases h
    · rintro ⟨p, h⟩
      rw [(opendir_iff d s p).mpr h]
  · unfold dirExists opendir Names
    cases h : resolve d s with
    | error e => cases e <;> simp
    | ok p =>
      cases hn : d.node p with
      | none => simp [hn]
      | some n =>
        cases n with
        | file b => simp [hn]
        | dir => by_cases hr : d.readable p = true <;> simp [hn, hr]

/-- **C131 (existence of directories), refuted.** Asked about a path at which there is a file, the
program ends. -/
theorem C131_dir_exists_refuted (d : Disk) (s : List Char) (p : Path) (bytes : List UInt8)
    (hp : Names d s p) (hx : d.node p = some (.file bytes)) : dirExists d s = .error .fatal := by
  unfold dirExists opendir
  rw [show resolve d s = .ok p from hp]
  simp [hx]

/-! ### Listing -/

/-- The names of the entries of a directory, without `.` and `..`. -/
def entries (readdir : Path → List Name) (p : Path) : List Name :=
  (readdir p).filter (fun n => n ≠ ['.'] ∧ n ≠ ['.', '.'])

theorem listFold (l results : List Name) :
    l.foldl (fun r n => if n ≠ ['.'] ∧ n ≠ ['.', '.'] then r ++ [n] else r) results =
      results ++ l.filter (fun n => n ≠ ['.'] ∧ n ≠ ['.', '.']) := by
  induction l generalizing results with
  | nil => simp
  | cons n l ih =>
    rw [List.foldl_cons, ih]
    by_cases h : n ≠ ['.'] ∧ n ≠ ['.', '.']
    · rw [if_pos h, List.filter_cons_of_pos (by simpa using h)]; simp
    · rw [if_neg h, List.filter_cons_of_neg (by simpa using h)]

theorem listDir_ok (readdir : Path → List Name) (d : Disk) (s : List Char) (results : List Name)
    (p : Path) (h : opendir d s = .ok p) :
    listDir readdir d s results = (0, results ++ entries readdir p) := by
  unfold listDir
  rw [h]
  simp only [listFold]
  rfl

/-- **C131 (listing).** `list_dir` returns 0 exactly for directories that may be read; it then adds
the name of each entry once, and else leaves the results as they are. -/
theorem C131_list (readdir : Path → List Name) (d : Disk) (ht : Tree d) (hr : Reads readdir d)
    (s : List Char) (results : List Name) :
    ((∃ p, Names d s p ∧ d.node p = some .dir ∧ d.readable p = true ∧
      ∃ l : List Name, listDir readdir d s results = (0, results ++ l) ∧ l.Nodup ∧
        ∀ n, n ∈ l ↔ d.node (p ++ [n]) ≠ none) ∨
    ((∀ p, ¬ (Names d s p ∧ d.node p = some .dir ∧ d.readable p = true)) ∧
      listDir readdir d s results = (-1, results))) := by
  cases h : opendir d s with
  | ok p =>
    left
    obtain ⟨h1, h2, h3⟩ := (opendir_iff d s p).mp h
    refine ⟨p, h1, h2, h3, _, listDir_ok readdir d s results p h, (hr p h2).1.filter _, ?_⟩
    intro n
    unfold entries
    rw [List.mem_filter, (hr p h2).2 n]
    constructor
    · rintro ⟨h, h'⟩
      simp only [decide_eq_true_eq] at h'
      rcases h with h | h | h
      · exact absurd h h'.1
      · exact absurd h h'.2
      · exact h
    · intro hn
      have hg := (ht.parent p n hn).2
      exact ⟨Or.inr (Or.inr hn), by simp [hg.2.2.1, hg.2.2.2]⟩
  | error e =>
    right
    constructor
    · intro p hp
      rw [(opendir_iff d s p).mpr hp] at h
      cases h
    · unfold listDir; rw [h]

end Yac.Disk
