import Verif.Disk.Props
import Verif.Fs.Props

/-!
# C131: sorted listings, removing and making directories
-/

namespace Yac.Disk

/-! ### Sorted listings -/

theorem strLt_iff (a b : List Char) :
    strLt a b = true ↔ List.Lex (fun x y : Char => x.toNat < y.toNat) a b := by
  induction a generalizing b with
  | nil => cases b <;> simp [strLt]
  | cons x a ih =>
    cases b with
    | nil => simp [strLt]
    | cons y b =>
      simp only [strLt]
      rcases lt_trichotomy x.toNat y.toNat with h | h | h
      · rw [if_pos h]; exact ⟨fun _ => List.Lex.rel h, fun _ => rfl⟩
      · have : x = y := Char.toNat_inj.mp h
        subst this
        rw [if_neg (lt_irrefl _), if_neg (lt_irrefl _), ih]
        constructor
        · exact List.Lex.cons
        · intro h
          cases h with
          | cons h => exact h
          | rel h => exact absurd h (lt_irrefl _)
      · rw [if_neg (by omega), if_pos h]
        simp only [Bool.false_eq_true, false_iff]
        intro hl
        cases hl with
        | cons _ => exact absurd h (lt_irrefl _)
        | rel h' => omega

theorem strLt_total (a b : List Char) : strLt b a = false ∨ strLt a b = false := by
  induction a generalizing b with
  | nil => cases b <;> simp [strLt]
  | cons x a ih =>
    cases b with
    | nil => simp [strLt]
    | cons y b =>
      simp only [strLt]
      rcases lt_trichotomy x.toNat y.toNat with h | h | h
      · left; rw [if_neg (by omega), if_pos h]
      · rw [if_neg (by omega), if_neg (by omega), if_neg (by omega), if_neg (by omega)]
        exact ih b
      · right; rw [if_neg (by omega), if_pos h]

theorem strLt_trans (a b c : List Char) (h1 : strLt b a = false) (h2 : strLt c b = false) :
    strLt c a = false := by
  induction a generalizing b c with
  | nil => cases c <;> simp [strLt]
  | cons x a ih =>
    cases b with
    | nil => simp [strLt] at h1
    | cons y b =>
      cases c with
      | nil => simp [strLt] at h2
      | cons z c =>
        simp only [strLt] at *
        by_cases hyx : y.toNat < x.toNat
        · rw [if_pos hyx] at h1; cases h1
        · rw [if_neg hyx] at h1
          by_cases hzy : z.toNat < y.toNat
          · rw [if_pos hzy] at h2; cases h2
          · rw [if_neg hzy] at h2
            by_cases hxz : x.toNat < z.toNat
            · rw [if_neg (by omega), if_pos hxz]
            · rw [if_neg (by omega), if_neg hxz]
              rw [if_neg (by omega)] at h1 h2
              exact ih b c h1 h2

/-- **C131 (files of a directory).** For a directory that may be read, `list_files` returns 0; the
vector then holds what was in it and every entry of the directory, in the order of their
characters.  If nothing is there it returns -1 and the vector is as before. -/
theorem C131_list_files (readdir : Path → List Name) (d : Disk) (ht : Tree d)
    (hr : Reads readdir d) (s : List Char) (files : List Name) :
    (∀ p, Names d s p → d.node p = some .dir → d.readable p = true →
      ∃ l out : List Name, listFiles readdir d s files = .ok (0, out) ∧
        out.Perm (files ++ l) ∧ l.Nodup ∧ (∀ n, n ∈ l ↔ d.node (p ++ [n]) ≠ none) ∧
        out.Pairwise (fun a b => ¬ List.Lex (fun x y : Char => x.toNat < y.toNat) b a)) ∧
    (∀ p, Names d s p → d.node p = none → listFiles readdir d s files = .ok (-1, files)) := by
  constructor
  · intro p hp hd hrd
    rcases C131_list readdir d ht hr s files with ⟨p', hp', _, _, l, hl, hnd, hm⟩ | ⟨hno, _⟩
    · have : p' = p := by
        unfold Names at hp hp'
        rw [hp] at hp'
        cases hp'; rfl
      subst this
      refine ⟨l, sortNames (files ++ l), ?_, List.perm_insertionSort _ _, hnd, hm, ?_⟩
      · unfold listFiles
        rw [(C131_dir_exists d s).1.mpr ⟨p', hp, hd, hrd⟩]
        simp [hl]
      · unfold sortNames
        have : Std.Total (fun a b : Name => strLt b a = false) := ⟨fun a b => strLt_total a b⟩
        have : IsTrans Name (fun a b : Name => strLt b a = false) :=
          ⟨fun a b c h1 h2 => strLt_trans a b c h1 h2⟩
        refine (List.pairwise_insertionSort (fun a b : Name => strLt b a = false) _).imp ?_
        intro a b hab hl
        rw [← strLt_iff] at hl
        rw [hab] at hl; cases hl
    · exact absurd ⟨hp, hd, hrd⟩ (hno p)
  · intro p hp hd
    unfold listFiles
    rw [(C131_dir_exists d s).2.mpr (Or.inr ⟨p, hp, hd⟩)]

/-- **C131 (files only), refuted.** Directories are listed too. -/
theorem C131_list_files_refuted (readdir : Path → List Name) (d : Disk) (ht : Tree d)
    (hr : Reads readdir d) (s : List Char) (p : Path) (n : Name) (hp : Names d s p)
    (hd : d.node p = some .dir) (hrd : d.readable p = true) (hn : d.node (p ++ [n]) = some .dir) :
    ∃ out, listFiles readdir d s [] = .ok (0, out) ∧ n ∈ out := by
  obtain ⟨l, out, h1, h2, _, h4, _⟩ := (C131_list_files readdir d ht hr s []).1 p hp hd hrd
  refine ⟨out, h1, h2.mem_iff.mpr ?_⟩
  simp [h4, hn]

/-! ### Removing a directory -/

theorem walk_congr (d d' : Disk) (cur : Path) (cs : List Name) (hg : ∀ c ∈ cs, GoodName c)
    (h : ∀ k < cs.length, d'.node (cur ++ cs.take k) = d.node (cur ++ cs.take k)) :
    walk d' cur cs = walk d cur cs := by
  induction cs generalizing cur with
  | nil => rfl
  | cons c cs ih =>
    have h0 := h 0 (by simp)
    simp only [List.take_zero, List.append_nil] at h0
    simp only [walk, h0]
    cases d.node cur with
    | none => rfl
    | some n =>
      cases n with
      | file _ => rfl
      | dir =>
        simp only
        rw [stepTo_good cur (hg c (by simp))]
        apply ih _ (fun x hx => hg x (by simp [hx]))
        intro k hk
        have := h (k + 1) (by simpa using hk)
        simpa using this

/-- The string names a path without `.` and `..`. -/
def Direct (s : List Char) : Prop := pieces s ≠ [] ∧ ∀ n ∈ pieces s, GoodName n

theorem walk_good {d : Disk} {cur : Path} {cs : List Name} {p : Path}
    (hg : ∀ c ∈ cs, GoodName c) (h : walk d cur cs = .ok p) : p = cur ++ cs := by
  induction cs generalizing cur with
  | nil => simp [walk] at h; simp [h]
  | cons c cs ih =>
    simp only [walk] at h
    cases hn : d.node cur with
    | none => simp [hn] at h
    | some n =>
      cases n with
      | file _ => simp [hn] at h
      | dir =>
        simp only [hn] at h
        rw [stepTo_good cur (hg c (by simp))] at h
        have := ih (fun x hx => hg x (by simp [hx])) h
        simpa using this

theorem names_eq {d : Disk} {s : List Char} {p : Path} (hs : Direct s) (h : Names d s p) :
    p = startOf d s ++ pieces s := walk_good hs.2 (walk_pieces h).2

theorem ancestor {d : Disk} (ht : Tree d) (a b : Path) (h : d.node (a ++ b) ≠ none) :
    d.node a ≠ none := by
  induction b using List.reverseRecOn with
  | nil => simpa using h
  | append_singleton b n ih =>
    rw [← List.append_assoc] at h
    exact ih (by rw [(ht.parent _ n h).1]; simp)

theorem ancestor_dir {d : Disk} (ht : Tree d) (a b : Path) (hb : b ≠ [])
    (h : d.node (a ++ b) ≠ none) : d.node a = some .dir := by
  obtain ⟨n, b, rfl⟩ := List.exists_cons_of_ne_nil hb
  have : d.node (a ++ [n]) ≠ none := ancestor ht (a ++ [n]) b (by simpa using h)
  exact (ht.parent a n this).1

/-- A later disk on which only children of `p` have been removed. -/
structure Pruned (d d' : Disk) (p : Path) (gone : List Name) : Prop where
  cwd : d'.cwd = d.cwd
  readable : d'.readable = d.readable
  writable : d'.writable = d.writable
  node : ∀ r, d'.node r = if ∃ n ∈ gone, r = p ++ [n] then none else d.node r

theorem startOf_child (d : Disk) {s : List Char} (hs : s ≠ []) (t : List Char) :
    startOf d (s ++ t) = startOf d s := by
  obtain ⟨c, l, rfl⟩ := List.exists_cons_of_ne_nil hs
  rfl

theorem pruned_names {d d' : Disk} {p : Path} {gone : List Name} (hp : Pruned d d' p gone)
    {s : List Char} (hs : Direct s) (h : Names d s p) (hd : d.node p = some .dir) :
    Names d' s p ∧ d'.node p = some .dir := by
  have hpe := names_eq hs h
  have hkeep : ∀ q : Path, q <+: p → d'.node q = d.node q := by
    intro q hq
    rw [hp.node q, if_neg]
    rintro ⟨n, -, rfl⟩
    have := hq.length_le
    rw [List.length_append, List.length_singleton] at this
    omega
  refine ⟨?_, by rw [hkeep p List.prefix_rfl, hd]⟩
  obtain ⟨hne, hw⟩ := walk_pieces h
  have hw' : walk d' (startOf d' s) (pieces s) = .ok p := by
    have e : startOf d' s = startOf d s := by unfold startOf; rw [hp.cwd]
    rw [e, ← hw]
    apply walk_congr _ _ _ _ hs.2
    intro k _
    apply hkeep
    rw [hpe]
    exact (List.prefix_append_right_inj _).mpr (List.take_prefix _ _)
  unfold Names resolve
  rw [if_neg hne]
  unfold comps
  rw [walk_append, hw']
  by_cases hl : s.getLast? = some '/'
  · rw [if_pos hl]
    simp [walk, hkeep p List.prefix_rfl, hd, stepTo]
  · rw [if_neg hl]; rfl

theorem remove_dots (readdir : Path → List Name) (d : Disk) (s : List Char) (n : Name)
    (hn : n = ['.'] ∨ n = ['.', '.']) : removePath readdir d (s ++ '/' :: n) = d := by
  have hl : (s ++ '/' :: n).getLast? = some '.' := by
    rw [List.getLast?_append]
    rcases hn with rfl | rfl <;> rfl
  have hc : (comps (s ++ '/' :: n)).getLast? = some n := by
    unfold comps pieces
    rw [if_neg (by rw [hl]; decide), List.append_nil, piecesBy_append, List.getLast?_append]
    rcases hn with rfl | rfl <;> rfl
  unfold removePath
  cases resolve d (s ++ '/' :: n) with
  | error e => rfl
  | ok p =>
    simp only
    rw [if_pos (by rw [hc]; rcases hn with rfl | rfl <;> simp), if_neg]
    rintro ⟨h, -⟩
    rw [hl] at h
    exact absurd h (by decide)

/-- What becomes of one child. -/
theorem remove_child (readdir : Path → List Name) (d d' : Disk) (s : List Char) (p : Path)
    (gone : List Name) (hs : Direct s) (h : Names d s p) (hd : d.node p = some .dir)
    (hw : d.writable p = true) (hp : Pruned d d' p gone) (n : Name) (hn : GoodName n)
    (hng : n ∉ gone) :
    Pruned d (removePath readdir d' (s ++ '/' :: n)) p
      (if d.node (p ++ [n]) = some .dir ∧ emptyDir readdir d' (p ++ [n]) = false then gone
       else n :: gone) := by
  obtain ⟨h1, h2⟩ := pruned_names hp hs h hd
  have h3 := names_child h1 h2 hn
  have hcomp : (comps (s ++ '/' :: n)).getLast? = some n := by
    rw [comps_child s hn]; simp
  have hnode : d'.node (p ++ [n]) = d.node (p ++ [n]) := by
    rw [hp.node, if_neg]
    rintro ⟨m, hm, he⟩
    have : n = m := by simpa using he
    exact hng (this ▸ hm)
  have hset : Pruned d (d'.set (p ++ [n]) none) p (n :: gone) := by
    refine ⟨hp.cwd, hp.readable, hp.writable, ?_⟩
    intro r
    simp only [Disk.set, List.mem_cons, exists_eq_or_imp]
    by_cases hr : r = p ++ [n]
    · simp [hr]
    · rw [if_neg hr, hp.node r]
      simp [hr]
  have hnone : d.node (p ++ [n]) = none → Pruned d d' p (n :: gone) := by
    intro hx
    refine ⟨hp.cwd, hp.readable, hp.writable, ?_⟩
    intro r
    rw [hp.node r]
    simp only [List.mem_cons, exists_eq_or_imp]
    by_cases hr : r = p ++ [n]
    · subst hr; simp [hx]
    · simp [hr]
  have hwr : d'.writable p = true := by
    rw [hp.writable]; exact hw
  unfold removePath
  rw [show resolve d' (s ++ '/' :: n) = .ok (p ++ [n]) from h3]
  simp only
  rw [if_neg (by rw [hcomp]; simp [hn.2.2.1, hn.2.2.2]), hnode]
  cases hx : d.node (p ++ [n]) with
  | none => simpa using hnone hx
  | some x =>
    cases x with
    | file b => simpa [hwr] using hset
    | dir =>
      by_cases he : emptyDir readdir d' (p ++ [n]) = true
      · simpa [hwr, he] using hset
      · simp only [Bool.not_eq_true] at he
        simpa [hwr, he] using hp

theorem remove_self (readdir : Path → List Name) (d : Disk) (s : List Char) (p : Path)
    (hs : Direct s) (h : Names d s p) (hd : d.node p = some .dir)
    (hw : d.writable p.dropLast = true) :
    removePath readdir d s = if emptyDir readdir d p then d.set p none else d := by
  have hp : p ≠ [] := by rw [names_eq hs h]; simp [hs.1]
  obtain ⟨l, c, hc⟩ : ∃ l c, pieces s = l ++ [c] :=
    ⟨(pieces s).dropLast, (pieces s).getLast hs.1, (List.dropLast_append_getLast hs.1).symm⟩
  have hcg : GoodName c := hs.2 c (by rw [hc]; simp)
  unfold removePath
  rw [show resolve d s = .ok p from h]
  simp only
  by_cases hl : s.getLast? = some '/'
  · have : (comps s).getLast? = some ['.'] := by unfold comps; rw [if_pos hl]; simp
    rw [if_pos (Or.inl this)]
    simp [hl, hc, hcg.2.2.1, hcg.2.2.2, hp, hw]
  · have : (comps s).getLast? = some c := by unfold comps; rw [if_neg hl, hc]; simp
    rw [if_neg (by rw [this]; simp [hcg.2.2.1, hcg.2.2.2])]
    simp [hd, hp, hw]

theorem remove_fold (readdir : Path → List Name) (d : Disk) (ht : Tree d) (s : List Char)
    (p : Path) (hs : Direct s) (h : Names d s p) (hd : d.node p = some .dir)
    (hw : d.writable p = true) (keep : Name → Prop)
    (hkeep : ∀ n, keep n ↔ d.node (p ++ [n]) = some .dir ∧
      ∀ d' gone, Pruned d d' p gone → emptyDir readdir d' (p ++ [n]) = false)
    (hdrop : ∀ n, ¬ keep n → d.node (p ++ [n]) = some .dir →
      ∀ d' gone, Pruned d d' p gone → emptyDir readdir d' (p ++ [n]) = true) :
    ∀ (l : List Name) (d' : Disk) (gone : List Name), Pruned d d' p gone → l.Nodup →
      (∀ n ∈ l, n ∉ gone) → (∀ n ∈ l, n = ['.'] ∨ n = ['.', '.'] ∨ d.node (p ++ [n]) ≠ none) →
      ∃ gone', Pruned d (l.foldl (fun d n => removePath readdir d (s ++ '/' :: n)) d') p gone' ∧
        ∀ n, n ∈ gone' ↔ n ∈ gone ∨ (n ∈ l ∧ n ≠ ['.'] ∧ n ≠ ['.', '.'] ∧ ¬ keep n) := by
  intro l
  induction l with
  | nil => intro d' gone hp _ _ _; exact ⟨gone, hp, by simp⟩
  | cons n l ih =>
    intro d' gone hp hnd hng hl
    rw [List.foldl_cons]
    obtain ⟨hn1, hnd'⟩ := List.nodup_cons.mp hnd
    have hl' : ∀ m ∈ l, m = ['.'] ∨ m = ['.', '.'] ∨ d.node (p ++ [m]) ≠ none :=
      fun m hm => hl m (by simp [hm])
    by_cases hdot : n = ['.'] ∨ n = ['.', '.']
    · rw [remove_dots readdir d' s n hdot]
      obtain ⟨g, h1, h2⟩ := ih d' gone hp hnd' (fun m hm => hng m (by simp [hm])) hl'
      refine ⟨g, h1, fun m => ?_⟩
      rw [h2 m, List.mem_cons]
      constructor
      · rintro (h | ⟨h3, h4⟩)
        · exact Or.inl h
        · exact Or.inr ⟨Or.inr h3, h4⟩
      · rintro (h | ⟨h3 | h3, h4, h5, h6⟩)
        · exact Or.inl h
        · subst h3
          rcases hdot with h | h
          · exact absurd h h4
          · exact absurd h h5
        · exact Or.inr ⟨h3, h4, h5, h6⟩
    · have hx : d.node (p ++ [n]) ≠ none := by
        rcases hl n (by simp) with h | h | h
        · exact absurd (Or.inl h) hdot
        · exact absurd (Or.inr h) hdot
        · exact h
      push Not at hdot
      have hg := (ht.parent p n hx).2
      have hr := remove_child readdir d d' s p gone hs h hd hw hp n hg (hng n (by simp))
      by_cases hk : keep n
      · rw [if_pos ⟨((hkeep n).mp hk).1, ((hkeep n).mp hk).2 d' gone hp⟩] at hr
        obtain ⟨g, h1, h2⟩ := ih _ gone hr hnd' (fun m hm => hng m (by simp [hm])) hl'
        refine ⟨g, h1, fun m => ?_⟩
        rw [h2 m, List.mem_cons]
        constructor
        · rintro (h | ⟨h3, h4⟩)
          · exact Or.inl h
          · exact Or.inr ⟨Or.inr h3, h4⟩
        · rintro (h | ⟨h3 | h3, h4, h5, h6⟩)
          · exact Or.inl h
          · subst h3; exact absurd hk h6
          · exact Or.inr ⟨h3, h4, h5, h6⟩
      · rw [if_neg] at hr
        · obtain ⟨g, h1, h2⟩ := ih _ (n :: gone) hr hnd' (by
            intro m hm
            simp only [List.mem_cons, not_or]
            exact ⟨fun e => hn1 (e ▸ hm), hng m (by simp [hm])⟩) hl'
          refine ⟨g, h1, fun m => ?_⟩
          rw [h2 m, List.mem_cons, List.mem_cons]
          constructor
          · rintro ((rfl | h) | ⟨h3, h4⟩)
            · exact Or.inr ⟨Or.inl rfl, hdot.1, hdot.2, hk⟩
            · exact Or.inl h
            · exact Or.inr ⟨Or.inr h3, h4⟩
          · rintro (h | ⟨h3 | h3, h4⟩)
            · exact Or.inl (Or.inr h)
            · exact Or.inl (Or.inl h3)
            · exact Or.inr ⟨h3, h4⟩
        · rintro ⟨h1, h2⟩
          rw [hdrop n hk h1 d' gone hp] at h2
          cases h2

/-- Whether a child of `p` that is a directory is empty does not change when children are removed. -/
theorem empty_pruned (readdir : Path → List Name) (d d' : Disk) (ht : Tree d)
    (hr : Reads readdir d) (p : Path) (gone : List Name) (hp : Pruned d d' p gone) (n : Name)
    (hn : d.node (p ++ [n]) = some .dir) :
    emptyDir readdir d' (p ++ [n]) = true ↔ ∀ m, d.node (p ++ [n] ++ [m]) = none := by
  unfold emptyDir
  rw [List.all_eq_true]
  have e : ∀ m, d'.node (p ++ [n] ++ [m]) = d.node (p ++ [n] ++ [m]) := by
    intro m
    rw [hp.node, if_neg]
    rintro ⟨k, -, h⟩
    have := congrArg List.length h
    simp at this
  constructor
  · intro h m
    by_contra hm
    have := h m (((hr _ hn).2 m).mpr (Or.inr (Or.inr hm)))
    have hg := (ht.parent _ m hm).2
    simp only [Bool.or_eq_true, decide_eq_true_eq, e] at this
    rcases this with (h | h) | h
    · exact hg.2.2.1 h
    · exact hg.2.2.2 h
    · exact hm h
  · intro h m _
    rw [e, h m]; simp

open Classical in
/-- What `remove_dir` leaves: everything but the children that are files or empty directories, and
the directory itself if no other child is left. -/
theorem remove_all (readdir : Path → List Name) (d : Disk) (ht : Tree d) (hr : Reads readdir d)
    (s : List Char) (p : Path) (hs : Direct s) (h : Names d s p) (hd : d.node p = some .dir)
    (hrd : d.readable p = true) (hw : d.writable p = true) (hwp : d.writable p.dropLast = true) :
    ∃ d', removeDir readdir d s = (0, d') ∧
      ∀ r, d'.node r =
        if (∃ n, r = p ++ [n] ∧ ¬ ∃ m, d.node (p ++ [n] ++ [m]) ≠ none) ∨
          (r = p ∧ ∀ n m : Name, d.node (p ++ [n] ++ [m]) = none) then none else d.node r := by
  have ho := (opendir_iff d s p).mpr ⟨h, hd, hrd⟩
  have hp0 : Pruned d d p [] := ⟨rfl, rfl, rfl, by simp⟩
  obtain ⟨g, hg, hgm⟩ := remove_fold readdir d ht s p hs h hd hw
    (fun n => d.node (p ++ [n]) = some .dir ∧ ∃ m, d.node (p ++ [n] ++ [m]) ≠ none)
    (by
      intro n
      constructor
      · rintro ⟨h1, m, hm⟩
        refine ⟨h1, fun d' gone hp => ?_⟩
        by_contra he
        simp only [Bool.not_eq_false] at he
        exact hm ((empty_pruned readdir d d' ht hr p gone hp n h1).mp he m)
      · rintro ⟨h1, h2⟩
        refine ⟨h1, ?_⟩
        by_contra hm
        push Not at hm
        have := h2 d [] hp0
        rw [(empty_pruned readdir d d ht hr p [] hp0 n h1).mpr hm] at this
        cases this)
    (by
      intro n hk h1 d' gone hp
      apply (empty_pruned readdir d d' ht hr p gone hp n h1).mpr
      by_contra hm
      push Not at hm
      exact hk ⟨h1, hm⟩)
    (readdir p) d [] hp0 (hr p hd).1 (by simp) (fun n hn => ((hr p hd).2 n).mp hn)
  set d1 := (readdir p).foldl (fun d n => removePath readdir d (s ++ '/' :: n)) d with hd1
  obtain ⟨hn1, hn2⟩ := pruned_names hg hs h hd
  have hself := remove_self readdir d1 s p hs hn1 hn2 (by rw [hg.writable]; exact hwp)
  have hmem : ∀ n, n ∈ g ↔ d.node (p ++ [n]) ≠ none ∧ ¬ ∃ m, d.node (p ++ [n] ++ [m]) ≠ none := by
    intro n
    rw [hgm n]
    simp only [List.not_mem_nil, false_or]
    constructor
    · rintro ⟨h1, h2, h3, h4⟩
      have hx : d.node (p ++ [n]) ≠ none := by
        rcases ((hr p hd).2 n).mp h1 with h | h | h
        · exact absurd h h2
        · exact absurd h h3
        · exact h
      refine ⟨hx, ?_⟩
      rintro ⟨m, hm⟩
      exact h4 ⟨(ht.parent _ m hm).1, m, hm⟩
    · rintro ⟨h1, h2⟩
      have hgn := (ht.parent p n h1).2
      exact ⟨((hr p hd).2 n).mpr (Or.inr (Or.inr h1)), hgn.2.2.1, hgn.2.2.2, fun h => h2 h.2⟩
  have hd1n : ∀ n, d1.node (p ++ [n]) ≠ none ↔ ∃ m, d.node (p ++ [n] ++ [m]) ≠ none := by
    intro n
    rw [hg.node]
    by_cases hn : ∃ k ∈ g, p ++ [n] = p ++ [k]
    · rw [if_pos hn]
      obtain ⟨k, hk, he⟩ := hn
      have : n = k := by simpa using he
      subst this
      simpa using ((hmem n).mp hk).2
    · rw [if_neg hn]
      constructor
      · intro hx
        by_contra hm
        exact hn ⟨n, (hmem n).mpr ⟨hx, hm⟩, rfl⟩
      · rintro ⟨m, hm⟩
        rw [(ht.parent _ m hm).1]; simp
  have hempty : emptyDir readdir d1 p = true ↔ ∀ n m, d.node (p ++ [n] ++ [m]) = none := by
    unfold emptyDir
    rw [List.all_eq_true]
    constructor
    · intro h1 n m
      by_contra hm
      have hx : d.node (p ++ [n]) ≠ none := by rw [(ht.parent _ m hm).1]; simp
      have := h1 n (((hr p hd).2 n).mpr (Or.inr (Or.inr hx)))
      have hgn := (ht.parent p n hx).2
      simp only [Bool.or_eq_true, decide_eq_true_eq] at this
      rcases this with (h | h) | h
      · exact hgn.2.2.1 h
      · exact hgn.2.2.2 h
      · exact (hd1n n).mpr ⟨m, hm⟩ h
    · intro h1 n _
      have : d1.node (p ++ [n]) = none := by
        by_contra hx
        obtain ⟨m, hm⟩ := (hd1n n).mp hx
        exact hm (h1 n m)
      simp [this]
  refine ⟨_, by unfold removeDir; rw [ho], ?_⟩
  rw [← hd1, hself]
  intro r
  have hd1r : d1.node r = if ∃ n, r = p ++ [n] ∧ ¬ ∃ m, d.node (p ++ [n] ++ [m]) ≠ none then none
      else d.node r := by
    rw [hg.node r]
    by_cases hc : ∃ n ∈ g, r = p ++ [n]
    · rw [if_pos hc, if_pos]
      obtain ⟨n, hn, rfl⟩ := hc
      exact ⟨n, rfl, ((hmem n).mp hn).2⟩
    · rw [if_neg hc]
      split_ifs with h2
      · obtain ⟨n, rfl, hn⟩ := h2
        by_contra hx
        exact hc ⟨n, (hmem n).mpr ⟨hx, hn⟩, rfl⟩
      · rfl
  by_cases he : emptyDir readdir d1 p = true
  · rw [if_pos he]
    simp only [Disk.set]
    by_cases hrp : r = p
    · rw [if_pos hrp, if_pos (Or.inr ⟨hrp, hempty.mp he⟩)]
    · rw [if_neg hrp, hd1r]
      simp [hrp]
  · rw [if_neg he, hd1r]
    have : ¬ ∀ n m, d.node (p ++ [n] ++ [m]) = none := fun h => he (hempty.mpr h)
    simp only [this, and_false, or_false]

/-- **C131 (removing).** A directory whose subdirectories are empty is removed with all that is in
it, and nothing else changes. -/
theorem C131_remove_partial (readdir : Path → List Name) (d : Disk) (ht : Tree d)
    (hr : Reads readdir d) (s : List Char) (p : Path) (hs : Direct s) (h : Names d s p)
    (hd : d.node p = some .dir) (hrd : d.readable p = true) (hw : d.writable p = true)
    (hwp : d.writable p.dropLast = true) (hflat : ∀ n m, d.node (p ++ [n, m]) = none) :
    ∃ d', removeDir readdir d s = (0, d') ∧ (∀ r, p <+: r → d'.node r = none) ∧
      ∀ r, ¬ p <+: r → d'.node r = d.node r := by
  obtain ⟨d', h1, h2⟩ := remove_all readdir d ht hr s p hs h hd hrd hw hwp
  have hflat' : ∀ n m, d.node (p ++ [n] ++ [m]) = none := by simpa using hflat
  refine ⟨d', h1, ?_, ?_⟩
  · rintro r ⟨t, rfl⟩
    rw [h2]
    split_ifs with hc
    · rfl
    · by_contra hx
      push Not at hc
      match t, hx with
      | [], _ => exact absurd (hflat') (by
          have := hc.2 (by simp)
          obtain ⟨n, m, hm⟩ := this
          intro hh; exact hm (hh n m))
      | [n], _ => exact absurd (hflat' n) (by
          obtain ⟨m, hm⟩ := hc.1 n rfl
          intro hh; exact hm (hh m))
      | n :: m :: t, hx =>
        have := ancestor ht (p ++ [n] ++ [m]) t (by simpa using hx)
        exact this (hflat' n m)
  · intro r hr'
    rw [h2, if_neg]
    rintro (⟨n, rfl, -⟩ | ⟨rfl, -⟩)
    · exact hr' ⟨[n], rfl⟩
    · exact hr' List.prefix_rfl

/-- **C131 (removing), refuted.** If a subdirectory is not empty, the directory stays, with all of
that subdirectory, but success is reported and the other entries are gone. -/
theorem C131_remove_refuted (readdir : Path → List Name) (d : Disk) (ht : Tree d)
    (hr : Reads readdir d) (s : List Char) (p : Path) (hs : Direct s) (h : Names d s p)
    (hd : d.node p = some .dir) (hrd : d.readable p = true) (hw : d.writable p = true)
    (hwp : d.writable p.dropLast = true) (n m : Name) (hdeep : d.node (p ++ [n, m]) ≠ none) :
    ∃ d', removeDir readdir d s = (0, d') ∧ d'.node p = some .dir ∧
      (∀ t, t ≠ [] → d'.node (p ++ n :: t) = d.node (p ++ n :: t)) ∧
      ∀ k b, d.node (p ++ [k]) = some (.file b) → d'.node (p ++ [k]) = none := by
  obtain ⟨d', h1, h2⟩ := remove_all readdir d ht hr s p hs h hd hrd hw hwp
  refine ⟨d', h1, ?_, ?_, ?_⟩
  · rw [h2, if_neg, hd]
    rintro (⟨k, hk, -⟩ | ⟨-, hk⟩)
    · have := congrArg List.length hk; simp at this
    · exact hdeep (by simpa using hk n m)
  · intro t ht'
    rw [h2, if_neg]
    rintro (⟨k, hk, -⟩ | ⟨hk, -⟩)
    · have := congrArg List.length hk
      simp at this
      exact ht' this
    · have := congrArg List.length hk; simp at this
  · intro k b hk
    rw [h2, if_pos]
    left
    refine ⟨k, rfl, ?_⟩
    rintro ⟨m', hm'⟩
    have := (ht.parent _ m' hm').1
    rw [hk] at this; cases this

end Yac.Disk
