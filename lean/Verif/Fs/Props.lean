import Verif.Fs.Model
import Mathlib.Data.List.DropRight
import Mathlib.Data.List.TakeWhile
import Mathlib.Tactic.Common

/-!
# C20: path and string helpers
-/

namespace Yac.Fs

/-! ### Specification -/

/-- The components of a path: the non-empty pieces between slashes. -/
def comps (p : List Char) : List (List Char) := (p.splitOn '/').filter (· ≠ [])

/-- The path does not end in a component (it is empty or ends in a slash). -/
def Trailing (p : List Char) : Prop := p = [] ∨ p.getLast? = some '/'

instance (p : List Char) : Decidable (Trailing p) := by unfold Trailing; infer_instance

/-- The parent directory. -/
def up : List Char := ['.', '.']

/-- `p` starts with `/`. -/
def Absolute (p : List Char) : Prop := p.head? = some '/'

instance (p : List Char) : Decidable (Absolute p) := by unfold Absolute; infer_instance

/-! ### Searching -/

theorem findLast_none {p : Char → Bool} {l : List Char} : findLast p l = none ↔ ∀ c ∈ l, p c = false := by
  induction l with
  | nil => simp [findLast]
  | cons c l ih =>
    unfold findLast
    cases h : findLast p l with
    | some i =>
      simp only [reduceCtorEq, false_iff]
      intro h'
      have := ih.mpr (fun c hc => h' c (by simp [hc]))
      rw [h] at this; cases this
    | none =>
      have := ih.mp h
      simp only [List.mem_cons, forall_eq_or_imp]
      cases hp : p c <;> simp [hp, this]
      exact this

/-- The last hit splits the string: a hit, and no hit after it. -/
theorem findLast_some {p : Char → Bool} {l : List Char} {i : Nat} (h : findLast p l = some i) :
    ∃ a c b, l = a ++ c :: b ∧ a.length = i ∧ p c = true ∧ ∀ d ∈ b, p d = false := by
  induction l generalizing i with
  | nil => cases h
  | cons c l ih =>
    unfold findLast at h
    cases h' : findLast p l with
    | some j =>
      rw [h'] at h
      simp only [Option.some.injEq] at h
      obtain ⟨a, d, b, e1, e2, e3, e4⟩ := ih h'
      exact ⟨c :: a, d, b, by rw [e1]; rfl, by simp [e2, h], e3, e4⟩
    | none =>
      rw [h'] at h
      cases hp : p c with
      | false => simp [hp] at h
      | true =>
        simp [hp] at h
        exact ⟨[], c, l, rfl, by simpa using h, hp, findLast_none.mp h'⟩

/-- Conversely. -/
theorem findLast_eq {p : Char → Bool} (a : List Char) (c : Char) (b : List Char) (hc : p c = true)
    (hb : ∀ d ∈ b, p d = false) : findLast p (a ++ c :: b) = some a.length := by
  induction a with
  | nil => simp [findLast, findLast_none.mpr hb, hc]
  | cons d a ih => simp [findLast, ih]

/-! ### File names -/

/-- C20, `parse_fname`: everything after the last separator. -/
theorem C20_fname (dir name : List Char) (s : Char) (hs : isSep s = true) (hn : ∀ c ∈ name, isSep c = false) :
    parseFname (dir ++ s :: name) = name ∧ dirName (dir ++ s :: name) = dir ∧
    parseFname name = name ∧ dirName name = name := by
  unfold parseFname dirName
  rw [findLast_eq dir s name hs hn, findLast_none.mpr hn]
  simp

example : isSep '/' = true ∧ (∀ c ∈ "img.png".toList, isSep c = false) ∧
    parseFname "data/cam0/img.png".toList = "img.png".toList ∧
    dirName "data/cam0/img.png".toList = "data/cam0".toList := by decide

/-- C20: the separators are the slash and the backslash. -/
theorem C20_separators (dir name : List Char) (s : Char) (hn : '/' ∉ name) (hn' : '\\' ∉ name) :
    (s = '/' ∨ s = '\\' → parseFname (dir ++ s :: name) = name) ∧
    (s ≠ '/' ∧ s ≠ '\\' → '/' ∉ dir ∧ '\\' ∉ dir → parseFname (dir ++ s :: name) = dir ++ s :: name) := by
  have hf : ∀ l : List Char, '/' ∉ l → '\\' ∉ l → ∀ c ∈ l, isSep c = false := by
    intro l h1 h2 c hc
    simp only [isSep, Bool.or_eq_false_iff, decide_eq_false_iff_not]
    exact ⟨fun h => h1 (h ▸ hc), fun h => h2 (h ▸ hc)⟩
  constructor
  · intro h
    exact (C20_fname dir name s (by rcases h with rfl | rfl <;> decide) (hf _ hn hn')).1
  · rintro ⟨h1, h2⟩ ⟨d1, d2⟩
    exact (C20_fname [] (dir ++ s :: name) '/' (by decide) (hf _ (by simp [d1, hn, Ne.symm h1]) (by simp [d2, hn', Ne.symm h2]))).2.2.1

example : parseFname "C:\\data\\img.png".toList = "img.png".toList := by decide

/-- C20, extensions: for a name with a dot, `remove_ext` and `parse_fext` cut it in two before the
last dot. -/
theorem C20_ext (a b : List Char) (hb : '.' ∉ b) :
    removeExt (a ++ '.' :: b) = a ∧ parseFext (a ++ '.' :: b) = .ok ('.' :: b) := by
  have h : findLast (fun c => decide (c = '.')) (a ++ '.' :: b) = some a.length :=
    findLast_eq a '.' b (by simp) (by
      intro d hd
      have : d ≠ '.' := by rintro rfl; exact hb hd
      simpa using this)
  unfold removeExt parseFext
  rw [h]
  simp

/-- C20, extensions: without a dot `remove_ext` changes nothing and `parse_fext` throws. -/
theorem C20_ext_none (p : List Char) (h : '.' ∉ p) : removeExt p = p ∧ parseFext p = .error .exn := by
  have h' : findLast (fun c => decide (c = '.')) p = none := findLast_none.mpr (by
    intro d hd
    have : d ≠ '.' := by rintro rfl; exact h hd
    simpa using this)
  unfold removeExt parseFext
  rw [h']
  simp

/-- The extension is searched in the whole path: a dot in a directory name is taken for it. -/
theorem C20_ext_dir_refuted : ∃ dir name : List Char, '.' ∉ name ∧ (∀ c ∈ name, isSep c = false) ∧
    removeExt (dir ++ '/' :: name) ≠ dir ++ '/' :: name ∧
    parseFext (dir ++ '/' :: name) = .ok ".d/file".toList := by
  exact ⟨"conf.d".toList, "file".toList, by decide, by decide, by decide, by decide⟩

/-! ### Stripping -/

/-- A string with a character that is kept: what is stripped on both sides. -/
theorem decompose (s target : List Char) (h : ∃ c ∈ s, c ∉ target) :
    ∃ a m b, s = a ++ m ++ b ∧ (∀ c ∈ a, c ∈ target) ∧ (∀ c ∈ b, c ∈ target) ∧ m ≠ [] ∧
      (∀ c, m.head? = some c → c ∉ target) ∧ (∀ c, m.getLast? = some c → c ∉ target) := by
  have h1 : s.dropWhile (fun c => decide (c ∈ target)) ≠ [] := by
    intro he
    rw [List.dropWhile_eq_nil_iff] at he
    obtain ⟨c, hc, hn⟩ := h
    exact hn (by simpa using he c hc)
  set t := s.dropWhile (fun c => decide (c ∈ target)) with ht
  have h2 : t.rdropWhile (fun c => decide (c ∈ target)) ≠ [] := by
    intro he
    rw [List.rdropWhile_eq_nil_iff] at he
    have := List.head_mem h1
    have h3 := List.head_dropWhile_not (fun c => decide (c ∈ target)) (l := s) (by rw [← ht]; exact h1)
    have h4 := he _ this
    simp only [← ht] at h3
    simp at h3 h4
    exact h3 h4
  refine ⟨s.takeWhile (fun c => decide (c ∈ target)), t.rdropWhile (fun c => decide (c ∈ target)),
    t.rtakeWhile (fun c => decide (c ∈ target)), ?_, ?_, ?_, h2, ?_, ?_⟩
  · rw [List.append_assoc]
    conv_lhs => rw [← List.takeWhile_append_dropWhile (p := fun c => decide (c ∈ target)) (l := s)]
    congr 1
    rw [← ht]
    unfold List.rdropWhile List.rtakeWhile
    rw [← List.reverse_append, List.takeWhile_append_dropWhile, List.reverse_reverse]
  · intro c hc
    simpa using List.mem_takeWhile_imp hc
  · intro c hc
    unfold List.rtakeWhile at hc
    simpa using List.mem_takeWhile_imp (List.mem_reverse.mp hc)
  · intro c hc
    have h3 := List.head_dropWhile_not (fun c => decide (c ∈ target)) (l := s) (by rw [← ht]; exact h1)
    have : t.head? = some c := by
      have hp := List.rdropWhile_prefix (fun c => decide (c ∈ target)) (l := t)
      obtain ⟨u, hu⟩ := hp
      rw [← hu]
      cases hm : t.rdropWhile (fun c => decide (c ∈ target)) with
      | nil => exact absurd hm h2
      | cons d m => rw [hm] at hc; simpa using hc
    simp only [← ht] at h3
    rw [List.head?_eq_some_head h1] at this
    simp only [Option.some.injEq] at this
    rw [this] at h3
    simpa using h3
  · intro c hc
    have := List.rdropWhile_last_not (fun c => decide (c ∈ target)) t h2
    rw [List.getLast?_eq_some_getLast h2] at hc
    simp only [Option.some.injEq] at hc
    rw [hc] at this
    simpa using this

/-- C20, `strip` removes exactly the leading and trailing target characters, if any other
character is present. -/
theorem C20_strip_partial (a m b target : List Char) (ha : ∀ c ∈ a, c ∈ target)
    (hb : ∀ c ∈ b, c ∈ target) (hm : m ≠ []) (h1 : ∀ c, m.head? = some c → c ∉ target)
    (h2 : ∀ c, m.getLast? = some c → c ∉ target) : strip (a ++ m ++ b) target = m := by
  obtain ⟨c, m', rfl⟩ := List.exists_cons_of_ne_nil hm
  have hc := h1 c rfl
  have hf : findFirst (fun c => decide (c ∉ target)) (a ++ (c :: m') ++ b) = some a.length := by
    unfold findFirst
    rw [List.append_assoc, List.findIdx?_append, List.findIdx?_eq_none_iff.mpr]
    · simp [List.findIdx?_cons, hc]
    · intro d hd; simpa using ha d hd
  obtain ⟨m2, d, he⟩ : ∃ m2 d, c :: m' = m2 ++ [d] :=
    ⟨(c :: m').dropLast, (c :: m').getLast (by simp), (List.dropLast_concat_getLast (by simp)).symm⟩
  have hd : d ∉ target := h2 d (by rw [he]; simp)
  have hl : findLast (fun c => decide (c ∉ target)) (a ++ (c :: m') ++ b) = some (a.length + m2.length) := by
    rw [he]
    have := findLast_eq (p := fun c => decide (c ∉ target)) (a ++ m2) d b (by simpa using hd)
      (by intro e hb'; simpa using hb e hb')
    rw [List.length_append] at this
    rw [← this]
    simp
  have hlen : m'.length + 1 = m2.length + 1 := by
    have := congrArg List.length he
    simpa using this
  unfold strip
  rw [hf, hl]
  simp only
  rw [List.append_assoc, List.drop_left' rfl, List.take_left']
  simp only [List.length_cons]; omega

/-- C20 is false for strings of target characters only: `strip` returns them unchanged. -/
theorem C20_strip_refuted (s target : List Char) (h : ∀ c ∈ s, c ∈ target) : strip s target = s := by
  unfold strip findFirst
  rw [List.findIdx?_eq_none_iff.mpr]
  intro c hc
  simpa using h c hc

example : strip "  a b ".toList " ".toList = "a b".toList ∧ strip "   ".toList " ".toList = "   ".toList ∧
    stripEnd "  a ".toList " ".toList = "  a".toList := by decide

/-- C20, `strip_end` removes exactly the trailing target characters. -/
theorem C20_strip_end (a b target : List Char) (hb : ∀ c ∈ b, c ∈ target)
    (ha : ∀ c, a.getLast? = some c → c ∉ target) : stripEnd (a ++ b) target = a := by
  unfold stripEnd
  rcases List.eq_nil_or_concat a with rfl | ⟨a', d, rfl⟩
  · rw [findLast_none.mpr]
    intro c hc
    simpa using hb c hc
  · have hd : d ∉ target := ha d (by simp)
    have := findLast_eq (p := fun c => decide (c ∉ target)) a' d b (by simpa using hd)
      (by intro e he; simpa using hb e he)
    rw [List.concat_eq_append, List.append_assoc, List.singleton_append, this]
    simp only
    rw [← List.singleton_append, ← List.append_assoc, List.take_left' (by simp)]

/-! ### Splitting -/

theorem comps_append (a b : List Char) : comps (a ++ '/' :: b) = comps a ++ comps b := by
  unfold comps
  rw [List.splitOn_append_cons_self, List.filter_append]

theorem comps_nil : comps [] = [] := by decide

theorem comps_word (w : List Char) (hw : '/' ∉ w) (h0 : w ≠ []) : comps w = [w] := by
  unfold comps
  rw [List.splitOn_eq_singleton hw]
  simp [h0]

theorem comps_mem {p w : List Char} (h : w ∈ comps p) : w ≠ [] ∧ '/' ∉ w := by
  unfold comps at h
  simp only [List.mem_filter, decide_eq_true_eq] at h
  refine ⟨by simpa using h.2, ?_⟩
  have key : ∀ (p w : List Char), w ∈ p.splitOn '/' → '/' ∉ w := by
    intro p
    induction p with
    | nil => intro w hw; simp at hw; simp [hw]
    | cons c p ih =>
      intro w hw
      rw [List.splitOn_cons_eq_if_modifyHead] at hw
      split_ifs at hw with hc
      · rcases List.mem_cons.mp hw with rfl | hw
        · simp
        · exact ih w hw
      · have hne := List.splitOn_ne_nil '/' p
        cases hs : p.splitOn '/' with
        | nil => exact absurd hs hne
        | cons x xs =>
          rw [hs] at hw ih
          simp only [List.modifyHead_cons, List.mem_cons] at hw
          rcases hw with rfl | hw
          · have := ih x (by simp)
            simp only [List.mem_cons, not_or]
            refine ⟨?_, this⟩
            intro h; apply hc; simp [← h]
          · exact ih w (by simp [hw])
  exact key p w h.1

theorem trailing_cons (s l : List Char) : Trailing (s ++ '/' :: l) ↔ Trailing l := by
  unfold Trailing
  cases l with
  | nil => simp
  | cons c l => simp [List.getLast?_append]

/-- The empty component that ends the list when the path has no last component. -/
def tailComp (p : List Char) : List (List Char) := if Trailing p then [[]] else []

theorem splitLoop_eq (l s : List Char) (acc : List (List Char)) (hs : '/' ∉ s) :
    splitLoop l s acc = acc ++ comps (s ++ l) ++ tailComp (s ++ l) := by
  induction l generalizing s acc with
  | nil =>
    unfold splitLoop
    rw [List.append_nil]
    by_cases h : s = []
    · subst h; simp [comps_nil, tailComp, Trailing]
    · have : ¬ Trailing s := by
        rintro (h' | h')
        · exact h h'
        · exact hs (List.mem_of_getLast? h')
      rw [comps_word s hs h, tailComp, if_neg this, List.append_nil]
  | cons c l ih =>
    unfold splitLoop
    by_cases hc : c = '/'
    · subst hc
      have ht : tailComp (s ++ '/' :: l) = tailComp l := by
        unfold tailComp; simp only [trailing_cons]
      by_cases h : s = []
      · subst h
        rw [if_neg (by simp), if_neg (by simp), ih [] acc (by simp), comps_append, ht, comps_nil]
        simp
      · rw [if_pos ⟨h, rfl⟩, ih [] _ (by simp), comps_append, comps_word s hs h, ht]
        simp
    · rw [if_neg (by simp [hc]), if_pos hc, ih _ acc (by
        simp only [List.mem_append, List.mem_singleton, not_or]
        exact ⟨hs, fun h => hc h.symm⟩)]
      simp

/-- C20, `path_split`: the components, followed by an empty one if the path is empty or ends in a
slash. -/
theorem C20_split (p : List Char) :
    pathSplit p = comps p ++ (if Trailing p then [[]] else []) := by
  unfold pathSplit
  rw [splitLoop_eq p [] [] (by simp)]
  simp [tailComp]

example : pathSplit "/a//bc/".toList = ["a".toList, "bc".toList, []] ∧
    comps "/a//bc/".toList = ["a".toList, "bc".toList] := by decide

/-! ### Joining -/

theorem joinSlash_eq (ws : List (List Char)) (h : ws ≠ []) :
    joinSlash ws = ['/'].intercalate ws ++ ['/'] := by
  induction ws with
  | nil => exact absurd rfl h
  | cons w ws ih =>
    cases ws with
    | nil => simp [joinSlash]
    | cons v ws =>
      have := ih (by simp)
      unfold joinSlash at this ⊢
      rw [List.flatMap_cons, this]
      simp [List.intercalate_cons_cons]

theorem intercalate_last (ws : List (List Char)) (h : ws ≠ []) (hw : ∀ w ∈ ws, w ≠ [] ∧ '/' ∉ w) :
    ∃ a c, ['/'].intercalate ws = a ++ [c] ∧ c ≠ '/' := by
  induction ws with
  | nil => exact absurd rfl h
  | cons w ws ih =>
    cases ws with
    | nil =>
      obtain ⟨h1, h2⟩ := hw w (by simp)
      refine ⟨w.dropLast, w.getLast h1, ?_, ?_⟩
      · rw [List.dropLast_concat_getLast]; simp
      · rintro he
        exact h2 (he ▸ List.getLast_mem h1)
    | cons v ws =>
      obtain ⟨a, c, e, hc⟩ := ih (by simp) (fun w hw' => hw w (by simp [hw']))
      exact ⟨w ++ '/' :: a, c, by rw [List.intercalate_cons_cons, e]; simp, hc⟩

theorem trimEnd_eq (a : List Char) (c : Char) (hc : c ≠ '/') (n : Nat) :
    trimEnd (a ++ [c] ++ List.replicate n '/') = .ok (a ++ [c]) := by
  have hd : ∀ x : List Char, ((x ++ [c] ++ List.replicate n '/').reverse.dropWhile (· = '/')).reverse =
      x ++ [c] := by
    intro x
    rw [List.reverse_append, List.reverse_replicate, List.dropWhile_append_of_pos (by
      intro d hd; simpa using List.eq_of_mem_replicate hd)]
    simp [hc]
  cases a with
  | nil =>
    simp only [List.nil_append, List.singleton_append, trimEnd, List.reverse_replicate]
    have : (List.replicate n '/').dropWhile (fun x => decide (x = '/')) = [] := by
      rw [List.dropWhile_eq_nil_iff]
      intro d hd; simpa using List.eq_of_mem_replicate hd
    rw [this]; rfl
  | cons b a =>
    have := hd a
    simp only [List.cons_append, trimEnd]
    rw [this]

theorem trimEnd_slash (n : Nat) : trimEnd (List.replicate (n + 1) '/') = .ok ['/'] := by
  rw [List.replicate_succ]
  simp only [trimEnd, List.reverse_replicate]
  have : (List.replicate n '/').dropWhile (fun x => decide (x = '/')) = [] := by
    rw [List.dropWhile_eq_nil_iff]
    intro d hd; simpa using List.eq_of_mem_replicate hd
  rw [this]; rfl

/-- C20, `paths_join`, for a first path that does not end in a slash and a second one whose `..`
come first: `k` components of the first path are removed, the others are joined by single slashes,
and the result is absolute exactly when the first path is. -/
theorem C20_join_partial (p1 p2 : List Char) (k : Nat) (rest : List (List Char))
    (h1 : ¬ Trailing p1) (h2 : comps p2 = List.replicate k up ++ rest) (h3 : up ∉ rest)
    (hk : k ≤ (comps p1).length) (hne : Absolute p1 ∨ (comps p1).take ((comps p1).length - k) ++ rest ≠ []) :
    pathsJoin p1 p2 = .ok ((if Absolute p1 then ['/'] else []) ++
      ['/'].intercalate ((comps p1).take ((comps p1).length - k) ++ rest)) := by
  have hs1 : pathSplit p1 = comps p1 := by rw [C20_split, if_neg h1, List.append_nil]
  obtain ⟨n, hn⟩ : ∃ n, tailComp p2 = List.replicate n [] := by
    unfold tailComp; split_ifs
    · exact ⟨1, rfl⟩
    · exact ⟨0, rfl⟩
  have hs2 : pathSplit p2 = List.replicate k up ++ (rest ++ List.replicate n []) := by
    rw [C20_split]
    show comps p2 ++ tailComp p2 = _
    rw [h2, hn, List.append_assoc]
  have hrest : ∀ w ∈ rest, w ≠ [] ∧ '/' ∉ w := fun w hw => comps_mem (p := p2) (by rw [h2]; simp [hw])
  have hup : ((pathSplit p2).filter (· = ['.', '.'])).length = k := by
    rw [hs2, List.filter_append, List.filter_append]
    have a1 : (List.replicate k up).filter (· = ['.', '.']) = List.replicate k up := by
      rw [List.filter_eq_self]
      intro w hw
      rw [List.eq_of_mem_replicate hw]; rfl
    have a2 : rest.filter (· = ['.', '.']) = [] := by
      rw [List.filter_eq_nil_iff]
      intro w hw he
      have : w = up := by simpa [up] using he
      exact h3 (this ▸ hw)
    have a3 : (List.replicate n ([] : List Char)).filter (· = ['.', '.']) = [] := by
      rw [List.filter_eq_nil_iff]
      intro w hw
      rw [List.eq_of_mem_replicate hw]; decide
    rw [a1, a2, a3]; simp
  have hdrop : (pathSplit p2).drop k = rest ++ List.replicate n [] := by
    rw [hs2, List.drop_left' (by simp)]
  have hwords : ∀ w ∈ (comps p1).take ((comps p1).length - k) ++ rest, w ≠ [] ∧ '/' ∉ w := by
    intro w hw
    rcases List.mem_append.mp hw with hw | hw
    · exact comps_mem (List.mem_of_mem_take hw)
    · exact hrest w hw
  unfold pathsJoin
  simp only
  rw [hup, hs1, hdrop]
  unfold popN
  rw [if_pos hk]
  show trimEnd _ = _
  have hj : ∀ a b, joinSlash (a ++ b) = joinSlash a ++ joinSlash b := by
    intro a b; simp [joinSlash]
  have hjn : joinSlash (List.replicate n []) = List.replicate n '/' := by
    unfold joinSlash
    clear hs2 hdrop hn
    induction n with
    | zero => rfl
    | succ n ih => rw [List.replicate_succ, List.flatMap_cons, ih]; rfl
  rw [hj, hjn, List.append_assoc, ← List.append_assoc (joinSlash _), ← hj]
  generalize (comps p1).take ((comps p1).length - k) ++ rest = ws at *
  have habs : (if p1.head? = some '/' then ['/'] else []) = (if Absolute p1 then ['/'] else []) := rfl
  rw [habs]
  by_cases hws : ws = []
  · subst hws
    have ha := hne.resolve_right (by simp)
    rw [if_pos ha]
    have := trimEnd_slash n
    rw [List.replicate_succ] at this
    simpa [joinSlash] using this
  · obtain ⟨a, c, e, hc⟩ := intercalate_last ws hws hwords
    rw [joinSlash_eq ws hws, e]
    have := trimEnd_eq ((if Absolute p1 then ['/'] else []) ++ a) c hc (n + 1)
    rw [List.replicate_succ] at this
    simpa using this

/-- C20 witness: one directory up. -/
example : ¬ Trailing "/data/cam0".toList ∧ comps "../imu/x.csv".toList = List.replicate 1 up ++ ["imu".toList, "x.csv".toList] ∧
    pathsJoin "/data/cam0".toList "../imu/x.csv".toList = .ok "/data/imu/x.csv".toList := by
  decide

/-- C20 is false for a first path that ends in a slash: `..` does not remove a directory, and a
slash is doubled. -/
theorem C20_join_trailing_refuted :
    pathsJoin "/data/cam0/".toList "../imu".toList = .ok "/data/cam0/imu".toList ∧
    pathsJoin "/data/".toList "imu".toList = .ok "/data//imu".toList ∧
    pathsJoin "/".toList "imu".toList = .ok "//imu".toList := by
  decide

/-- C20 is false for a second path with a `..` that does not come first: a component of the second
path is dropped in its place. -/
theorem C20_join_middle_refuted :
    pathsJoin "a/b".toList "c/../d".toList = .ok "a/../d".toList := by
  decide

/-- C20 is false when everything is removed from a relative path: the result is the root directory,
or the behaviour is undefined. -/
theorem C20_join_empty_refuted :
    pathsJoin "a".toList "../".toList = .ok "/".toList ∧
    pathsJoin "a".toList "..".toList = .error .oob := by
  decide

/-- C20: more `..` than components is undefined (`pop_back` on an empty vector). -/
theorem C20_join_above (p1 p2 : List Char)
    (h : (pathSplit p1).length < ((pathSplit p2).filter (· = up)).length) :
    pathsJoin p1 p2 = .error .oob := by
  unfold pathsJoin popN
  simp only
  rw [if_neg (by unfold up at h; omega)]
  rfl

end Yac.Fs
