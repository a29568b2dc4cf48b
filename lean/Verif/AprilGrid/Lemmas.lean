import Verif.AprilGrid.Spec
import Verif.Containers.Lemmas
import Mathlib.Tactic.Ring
import Mathlib.Tactic.Linarith
import Mathlib.Data.List.Range
import Mathlib.Data.Nat.Cast.Field
import Mathlib.Tactic.FieldSimp

namespace Yac.AprilGrid
open Spec
variable {K : Type}

@[simp] theorem ok_bind {ε α β : Type} (a : α) (f : α → Except ε β) :
    ((Except.ok a : Except ε α) >>= f) = f a := rfl
@[simp] theorem pure_eq_ok {ε α : Type} (a : α) : (pure a : Except ε α) = Except.ok a := rfl
@[simp] theorem error_bind {ε α β : Type} (e : ε) (f : α → Except ε β) :
    ((Except.error e : Except ε α) >>= f) = Except.error e := rfl

theorem foldlM_ok {ε α β : Type} (f : β → α → Except ε β) (g : β → α → β) (l : List α) :
    ∀ b, (∀ b, ∀ a ∈ l, f b a = .ok (g b a)) → l.foldlM f b = .ok (l.foldl g b) := by
  induction l with
  | nil => intro b _; rfl
  | cons a l ih =>
    intro b h
    rw [List.foldlM_cons, h b a (by simp), ok_bind, List.foldl_cons]
    exact ih _ (fun b a ha => h b a (List.mem_cons_of_mem _ ha))

theorem foldlM_concat {ε α β : Type} (f : β → α → Except ε β) (l : List α) (a : α) (b : β) :
    (l ++ [a]).foldlM f b = (l.foldlM f b) >>= fun b => f b a := by
  rw [List.foldlM_append]
  congr 1
  funext x
  cases h : f x a <;> simp [h]

theorem readRow_nat (data : List (Row K)) (i : Nat) (h : i < data.length) :
    readRow data (i : Int) = .ok data[i] := by
  simp [readRow, List.getElem?_eq_getElem h]

theorem readRow_ok_iff (data : List (Row K)) (i : Int) (r : Row K) :
    readRow data i = .ok r ↔ 0 ≤ i ∧ data[i.toNat]? = some r := by
  unfold readRow
  split_ifs with h
  · simp; omega
  · cases hd : data[i.toNat]? with
    | none => simp
    | some r' => simp; omega

theorem writeRow_nat (data : List (Row K)) (i : Nat) (r : Row K) (h : i < data.length) :
    writeRow data (i : Int) r = .ok (data.set i r) := by
  simp [writeRow, h]

/-- The table that results from `f` at every index. -/
def tab {β : Type} (n : Nat) (f : Nat → β) : List β := (List.range n).map f

@[simp] theorem tab_length {β : Type} (n : Nat) (f : Nat → β) : (tab n f).length = n := by
  simp [tab]

@[simp] theorem tab_get {β : Type} (n : Nat) (f : Nat → β) (i : Nat) (h : i < (tab n f).length) :
    (tab n f)[i] = f i := by simp [tab]

theorem tab_get? {β : Type} (n : Nat) (f : Nat → β) (i : Nat) (h : i < n) :
    (tab n f)[i]? = some (f i) := by
  rw [List.getElem?_eq_getElem (by simpa using h)]; simp

theorem tab_congr {β : Type} (n : Nat) (f g : Nat → β) (h : ∀ i < n, f i = g i) :
    tab n f = tab n g := by
  apply List.map_congr_left
  intro i hi; exact h i (List.mem_range.mp hi)

theorem tab_set {β : Type} (n : Nat) (f : Nat → β) (i : Nat) (v : β) :
    (tab n f).set i v = tab n (fun j => if j = i then v else f j) := by
  apply List.ext_getElem
  · simp
  · intro j h1 h2
    rw [List.getElem_set]
    by_cases hj : i = j
    · simp [hj]
    · simp [hj, Ne.symm hj]

theorem tab_const {β : Type} (n : Nat) (v : β) : List.replicate n v = tab n (fun _ => v) := by
  simp [tab]

theorem tab_map {β γ : Type} (n : Nat) (f : Nat → β) (g : β → γ) :
    (tab n f).map g = tab n (fun i => g (f i)) := by simp [tab]

theorem forRows_tab {β : Type} (n : Nat) (row : Nat → Row K) (b : β) (f : β → Nat → Row K → β) :
    forRows (tab n row) n b f = .ok ((List.range n).foldl (fun acc i => f acc i (row i)) b) := by
  unfold forRows
  apply foldlM_ok
  intro b i hi
  have hi := List.mem_range.mp hi
  rw [readRow_nat _ _ (by simpa using hi)]
  simp

theorem foldl_push {α β : Type} (l : List α) (p : α → Prop) [DecidablePred p] (v : α → β) :
    ∀ acc : List β, l.foldl (fun acc a => if p a then acc ++ [v a] else acc) acc =
      acc ++ (l.filter (fun a => p a)).map v := by
  induction l with
  | nil => simp
  | cons a l ih =>
    intro acc
    rw [List.foldl_cons, ih]
    by_cases h : p a <;> simp [h]

/-! ### counting -/

theorem countP_update (n i : Nat) (hi : i < n) (p q : Nat → Bool) (h : ∀ j, j ≠ i → p j = q j) :
    (List.range n).countP p + (if q i then 1 else 0) =
      (List.range n).countP q + (if p i then 1 else 0) := by
  induction n with
  | zero => omega
  | succ n ih =>
    rw [List.range_succ, List.countP_append, List.countP_append, List.countP_singleton,
      List.countP_singleton]
    by_cases hn : i = n
    · subst hn
      have : (List.range i).countP p = (List.range i).countP q := by
        apply List.countP_congr
        intro j hj; rw [h j (by have := List.mem_range.mp hj; omega)]
      rw [this]; omega
    · have := ih (by omega)
      rw [h n (Ne.symm hn)]
      omega

/-! ### corner enumeration -/

theorem flatMap4 {β : Type} (n : Nat) (f : Nat → β) :
    (List.range n).flatMap (fun t => [f (4*t), f (4*t+1), f (4*t+2), f (4*t+3)]) =
      (List.range (n * 4)).map f := by
  induction n with
  | zero => simp
  | succ n ih =>
    rw [List.range_succ, List.flatMap_append, ih, show (n+1)*4 = n*4+1+1+1+1 by ring]
    simp only [List.range_succ, List.map_append, List.flatMap_cons, List.flatMap_nil,
      List.map_cons, List.map_nil, List.append_assoc, List.append_nil]
    simp [Nat.mul_comm]

theorem allCorners_eq (rows cols : Nat) :
    allCorners rows cols = tab (rows * cols * 4)
      (fun i => (((i / 4 : Nat) : Int), ((i % 4 : Nat) : Int))) := by
  rw [tab, ← flatMap4, allCorners]
  congr 1
  funext t
  have h0 : 4 * t / 4 = t := by omega
  have h1 : (4 * t + 1) / 4 = t := by omega
  have h2 : (4 * t + 2) / 4 = t := by omega
  have h3 : (4 * t + 3) / 4 = t := by omega
  have g0 : 4 * t % 4 = 0 := by omega
  have g1 : (4 * t + 1) % 4 = 1 := by omega
  have g2 : (4 * t + 2) % 4 = 2 := by omega
  have g3 : (4 * t + 3) % 4 = 3 := by omega
  simp only [h0, h1, h2, h3, g0, g1, g2, g3]
  rfl

theorem mem_allCorners (rows cols : Nat) (t c : Int) :
    (t, c) ∈ allCorners rows cols ↔ Valid rows cols t c := by
  rw [allCorners_eq, tab, List.mem_map]
  constructor
  · rintro ⟨i, hi, he⟩
    have hi := List.mem_range.mp hi
    simp only [Prod.mk.injEq] at he
    obtain ⟨rfl, rfl⟩ := he
    refine ⟨by omega, ?_, by omega, by omega⟩
    have : i / 4 < rows * cols := by omega
    exact_mod_cast this
  · rintro ⟨h1, h2, h3, h4⟩
    obtain ⟨t, rfl⟩ := Int.eq_ofNat_of_zero_le h1
    obtain ⟨c, rfl⟩ := Int.eq_ofNat_of_zero_le h3
    have h2 : t < rows * cols := by exact_mod_cast h2
    have h4 : c < 4 := by omega
    refine ⟨t * 4 + c, List.mem_range.mpr (by omega), ?_⟩
    simp only [Prod.mk.injEq]
    constructor <;> congr 1 <;> omega

/-! ### the refinement invariant -/

section
variable [Field K]

/-- Content of row `i` when the corner `(i/4, i%4)` holds `o`. -/
def rowFor (cols : Nat) (size spacing : K) (i : Nat) (o : Option (K × K)) : Row K :=
  match o with
  | none => zeroRow
  | some kp =>
    let p := boardPoint cols size spacing (i / 4) (i % 4)
    ⟨1, kp.1, kp.2, p.1, p.2.1, p.2.2⟩

/-- The data table of a map. -/
def tableOf (rows cols : Nat) (size spacing : K) (m : CMap K) : List (Row K) :=
  tab (rows * cols * 4) (fun i => rowFor cols size spacing i (m ((i / 4 : Nat) : Int) ((i % 4 : Nat) : Int)))

/-- held at row index `i` -/
def heldAt (m : CMap K) (i : Nat) : Bool := (m ((i / 4 : Nat) : Int) ((i % 4 : Nat) : Int)).isSome

omit [Field K] in
theorem heldAt_def (m : CMap K) (i : Nat) :
    heldAt m i = (m ((i / 4 : Nat) : Int) ((i % 4 : Nat) : Int)).isSome := rfl

/-- Refinement relation between a grid and a map, with `extra` surplus counts; nothing is
said about `detected`. -/
structure Core (ts : Int) (rows cols : Nat) (size spacing : K) (m : CMap K) (extra : Nat)
    (g : Grid K) : Prop where
  hinit : g.init = true
  hts : g.timestamp = ts
  hrows : g.tagRows = rows
  hcols : g.tagCols = cols
  hsize : g.tagSize = size
  hspacing : g.tagSpacing = spacing
  data : g.data = tableOf rows cols size spacing m
  nb : g.nbDetections = ((List.range (rows * cols * 4)).countP (heldAt m) + extra : Nat)

/-- Refinement relation including the `detected` flag. -/
structure Rel (ts : Int) (rows cols : Nat) (size spacing : K) (m : CMap K) (extra : Nat)
    (g : Grid K) : Prop extends Core ts rows cols size spacing m extra g where
  det : g.detected = decide (0 < g.nbDetections)

omit [Field K] in
theorem countP_none (l : List Nat) : l.countP (heldAt (none_ : CMap K)) = 0 := by
  rw [List.countP_eq_zero]; intro a _; simp [heldAt, none_]

omit [Field K] in
theorem spec_size (rows cols : Nat) (m : CMap K) :
    Spec.size rows cols m = (List.range (rows * cols * 4)).countP (heldAt m) := by
  rw [Spec.size, held, allCorners_eq, tab, List.filterMap_map, List.countP_eq_length_filter]
  generalize List.range (rows * cols * 4) = l
  induction l with
  | nil => rfl
  | cons i l ih =>
    rw [List.filterMap_cons, List.filter_cons, heldAt_def]
    simp only [Function.comp] at ih ⊢
    cases hm : m ((i / 4 : Nat) : Int) ((i % 4 : Nat) : Int) with
    | none => simpa using ih
    | some kp => simpa using ih

theorem new_rel (ts : Int) (rows cols : Nat) (size spacing : K) :
    Rel ts rows cols size spacing none_ 0 (new ts rows cols size spacing) := by
  refine ⟨⟨rfl, rfl, rfl, rfl, rfl, rfl, ?_, ?_⟩, ?_⟩
  · rw [new, tableOf]; simp only [rowFor, none_]; rw [tab_const]
  · simp [new, countP_none]
  · simp [new]

theorem valid_index {rows cols : Nat} {t c : Int} (h : Valid rows cols t c) :
    ∃ t' c' : Nat, t = t' ∧ c = c' ∧ t' < rows * cols ∧ c' < 4 ∧ t * 4 + c = ((t' * 4 + c' : Nat) : Int)
      ∧ t' * 4 + c' < rows * cols * 4 ∧ (t' * 4 + c') / 4 = t' ∧ (t' * 4 + c') % 4 = c' := by
  obtain ⟨h1, h2, h3, h4⟩ := h
  obtain ⟨t, rfl⟩ := Int.eq_ofNat_of_zero_le h1
  obtain ⟨c, rfl⟩ := Int.eq_ofNat_of_zero_le h3
  have h2 : t < rows * cols := by exact_mod_cast h2
  have h4 : c < 4 := by omega
  exact ⟨t, c, rfl, rfl, h2, h4, by push_cast; ring, by omega, by omega, by omega⟩

theorem objectPoint_eq (g : Grid K) (t c : Nat) (ht : t < g.tagRows * g.tagCols) (hc : c < 4) :
    objectPoint g t c = .ok (boardPoint g.tagCols g.tagSize g.tagSpacing t c) := by
  have hcols : g.tagCols ≠ 0 := by rintro h; simp [h] at ht
  have h1 : ¬ ((t : Int) > (g.tagRows * g.tagCols : Nat)) := by omega
  have h2 : ¬ ((t : Int) < 0) := by omega
  have hd : Int.tdiv (t : Int) (g.tagCols : Int) = ((t / g.tagCols : Nat) : Int) := by
    rw [Int.ofNat_tdiv]
  have hm : Int.tmod (t : Int) (g.tagCols : Int) = ((t % g.tagCols : Nat) : Int) := by
    rw [Int.ofNat_tmod]
  have hg : gridIndex g t = .ok (((t / g.tagCols : Nat) : Int), ((t % g.tagCols : Nat) : Int)) := by
    rw [gridIndex, if_neg h1, if_neg h2, if_neg hcols, hd, hm]
  rw [objectPoint, hg, ok_bind]
  simp only [Int.cast_natCast, boardPoint]
  have hc4 : c = 0 ∨ c = 1 ∨ c = 2 ∨ c = 3 := by omega
  have hp : g.tagSize + g.tagSize * g.tagSpacing = g.tagSize * (1 + g.tagSpacing) := by ring
  rw [hp]
  rcases hc4 with rfl | rfl | rfl | rfl <;> simp

theorem index_eq_iff (i t c : Nat) (hc : c < 4) :
    ((i / 4 : Nat) : Int) = (t : Int) ∧ ((i % 4 : Nat) : Int) = (c : Int) ↔ i = t * 4 + c := by
  omega

theorem add_rel {ts : Int} {rows cols : Nat} {size spacing : K} {m : CMap K} {extra : Nat}
    {g : Grid K} (h : Rel ts rows cols size spacing m extra g) {t c : Int} (kp : K × K)
    (hv : Valid rows cols t c) :
    ∃ g', add g t c kp = .ok g' ∧
      Rel ts rows cols size spacing (Spec.step m (.add t c kp))
        (if (m t c).isSome then extra + 1 else extra) g' := by
  obtain ⟨t, c, rfl, rfl, ht, hc, hidx, hlt, hd4, hm4⟩ := valid_index hv
  have hop : objectPoint g t c = .ok (boardPoint cols size spacing t c) := by
    rw [objectPoint_eq g t c (by rw [h.hrows, h.hcols]; exact ht) hc, h.hcols, h.hsize, h.hspacing]
  have hlen : t * 4 + c < g.data.length := by rw [h.data, tableOf]; simpa using hlt
  have hcnt := countP_update (rows * cols * 4) (t * 4 + c) hlt (heldAt m)
    (heldAt (Spec.step m (.add (t : Int) (c : Int) kp))) (by
      intro j hj
      have : ¬ (((j / 4 : Nat) : Int) = (t : Int) ∧ ((j % 4 : Nat) : Int) = (c : Int)) := by
        rw [index_eq_iff _ _ _ hc]; exact hj
      simp only [heldAt, Spec.step, if_neg this])
  have hq : heldAt (Spec.step m (.add (t : Int) (c : Int) kp)) (t * 4 + c) = true := by
    simp [heldAt, Spec.step, hd4, hm4]
  have hp : heldAt m (t * 4 + c) = (m t c).isSome := by rw [heldAt, hd4, hm4]
  rw [hq, hp] at hcnt
  rw [add, hop, ok_bind, hidx, writeRow_nat _ _ _ hlen, ok_bind, pure_eq_ok]
  refine ⟨_, rfl, ⟨h.hinit, h.hts, h.hrows, h.hcols, h.hsize, h.hspacing, ?_, ?_⟩, ?_⟩
  · simp only [h.data, tableOf, tab_set]
    apply tab_congr
    intro j _
    by_cases hj : j = t * 4 + c
    · subst hj
      simp [Spec.step, rowFor, hd4, hm4]
    · have : ¬ (((j / 4 : Nat) : Int) = (t : Int) ∧ ((j % 4 : Nat) : Int) = (c : Int)) := by
        rw [index_eq_iff _ _ _ hc]; exact hj
      simp only [if_neg hj, Spec.step, if_neg this]
  · simp only [h.nb]
    by_cases hs : (m t c).isSome = true
    · simp only [hs, if_true] at hcnt ⊢; push_cast; omega
    · simp only [hs, if_true] at hcnt ⊢; simp at hcnt ⊢; omega
  · simp only [h.nb]; symm; simp; omega

theorem remove_rel {ts : Int} {rows cols : Nat} {size spacing : K} {m : CMap K} {extra : Nat}
    {g : Grid K} (h : Rel ts rows cols size spacing m extra g) {t c : Int}
    (hv : Valid rows cols t c) :
    ∃ g', remove g t c = .ok g' ∧
      Rel ts rows cols size spacing (Spec.step m (.remove t c)) extra g' := by
  obtain ⟨t, c, rfl, rfl, ht, hc, hidx, hlt, hd4, hm4⟩ := valid_index hv
  have hlen : t * 4 + c < g.data.length := by rw [h.data, tableOf]; simpa using hlt
  have hrow : g.data[t * 4 + c] = rowFor cols size spacing (t * 4 + c) (m t c) := by
    simp only [h.data, tableOf, tab_get, hd4, hm4]
  have hcnt := countP_update (rows * cols * 4) (t * 4 + c) hlt (heldAt m)
    (heldAt (Spec.step m (.remove (t : Int) (c : Int)))) (by
      intro j hj
      have : ¬ (((j / 4 : Nat) : Int) = (t : Int) ∧ ((j % 4 : Nat) : Int) = (c : Int)) := by
        rw [index_eq_iff _ _ _ hc]; exact hj
      simp only [heldAt, Spec.step, if_neg this])
  have hq : heldAt (Spec.step m (.remove (t : Int) (c : Int))) (t * 4 + c) = false := by
    simp [heldAt, Spec.step, hd4, hm4]
  have hp : heldAt m (t * 4 + c) = (m t c).isSome := by rw [heldAt, hd4, hm4]
  rw [hq, hp] at hcnt
  have hdata : ∀ j, (if j = t * 4 + c then (zeroRow : Row K) else
      rowFor cols size spacing j (m ((j / 4 : Nat) : Int) ((j % 4 : Nat) : Int))) =
      rowFor cols size spacing j
        (Spec.step m (.remove (t : Int) (c : Int)) ((j / 4 : Nat) : Int) ((j % 4 : Nat) : Int)) := by
    intro j
    by_cases hj : j = t * 4 + c
    · subst hj
      simp [Spec.step, rowFor, hd4, hm4]
    · have : ¬ (((j / 4 : Nat) : Int) = (t : Int) ∧ ((j % 4 : Nat) : Int) = (c : Int)) := by
        rw [index_eq_iff _ _ _ hc]; exact hj
      simp only [if_neg hj, Spec.step, if_neg this]
  rw [remove, hidx, readRow_nat _ _ hlen, ok_bind, hrow]
  cases hm : m t c with
  | none =>
    rw [hm] at hcnt
    simp only [rowFor, zeroRow, gt_iff_lt, lt_self_iff_false, if_false, pure_eq_ok]
    refine ⟨g, rfl, ⟨h.hinit, h.hts, h.hrows, h.hcols, h.hsize, h.hspacing, ?_, ?_⟩, h.det⟩
    · rw [h.data]
      simp only [tableOf]
      apply tab_congr
      intro j _
      rw [← hdata j]
      by_cases hj : j = t * 4 + c
      · subst hj; simp [hd4, hm4, hm, rowFor]
      · simp [hj]
    · rw [h.nb]; simp at hcnt; omega
  | some kp =>
    rw [hm] at hcnt
    simp only [Option.isSome_some, if_true] at hcnt
    simp only [rowFor, gt_iff_lt, zero_lt_one, if_true]
    rw [writeRow_nat _ _ _ hlen, ok_bind, pure_eq_ok]
    refine ⟨_, rfl, ⟨h.hinit, h.hts, h.hrows, h.hcols, h.hsize, h.hspacing, ?_, ?_⟩, ?_⟩
    · simp only [h.data, tableOf, tab_set]
      apply tab_congr
      intro j _; exact hdata j
    · simp only [h.nb]; simp at hcnt; omega
    · simp only
      by_cases hz : max (g.nbDetections - 1) 0 = 0
      · simp [hz]
      · simp only [hz, if_false]; symm; simp; omega

/-- The relation only sees the map on valid corners. -/
theorem Core.congr {ts : Int} {rows cols : Nat} {size spacing : K} {m m' : CMap K} {extra : Nat}
    {g : Grid K} (h : Core ts rows cols size spacing m extra g)
    (he : ∀ t c, Valid rows cols t c → m t c = m' t c) :
    Core ts rows cols size spacing m' extra g := by
  have hv : ∀ i < rows * cols * 4, m ((i / 4 : Nat) : Int) ((i % 4 : Nat) : Int) =
      m' ((i / 4 : Nat) : Int) ((i % 4 : Nat) : Int) := by
    intro i hi
    apply he
    refine ⟨by omega, ?_, by omega, by omega⟩
    have : i / 4 < rows * cols := by omega
    exact_mod_cast this
  refine ⟨h.hinit, h.hts, h.hrows, h.hcols, h.hsize, h.hspacing, ?_, ?_⟩
  · rw [h.data]; apply tab_congr
    intro i hi; rw [hv i hi]
  · rw [h.nb]
    congr 2
    apply List.countP_congr
    intro i hi; rw [heldAt, heldAt, hv i (List.mem_range.mp hi)]

theorem Rel.congr {ts : Int} {rows cols : Nat} {size spacing : K} {m m' : CMap K} {extra : Nat}
    {g : Grid K} (h : Rel ts rows cols size spacing m extra g)
    (he : ∀ t c, Valid rows cols t c → m t c = m' t c) :
    Rel ts rows cols size spacing m' extra g := ⟨h.toCore.congr he, h.det⟩

theorem removeTag_rel {ts : Int} {rows cols : Nat} {size spacing : K} {m : CMap K} {extra : Nat}
    {g : Grid K} (h : Rel ts rows cols size spacing m extra g) {t : Int}
    (hv : 0 ≤ t ∧ t < rows * cols) :
    ∃ g', removeTag g t = .ok g' ∧
      Rel ts rows cols size spacing (Spec.step m (.removeTag t)) extra g' := by
  obtain ⟨g0, e0, h0⟩ := remove_rel h (t := t) (c := 0) ⟨hv.1, hv.2, by omega, by omega⟩
  obtain ⟨g1, e1, h1⟩ := remove_rel h0 (t := t) (c := 1) ⟨hv.1, hv.2, by omega, by omega⟩
  obtain ⟨g2, e2, h2⟩ := remove_rel h1 (t := t) (c := 2) ⟨hv.1, hv.2, by omega, by omega⟩
  obtain ⟨g3, e3, h3⟩ := remove_rel h2 (t := t) (c := 3) ⟨hv.1, hv.2, by omega, by omega⟩
  refine ⟨g3, by rw [removeTag, e0, ok_bind, e1, ok_bind, e2, ok_bind, e3], h3.congr ?_⟩
  intro t' c' hv'
  obtain ⟨_, _, hc0, hc4⟩ := hv'
  simp only [Spec.step]
  by_cases ht : t' = t
  · have : c' = 0 ∨ c' = 1 ∨ c' = 2 ∨ c' = 3 := by omega
    rcases this with rfl | rfl | rfl | rfl <;> simp [ht]
  · simp [ht]

theorem clear_rel {ts : Int} {rows cols : Nat} {size spacing : K} {m : CMap K} {extra : Nat}
    {g : Grid K} (h : Rel ts rows cols size spacing m extra g) :
    Rel ts rows cols size spacing none_ 0 (clear g) := by
  refine ⟨⟨h.hinit, h.hts, h.hrows, h.hcols, h.hsize, h.hspacing, ?_, ?_⟩, ?_⟩
  · simp only [clear, h.data, tableOf, tab_map]
    rfl
  · simp [clear, countP_none]
  · simp [clear]

omit [Field K] in
theorem track_fst (ops : List (Op K)) : (ops.foldl trackStep (none_, 0)).1 = Spec.run ops := by
  induction ops using List.reverseRecOn with
  | nil => rfl
  | append_singleton l o ih => simp [ih, Spec.run, trackStep]

/-- The relation holds after every valid history. -/
theorem run_rel (ts : Int) (rows cols : Nat) (size spacing : K) (ops : List (Op K))
    (hv : ∀ op ∈ ops, OpValid rows cols op) :
    ∃ g, run (new ts rows cols size spacing) ops = .ok g ∧
      Rel ts rows cols size spacing (Spec.run ops) (Spec.overwrites ops) g := by
  induction ops using List.reverseRecOn with
  | nil => exact ⟨_, rfl, new_rel ts rows cols size spacing⟩
  | append_singleton ops op ih =>
    obtain ⟨g, hg, hr⟩ := ih (fun o ho => hv o (List.mem_append_left _ ho))
    have hop := hv op (by simp)
    have hrun : run (new ts rows cols size spacing) (ops ++ [op]) = step g op := by
      rw [run, foldlM_concat]
      have : List.foldlM step (new ts rows cols size spacing) ops = .ok g := hg
      rw [this, ok_bind]
    have hspec : Spec.run (ops ++ [op]) = Spec.step (Spec.run ops) op := by
      simp [Spec.run]
    have hpair : (ops.foldl trackStep (none_, 0)).1 = Spec.run ops := track_fst ops
    have hov : Spec.overwrites (ops ++ [op]) = (trackStep (Spec.run ops, Spec.overwrites ops) op).2 := by
      rw [Spec.overwrites, List.foldl_append, List.foldl_cons, List.foldl_nil, ← hpair]
      rfl
    rw [hrun, hspec, hov]
    cases op with
    | add t c kp => exact add_rel hr kp hop
    | remove t c => exact remove_rel hr hop
    | removeTag t => exact removeTag_rel hr hop
    | clear => exact ⟨_, rfl, clear_rel hr⟩

end
end Yac.AprilGrid
