import Verif.Shape.Props
import Mathlib.Data.List.Induction
import Mathlib.Tactic.Ring
import Mathlib.Tactic.Linarith

/-!
# C147: the life of a marginalisation residual
-/

namespace Yac.Shape
open Yac.Marg (PInfo margParams remainParams)

variable {P : Type} [DecidableEq P]

/-- A `marg_residual_t` after any number of `add`. -/
def fed (ls : List (List P)) : MargObj P := ls.foldl MargObj.add {}

theorem fed_from (ls : List (List P)) (o : MargObj P) :
    ls.foldl MargObj.add o = { o with added := o.added ++ ls } := by
  induction ls generalizing o with
  | nil => simp
  | cons l ls ih => rw [List.foldl_cons, ih]; simp [MargObj.add]

theorem fed_eq (ls : List (List P)) : fed ls = ({ added := ls } : MargObj P) := by
  unfold fed; rw [fed_from]; rfl

/-- The specification: a parameter remains if it occurs, is not to be marginalised, is not fixed, and is of one of the five types
that are kept. -/
def Remains (info : P → PInfo) (ls : List (List P)) (p : P) : Prop :=
  (∃ l ∈ ls, p ∈ l) ∧ (info p).marg = false ∧ (info p).base.fixed = false ∧ (info p).base.kind ≠ .other

/-- The degrees of freedom of a list of parameters. -/
def dof (info : P → PInfo) (l : List P) : Nat := (l.map fun p => (info p).base.size).sum

theorem mem_seen (ps : List P) (p : P) : p ∈ Marg.seenParams ps ↔ p ∈ ps := by
  have h : ∀ (ps acc : List P), p ∈ ps.foldl (fun l q => if q ∈ l then l else l ++ [q]) acc ↔ p ∈ acc ∨ p ∈ ps := by
    intro ps
    induction ps with
    | nil => intro acc; simp
    | cons q ps ih =>
      intro acc
      rw [List.foldl_cons, ih]
      by_cases hq : q ∈ acc
      · rw [if_pos hq, List.mem_cons]
        constructor
        · rintro (h | h) <;> simp [h]
        · rintro (h | rfl | h) <;> simp_all
      · rw [if_neg hq]; simp only [List.mem_append, List.mem_singleton, List.mem_cons]; tauto
  unfold Marg.seenParams
  rw [h]; simp

theorem mem_remain (info : P → PInfo) (ps : List P) (p : P) :
    p ∈ remainParams info ps ↔
      p ∈ ps ∧ (info p).marg = false ∧ (info p).base.fixed = false ∧ (info p).base.kind ≠ .other := by
  unfold remainParams Marg.remainKind
  simp only [List.mem_filter, List.mem_append, mem_seen, Bool.and_eq_true, Bool.not_eq_true', decide_eq_true_eq]
  cases (info p).base.kind <;> simp [and_assoc] <;> tauto

theorem nodup_seen (ps : List P) : (Marg.seenParams ps).Nodup := by
  have h : ∀ (ps acc : List P), acc.Nodup → (ps.foldl (fun l q => if q ∈ l then l else l ++ [q]) acc).Nodup := by
    intro ps
    induction ps with
    | nil => intro acc h; exact h
    | cons q ps ih =>
      intro acc h
      rw [List.foldl_cons]
      apply ih
      by_cases hq : q ∈ acc
      · rw [if_pos hq]; exact h
      · rw [if_neg hq]
        rw [List.nodup_append]
        refine ⟨h, by simp, ?_⟩
        intro a ha b hb
        rw [List.mem_singleton] at hb
        subst hb
        rintro rfl
        exact hq ha
  exact h ps [] List.nodup_nil

/-- **C147** After the first linearisation of a fresh residual, with any residuals added, its parameters are those that remain, each
once; it declares and reserves their sizes and its evaluation stays inside its buffers. -/
theorem C147_once (info : P → PInfo) (ls : List (List P)) :
    let o := (fed ls).form info
    (∀ p, p ∈ o.blocks ↔ Remains info ls p) ∧ o.remain = o.blocks ∧
    o.declared = o.blocks.map (fun p => (info p).gsize) ∧
    o.numRes = dof info o.blocks ∧ o.resLen = o.numRes ∧
    o.jacs = o.blocks.map (fun p => (o.numRes, (info p).gsize)) ∧
    o.minJacs = o.blocks.map (fun p => (o.numRes, (info p).base.size)) ∧
    o.hessSize = dof info o.margPs + dof info o.blocks ∧
    o.eval info = .ok () := by
  rw [fed_eq]
  refine ⟨fun p => ?_, ?_, rfl, ?_, rfl, ?_, ?_, ?_, ?_⟩
  · show p ∈ remainParams info ls.flatten ↔ _
    rw [mem_remain]
    simp [Remains, List.mem_flatten]
  · simp [MargObj.form]
  · simp [MargObj.form, dof]
  · simp [MargObj.form]
  · simp [MargObj.form]
  · simp [MargObj.form, MargObj.hessSize, dof]
  · unfold MargObj.eval
    have h1 : ∀ (f : P → Nat × Nat) (l : List P), (l.map f).take l.length = l.map f := by
      intro f l; rw [List.take_of_length_le]; simp
    simp only [MargObj.form, List.nil_append, List.length_map, lt_irrefl, or_self, if_false, h1, List.map_map, Nat.zero_add]
    have h2 : ∀ (n : Nat) (l : List P), within (l.map fun p => n * (info p).gsize)
        (l.map (area ∘ fun p => (n, (info p).gsize))) = true := fun n l => within_self _
    have h3 : ∀ (n : Nat) (l : List P), within (l.map fun p => n * (info p).base.size)
        (l.map (area ∘ fun p => (n, (info p).base.size))) = true := fun n l => within_self _
    rw [within_self, h2, h3]
    simp

/-- `form` called `k` times. -/
def formTimes (info : P → PInfo) (o : MargObj P) : Nat → MargObj P
  | 0 => o
  | k + 1 => (formTimes info o k).form info

omit [DecidableEq P] in
theorem dof_append (info : P → PInfo) (a b : List P) : dof info (a ++ b) = dof info a + dof info b := by
  simp [dof]

theorem formTimes_spec (info : P → PInfo) (ls : List (List P)) (k : Nat) :
    let o := formTimes info (fed ls) k
    let mp := margParams info ls.flatten
    let rp := remainParams info ls.flatten
    o.added = ls ∧ o.r = k * dof info rp ∧ 2 * o.m = k * (k + 1) * dof info mp ∧ dof info o.margPs = k * dof info mp ∧
    o.remain.length = k * rp.length ∧ o.jacs.length = k * rp.length := by
  induction k with
  | zero => simp [formTimes, fed_eq, dof]
  | succ k ih =>
    obtain ⟨h1, h2, h3, h4, h5, h6⟩ := ih
    refine ⟨h1, ?_, ?_, ?_, ?_, ?_⟩
    · show (formTimes info (fed ls) k).r + dof info (remainParams info (formTimes info (fed ls) k).added.flatten) = _
      rw [h1, h2]; ring
    · show 2 * ((formTimes info (fed ls) k).m +
        dof info ((formTimes info (fed ls) k).margPs ++ margParams info (formTimes info (fed ls) k).added.flatten)) = _
      rw [h1, dof_append, h4, Nat.mul_add, h3]; ring
    · show dof info ((formTimes info (fed ls) k).margPs ++ margParams info (formTimes info (fed ls) k).added.flatten) = _
      rw [h1, dof_append, h4]; ring
    · show ((formTimes info (fed ls) k).remain ++ remainParams info (formTimes info (fed ls) k).added.flatten).length = _
      rw [h1, List.length_append, h5]; ring
    · show ((formTimes info (fed ls) k).jacs ++ (remainParams info (formTimes info (fed ls) k).added.flatten).map _).length = _
      rw [h1, List.length_append, h6, List.length_map]; ring

/-- **C147** The full claim, that linearising again gives the sizes of the residuals added, fails: each further time the declared
number of residuals grows by that of the first, and the part to marginalise faster still. -/
theorem C147_again_refuted (info : P → PInfo) (ls : List (List P)) (k : Nat) :
    let o := formTimes info (fed ls) (k + 1)
    let o1 := (fed ls).form info
    o.numRes = (k + 1) * o1.numRes ∧ 2 * o.m = (k + 1) * (k + 2) * o1.m ∧ o.blocks = o1.blocks := by
  intro o o1
  have hk := formTimes_spec info ls (k + 1)
  have h1 := formTimes_spec info ls 1
  obtain ⟨hm, hr, hM, -, -, -⟩ := hk
  obtain ⟨-, hr1, hM1, -, -, -⟩ := h1
  refine ⟨?_, ?_, ?_⟩
  · show (formTimes info (fed ls) (k + 1)).r = (k + 1) * (formTimes info (fed ls) 1).r
    rw [hr, hr1]; ring
  · show 2 * (formTimes info (fed ls) (k + 1)).m = (k + 1) * (k + 2) * (formTimes info (fed ls) 1).m
    have : (formTimes info (fed ls) 1).m = dof info (margParams info ls.flatten) := by omega
    rw [hM, this]
  · show remainParams info (formTimes info (fed ls) k).added.flatten = remainParams info (fed ls).added.flatten
    rw [(formTimes_spec info ls k).1, fed_eq]

/-- An access list longer than the buffers is outside. -/
theorem within_length : ∀ {a b : List Nat}, within a b = true → a.length ≤ b.length
  | [], _, _ => by simp
  | _ :: _, [], h => by simp [within] at h
  | x :: a, y :: b, h => by
    simp only [within, Bool.and_eq_true] at h
    simpa using within_length h.2

/-- **C147** Nor does it evaluate inside its buffers any more, if any parameter remains. -/
theorem C147_eval_refuted (info : P → PInfo) (ls : List (List P)) (k : Nat) {p : P} (hp : Remains info ls p) :
    (formTimes info (fed ls) (k + 2)).eval info = .error .oob := by
  obtain ⟨h1, -, -, -, h5, h6⟩ := formTimes_spec info ls (k + 2)
  have hb : (formTimes info (fed ls) (k + 2)).blocks = remainParams info ls.flatten := by
    show remainParams info (formTimes info (fed ls) (k + 1)).added.flatten = _
    rw [(formTimes_spec info ls (k + 1)).1]
  have hpos : 0 < (remainParams info ls.flatten).length := by
    apply List.length_pos_of_mem (a := p)
    rw [mem_remain]
    simpa [Remains, List.mem_flatten] using hp
  unfold MargObj.eval
  split
  · rfl
  · rw [if_neg]
    intro h
    simp only [Bool.and_eq_true] at h
    have := within_length h.1.1.1
    rw [List.length_map, List.length_map, hb, h5] at this
    nlinarith

/-- **C147** A parameter added by hand after the linearisation has no Jacobian buffer. -/
theorem C147_add_remain_refuted (info : P → PInfo) (ls : List (List P)) (p : P) :
    (((fed ls).form info).addRemain info p).eval info = .error .oob := by
  unfold MargObj.eval
  rw [if_pos]
  left
  rw [fed_eq]
  simp [MargObj.addRemain, MargObj.form]

/-- The column index of the first linearisation: marginalised parameters first, then the remaining ones, one after the other. -/
theorem place_spec (info : P → PInfo) : ∀ (l : List P) (s : List (P × Nat) × Nat), l.Nodup → (∀ p ∈ l, p ∉ s.1.map Prod.fst) →
    l.foldl (place info) s =
      (s.1 ++ (List.range l.length).filterMap (fun i => l[i]?.map fun p => (p, s.2 + dof info (l.take i))), s.2 + dof info l) := by
  intro l
  induction l using List.reverseRecOn with
  | nil => intro s _ _; simp [dof]
  | append_singleton l p ih =>
    intro s hn hs
    rw [List.foldl_append, ih s (List.nodup_append.mp hn).1 (fun q hq => hs q (by simp [hq]))]
    have hp : p ∉ l := fun h => (List.nodup_append.mp hn).2.2 p h p (by simp) rfl
    have hnot : p ∉ (s.1 ++ (List.range l.length).filterMap
        (fun i => l[i]?.map fun q => (q, s.2 + dof info (l.take i)))).map Prod.fst := by
      intro h
      rw [List.map_append, List.mem_append] at h
      rcases h with h | h
      · exact hs p (by simp) h
      · simp only [List.mem_map, List.mem_filterMap, List.mem_range, Option.map_eq_some_iff] at h
        obtain ⟨x, ⟨i, -, q, hq, rfl⟩, hx⟩ := h
        subst hx
        exact hp (List.mem_of_getElem? hq)
    rw [List.foldl_cons, List.foldl_nil]
    unfold place
    rw [if_neg hnot]
    simp only [List.length_append, List.length_singleton, List.range_succ, List.filterMap_append, dof_append]
    refine Prod.ext ?_ ?_
    · simp only
      rw [List.append_assoc]
      congr 1
      congr 1
      · apply List.filterMap_congr
        intro i hi
        rw [List.mem_range] at hi
        rw [List.getElem?_append_left hi, List.take_append_of_le_length (by omega)]
      · simp [dof]
    · simp [dof]; ring

theorem nodup_order (info : P → PInfo) (ps : List P) : (margParams info ps ++ remainParams info ps).Nodup := by
  have hk : ∀ k, (Marg.remainKind info ps k).Nodup := fun k => (nodup_seen ps).filter _
  have hm : ∀ k p, p ∈ Marg.remainKind info ps k → (info p).base.kind = k := by
    intro k p h
    simp only [Marg.remainKind, List.mem_filter, Bool.and_eq_true, decide_eq_true_eq] at h
    exact h.2.2
  have hr : (remainParams info ps).Nodup := by
    unfold remainParams
    apply List.Nodup.filter
    simp only [List.nodup_append, hk, true_and, List.mem_append]
    refine ⟨⟨⟨?_, ?_⟩, ?_⟩, ?_⟩
    · rintro a ha b hb rfl; have := hm _ _ ha; rw [hm _ _ hb] at this; cases this
    · rintro a (ha | ha) b hb rfl <;> (have := hm _ _ ha; rw [hm _ _ hb] at this; cases this)
    · rintro a ((ha | ha) | ha) b hb rfl <;> (have := hm _ _ ha; rw [hm _ _ hb] at this; cases this)
    · rintro a (((ha | ha) | ha) | ha) b hb rfl <;> (have := hm _ _ ha; rw [hm _ _ hb] at this; cases this)
  rw [List.nodup_append]
  refine ⟨(nodup_seen ps).filter _, hr, ?_⟩
  rintro a ha b hb rfl
  rw [mem_remain] at hb
  simp only [margParams, List.mem_filter] at ha
  rw [ha.2] at hb
  exact absurd hb.2.1 (by decide)

/-- **C147** After the first linearisation the columns of the parameters lie one behind the other, those to marginalise first, then
those that remain, and fill the matrix. -/
theorem C147_index (info : P → PInfo) (ls : List (List P)) :
    let o := (fed ls).form info
    (∀ p, p ∈ o.margPs ↔ (∃ l ∈ ls, p ∈ l) ∧ (info p).marg = true) ∧ (o.margPs ++ o.blocks).Nodup ∧
    (∀ p c, (p, c) ∈ o.index ↔ ∃ a b, o.margPs ++ o.blocks = a ++ p :: b ∧ c = dof info a) ∧
    o.hessSize = dof info (o.margPs ++ o.blocks) := by
  rw [fed_eq]
  have hn := nodup_order info ls.flatten
  refine ⟨fun p => ?_, ?_, fun p c => ?_, ?_⟩
  · simp [MargObj.form, margParams, mem_seen, List.mem_flatten]
  · simpa [MargObj.form] using hn
  · have hidx : (MargObj.form info { added := ls }).index =
        ((margParams info ls.flatten ++ remainParams info ls.flatten).foldl (place info) ([], 0)).1 := by
      simp [MargObj.form]
    have hblk : (MargObj.form info { added := ls }).margPs ++ (MargObj.form info { added := ls }).blocks =
        margParams info ls.flatten ++ remainParams info ls.flatten := by simp [MargObj.form]
    rw [hidx, hblk, place_spec info _ _ hn (by simp)]
    generalize margParams info ls.flatten ++ remainParams info ls.flatten = l
    simp only [List.nil_append, Nat.zero_add, List.mem_filterMap, List.mem_range, Option.map_eq_some_iff, Prod.mk.injEq]
    constructor
    · rintro ⟨i, hi, q, hq, rfl, rfl⟩
      refine ⟨l.take i, l.drop (i + 1), ?_, rfl⟩
      have hq' : l[i] = q := by rw [List.getElem?_eq_getElem hi] at hq; exact Option.some.inj hq
      rw [← hq', List.getElem_cons_drop, List.take_append_drop]
    · rintro ⟨a, b, rfl, rfl⟩
      exact ⟨a.length, by simp, p, by simp, rfl, by simp⟩
  · simp [MargObj.form, MargObj.hessSize, dof]

/-- Parameters of the example: the pose 0 is to be marginalised; the extrinsics 1 are fixed; the camera 2, the pose 3 and the
extrinsics 4 remain; 5 is a fiducial corner. -/
def exInfo : Nat → PInfo
  | 0 => ⟨⟨false, .pose, 6⟩, true, 7⟩
  | 1 => ⟨⟨true, .extrinsics, 6⟩, false, 7⟩
  | 2 => ⟨⟨false, .camera, 8⟩, false, 8⟩
  | 3 => ⟨⟨false, .pose, 6⟩, false, 7⟩
  | 4 => ⟨⟨false, .extrinsics, 6⟩, false, 7⟩
  | _ => ⟨⟨false, .other, 3⟩, false, 3⟩

/-- C147 witness: `C147_once`, `C147_index`: three residuals. -/
example : let o := (fed [[1, 0, 2], [4, 0, 2], [4, 3, 2, 5]]).form exInfo
    o.blocks = [3, 4, 2] ∧ o.margPs = [0] ∧ o.numRes = 20 ∧ o.m = 6 ∧ o.index = [(0, 0), (3, 6), (4, 12), (2, 18)] ∧
    o.jacs = [(20, 7), (20, 7), (20, 8)] ∧ o.minJacs = [(20, 6), (20, 6), (20, 8)] ∧ o.declared = [7, 7, 8] ∧
    o.eval exInfo = .ok () := by decide +kernel

/-- C147 witness: `C147_again_refuted`, `C147_eval_refuted`: linearised a second time. -/
example : let o := formTimes exInfo (fed [[1, 0, 2], [4, 0, 2]]) 2
    Remains exInfo [[1, 0, 2], [4, 0, 2]] 2 ∧ o.numRes = 28 ∧ o.m = 18 ∧ o.blocks = [4, 2] ∧
    o.jacs = [(14, 7), (14, 8), (28, 7), (28, 8)] ∧ o.eval exInfo = .error .oob :=
  ⟨⟨⟨[1, 0, 2], by simp, by simp⟩, rfl, rfl, by decide⟩, by decide +kernel, by decide +kernel, by decide +kernel,
    by decide +kernel, by decide +kernel⟩

end Yac.Shape
