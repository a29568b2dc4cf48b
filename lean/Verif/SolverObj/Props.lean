import Verif.SolverObj.Model
import Verif.Solver.BookSpec
import Mathlib.Tactic.NormNum

/-!
C153: copying a solver.
-/

namespace Yac.SolverObj
open Yac.Solver

variable {P R : Type} [DecidableEq P] [DecidableEq R]

theorem bindOk {α β : Type} {x : Except Fault α} {f : α → Except Fault β} {b : β} (h : x >>= f = .ok b) :
    ∃ a, x = .ok a ∧ f a = .ok b := by
  cases x with
  | error e => exact absurd h (by intro h; cases h)
  | ok a => exact ⟨a, rfl, h⟩

theorem ok_bind {α β : Type} (a : α) (f : α → Except Fault β) : ((Except.ok a : Except Fault α) >>= f) = f a := rfl

/-- The factorisations are those of the owners `A` and `f`; `f` is not among the former. -/
structure Loc (A : Nat → Prop) (m : Heap) (f : Option Nat) : Prop where
  live : ∀ x, x ∈ m.live ↔ A x ∨ f = some x
  apart : ∀ x, f = some x → ¬ A x
  old : ∀ x ∈ m.live, x < m.next

theorem tclear_loc {A : Nat → Prop} {m : Heap} {f : Option Nat} (h : Loc A m f) :
    ∃ m', tclear m f = .ok (m', none) ∧ Loc A m' none := by
  cases f with
  | none => exact ⟨m, rfl, h⟩
  | some x =>
    have hx : x ∈ m.live := (h.live x).2 (.inr rfl)
    refine ⟨{ m with live := m.live.erase x }, ?_, ?_, ?_, ?_⟩
    · show ((if x ∈ m.live then _ else _) >>= _) = _
      rw [if_pos hx]
      rfl
    · intro y
      rw [Finset.mem_erase, h.live y]
      constructor
      · rintro ⟨hne, hA | hf⟩
        · exact .inl hA
        · exact absurd (Option.some.inj hf).symm hne
      · rintro (hA | hf)
        · refine ⟨?_, .inl hA⟩
          rintro rfl
          exact h.apart _ rfl hA
        · cases hf
    · intro y hy
      cases hy
    · intro y hy
      exact h.old y (Finset.mem_of_mem_erase hy)

theorem talloc_loc {A : Nat → Prop} {m : Heap} (h : Loc A m none) : Loc A (talloc m).1 (talloc m).2 := by
  have hn : ¬ A m.next := fun hA => lt_irrefl _ (h.old _ ((h.live _).2 (.inl hA)))
  refine ⟨?_, ?_, ?_⟩
  · intro y
    show y ∈ insert m.next m.live ↔ A y ∨ some m.next = some y
    rw [Finset.mem_insert, h.live y]
    constructor
    · rintro (rfl | hA | hf)
      · exact .inr rfl
      · exact .inl hA
      · cases hf
    · rintro (hA | hf)
      · exact .inr (.inl hA)
      · exact .inl (Option.some.inj hf).symm
  · intro y hy
    have : m.next = y := Option.some.inj hy
    rw [← this]
    exact hn
  · intro y hy
    have hy : y ∈ insert m.next m.live := hy
    rw [Finset.mem_insert] at hy
    show y < m.next + 1
    rcases hy with rfl | hy
    · omega
    · have := h.old y hy
      omega

theorem ttouch_loc {A : Nat → Prop} {m : Heap} {f : Option Nat} (h : Loc A m f) : ttouch m f = .ok (m, f) := by
  cases f with
  | none => rfl
  | some x => exact if_pos ((h.live x).2 (.inr rfl))

theorem tsolve_loc {A : Nat → Prop} {m : Heap} {f : Option Nat} (h : Loc A m f) (j : Nat) (same : Bool) :
    ∃ m' f', tsolve m f j same = .ok (m', f') ∧ Loc A m' f' := by
  by_cases hj : 0 < j
  · unfold tsolve
    rw [if_pos hj, ttouch_loc h]
    cases same with
    | true =>
      cases f with
      | none => exact ⟨_, _, ttouch_loc (talloc_loc h), talloc_loc h⟩
      | some x => exact ⟨_, _, ttouch_loc h, h⟩
    | false =>
      obtain ⟨m', he, h'⟩ := tclear_loc h
      refine ⟨(talloc m').1, (talloc m').2, ?_, talloc_loc h'⟩
      show (tclear m f >>= _) = _
      rw [he]
      exact ttouch_loc (talloc_loc h')
  · refine ⟨m, f, ?_, h⟩
    unfold tsolve
    rw [if_neg hj]
    exact ttouch_loc h

theorem tanalyse_loc {A : Nat → Prop} {m : Heap} {f : Option Nat} (h : Loc A m f) (j : Nat) :
    ∃ m' f', tanalyse m f j = .ok (m', f') ∧ Loc A m' f' := by
  by_cases hj : 0 < j
  · obtain ⟨m', he, h'⟩ := tclear_loc h
    refine ⟨(talloc m').1, (talloc m').2, ?_, talloc_loc h'⟩
    unfold tanalyse
    rw [if_pos hj, he]
    exact ttouch_loc (talloc_loc h')
  · refine ⟨m, f, ?_, h⟩
    unfold tanalyse
    rw [if_neg hj]
    exact ttouch_loc h

theorem tsolves_loc {A : Nat → Prop} : ∀ (calls : List (Nat × Bool)) {m : Heap} {f : Option Nat}, Loc A m f →
    ∃ m' f', tsolves m f calls = .ok (m', f') ∧ Loc A m' f'
  | [], m, f, h => ⟨m, f, rfl, h⟩
  | c :: cs, m, f, h => by
    obtain ⟨m1, f1, he, h1⟩ := tsolve_loc h c.1 c.2
    obtain ⟨m2, f2, he2, h2⟩ := tsolves_loc cs h1
    refine ⟨m2, f2, ?_, h2⟩
    unfold tsolves
    rw [he]
    exact he2

/-- Every allocated factorisation belongs to exactly one existing solver. -/
structure Owned (w : World P R) : Prop where
  live : ∀ x, x ∈ w.heap.live ↔ ∃ h o, w.objs h = some o ∧ o.factor = some x
  one : ∀ h h' o o' x, w.objs h = some o → w.objs h' = some o' → o.factor = some x → o'.factor = some x → h = h'
  old : ∀ x ∈ w.heap.live, x < w.heap.next
  named : ∀ h o, w.objs h = some o → h < w.count

theorem Owned.start : Owned (World.start : World P R) := by
  refine ⟨fun x => ⟨fun h => ?_, ?_⟩, ?_, ?_, ?_⟩
  · cases h
  · rintro ⟨_, _, h, _⟩
    cases h
  · intro _ _ _ _ _ h
    cases h
  · intro x h
    cases h
  · intro _ _ h
    cases h

/-- The factorisations of the other solvers. -/
def others (w : World P R) (h x : Nat) : Prop := ∃ h' o, h' ≠ h ∧ w.objs h' = some o ∧ o.factor = some x

theorem Owned.loc {w : World P R} (hw : Owned w) {h : Nat} {o : Obj P R} (ho : w.objs h = some o) :
    Loc (others w h) w.heap o.factor := by
  refine ⟨?_, ?_, hw.old⟩
  · intro x
    rw [hw.live x]
    constructor
    · rintro ⟨h', o', ho', hf⟩
      by_cases e : h' = h
      · subst e
        rw [ho] at ho'
        cases ho'
        exact .inr hf
      · exact .inl ⟨h', o', e, ho', hf⟩
    · rintro (⟨h', o', _, ho', hf⟩ | hf)
      · exact ⟨h', o', ho', hf⟩
      · exact ⟨h, o, ho, hf⟩
  · rintro x hx ⟨h', o', hne, ho', hf⟩
    exact hne (hw.one _ _ _ _ _ ho' ho hf hx)

theorem Owned.put {w : World P R} (hw : Owned w) {h : Nat} {o : Obj P R} (ho : w.objs h = some o) {m : Heap}
    {f : Option Nat} (hl : Loc (others w h) m f) (o' : Option (Obj P R)) (hf : o'.bind Obj.factor = f) :
    Owned (w.put h o' m) := by
  have key : ∀ k p x, (w.put h o' m).objs k = some p → p.factor = some x →
      (k = h ∧ f = some x) ∨ (k ≠ h ∧ w.objs k = some p) := by
    intro k p x hk hx
    by_cases e : k = h
    · refine .inl ⟨e, ?_⟩
      have h1 : o' = some p := by
        have h2 : (if k = h then o' else w.objs k) = some p := hk
        rwa [if_pos e] at h2
      rw [← hf, h1]
      exact hx
    · refine .inr ⟨e, ?_⟩
      have h2 : (if k = h then o' else w.objs k) = some p := hk
      rwa [if_neg e] at h2
  refine ⟨?_, ?_, hl.old, ?_⟩
  · intro x
    refine (hl.live x).trans ?_
    constructor
    · rintro (⟨k, p, hne, hk, hx⟩ | hx)
      · exact ⟨k, p, (if_neg hne).trans hk, hx⟩
      · rw [← hf] at hx
        cases o' with
        | none => cases hx
        | some p => exact ⟨h, p, if_pos rfl, hx⟩
    · rintro ⟨k, p, hk, hx⟩
      rcases key k p x hk hx with ⟨_, hx⟩ | ⟨hne, hk⟩
      · exact .inr hx
      · exact .inl ⟨k, p, hne, hk, hx⟩
  · intro k k' p p' x hk hk' hx hx'
    rcases key k p x hk hx with ⟨e, e1⟩ | ⟨hne, e1⟩ <;> rcases key k' p' x hk' hx' with ⟨e', e2⟩ | ⟨hne', e2⟩
    · rw [e, e']
    · exact absurd ⟨k', p', hne', e2, hx'⟩ (hl.apart x e1)
    · exact absurd ⟨k, p, hne, e1, hx⟩ (hl.apart x e2)
    · exact hw.one _ _ _ _ _ e1 e2 hx hx'
  · intro k p hk
    have h2 : (if k = h then o' else w.objs k) = some p := hk
    by_cases e : k = h
    · rw [e]
      exact hw.named h o ho
    · rw [if_neg e] at h2
      exact hw.named k p h2

theorem Owned.push {w : World P R} (hw : Owned w) {o : Obj P R} (hf : o.factor = none) : Owned (w.push o) := by
  have key : ∀ k p x, (w.push o).objs k = some p → p.factor = some x → w.objs k = some p := by
    intro k p x hk hx
    have h2 : (if k = w.count then some o else w.objs k) = some p := hk
    by_cases e : k = w.count
    · rw [if_pos e] at h2
      cases h2
      rw [hf] at hx
      cases hx
    · rwa [if_neg e] at h2
  refine ⟨?_, ?_, hw.old, ?_⟩
  · intro x
    refine (hw.live x).trans ⟨?_, ?_⟩
    · rintro ⟨k, p, hk, hx⟩
      have := hw.named k p hk
      exact ⟨k, p, (if_neg (by omega)).trans hk, hx⟩
    · rintro ⟨k, p, hk, hx⟩
      exact ⟨k, p, key k p x hk hx, hx⟩
  · intro k k' p p' x hk hk' hx hx'
    exact hw.one _ _ _ _ _ (key _ _ _ hk hx) (key _ _ _ hk' hx') hx hx'
  · intro k p hk
    have h2 : (if k = w.count then some o else w.objs k) = some p := hk
    show k < w.count + 1
    by_cases e : k = w.count
    · omega
    · rw [if_neg e] at h2
      have := hw.named k p h2
      omega

/-- The solver an action is done to. -/
def target : Act P R → Option Nat
  | .new => none
  | .copy h => some h
  | .copyMembers h => some h
  | .book h _ => some h
  | .setLambda h _ => some h
  | .setAlgorithm h _ => some h
  | .solve h _ => some h
  | .logDet h _ => some h
  | .destroy h => some h

/-- Copies are only made from a pointer. -/
def ByPointer (a : Act P R) : Prop := ∀ h, a ≠ .copyMembers h

theorem get_some {w : World P R} {h : Nat} {o : Obj P R} (e : w.objs h = some o) : w.get h = .ok o := by
  unfold World.get
  rw [e]

theorem get_inv {w : World P R} {h : Nat} {o : Obj P R} (e : w.get h = .ok o) : w.objs h = some o := by
  unfold World.get at e
  cases h1 : w.objs h with
  | none => rw [h1] at e; cases e
  | some p => rw [h1] at e; cases e; rfl

/-- An action on an existing solver is carried out, unless the bookkeeping refuses. -/
theorem act_owned {blocks : R → List P} {w : World P R} (hw : Owned w) (a : Act P R) (hp : ByPointer a)
    (hex : ∀ h, target a = some h → ∃ o, w.objs h = some o)
    (hbk : ∀ h o op, a = .book h op → w.objs h = some o → ∃ b, Book.step blocks o.book op = .ok b) :
    ∃ w', act blocks w a = .ok w' ∧ Owned w' := by
  cases a with
  | new => exact ⟨_, rfl, hw.push rfl⟩
  | copy h =>
    obtain ⟨o, ho⟩ := hex h rfl
    refine ⟨w.push o.copyOf, ?_, hw.push rfl⟩
    show (w.get h >>= _) = _
    rw [get_some ho]
    rfl
  | copyMembers h => exact absurd rfl (hp h)
  | book h op =>
    obtain ⟨o, ho⟩ := hex h rfl
    obtain ⟨b, hb⟩ := hbk h o op rfl ho
    cases op with
    | clear =>
      obtain ⟨m, he, hl⟩ := tclear_loc (hw.loc ho)
      refine ⟨w.put h (some { o with book := o.book.clear, margIdx := 0, factor := none }) m, ?_, hw.put ho hl _ rfl⟩
      show (w.get h >>= _) = _
      rw [get_some ho]
      show (tclear w.heap o.factor >>= _) = _
      rw [he]
      rfl
    | _ =>
      refine ⟨w.put h (some { o with book := b }) w.heap, ?_, hw.put ho (hw.loc ho) _ rfl⟩
      show (w.get h >>= _) = _
      rw [get_some ho]
      rw [ok_bind, hb]
      rfl
  | setLambda h l =>
    obtain ⟨o, ho⟩ := hex h rfl
    refine ⟨w.put h (some { o with lambda := l }) w.heap, ?_, hw.put ho (hw.loc ho) _ rfl⟩
    show (w.get h >>= _) = _
    rw [get_some ho]
    rfl
  | setAlgorithm h s =>
    obtain ⟨o, ho⟩ := hex h rfl
    refine ⟨w.put h (some { o with algorithm := s }) w.heap, ?_, hw.put ho (hw.loc ho) _ rfl⟩
    show (w.get h >>= _) = _
    rw [get_some ho]
    rfl
  | solve h calls =>
    obtain ⟨o, ho⟩ := hex h rfl
    obtain ⟨m, he, hl⟩ := tclear_loc (hw.loc ho)
    obtain ⟨m', f', he', hl'⟩ := tsolves_loc calls hl
    refine ⟨w.put h (some { o with factor := f', margIdx := lastIdx o.margIdx calls }) m', ?_, hw.put ho hl' _ rfl⟩
    show (w.get h >>= _) = _
    rw [get_some ho]
    show (tclear w.heap o.factor >>= _) = _
    rw [he]
    show (tsolves m none calls >>= _) = _
    rw [he']
    rfl
  | logDet h j =>
    obtain ⟨o, ho⟩ := hex h rfl
    obtain ⟨m', f', he', hl'⟩ := tanalyse_loc (hw.loc ho) j
    refine ⟨w.put h (some { o with factor := f', margIdx := j }) m', ?_, hw.put ho hl' _ rfl⟩
    show (w.get h >>= _) = _
    rw [get_some ho]
    show (tanalyse w.heap o.factor j >>= _) = _
    rw [he']
    rfl
  | destroy h =>
    obtain ⟨o, ho⟩ := hex h rfl
    obtain ⟨m, he, hl⟩ := tclear_loc (hw.loc ho)
    refine ⟨w.put h none m, ?_, hw.put ho hl none rfl⟩
    show (w.get h >>= _) = _
    rw [get_some ho]
    show (tclear w.heap o.factor >>= _) = _
    rw [he]
    rfl

/-- A program that only touches solvers that exist, and whose bookkeeping calls are accepted:
described without the heap. -/
def Sound (blocks : R → List P) : World P R → List (Act P R) → Prop
  | _, [] => True
  | w, a :: as => (∀ h, target a = some h → ∃ o, w.objs h = some o) ∧
      (∀ h o op, a = .book h op → w.objs h = some o → ∃ b, Book.step blocks o.book op = .ok b) ∧
      ∀ w', act blocks w a = .ok w' → Sound blocks w' as

theorem run_owned (blocks : R → List P) : ∀ (as : List (Act P R)) (w : World P R), Owned w →
    (∀ a ∈ as, ByPointer a) → Sound blocks w as → ∃ w', run blocks w as = .ok w' ∧ Owned w'
  | [], w, hw, _, _ => ⟨w, rfl, hw⟩
  | a :: as, w, hw, hp, hs => by
    obtain ⟨w1, e1, h1⟩ := act_owned hw a (hp a (.head _)) hs.1 hs.2.1
    obtain ⟨w2, e2, h2⟩ := run_owned blocks as w1 h1 (fun b hb => hp b (.tail _ hb)) (hs.2.2 w1 e1)
    refine ⟨w2, ?_, h2⟩
    unfold run
    rw [e1]
    exact e2

/-- C153: a program that copies solvers only from a pointer never uses or frees a factorisation
that was freed, and once its solvers are destroyed none is left over. -/
theorem C153_safe_partial (blocks : R → List P) (as : List (Act P R)) (hp : ∀ a ∈ as, ByPointer a)
    (hs : Sound blocks World.start as) :
    ∃ w, run blocks World.start as = .ok w ∧ ((∀ h, w.objs h = none) → w.heap.live = ∅) := by
  obtain ⟨w, e, hw⟩ := run_owned blocks as World.start Owned.start hp hs
  refine ⟨w, e, fun hn => ?_⟩
  ext x
  constructor
  · intro hx
    obtain ⟨h, o, ho, _⟩ := (hw.live x).1 hx
    rw [hn h] at ho
    cases ho
  · intro hx
    cases hx

/-- C153: the code does not forbid the other copy, which the compiler provides: copying a solver
that has solved, then destroying both, frees its factorisation twice. -/
theorem C153_members_refuted :
    run (fun _ : Nat => ([] : List Nat)) World.start
      [.new, .solve 0 [(6, true)], .copyMembers 0, .destroy 1, .destroy 0] = .error .oob := by
  rfl

/-- C153: … and even solving with the copy alone leaves the original with a freed factorisation. -/
theorem C153_members_solve_refuted :
    run (fun _ : Nat => ([] : List Nat)) World.start
      [.new, .solve 0 [(6, true)], .copyMembers 0, .solve 1 [(6, true)], .logDet 0 6] = .error .oob := by
  rfl

/-- C153: … and destroying the copy leaves the original with a freed factorisation, which it goes on using. -/
theorem C153_members_use_refuted :
    run (fun _ : Nat => ([] : List Nat)) World.start
      [.new, .solve 0 [(6, true)], .copyMembers 0, .destroy 1, .logDet 0 0] = .error .oob := by
  rfl

/-- C153: a new solver has an empty problem, Levenberg-Marquardt with the default damping, and nothing cached. -/
theorem C153_new (blocks : R → List P) (w : World P R) :
    ∃ w' o, act blocks w .new = .ok w' ∧ w'.objs w.count = some o ∧ o.book.numParams = 0 ∧ o.book.numResiduals = 0 ∧
      (∀ p, o.book.hasParam p = false) ∧ o.algorithm = "LEVENBERG-MARQUARDT" ∧ o.lambda = 1 / 10000 ∧ o.margIdx = 0 ∧
      o.factor = none ∧ w'.heap = w.heap :=
  ⟨_, Obj.fresh, rfl, if_pos rfl, rfl, rfl, fun _ => rfl, rfl, rfl, rfl, rfl, rfl⟩

theorem act_other {blocks : R → List P} {w w' : World P R} {a : Act P R} (e : act blocks w a = .ok w')
    (h : Nat) (hh : h < w.count) (hne : target a ≠ some h ∨ (∃ k, a = .copy k)) :
    w'.objs h = w.objs h ∧ w.count ≤ w'.count := by
  have hpush : ∀ o, (w.push o).objs h = w.objs h ∧ w.count ≤ (w.push o).count :=
    fun o => ⟨if_neg (by omega), Nat.le_succ _⟩
  have hput : ∀ k o m, k ≠ h → (w.put k o m).objs h = w.objs h ∧ w.count ≤ (w.put k o m).count :=
    fun k o m hk => ⟨if_neg (fun e => hk e.symm), le_refl _⟩
  have hk : ∀ k, target a = some k → (∀ j, a ≠ .copy j) → k ≠ h := by
    rintro k hk hc rfl
    rcases hne with hne | ⟨j, hj⟩
    · exact hne hk
    · exact hc j hj
  cases a with
  | new => cases e; exact hpush _
  | copy k => obtain ⟨o, _, e⟩ := bindOk e; cases e; exact hpush _
  | copyMembers k => obtain ⟨o, _, e⟩ := bindOk e; cases e; exact hpush _
  | book k op =>
    have h0 := hk k rfl (by intro j h; cases h)
    cases op with
    | clear =>
      obtain ⟨o, _, e⟩ := bindOk e
      obtain ⟨b, _, e⟩ := bindOk e
      cases e
      exact hput _ _ _ h0
    | _ =>
      obtain ⟨o, _, e⟩ := bindOk e
      obtain ⟨b, _, e⟩ := bindOk e
      cases e
      exact hput _ _ _ h0
  | setLambda k l => obtain ⟨o, _, e⟩ := bindOk e; cases e; exact hput _ _ _ (hk k rfl (by intro j h; cases h))
  | setAlgorithm k l => obtain ⟨o, _, e⟩ := bindOk e; cases e; exact hput _ _ _ (hk k rfl (by intro j h; cases h))
  | solve k calls =>
    obtain ⟨o, _, e⟩ := bindOk e
    obtain ⟨b, _, e⟩ := bindOk e
    obtain ⟨c, _, e⟩ := bindOk e
    cases e
    exact hput _ _ _ (hk k rfl (by intro j h; cases h))
  | logDet k j =>
    obtain ⟨o, _, e⟩ := bindOk e
    obtain ⟨b, _, e⟩ := bindOk e
    cases e
    exact hput _ _ _ (hk k rfl (by intro j h; cases h))
  | destroy k =>
    obtain ⟨o, _, e⟩ := bindOk e
    obtain ⟨b, _, e⟩ := bindOk e
    cases e
    exact hput _ _ _ (hk k rfl (by intro j h; cases h))

/-- C153: a copy and its original are separate problems: whatever is done to other solvers
(copying this one included) leaves a solver as it is. -/
theorem C153_separate (blocks : R → List P) : ∀ (as : List (Act P R)) (w w' : World P R) (h : Nat), h < w.count →
    (∀ a ∈ as, target a ≠ some h ∨ ∃ k, a = .copy k) → run blocks w as = .ok w' → w'.objs h = w.objs h
  | [], w, w', h, _, _, e => by cases e; rfl
  | a :: as, w, w', h, hh, hn, e => by
    obtain ⟨w1, e1, e2⟩ := bindOk e
    obtain ⟨h1, h2⟩ := act_other e1 h hh (hn a (.head _))
    rw [C153_separate blocks as w1 w' h (by omega) (fun b hb => hn b (.tail _ hb)) e2, h1]

/-- C153: the copy answers every question about the problem as the original does, and gives the
same result when it solves, from the same parameter values, if the original still has the damping
a solver starts with or uses Gauss-Newton. -/
theorem C153_same (blocks : R → List P) (w w' : World P R) (h : Nat) (o : Obj P R) (ho : w.objs h = some o)
    (e : act blocks w (.copy h) = .ok w') :
    ∃ c, w'.objs w.count = some c ∧ c.algorithm = o.algorithm ∧ c.margIdx = o.margIdx ∧ c.book.numResiduals = o.book.numResiduals ∧
      c.book.numParams = o.book.numParams ∧ (∀ p, c.book.hasParam p = o.book.hasParam p) ∧
      (∀ ops : List (Op P R), ops.foldlM (Book.step blocks) c.book = ops.foldlM (Book.step blocks) o.book) ∧
      ∀ (V : Type) (env : Prob ℚ P V) (maxIter : Nat) (σ : Vals P V),
        o.lambda = 1 / 10000 ∨ o.algorithm = "GAUSS-NEWTON" →
        c.optimise env blocks maxIter σ = o.optimise env blocks maxIter σ := by
  obtain ⟨o', h1, e⟩ := bindOk e
  have : some o = some o' := ho.symm.trans (get_inv h1)
  cases this
  cases e
  refine ⟨o.copyOf, if_pos rfl, rfl, rfl, rfl, rfl, fun _ => rfl, fun _ => rfl, fun V env maxIter σ hd => ?_⟩
  rcases hd with hd | hd
  · show Solver.solve _ o.algorithm (1 / 10000) maxIter σ = Solver.solve _ o.algorithm o.lambda maxIter σ
    rw [hd]
    rfl
  · show Solver.solve _ o.algorithm (1 / 10000) maxIter σ = Solver.solve _ o.algorithm o.lambda maxIter σ
    rw [hd]
    rfl

/-- C153: a copied solver solves as the original does, whatever its settings: refuted, the damping
is not copied.  Two solvers, the damping of the first set to 1, then copied: one iteration that
steps by the damping ends in different parameters. -/
theorem C153_damping_refuted :
    ∃ (env : Prob ℚ Unit ℚ) (w : World Unit Unit) (o c : Obj Unit Unit),
      run (fun _ => [()]) World.start [.new, .book 0 (.addParam ()), .book 0 (.addResidual ()), .setLambda 0 1, .copy 0]
        = .ok w ∧ w.objs 0 = some o ∧ w.objs 1 = some c ∧
      (o.optimise env (fun _ => [()]) 2 (fun _ => 0)).toOption.map (fun σ => σ ()) = some 1 ∧
      (c.optimise env (fun _ => [()]) 2 (fun _ => 0)).toOption.map (fun σ => σ ()) = some (1 / 10000) := by
  refine ⟨⟨[], fun _ => ⟨false, .camera, 1⟩, [], fun _ v d => v + d.headD 0, fun _ => true, fun σ => .fin (- σ ()),
    fun _ l _ _ => l⟩, _, _, _, rfl, rfl, rfl, ?_, ?_⟩ <;> decide +kernel

/-- C153 witness: copies, solves, removals and destructions in an order that keeps the rules. -/
example : ∃ w, run (fun r : Nat => if r = 1 then [1, 2] else [2, 3]) World.start
    [.new, .book 0 (.addParam 1), .book 0 (.addParam 2), .book 0 (.addResidual 1), .solve 0 [(6, true), (6, true), (6, false)],
     .copy 0, .solve 1 [(6, true)], .book 1 (.removeResidual 1), .copy 1, .logDet 0 6, .destroy 1, .logDet 2 0,
     .book 0 .clear, .destroy 0, .destroy 2] = .ok w ∧ w.heap.live = ∅ ∧ (∀ h < 3, (w.objs h).isNone) ∧ w.heap.next = 4 :=
  ⟨_, rfl, by decide +kernel, by decide +kernel, rfl⟩

theorem act_ok {blocks : R → List P} {w w' v : World P R} {a : Act P R} (h : act blocks w a = .ok w')
    (e : act blocks w a = .ok v) : v = w' := by
  rw [h] at e
  exact (Except.ok.inj e).symm

example : Sound (fun _ : Nat => ([] : List Nat)) World.start [.new, .solve 0 [(6, true)], .copy 0, .destroy 0] := by
  refine ⟨fun h e => ?_, fun h o op e => ?_, fun w' e => ?_⟩
  · cases e
  · cases e
  rw [act_ok rfl e]
  refine ⟨fun h e => ?_, fun h o op e => ?_, fun w' e => ?_⟩
  · cases e
    exact ⟨_, rfl⟩
  · cases e
  rw [act_ok rfl e]
  refine ⟨fun h e => ?_, fun h o op e => ?_, fun w' e => ?_⟩
  · cases e
    exact ⟨_, rfl⟩
  · cases e
  rw [act_ok rfl e]
  refine ⟨fun h e => ?_, fun h o op e => ?_, fun _ _ => trivial⟩
  · cases e
    exact ⟨_, rfl⟩
  · cases e

end Yac.SolverObj
