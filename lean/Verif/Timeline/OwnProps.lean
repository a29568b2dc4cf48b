import Verif.Timeline.OwnModel
import Verif.Timeline.Lemmas

/-! # C151: every event of a timeline is freed once -/

namespace Yac.Timeline.Own

variable {E : Type}

/-! ### Specification -/

/-- What was added to the timelines that exist: a timeline is the list of the calls of `add`. -/
def specStep (s : Nat → Option (List (Int × E))) : Op E → Nat → Option (List (Int × E))
  | .create v => fun w => if w = v then some ((s v).getD []) else s w
  | .add v ts e => fun w => if w = v then (s v).map (· ++ [(ts, e)]) else s w
  | .destroy v => fun w => if w = v then none else s w

/-- The timelines after a history. -/
def spec (ops : List (Op E)) : Nat → Option (List (Int × E)) := ops.foldl specStep (fun _ => none)

/-! ### Invariant -/

/-- The pointers of every timeline, in the order of the calls of `add`. -/
structure Holds (m : Mem E) (s : Nat → Option (List (Int × E))) (ptrs : Nat → List (Int × Nat)) : Prop where
  var : ∀ v, m.vars v = (s v).map (fun _ => run (ptrs v))
  none : ∀ v, s v = .none → ptrs v = []
  val : ∀ v l, s v = some l → List.Forall₂ (fun p x => p.1 = x.1 ∧ m.store p.2 = some x.2) (ptrs v) l
  nodup : ∀ v, ((ptrs v).map Prod.snd).Nodup
  disj : ∀ v w, v ≠ w → List.Disjoint ((ptrs v).map Prod.snd) ((ptrs w).map Prod.snd)
  live : ∀ a, m.store a ≠ .none → a < m.next ∧ ∃ v, a ∈ (ptrs v).map Prod.snd

theorem forall₂_left {α β : Type} {R : α → β → Prop} {l : List α} {l' : List β} (h : List.Forall₂ R l l') :
    ∀ p ∈ l, ∃ x ∈ l', R p x := by
  induction h with
  | nil => intro p hp; cases hp
  | cons h1 _ ih =>
    intro p hp
    rcases List.mem_cons.mp hp with rfl | hp
    · exact ⟨_, List.mem_cons_self, h1⟩
    · obtain ⟨x, hx, hr⟩ := ih p hp
      exact ⟨x, List.mem_cons_of_mem _ hx, hr⟩

theorem forall₂_imp_mem {α β : Type} {R S : α → β → Prop} {l : List α} {l' : List β} (h : List.Forall₂ R l l')
    (hi : ∀ p ∈ l, ∀ x, R p x → S p x) : List.Forall₂ S l l' := by
  induction h with
  | nil => exact .nil
  | cons h1 _ ih => exact .cons (hi _ List.mem_cons_self _ h1) (ih (fun p hp => hi p (List.mem_cons_of_mem _ hp)))

theorem Holds.alive {m : Mem E} {s : Nat → Option (List (Int × E))} {ptrs : Nat → List (Int × Nat)} (h : Holds m s ptrs) {v : Nat}
    {p : Int × Nat} (hp : p ∈ ptrs v) : ∃ e, m.store p.2 = some e := by
  cases hs : s v with
  | none => rw [h.none v hs] at hp; cases hp
  | some l =>
    obtain ⟨x, -, hx⟩ := forall₂_left (h.val v l hs) p hp
    exact ⟨_, hx.2⟩

theorem data_perm (l : List (Int × Nat)) : (run l).data.Perm l := by
  classical
  obtain ⟨-, -, -, h4⟩ := run_inv l
  rw [List.perm_iff_count]
  intro a
  have hc : ∀ l : List (Int × Nat), l.count a = (l.filter (fun p => decide (p.1 = a.1))).count a := by
    intro l
    rw [List.count_filter]
    simp
  rw [hc, h4, ← hc]

theorem free_all : ∀ (l : List (Int × Nat)) (store : Nat → Option E), (l.map Prod.snd).Nodup → (∀ p ∈ l, ∃ e, store p.2 = some e) →
    l.foldlM free store = .ok (fun a => if a ∈ l.map Prod.snd then none else store a)
  | [], store, _, _ => by simp [pure, Except.pure]
  | p :: l, store, hn, ha => by
    obtain ⟨e, he⟩ := ha p (by simp)
    rw [List.map_cons, List.nodup_cons] at hn
    have h1 : free store p = .ok (fun a => if a = p.2 then none else store a) := by
      unfold free
      rw [he]
    rw [List.foldlM_cons, h1]
    show l.foldlM free _ = _
    rw [free_all l _ hn.2]
    · congr 1
      funext a
      by_cases h2 : a = p.2
      · simp [h2]
      · simp only [List.map_cons, List.mem_cons, h2, false_or, if_false]
    · intro q hq
      obtain ⟨e', he'⟩ := ha q (by simp [hq])
      refine ⟨e', ?_⟩
      try dsimp only
      rw [if_neg, he']
      rintro h2
      exact hn.1 (by rw [← h2]; exact List.mem_map_of_mem hq)

theorem step_holds {m : Mem E} {s : Nat → Option (List (Int × E))} {ptrs : Nat → List (Int × Nat)} (h : Holds m s ptrs) (op : Op E) :
    ∃ m' ptrs', step m op = .ok m' ∧ Holds m' (specStep s op) ptrs' := by
  cases op with
  | create v =>
    refine ⟨_, ptrs, rfl, ?_⟩
    unfold create
    cases hs : s v with
    | some l =>
      have hv := h.var v
      rw [hs] at hv
      rw [hv]
      have : specStep s (.create v) = s := by
        funext w
        simp only [specStep]
        by_cases hw : w = v
        · rw [if_pos hw, hw, hs]; rfl
        · rw [if_neg hw]
      simp only [Option.map_some]
      rw [this]
      exact h
    | none =>
      have hv := h.var v
      rw [hs] at hv
      rw [hv]
      simp only [Option.map_none]
      have hp := h.none v hs
      refine ⟨?_, ?_, ?_, h.nodup, h.disj, h.live⟩
      · intro w
        simp only [specStep, setVar]
        by_cases hw : w = v
        · subst hw; rw [if_pos rfl, if_pos rfl, hp]; rfl
        · rw [if_neg hw, if_neg hw]; exact h.var w
      · intro w hw
        simp only [specStep] at hw
        by_cases hwv : w = v
        · rw [if_pos hwv] at hw; cases hw
        · rw [if_neg hwv] at hw; exact h.none w hw
      · intro w l hw
        simp only [specStep] at hw
        by_cases hwv : w = v
        · rw [if_pos hwv, hs] at hw; cases hw; rw [hwv, hp]; exact .nil
        · rw [if_neg hwv] at hw; exact h.val w l hw
  | add v ts e =>
    refine ⟨addEvent m v ts e, fun w => if w = v then (if (s v).isSome then ptrs v ++ [(ts, m.next)] else ptrs v) else ptrs w, rfl, ?_⟩
    unfold addEvent
    cases hs : s v with
    | none =>
      have hv := h.var v
      rw [hs] at hv
      rw [hv]
      have : specStep s (.add v ts e) = s := by
        funext w
        simp only [specStep]
        by_cases hw : w = v
        · rw [if_pos hw, hw, hs]; rfl
        · rw [if_neg hw]
      simp only [Option.map_none]
      rw [this]
      have : (fun w => if w = v then (if (Option.none : Option (List (Int × E))).isSome then ptrs v ++ [(ts, m.next)] else ptrs v) else ptrs w) = ptrs := by
        funext w
        by_cases hw : w = v
        · simp [hw]
        · simp [hw]
      rw [this]
      exact h
    | some l =>
      have hv := h.var v
      rw [hs] at hv
      rw [hv]
      simp only [Option.map_some, Option.isSome_some, if_true]
      have hfresh : ∀ w, m.next ∉ (ptrs w).map Prod.snd := by
        intro w hw
        obtain ⟨p, hp, hpe⟩ := List.mem_map.mp hw
        obtain ⟨x, hx⟩ := h.alive hp
        have := (h.live p.2 (by rw [hx]; simp)).1
        omega
      have hstore : ∀ w p, p ∈ ptrs w → (if p.2 = m.next then some e else m.store p.2) = m.store p.2 := by
        intro w p hp
        rw [if_neg]
        intro he
        exact hfresh w (by rw [← he]; exact List.mem_map_of_mem hp)
      have hold : ∀ w l', s w = some l' → List.Forall₂ (fun p x => p.1 = x.1 ∧ (if p.2 = m.next then some e else m.store p.2) = some x.2) (ptrs w) l' := by
        intro w l' hl'
        have := h.val w l' hl'
        exact forall₂_imp_mem this (fun p hp x hpx => ⟨hpx.1, by rw [hstore w p hp]; exact hpx.2⟩)
      refine ⟨?_, ?_, ?_, ?_, ?_, ?_⟩
      · intro w
        simp only [specStep, setVar]
        by_cases hw : w = v
        · subst hw
          rw [if_pos rfl, if_pos rfl, hs]
          simp [run]
        · rw [if_neg hw, if_neg hw, if_neg hw]; exact h.var w
      · intro w hw
        simp only [specStep] at hw
        by_cases hwv : w = v
        · rw [if_pos hwv, hs] at hw; cases hw
        · rw [if_neg hwv] at hw
          try dsimp only
          rw [if_neg hwv]
          exact h.none w hw
      · intro w l' hw
        simp only [specStep] at hw
        by_cases hwv : w = v
        · rw [if_pos hwv, hs] at hw
          cases hw
          try dsimp only
          rw [if_pos hwv]
          exact List.rel_append (hold v l hs) (.cons ⟨rfl, by simp⟩ .nil)
        · rw [if_neg hwv] at hw
          try dsimp only
          rw [if_neg hwv]
          exact hold w l' hw
      · intro w
        try dsimp only
        by_cases hwv : w = v
        · rw [if_pos hwv, List.map_append, List.nodup_append]
          refine ⟨h.nodup v, by simp, ?_⟩
          intro a ha b hb
          simp only [List.map_cons, List.map_nil, List.mem_cons, List.not_mem_nil, or_false] at hb
          rintro rfl
          exact hfresh v (by rw [← hb]; exact ha)
        · rw [if_neg hwv]; exact h.nodup w
      · have key : ∀ w, w ≠ v → List.Disjoint ((ptrs v ++ [(ts, m.next)]).map Prod.snd) ((ptrs w).map Prod.snd) := by
          intro w hw a ha hb
          rw [List.map_append, List.mem_append] at ha
          rcases ha with ha | ha
          · exact h.disj v w (Ne.symm hw) ha hb
          · simp only [List.map_cons, List.map_nil, List.mem_cons, List.not_mem_nil, or_false] at ha
            exact hfresh w (by rw [← ha]; exact hb)
        intro u w huw
        try dsimp only
        by_cases hu : u = v
        · rw [if_pos hu, if_neg (fun hw => huw (hu.trans hw.symm))]
          exact key w (fun hw => huw (hu.trans hw.symm))
        · rw [if_neg hu]
          by_cases hw : w = v
          · rw [if_pos hw]; exact (key u hu).symm
          · rw [if_neg hw]; exact h.disj u w huw
      · intro a ha
        try dsimp only at ha
        by_cases han : a = m.next
        · refine ⟨by rw [han]; exact Nat.lt_succ_self _, v, ?_⟩
          simp [han]
        · rw [if_neg han] at ha
          obtain ⟨h1, w, h2⟩ := h.live a ha
          refine ⟨Nat.lt_succ_of_lt h1, w, ?_⟩
          try dsimp only
          by_cases hw : w = v
          · rw [if_pos hw, List.map_append, List.mem_append]
            rw [hw] at h2
            exact .inl h2
          · rw [if_neg hw]; exact h2
  | destroy v =>
    have hp := data_perm (ptrs v)
    cases hs : s v with
    | none =>
      have hv := h.var v
      rw [hs] at hv
      refine ⟨m, ptrs, ?_, ?_⟩
      · simp only [step, destroy, hv, Option.map_none]
      · have : specStep s (.destroy v) = s := by
          funext w
          simp only [specStep]
          by_cases hw : w = v
          · rw [if_pos hw, hw, hs]
          · rw [if_neg hw]
        rw [this]
        exact h
    | some l =>
      have hv := h.var v
      rw [hs] at hv
      have hf := free_all (run (ptrs v)).data m.store ((hp.map Prod.snd).nodup_iff.mpr (h.nodup v)) (fun p hpm => h.alive (hp.mem_iff.mp hpm))
      have hmem : ∀ a, a ∈ (run (ptrs v)).data.map Prod.snd ↔ a ∈ (ptrs v).map Prod.snd := fun a => (hp.map Prod.snd).mem_iff
      refine ⟨⟨fun a => if a ∈ (run (ptrs v)).data.map Prod.snd then none else m.store a, m.next, setVar m v none⟩,
        fun w => if w = v then [] else ptrs w, ?_, ?_⟩
      · simp only [step, destroy, hv, Option.map_some, hf]
        rfl
      · refine ⟨?_, ?_, ?_, ?_, ?_, ?_⟩
        · intro w
          simp only [specStep, setVar]
          by_cases hw : w = v
          · rw [if_pos hw, if_pos hw, if_pos hw]; rfl
          · rw [if_neg hw, if_neg hw, if_neg hw]; exact h.var w
        · intro w hw
          simp only [specStep] at hw
          try dsimp only
          by_cases hwv : w = v
          · rw [if_pos hwv]
          · rw [if_neg hwv] at hw ⊢
            exact h.none w hw
        · intro w l' hw
          simp only [specStep] at hw
          by_cases hwv : w = v
          · rw [if_pos hwv] at hw; cases hw
          · rw [if_neg hwv] at hw
            try dsimp only
            rw [if_neg hwv]
            refine forall₂_imp_mem (h.val w l' hw) (fun p hp x hpx => ⟨hpx.1, ?_⟩)
            try dsimp only
            rw [if_neg, hpx.2]
            intro ha
            exact h.disj w v hwv (List.mem_map_of_mem hp) ((hmem _).mp ha)
        · intro w
          try dsimp only
          by_cases hwv : w = v
          · rw [if_pos hwv]; simp
          · rw [if_neg hwv]; exact h.nodup w
        · intro u w huw
          try dsimp only
          by_cases hu : u = v
          · rw [if_pos hu]; simp
          · rw [if_neg hu]
            by_cases hw : w = v
            · rw [if_pos hw]; simp
            · rw [if_neg hw]; exact h.disj u w huw
        · intro a ha
          try dsimp only at ha
          by_cases hm : a ∈ (run (ptrs v)).data.map Prod.snd
          · rw [if_pos hm] at ha; exact absurd rfl ha
          · rw [if_neg hm] at ha
            obtain ⟨h1, w, h2⟩ := h.live a ha
            refine ⟨h1, w, ?_⟩
            try dsimp only
            rw [if_neg]
            · exact h2
            · intro hw
              rw [hw] at h2
              exact hm ((hmem _).mpr h2)

theorem exec_holds (ops : List (Op E)) : ∃ m ptrs, exec ops = .ok m ∧ Holds m (spec ops) ptrs := by
  have key : ∀ (ops : List (Op E)) (m : Mem E) s ptrs, Holds m s ptrs →
      ∃ m' ptrs', ops.foldlM step m = .ok m' ∧ Holds m' (ops.foldl specStep s) ptrs' := by
    intro ops
    induction ops with
    | nil => intro m s ptrs h; exact ⟨m, ptrs, rfl, h⟩
    | cons op ops ih =>
      intro m s ptrs h
      obtain ⟨m1, p1, h1, h2⟩ := step_holds h op
      obtain ⟨m2, p2, h3, h4⟩ := ih m1 _ p1 h2
      refine ⟨m2, p2, ?_, h4⟩
      rw [List.foldlM_cons, h1]
      exact h3
  exact key ops Mem.init _ (fun _ => []) ⟨fun _ => rfl, fun _ _ => rfl, fun _ _ h => (by cases h), fun _ => by simp, fun _ _ _ => by simp,
    fun _ h => absurd rfl h⟩

/-! ### Theorems -/

theorem filter_ptrs {m : Mem E} {P : List (Int × Nat)} {l : List (Int × E)} (ts : Int)
    (h : List.Forall₂ (fun p x => p.1 = x.1 ∧ m.store p.2 = some x.2) P l) :
    ((P.filter (fun p => decide (p.1 = ts))).map Prod.snd).mapM (deref m.store) =
      .ok ((l.filter (fun x => decide (x.1 = ts))).map Prod.snd) := by
  induction h with
  | nil => rfl
  | @cons p x P l hpx _ ih =>
    by_cases ht : x.1 = ts
    · rw [List.filter_cons_of_pos (by simp [hpx.1, ht]), List.filter_cons_of_pos (by simp [ht]), List.map_cons, List.map_cons, List.mapM_cons, ih]
      unfold deref
      rw [hpx.2]
      rfl
    · rw [List.filter_cons_of_neg (by simp [hpx.1, ht]), List.filter_cons_of_neg (by simp [ht])]
      exact ih

/-- **C151, memory safety.**  A program that makes, fills and destroys timelines and never copies one frees nothing twice; and as long
as a timeline exists, its events of a time are exactly those that were added to it for that time, in that order. -/
theorem C151_safe (ops : List (Op E)) : ∃ m, exec ops = .ok m ∧
    ∀ v l, spec ops v = some l → ∀ ts, read m v ts = .ok ((l.filter (fun x => decide (x.1 = ts))).map Prod.snd) := by
  obtain ⟨m, ptrs, h1, h2⟩ := exec_holds ops
  refine ⟨m, h1, fun v l hl ts => ?_⟩
  have hv := h2.var v
  rw [hl] at hv
  obtain ⟨i1, -, -, i4⟩ := run_inv (ptrs v)
  unfold read
  rw [hv]
  simp only [Option.map_some]
  unfold getEvents equalRange
  rw [range_filter _ _ i1, i4]
  exact filter_ptrs ts (h2.val v l hl)

/-- **C151, no leaks.**  What is allocated belongs to exactly one timeline that exists, and there is an event for every call of `add`;
when all timelines are gone, so are all events. -/
theorem C151_no_leak (ops : List (Op E)) (m : Mem E) (h : exec ops = .ok m) :
    (∀ a, m.store a ≠ none → ∃ v t, m.vars v = some t ∧ a ∈ t.data.map Prod.snd ∧
      ∀ w t', m.vars w = some t' → a ∈ t'.data.map Prod.snd → w = v) ∧
    (∀ v l, spec ops v = some l → ∃ t, m.vars v = some t ∧ t.data.length = l.length ∧ (t.data.map Prod.snd).Nodup ∧
      ∀ a ∈ t.data.map Prod.snd, m.store a ≠ none) ∧
    ((∀ v, spec ops v = none) → ∀ a, m.store a = none) := by
  obtain ⟨m', ptrs, h1, h2⟩ := exec_holds ops
  rw [h] at h1
  cases h1
  have hmem : ∀ v a, a ∈ (run (ptrs v)).data.map Prod.snd ↔ a ∈ (ptrs v).map Prod.snd := fun v a => ((data_perm (ptrs v)).map Prod.snd).mem_iff
  have hvar : ∀ w t', m.vars w = some t' → t' = run (ptrs w) := by
    intro w t' hw
    rw [h2.var w] at hw
    obtain ⟨_, -, rfl⟩ := Option.map_eq_some_iff.mp hw
    rfl
  refine ⟨?_, ?_, ?_⟩
  · intro a ha
    obtain ⟨-, v, hv⟩ := h2.live a ha
    cases hs : spec ops v with
    | none => rw [h2.none v hs] at hv; simp at hv
    | some l =>
      refine ⟨v, run (ptrs v), by rw [h2.var v, hs]; rfl, (hmem v a).mpr hv, ?_⟩
      intro w t' hw hwa
      rw [hvar w t' hw] at hwa
      by_contra hne
      exact h2.disj w v hne ((hmem w a).mp hwa) hv
  · intro v l hl
    refine ⟨run (ptrs v), by rw [h2.var v, hl]; rfl, ?_, ((data_perm (ptrs v)).map Prod.snd).nodup_iff.mpr (h2.nodup v), ?_⟩
    · rw [(data_perm (ptrs v)).length_eq, (h2.val v l hl).length_eq]
    · intro a ha
      obtain ⟨p, hp, rfl⟩ := List.mem_map.mp ((hmem v a).mp ha)
      obtain ⟨e, he⟩ := h2.alive hp
      rw [he]
      simp
  · intro hn a
    by_contra ha
    obtain ⟨-, v, hv⟩ := h2.live a ha
    rw [h2.none v (hn v)] at hv
    simp at hv

/-- A copy of a timeline with an event, after the original has been destroyed. -/
theorem copied (ops : List (Op E)) (m m' : Mem E) (h : exec ops = .ok m) (v w : Nat) (l : List (Int × E)) (hl : spec ops v = some l)
    (hw : spec ops w = none) (hd : destroy (copy m v w) v = .ok m') :
    ∃ ptrs : List (Int × Nat), List.Forall₂ (fun p x => p.1 = x.1) ptrs l ∧ m'.vars w = some (run ptrs) ∧ ∀ p ∈ ptrs, m'.store p.2 = none := by
  obtain ⟨m1, ptrs, h1, h2⟩ := exec_holds ops
  rw [h] at h1
  cases h1
  have hv := h2.var v
  rw [hl] at hv
  have hwv := h2.var w
  rw [hw] at hwv
  have hne : w ≠ v := by rintro rfl; rw [hw] at hl; cases hl
  have hp := data_perm (ptrs v)
  have hc : copy m v w = { m with vars := setVar m w (some (run (ptrs v))) } := by
    unfold copy
    rw [hv, hwv]
    rfl
  have hcv : (copy m v w).vars v = some (run (ptrs v)) := by
    rw [hc]
    show setVar m w _ v = _
    unfold setVar
    rw [if_neg (Ne.symm hne), hv]
    rfl
  have hf := free_all (run (ptrs v)).data m.store ((hp.map Prod.snd).nodup_iff.mpr (h2.nodup v)) (fun p hpm => h2.alive (hp.mem_iff.mp hpm))
  unfold destroy at hd
  rw [hcv] at hd
  try dsimp only at hd
  have hs : (copy m v w).store = m.store := by rw [hc]
  rw [hs, hf] at hd
  cases hd
  refine ⟨ptrs v, (h2.val v l hl).imp (fun _ _ h => h.1), ?_, ?_⟩
  · show setVar (copy m v w) v none w = _
    unfold setVar
    rw [if_neg hne, hc]
    show setVar m w _ w = _
    unfold setVar
    rw [if_pos rfl]
  · intro p hpm
    try dsimp only
    rw [if_pos (hp.map Prod.snd |>.mem_iff.mpr (List.mem_map_of_mem hpm))]

/-- **C151, refuted.**  If a timeline with an event is copied, and that is what happens when a function returns one by value and the
compiler does not elide the copy, the copy is left with freed events when the original is destroyed: looking at them is a use
after free, and destroying the copy frees them a second time. -/
theorem C151_copy_refuted (ops : List (Op E)) (m m' : Mem E) (h : exec ops = .ok m) (v w : Nat) (l : List (Int × E)) (hl : spec ops v = some l)
    (hw : spec ops w = none) (hd : destroy (copy m v w) v = .ok m') (x : Int × E) (hx : x ∈ l) :
    read m' w x.1 = .error .oob ∧ destroy m' w = .error .oob := by
  obtain ⟨P, h1, h2, h3⟩ := copied ops m m' h v w l hl hw hd
  obtain ⟨p, hp, hpx⟩ : ∃ p ∈ P, p.1 = x.1 := by
    obtain ⟨p, hp, h⟩ := forall₂_left h1.flip x hx
    exact ⟨p, hp, h⟩
  obtain ⟨i1, -, -, i4⟩ := run_inv P
  constructor
  · unfold read
    rw [h2]
    try dsimp only
    unfold getEvents equalRange
    rw [range_filter _ _ i1, i4]
    have hmem : p ∈ P.filter (fun q => decide (q.1 = x.1)) := List.mem_filter.mpr ⟨hp, by simp [hpx]⟩
    cases hq : P.filter (fun q => decide (q.1 = x.1)) with
    | nil => rw [hq] at hmem; cases hmem
    | cons q Q =>
      have hqP : q ∈ P := List.mem_of_mem_filter (p := fun q => decide (q.1 = x.1)) (by rw [hq]; simp)
      rw [List.map_cons, List.mapM_cons]
      unfold deref
      rw [h3 q hqP]
      rfl
  · unfold destroy
    rw [h2]
    try dsimp only
    have hperm := data_perm P
    cases hq : (run P).data with
    | nil => have := hperm.mem_iff.mpr hp; rw [hq] at this; cases this
    | cons q Q =>
      have hqP : q ∈ P := hperm.mem_iff.mp (by rw [hq]; simp)
      rw [List.foldlM_cons]
      have : free m'.store q = .error .oob := by
        unfold free
        rw [h3 q hqP]
      rw [this]
      rfl

/-! ### Witnesses -/

/-- Two timelines, one of them gone. -/
def demo : List (Op String) :=
  [.create 0, .create 1, .add 0 5 "a", .add 1 5 "x", .add 0 3 "b", .add 0 5 "c", .destroy 1, .add 1 9 "lost"]

example : spec demo 0 = some [(5, "a"), (3, "b"), (5, "c")] ∧ spec demo 1 = none := by decide +kernel

example : ∃ m, exec demo = .ok m ∧ read m 0 5 = .ok ["a", "c"] := by
  obtain ⟨m, h1, h2⟩ := C151_safe demo
  exact ⟨m, h1, h2 0 [(5, "a"), (3, "b"), (5, "c")] (by decide +kernel) 5⟩

/-- `C151_copy_refuted` applies. -/
example : ∃ m m', exec demo = .ok m ∧ destroy (copy m 0 2) 0 = .ok m' ∧ read m' 2 3 = .error .oob ∧ destroy m' 2 = .error .oob := by
  obtain ⟨m, h1, -⟩ := C151_safe demo
  have h0 : exec demo = .ok ⟨_, _, _⟩ := rfl
  rw [h1] at h0
  have hd : ∃ m', destroy (copy m 0 2) 0 = .ok m' := by
    cases h0
    exact ⟨_, rfl⟩
  obtain ⟨m', hd⟩ := hd
  obtain ⟨r1, r2⟩ := C151_copy_refuted demo m m' h1 0 2 [(5, "a"), (3, "b"), (5, "c")] (by decide +kernel) (by decide +kernel) hd (3, "b") (by simp)
  exact ⟨m, m', h1, hd, r1, r2⟩

end Yac.Timeline.Own
