import Verif.Solver.BookSpec

namespace Yac.Solver

variable {P R : Type} [DecidableEq P] [DecidableEq R]

theorem mem_insSet {α : Type} [DecidableEq α] (a x : α) (l : List α) :
    x ∈ insSet a l ↔ x = a ∨ x ∈ l := by
  unfold insSet; split_ifs with h
  · constructor
    · exact Or.inr
    · rintro (rfl | h') <;> assumption
  · simp [or_comm]

theorem nodup_insSet {α : Type} [DecidableEq α] (a : α) (l : List α) (h : l.Nodup) :
    (insSet a l).Nodup := by
  unfold insSet; split_ifs with h'
  · exact h
  · simp [List.nodup_append, h]; intro b hb; rintro rfl; exact h' hb

theorem upd_same {κ ν : Type} [DecidableEq κ] (f : κ → Option ν) (k : κ) (v : Option ν) :
    upd f k v k = v := by simp [upd]

theorem upd_ne {κ ν : Type} [DecidableEq κ] (f : κ → Option ν) {k x : κ} (v : Option ν)
    (h : x ≠ k) : upd f k v x = f x := by simp [upd, h]

/-- Members of a map entry (missing entries are empty). -/
def memAt {κ α : Type} (f : κ → Option (List α)) (k : κ) (a : α) : Prop := a ∈ (f k).getD []

theorem linkParams_mem (r : R) (bs : List P) (f : P → Option (List R)) (p : P) (x : R) :
    memAt (linkParams r f bs) p x ↔ memAt f p x ∨ (x = r ∧ p ∈ bs) := by
  unfold linkParams
  induction bs generalizing f with
  | nil => simp
  | cons b bs ih =>
    rw [List.foldl_cons, ih]
    by_cases h : p = b
    · subst h
      simp only [memAt, upd_same, Option.getD_some, mem_insSet, List.mem_cons, true_or, and_true]
      tauto
    · simp only [memAt, upd_ne _ _ h, List.mem_cons, h, false_or]

theorem linkParams_nodup (r : R) (bs : List P) (f : P → Option (List R))
    (h : ∀ p, ((f p).getD []).Nodup) : ∀ p, ((linkParams r f bs p).getD []).Nodup := by
  unfold linkParams
  induction bs generalizing f with
  | nil => exact h
  | cons b bs ih =>
    rw [List.foldl_cons]
    apply ih
    intro p
    by_cases hp : p = b
    · subst hp; rw [upd_same]; exact nodup_insSet _ _ (h p)
    · rw [upd_ne _ _ hp]; exact h p

theorem unlinkParams_mem (r : R) (bs : List P) (f : P → Option (List R))
    (h : ∀ p, ((f p).getD []).Nodup) (p : P) (x : R) :
    memAt (unlinkParams r f bs) p x ↔ memAt f p x ∧ ¬ (x = r ∧ p ∈ bs) := by
  unfold unlinkParams
  induction bs generalizing f with
  | nil => simp
  | cons b bs ih =>
    rw [List.foldl_cons, ih]
    · by_cases hp : p = b
      · subst hp
        simp only [memAt, upd_same, Option.getD_some, (h p).mem_erase_iff, List.mem_cons, true_or,
          and_true]
        tauto
      · simp only [memAt, upd_ne _ _ hp, List.mem_cons, hp, false_or]
    · intro q
      by_cases hq : q = b
      · subst hq; rw [upd_same]; exact (h q).erase r
      · rw [upd_ne _ _ hq]; exact h q

theorem unlinkParams_nodup (r : R) (bs : List P) (f : P → Option (List R))
    (h : ∀ p, ((f p).getD []).Nodup) : ∀ p, ((unlinkParams r f bs p).getD []).Nodup := by
  unfold unlinkParams
  induction bs generalizing f with
  | nil => exact h
  | cons b bs ih =>
    rw [List.foldl_cons]
    apply ih
    intro p
    by_cases hp : p = b
    · subst hp; rw [upd_same]; exact (h p).erase r
    · rw [upd_ne _ _ hp]; exact h p

theorem linkRes_mem (r : R) (bs : List P) (f : R → Option (List P)) (y : R) (x : P) :
    memAt (linkRes r f bs) y x ↔ memAt f y x ∨ (y = r ∧ x ∈ bs) := by
  unfold linkRes
  induction bs generalizing f with
  | nil => simp
  | cons b bs ih =>
    rw [List.foldl_cons, ih]
    by_cases h : y = r
    · subst h
      simp only [memAt, upd_same, Option.getD_some, mem_insSet, List.mem_cons, true_and]
      tauto
    · simp only [memAt, upd_ne _ _ h, List.mem_cons, h, false_and]

/-- The bookkeeping represents the problem `(Q, S)`. -/
structure Inv (blocks : R → List P) (s : Book P R) (Q : Finset P) (S : Finset R) : Prop where
  rnd : s.resFns.Nodup
  rmem : ∀ r, r ∈ s.resFns ↔ r ∈ S
  pnd : s.params.Nodup
  pmem : ∀ p, p ∈ s.params ↔ p ∈ Q
  p2r : ∀ p r, memAt s.param2res p r ↔ r ∈ S ∧ p ∈ blocks r
  p2rnd : ∀ p, ((s.param2res p).getD []).Nodup
  r2p : ∀ r p, memAt s.res2param r p ↔ r ∈ S ∧ p ∈ blocks r

variable {blocks : R → List P}

theorem Inv.empty : Inv blocks (Book.empty : Book P R) ∅ ∅ := by
  constructor <;> simp [Book.empty, memAt]

theorem Inv.numResiduals {s : Book P R} {Q S} (h : Inv blocks s Q S) : s.numResiduals = S.card := by
  have : s.resFns.toFinset = S := by ext r; simp [h.rmem]
  rw [Book.numResiduals, ← this, List.toFinset_card_of_nodup h.rnd]

theorem Inv.numParams {s : Book P R} {Q S} (h : Inv blocks s Q S) : s.numParams = Q.card := by
  have : s.params.toFinset = Q := by ext r; simp [h.pmem]
  rw [Book.numParams, ← this, List.toFinset_card_of_nodup h.pnd]

theorem Inv.hasParam {s : Book P R} {Q S} (h : Inv blocks s Q S) (p : P) :
    s.hasParam p = decide (p ∈ Q) := by
  simp [Book.hasParam, h.pmem]

theorem Inv.addParam {s : Book P R} {Q S} (h : Inv blocks s Q S) (p : P) :
    Inv blocks (s.addParam p) (insert p Q) S where
  rnd := h.rnd
  rmem := h.rmem
  pnd := nodup_insSet _ _ h.pnd
  pmem := fun q => by simp [Book.addParam, mem_insSet, h.pmem]
  p2r := h.p2r
  p2rnd := h.p2rnd
  r2p := h.r2p

theorem Inv.addResidual {s : Book P R} {Q S} (h : Inv blocks s Q S) (r : R) (hr : r ∉ S) :
    ∃ s', s.addResidual blocks r = .ok s' ∧ Inv blocks s' Q (insert r S) := by
  have hr' : r ∉ s.resFns := by rw [h.rmem]; exact hr
  refine ⟨_, if_neg hr', ?_, ?_, h.pnd, h.pmem, ?_, ?_, ?_⟩
  · simp [List.nodup_append, h.rnd]; intro a ha; rintro rfl; exact hr' ha
  · intro x; simp [h.rmem, or_comm]
  · intro p x
    simp only [linkParams_mem, h.p2r, Finset.mem_insert]
    constructor
    · rintro (⟨h1, h2⟩ | ⟨rfl, h2⟩) <;> tauto
    · rintro ⟨rfl | h1, h2⟩ <;> tauto
  · exact linkParams_nodup _ _ _ h.p2rnd
  · intro y x
    simp only [linkRes_mem, h.r2p, Finset.mem_insert]
    constructor
    · rintro (⟨h1, h2⟩ | ⟨rfl, h2⟩) <;> tauto
    · rintro ⟨rfl | h1, h2⟩ <;> tauto

theorem Inv.removeBase {s : Book P R} {Q S} (h : Inv blocks s Q S) (r : R) :
    Inv blocks { s with resFns := s.resFns.erase r,
                        param2res := unlinkParams r s.param2res (blocks r),
                        res2param := upd s.res2param r none } Q (S.erase r) where
  rnd := h.rnd.erase r
  rmem := fun x => by simp only [h.rnd.mem_erase_iff, h.rmem, Finset.mem_erase]
  pnd := h.pnd
  pmem := h.pmem
  p2r := by
    intro p x
    simp only [unlinkParams_mem _ _ _ h.p2rnd, h.p2r, Finset.mem_erase]
    constructor
    · rintro ⟨⟨h1, h2⟩, h3⟩
      refine ⟨⟨?_, h1⟩, h2⟩
      rintro rfl; exact h3 ⟨rfl, h2⟩
    · rintro ⟨⟨h1, h2⟩, h3⟩
      exact ⟨⟨h2, h3⟩, fun h => h1 h.1⟩
  p2rnd := unlinkParams_nodup _ _ _ h.p2rnd
  r2p := by
    intro y x
    by_cases hy : y = r
    · subst hy; simp [memAt, upd_same]
    · have := h.r2p y x
      simp only [memAt, upd_ne _ _ hy, Finset.mem_erase] at this ⊢
      rw [this]; simp [hy]

theorem Inv.removeResidual {s : Book P R} {Q S} (h : Inv blocks s Q S) (r : R) (hr : r ∈ S) :
    ∃ s', s.removeResidual blocks r = .ok s' ∧ Inv blocks s' Q (S.erase r) :=
  ⟨_, if_pos ((h.rmem r).mpr hr), h.removeBase r⟩

/-- The loop of `solver_t::remove_param`. -/
theorem dropAll_ok (rs : List R) (s : Book P R) (hnd : rs.Nodup) (hs : s.resFns.Nodup)
    (hin : ∀ r ∈ rs, r ∈ s.resFns) :
    ∃ s', rs.foldlM Book.dropResidual s = .ok s' ∧ s'.params = s.params ∧
      s'.param2res = s.param2res ∧ s'.resFns.Nodup ∧
      (∀ r, r ∈ s'.resFns ↔ r ∈ s.resFns ∧ r ∉ rs) ∧
      (∀ r, s'.res2param r = if r ∈ rs then none else s.res2param r) := by
  induction rs generalizing s with
  | nil => exact ⟨s, rfl, rfl, rfl, hs, by simp, by simp⟩
  | cons r rs ih =>
    obtain ⟨hr, hnd'⟩ := List.nodup_cons.mp hnd
    have hmem := hin r (by simp)
    obtain ⟨s', he, h1, h2, h3, h4, h5⟩ := ih
      { s with resFns := s.resFns.erase r, res2param := upd s.res2param r none } hnd'
      (hs.erase r) (by
        intro x hx
        rw [hs.mem_erase_iff]
        exact ⟨by rintro rfl; exact hr hx, hin x (by simp [hx])⟩)
    refine ⟨s', ?_, h1, h2, h3, ?_, ?_⟩
    · rw [List.foldlM_cons, Book.dropResidual, if_pos hmem]; exact he
    · intro x; rw [h4]; simp only [hs.mem_erase_iff, List.mem_cons]; tauto
    · intro x; rw [h5]
      by_cases hx : x ∈ rs
      · simp [hx]
      · by_cases hxr : x = r
        · subst hxr; simp [upd_same]
        · simp [hx, hxr, upd_ne]

theorem Inv.removeParam {s : Book P R} {Q S} (h : Inv blocks s Q S) (p : P) (hp : p ∈ Q)
    (hpriv : ∀ r ∈ S, p ∈ blocks r → ∀ q ∈ blocks r, q = p) :
    ∃ s', s.removeParam p = .ok s' ∧
      Inv blocks s' (Q.erase p) (S.filter (fun r => p ∉ blocks r)) := by
  have hp' : p ∈ s.params := (h.pmem p).mpr hp
  have hpm : ∀ q, q ∈ s.params.erase p ↔ q ∈ Q.erase p := by
    intro q; rw [h.pnd.mem_erase_iff, h.pmem, Finset.mem_erase]
  cases hm : s.param2res p with
  | none =>
    have hno : ∀ r ∈ S, p ∉ blocks r := by
      intro r hr hpr
      have := (h.p2r p r).mpr ⟨hr, hpr⟩
      simp [memAt, hm] at this
    have hS : S.filter (fun r => p ∉ blocks r) = S := Finset.filter_true_of_mem hno
    refine ⟨{ s with params := s.params.erase p }, by simp only [Book.removeParam, if_pos hp', hm], ?_⟩
    rw [hS]
    exact ⟨h.rnd, h.rmem, h.pnd.erase p, hpm, h.p2r, h.p2rnd, h.r2p⟩
  | some rs =>
    have hrs : ∀ r, r ∈ rs ↔ r ∈ S ∧ p ∈ blocks r := by
      intro r; have := h.p2r p r; simpa [memAt, hm] using this
    have hrsnd : rs.Nodup := by have := h.p2rnd p; simpa [hm] using this
    obtain ⟨s', he, h1, h2, h3, h4, h5⟩ := dropAll_ok rs { s with params := s.params.erase p } hrsnd
      h.rnd (by intro r hr; exact (h.rmem r).mpr ((hrs r).mp hr).1)
    have hrm : ∀ r, r ∈ s'.resFns ↔ r ∈ S.filter (fun r => p ∉ blocks r) := by
      intro r; rw [h4, Finset.mem_filter, hrs]; simp only [h.rmem]; tauto
    refine ⟨{ s' with param2res := upd s'.param2res p none }, ?_, h3, hrm, ?_, ?_, ?_, ?_, ?_⟩
    · simp only [Book.removeParam, if_pos hp', hm, he]; rfl
    · simp only [h1]; exact h.pnd.erase p
    · simp only [h1]; exact hpm
    · intro q r
      simp only [h2]
      by_cases hq : q = p
      · subst hq
        simp only [memAt, upd_same, Option.getD_none, List.not_mem_nil, Finset.mem_filter, false_iff]
        tauto
      · have := h.p2r q r
        simp only [memAt, upd_ne _ _ hq, Finset.mem_filter] at this ⊢
        rw [this]
        constructor
        · rintro ⟨a, b⟩
          refine ⟨⟨a, fun hc => hq (hpriv r a hc q b)⟩, b⟩
        · rintro ⟨⟨a, _⟩, b⟩; exact ⟨a, b⟩
    · intro q
      simp only [h2]
      by_cases hq : q = p
      · subst hq; rw [upd_same]; simp
      · rw [upd_ne _ _ hq]; exact h.p2rnd q
    · intro r q
      have := h.r2p r q
      simp only [memAt, h5, Finset.mem_filter] at this ⊢
      by_cases hr : r ∈ rs
      · simp only [hr, if_true, Option.getD_none, List.not_mem_nil, false_iff]
        have := (hrs r).mp hr; tauto
      · simp only [hr, if_false, this]
        rw [hrs] at hr; tauto

/-! ## The ceres variant -/

/-- The ceres solver represents the problem `(Q, S)`. -/
structure CInv (blocks : R → List P) (s : CBook P R) (Q : Finset P) (S : Finset R) : Prop where
  base : Inv blocks s.base Q S
  pnd : s.prob.pblocks.Nodup
  pmem : ∀ p, p ∈ s.prob.pblocks ↔ p ∈ Q
  idnd : (s.prob.rblocks.map Prod.fst).Nodup
  rnd : (s.prob.rblocks.map Prod.snd).Nodup
  rmem : ∀ r, r ∈ s.prob.rblocks.map Prod.snd ↔ r ∈ S
  ids : ∀ id r, s.res2id r = some id ↔ (id, r) ∈ s.prob.rblocks
  fresh : ∀ b ∈ s.prob.rblocks, b.1 < s.prob.next

theorem CInv.empty : CInv blocks (CBook.empty : CBook P R) ∅ ∅ where
  base := Inv.empty
  pnd := by simp [CBook.empty]
  pmem := by simp [CBook.empty]
  idnd := by simp [CBook.empty]
  rnd := by simp [CBook.empty]
  rmem := by simp [CBook.empty]
  ids := by simp [CBook.empty]
  fresh := by simp [CBook.empty]

theorem CInv.numResiduals {s : CBook P R} {Q S} (h : CInv blocks s Q S) :
    s.numResiduals = S.card := by
  have : (s.prob.rblocks.map Prod.snd).toFinset = S := by ext r; rw [List.mem_toFinset, h.rmem]
  rw [CBook.numResiduals, ← this, List.toFinset_card_of_nodup h.rnd, List.length_map]

theorem CInv.numParams {s : CBook P R} {Q S} (h : CInv blocks s Q S) : s.numParams = Q.card := by
  have : s.prob.pblocks.toFinset = Q := by ext r; rw [List.mem_toFinset, h.pmem]
  rw [CBook.numParams, ← this, List.toFinset_card_of_nodup h.pnd]

theorem CInv.hasParam {s : CBook P R} {Q S} (h : CInv blocks s Q S) (p : P) :
    s.hasParam p = decide (p ∈ Q) := by
  simp [CBook.hasParam, h.pmem]

theorem CInv.addParam {s : CBook P R} {Q S} (h : CInv blocks s Q S) (p : P) :
    CInv blocks (s.addParam p) (insert p Q) S where
  base := h.base.addParam p
  pnd := nodup_insSet _ _ h.pnd
  pmem := fun q => by simp [CBook.addParam, mem_insSet, h.pmem]
  idnd := h.idnd
  rnd := h.rnd
  rmem := h.rmem
  ids := h.ids
  fresh := h.fresh

theorem foldl_insSet_of_subset (bs : List P) (l : List P) (h : ∀ p ∈ bs, p ∈ l) :
    bs.foldl (fun l p => insSet p l) l = l := by
  induction bs with
  | nil => rfl
  | cons b bs ih =>
    rw [List.foldl_cons, insSet, if_pos (h b (by simp))]
    exact ih (fun p hp => h p (by simp [hp]))

theorem CInv.addResidual {s : CBook P R} {Q S} (h : CInv blocks s Q S) (r : R) (hr : r ∉ S)
    (hp : ∀ p ∈ blocks r, p ∈ Q) (hnd : (blocks r).Nodup) :
    ∃ s', s.addResidual blocks r = .ok s' ∧ CInv blocks s' Q (insert r S) := by
  obtain ⟨b, hb, hinv⟩ := h.base.addResidual r hr
  have hfold : (blocks r).foldl (fun l p => insSet p l) s.prob.pblocks = s.prob.pblocks :=
    foldl_insSet_of_subset _ _ (fun p hp' => (h.pmem p).mpr (hp p hp'))
  have heq : s.addResidual blocks r = .ok
      { base := b,
        prob := ⟨(blocks r).foldl (fun l p => insSet p l) s.prob.pblocks,
          s.prob.rblocks ++ [(s.prob.next, r)], s.prob.next + 1⟩,
        res2id := upd s.res2id r (some s.prob.next) } := by
    simp only [CBook.addResidual, hb, bind, Except.bind, hnd, if_true]; rfl
  refine ⟨_, heq, hinv, ?_, ?_, ?_, ?_, ?_, ?_, ?_⟩
  · simp only [hfold]; exact h.pnd
  · simp only [hfold]; exact h.pmem
  · simp only [List.map_append, List.map_cons, List.map_nil, List.nodup_append, h.idnd, true_and]
    refine ⟨by simp, ?_⟩
    intro a ha b hb
    rw [List.mem_map] at ha
    obtain ⟨x, hx, rfl⟩ := ha
    have := h.fresh x hx
    simp at hb; omega
  · simp only [List.map_append, List.map_cons, List.map_nil, List.nodup_append, h.rnd, true_and]
    refine ⟨by simp, ?_⟩
    intro a ha b hb
    rw [h.rmem] at ha
    simp at hb; subst hb; rintro rfl; exact hr ha
  · intro x
    simp only [List.map_append, List.map_cons, List.map_nil, List.mem_append, h.rmem,
      List.mem_singleton, Finset.mem_insert]
    tauto
  · intro id x
    simp only [List.mem_append, List.mem_singleton, Prod.mk.injEq]
    by_cases hx : x = r
    · subst hx
      rw [upd_same]
      constructor
      · intro h'; right; exact ⟨(Option.some.inj h').symm, rfl⟩
      · rintro (h' | ⟨rfl, _⟩)
        · exfalso; exact hr ((h.rmem x).mp (List.mem_map.mpr ⟨_, h', rfl⟩))
        · rfl
    · rw [upd_ne _ _ hx, h.ids]; simp [hx]
  · intro b hb
    simp only [List.mem_append, List.mem_singleton] at hb
    rcases hb with hb | rfl
    · have := h.fresh b hb; simp only; omega
    · simp

theorem nodup_map_inj {α β : Type} {f : α → β} {l : List α} (h : (l.map f).Nodup) {a b : α}
    (ha : a ∈ l) (hb : b ∈ l) (he : f a = f b) : a = b := by
  induction l with
  | nil => simp at ha
  | cons x l ih =>
    rw [List.map_cons, List.nodup_cons] at h
    rcases List.mem_cons.mp ha with ha' | ha'
    · rcases List.mem_cons.mp hb with hb' | hb'
      · rw [ha', hb']
      · exact absurd (List.mem_map.mpr ⟨b, hb', by rw [← he, ha']⟩) h.1
    · rcases List.mem_cons.mp hb with hb' | hb'
      · exact absurd (List.mem_map.mpr ⟨a, ha', by rw [he, hb']⟩) h.1
      · exact ih h.2 ha' hb'

theorem CInv.removeResidual {s : CBook P R} {Q S} (h : CInv blocks s Q S) (r : R) (hr : r ∈ S) :
    ∃ s', s.removeResidual blocks r = .ok s' ∧ CInv blocks s' Q (S.erase r) ∧
      s'.base.params = s.base.params ∧ s'.prob.pblocks = s.prob.pblocks := by
  have hrm := (h.rmem r).mpr hr
  rw [List.mem_map] at hrm
  obtain ⟨⟨id, r'⟩, hin, rfl⟩ := hrm
  simp only at hr
  have hid : s.res2id r' = some id := (h.ids id r').mpr hin
  have hkey : ∀ b ∈ s.prob.rblocks, b.1 ≠ id ↔ b.2 ≠ r' := by
    intro b hb
    rw [not_iff_not]
    constructor
    · intro he
      have := nodup_map_inj h.idnd hb hin he
      rw [this]
    · intro he
      have := nodup_map_inj h.rnd hb hin he
      rw [this]
  have heq : s.removeResidual blocks r' = .ok
      { base := { s.base with
          resFns := s.base.resFns.erase r',
          param2res := unlinkParams r' s.base.param2res (blocks r'),
          res2param := upd s.base.res2param r' none },
        prob := { s.prob with rblocks := s.prob.rblocks.filter (fun b => b.1 ≠ id) },
        res2id := upd s.res2id r' none } := by
    simp only [CBook.removeResidual, if_pos ((h.base.rmem r').mpr hr), hid]
    rw [if_pos (List.mem_map.mpr ⟨_, hin, rfl⟩)]
  refine ⟨_, heq, ⟨h.base.removeBase r', h.pnd, h.pmem, ?_, ?_, ?_, ?_, ?_⟩, rfl, rfl⟩
  · exact h.idnd.sublist (List.filter_sublist.map _)
  · exact h.rnd.sublist (List.filter_sublist.map _)
  · intro x
    simp only [List.mem_map, List.mem_filter, decide_eq_true_eq, Finset.mem_erase]
    rw [← h.rmem, List.mem_map]
    constructor
    · rintro ⟨b, ⟨hb, hne⟩, rfl⟩
      exact ⟨(hkey b hb).mp hne, b, hb, rfl⟩
    · rintro ⟨hne, b, hb, rfl⟩
      exact ⟨b, ⟨hb, (hkey b hb).mpr hne⟩, rfl⟩
  · intro i x
    simp only [List.mem_filter, decide_eq_true_eq]
    by_cases hx : x = r'
    · subst hx
      rw [upd_same]
      simp only [reduceCtorEq, false_iff, not_and, not_not]
      intro hi
      by_contra hne
      exact (hkey _ hi).mp hne rfl
    · rw [upd_ne _ _ hx, h.ids]
      constructor
      · intro hi; exact ⟨hi, (hkey _ hi).mpr hx⟩
      · exact fun hi => hi.1
  · intro b hb
    exact h.fresh b (List.mem_filter.mp hb).1

theorem CInv.removeParam {s : CBook P R} {Q S} (h : CInv blocks s Q S) (p : P) (hp : p ∈ Q) :
    ∃ s', s.removeParam blocks p = .ok s' ∧
      CInv blocks s' (Q.erase p) (S.filter (fun r => p ∉ blocks r)) := by
  have hp' : p ∈ s.base.params := (h.base.pmem p).mpr hp
  have hpb : p ∈ s.prob.pblocks := (h.pmem p).mpr hp
  -- the state after the loop, with the parameter put back, still satisfies the invariant
  let rs := (s.base.param2res p).getD []
  have hrs : ∀ r, r ∈ rs ↔ r ∈ S ∧ p ∈ blocks r := h.base.p2r p
  have hS : S.filter (fun r => r ∉ rs) = S.filter (fun r => p ∉ blocks r) := by
    ext x; simp only [Finset.mem_filter, hrs]; tauto
  have run : ∀ (l : List R), l.Nodup → ∀ (t : CBook P R) (S : Finset R), CInv blocks t Q S →
      (∀ r ∈ l, r ∈ S) → t.base.params = s.base.params → t.prob.pblocks = s.prob.pblocks →
      ∃ t', l.foldlM (CBook.removeResidual blocks)
          { t with base := { t.base with params := s.base.params.erase p } } =
            .ok { t' with base := { t'.base with params := s.base.params.erase p } } ∧
        CInv blocks t' Q (S.filter (fun r => r ∉ l)) ∧ t'.base.params = s.base.params ∧
        t'.prob.pblocks = s.prob.pblocks := by
    intro l
    induction l with
    | nil => intro _ t S ht _ h1 h2; exact ⟨t, rfl, by simpa using ht, h1, h2⟩
    | cons r l ih =>
      intro hnd t S ht hin h1 h2
      obtain ⟨hr, hnd'⟩ := List.nodup_cons.mp hnd
      obtain ⟨t1, he1, ht1, hp1, hb1⟩ := ht.removeResidual r (hin r (by simp))
      obtain ⟨t2, he2, ht2, hp2, hb2⟩ := ih hnd' t1 _ ht1 (by
        intro x hx; rw [Finset.mem_erase]
        exact ⟨by rintro rfl; exact hr hx, hin x (by simp [hx])⟩) (hp1.trans h1) (hb1.trans h2)
      refine ⟨t2, ?_, ?_, hp2, hb2⟩
      · rw [List.foldlM_cons]
        have : CBook.removeResidual blocks
            { t with base := { t.base with params := s.base.params.erase p } } r =
            .ok { t1 with base := { t1.base with params := s.base.params.erase p } } := by
          unfold CBook.removeResidual at he1 ⊢
          simp only at he1 ⊢
          split at he1
          · rename_i hm
            rw [if_pos hm]
            split at he1
            · exact absurd he1 (by simp)
            · rename_i id hid
              split at he1
              · rename_i hid'
                simp only [hid, hid', if_true]
                cases he1
                rfl
              · exact absurd he1 (by simp)
          · exact absurd he1 (by simp)
        rw [this]; exact he2
      · have : (S.erase r).filter (fun r => r ∉ l) = S.filter (fun x => x ∉ r :: l) := by
          ext x; simp only [Finset.mem_filter, Finset.mem_erase, List.mem_cons]; tauto
        rw [← this]; exact ht2
  obtain ⟨t, he, ht, htp, htb⟩ := run rs (h.base.p2rnd p) s S h
    (fun r hr => ((hrs r).mp hr).1) rfl rfl
  rw [hS] at ht
  -- removing the entry of `p` and `p` itself
  have hno : ∀ r ∈ S.filter (fun r => p ∉ blocks r), p ∉ blocks r :=
    fun r hr => (Finset.mem_filter.mp hr).2
  have hfil : t.prob.rblocks.filter (fun b => p ∉ blocks b.2) = t.prob.rblocks := by
    rw [List.filter_eq_self]
    intro b hb
    have := (ht.rmem b.2).mp (List.mem_map.mpr ⟨b, hb, rfl⟩)
    simpa using hno _ this
  have hpm : ∀ q, q ∈ s.base.params.erase p ↔ q ∈ Q.erase p := by
    intro q; rw [h.base.pnd.mem_erase_iff, h.base.pmem, Finset.mem_erase]
  have hpm2 : ∀ q, q ∈ s.prob.pblocks.erase p ↔ q ∈ Q.erase p := by
    intro q; rw [h.pnd.mem_erase_iff, h.pmem, Finset.mem_erase]
  have fin : ∀ (f : P → Option (List R)),
      (∀ q r, memAt f q r ↔ memAt t.base.param2res q r) →
      (∀ q, ((f q).getD []).Nodup) →
      CInv blocks { t with base := { t.base with params := s.base.params.erase p, param2res := f },
                           prob := { t.prob with
                             pblocks := t.prob.pblocks.erase p,
                             rblocks := t.prob.rblocks.filter (fun b => p ∉ blocks b.2) } }
        (Q.erase p) (S.filter (fun r => p ∉ blocks r)) := by
    intro f hf hfn
    rw [hfil, htb]
    exact ⟨⟨ht.base.rnd, ht.base.rmem, h.base.pnd.erase p, hpm,
      fun q r => (hf q r).trans (ht.base.p2r q r), hfn, ht.base.r2p⟩,
      h.pnd.erase p, hpm2, ht.idnd, ht.rnd, ht.rmem, ht.ids, ht.fresh⟩
  cases hm : s.base.param2res p with
  | none =>
    have hl : rs = [] := by simp [rs, hm]
    rw [hl] at he
    have hts : { t with base := { t.base with params := s.base.params.erase p } } =
        ({ s with base := { s.base with params := s.base.params.erase p } } : CBook P R) := by
      simpa [pure, Except.pure] using he.symm
    refine ⟨_, ?_, fin t.base.param2res (fun _ _ => Iff.rfl) ht.base.p2rnd⟩
    simp only [CBook.removeParam, if_pos hp', hm, pure, Except.pure, bind, Except.bind]
    rw [if_pos hpb]
    have e1 := congrArg CBook.prob hts
    have e2 := congrArg CBook.res2id hts
    have e3 := congrArg (fun x => x.base.resFns) hts
    have e4 := congrArg (fun x => x.base.param2res) hts
    have e5 := congrArg (fun x => x.base.res2param) hts
    simp only at e1 e2 e3 e4 e5
    simp only [e1, e2, e3, e4, e5]
  | some l =>
    have hl : rs = l := by simp [rs, hm]
    rw [hl] at he
    refine ⟨_, ?_, fin (upd t.base.param2res p none) ?_ ?_⟩
    · simp only [CBook.removeParam, if_pos hp', hm, pure, Except.pure, bind, Except.bind]
      have he' := he
      simp only at he'
      rw [he']
      simp only [htb, if_pos hpb]
    · intro q r
      by_cases hq : q = p
      · subst hq
        have := ht.base.p2r q r
        simp only [memAt, upd_same, Option.getD_none, List.not_mem_nil, false_iff] at this ⊢
        rw [this]; rintro ⟨a, b⟩; exact hno r a b
      · simp only [memAt, upd_ne _ _ hq]
    · intro q
      by_cases hq : q = p
      · subst hq; rw [upd_same]; simp
      · rw [upd_ne _ _ hq]; exact ht.base.p2rnd q

end Yac.Solver
