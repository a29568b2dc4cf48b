import Verif.Calib.NbvLoopLemmas
import Mathlib.Algebra.Order.Field.Basic
import Mathlib.Tactic.Linarith

/-!
# C81: the next-best-view loop

Specification: `Loaded` (LoopRan.lean), `Steps`, `Step`, `staleAfter`, `posed`, `motionKey`
(NbvLoopLemmas.lean).
-/

namespace Yac.Calib

open Yac.AprilGrid (Grid)

variable {K V : Type} [Field K] [LinearOrder K]

/-! ## Which frames are tried, in which order -/

/-- Frame `k` of the posed frames is neither the first nor the last. -/
def Inner (L : LoopEnv K V) (s : Cal K V) (k : Nat) : Prop :=
  1 ≤ k ∧ k + 1 < (posed L s s.data).length

/-- The key of a frame: minus a count of corners, then rotation, then distance. -/
def frameKey (L : LoopEnv K V) (s : Cal K V) (k : Nat) : Option (Int ×ₗ K ×ₗ K) :=
  motionKey L (posed L s s.data) (s.data.map (fun tg => frameTags tg.2)) k

/-- Something was detected at `ts`. -/
def Seen (s : Cal K V) (ts : Int) : Prop :=
  ∃ gs, SMap.find ts s.data = some gs ∧ ∃ cg ∈ gs, cg.2.detected = true

theorem calculateMotion_spec {L : LoopEnv K V} {s : Cal K V}
    {m : List ((Int ×ₗ K ×ₗ K) × Int)} (h : calculateMotion L s = .ok m) :
    SMap.Sorted m ∧ posed L s s.data ≠ [] ∧
    (∀ k, Inner L s k → ∃ key, frameKey L s k = some key) ∧
    ∀ key ts, SMap.find key m = some ts ↔ ∃ k, Inner L s k ∧ frameKey L s k = some key ∧
      ((posed L s s.data)[k]?).map Prod.fst = some ts ∧
      ∀ j, k < j → Inner L s j → frameKey L s j ≠ some key := by
  unfold calculateMotion at h
  obtain ⟨pt, h1, h⟩ := bind_ok h
  obtain ⟨e, _⟩ := motionFold _ _ _ h1
  simp only [List.nil_append] at e
  subst e
  split_ifs at h with hne
  simp only at h hne
  obtain ⟨i1, i2, i3⟩ := motionPairs _ _ _ (by simp [SMap.Sorted]) h
  have hmem : ∀ k, k ∈ List.range' 1 ((posed L s s.data).length - 2) ↔ Inner L s k := by
    intro k
    rw [List.mem_range']
    unfold Inner
    have hp : 0 < (posed L s s.data).length := List.length_pos_of_ne_nil hne
    constructor
    · rintro ⟨i, h1, h2⟩; omega
    · rintro ⟨h1, h2⟩; exact ⟨k - 1, by omega, by omega⟩
  refine ⟨i1, hne, fun k hk => ?_, fun key ts => ?_⟩
  · obtain ⟨key, q, hk1, _⟩ := i2 k ((hmem k).mpr hk)
    exact ⟨key, hk1⟩
  · rw [i3 key]
    simp only [SMap.find, Option.or_none]
    constructor
    · intro hx
      rw [Option.bind_eq_some_iff] at hx
      obtain ⟨k, hk, hts⟩ := hx
      obtain ⟨hp, as, bs, hsplit, hbefore⟩ := List.find?_eq_some_iff_append.mp hk
      simp only [decide_eq_true_eq] at hp
      have hkm : k ∈ List.range' 1 ((posed L s s.data).length - 2) := by
        have : k ∈ (List.range' 1 ((posed L s s.data).length - 2)).reverse := by rw [hsplit]; simp
        simpa using this
      refine ⟨k, (hmem k).mp hkm, hp, hts, fun j hj hin => ?_⟩
      have hjm := (hmem j).mpr hin
      have hjr : j ∈ as ++ k :: bs := by rw [← hsplit]; simpa using hjm
      have hord : List.Pairwise (· > ·) (as ++ k :: bs) := by
        rw [← hsplit, List.pairwise_reverse]
        exact List.pairwise_lt_range'
      rcases List.mem_append.mp hjr with hja | hjb
      · have := hbefore j hja
        intro hc
        have hc' : motionKey L (posed L s s.data) (s.data.map (fun tg => frameTags tg.2)) j = some key := hc
        simp [hc'] at this
      · rcases List.mem_cons.mp hjb with rfl | hjb
        · omega
        · have := (List.pairwise_cons.mp (List.pairwise_append.mp hord).2.1).1 j hjb
          omega
    · rintro ⟨k, hin, hk, hts, hlast⟩
      have hkm := (hmem k).mpr hin
      rw [Option.bind_eq_some_iff]
      refine ⟨k, ?_, hts⟩
      cases hf : (List.range' 1 ((posed L s s.data).length - 2)).reverse.find?
          (fun k => decide (motionKey L (posed L s s.data) (s.data.map (fun tg => frameTags tg.2)) k = some key)) with
      | none =>
        have := List.find?_eq_none.mp hf k (by simpa using hkm)
        have hk' : motionKey L (posed L s s.data) (s.data.map (fun tg => frameTags tg.2)) k = some key := hk
        simp [hk'] at this
      | some j =>
        obtain ⟨hp, as, bs, hsplit, hbefore⟩ := List.find?_eq_some_iff_append.mp hf
        simp only [decide_eq_true_eq] at hp
        have hjm : j ∈ List.range' 1 ((posed L s s.data).length - 2) := by
          have : j ∈ (List.range' 1 ((posed L s s.data).length - 2)).reverse := by rw [hsplit]; simp
          simpa using this
        have hkr : k ∈ as ++ j :: bs := by rw [← hsplit]; simpa using hkm
        have hord : List.Pairwise (· > ·) (as ++ j :: bs) := by
          rw [← hsplit, List.pairwise_reverse]
          exact List.pairwise_lt_range'
        rcases List.mem_append.mp hkr with hka | hkb
        · have := hbefore k hka
          have hk' : motionKey L (posed L s s.data) (s.data.map (fun tg => frameTags tg.2)) k = some key := hk
          simp [hk'] at this
        · rcases List.mem_cons.mp hkb with rfl | hkb
          · rfl
          · have := (List.pairwise_cons.mp (List.pairwise_append.mp hord).2.1).1 k hkb
            exact absurd hp (hlast j (by omega) ((hmem j).mp hjm))

theorem posed_sublist (L : LoopEnv K V) (s : Cal K V) :
    ∀ (data : List (Int × List (Int × Grid K))),
    ((posed L s data).map Prod.fst).Sublist (data.map Prod.fst)
  | [] => by simp [posed]
  | tg :: data => by
    have ih := posed_sublist L s data
    unfold posed at ih ⊢
    rw [List.filterMap_cons]
    split
    · simp only [List.map_cons]; exact ih.cons _
    · rename_i b hb
      have : b.1 = tg.1 := by
        revert hb
        split
        · intro hb; simp only [Option.some.injEq] at hb; rw [← hb]
        · intro hb; simp at hb
      simp only [List.map_cons, this]
      exact ih.cons_cons _

theorem data_sorted {s : Cal K V} (h : Loaded s) : SMap.Sorted s.data := by
  induction h with
  | new => simp [Cal.new, SMap.Sorted]
  | @addCamera s s' i p e fp fe _ hs ih =>
    unfold Calib.addCamera at hs
    split_ifs at hs
    simp only [Except.ok.injEq] at hs
    subst hs
    exact ih
  | @addCameraData s cam grids _ hg ih =>
    unfold Calib.addCameraData
    clear hg
    revert ih
    generalize s = s0
    induction grids generalizing s0 with
    | nil => exact fun ih => ih
    | cons g l ihl =>
      intro ih
      exact ihl (addGrid cam s0 g) (SMap.set_sorted _ _ _ ih)

/-- C81 (missing: two frames with the same count of corners, rotation and distance, of which
only the later is tried, and the first and last frame): no frame is tried twice; each is one
of the frames whose pose could be estimated, neither the first nor the last of them, and
something was detected in it; they are tried in the order of their keys, which are counts
of corners, rotations and distances; and every such frame is tried unless a later one has
the same key. -/
theorem C81_order_partial (L : LoopEnv K V) {s : Cal K V} (h : Loaded s) {l : List Int}
    (hs : nbvStamps L s = .ok l) :
    l ≠ [] ∧ l.Nodup ∧
    (∃ ks : List Nat, ks.map (fun k => ((posed L s s.data)[k]?).map Prod.fst) = l.map some ∧
      (∀ k ∈ ks, Inner L s k) ∧
      List.Pairwise (fun i j => ∃ a b, frameKey L s i = some a ∧ frameKey L s j = some b ∧ a < b) ks) ∧
    (∀ ts ∈ l, Seen s ts) ∧
    ∀ k ts, Inner L s k → ((posed L s s.data)[k]?).map Prod.fst = some ts → Seen s ts →
      (∀ j, k < j → Inner L s j → frameKey L s j ≠ frameKey L s k) → ts ∈ l := by
  unfold nbvStamps at hs
  obtain ⟨m, hm, hs⟩ := bind_ok hs
  simp only at hs
  split_ifs at hs with hne
  simp only [Except.ok.injEq] at hs
  subst hs
  obtain ⟨i1, i2, i3, i4⟩ := calculateMotion_spec hm
  have hseen : ∀ ts, ((SMap.find ts s.data).getD []).any (fun cg => cg.2.detected) = true ↔ Seen s ts := by
    intro ts
    unfold Seen
    cases SMap.find ts s.data with
    | none => simp
    | some gs => simp
  -- the index of an entry
  have hidx : ∀ x ∈ m, ∃ k, Inner L s k ∧ frameKey L s k = some x.1 ∧
      ((posed L s s.data)[k]?).map Prod.fst = some x.2 := by
    intro x hx
    obtain ⟨k, h1, h2, h3, _⟩ := (i4 x.1 x.2).mp ((SMap.find_eq_some i1).mpr hx)
    exact ⟨k, h1, h2, h3⟩
  have hks : ∀ (m' : List ((Int ×ₗ K ×ₗ K) × Int)), (∀ x ∈ m', x ∈ m) → SMap.Sorted m' →
      ∃ ks : List Nat, ks.map (fun k => ((posed L s s.data)[k]?).map Prod.fst) = (m'.map Prod.snd).map some ∧
      ks.map (frameKey L s) = m'.map (fun x => some x.1) ∧
      (∀ k ∈ ks, Inner L s k) ∧
      List.Pairwise (fun i j => ∃ a b, frameKey L s i = some a ∧ frameKey L s j = some b ∧ a < b) ks := by
    intro m'
    induction m' with
    | nil => intro _ _; exact ⟨[], by simp, by simp, by simp, by simp⟩
    | cons x m' ih =>
      intro hsub hsrt
      have hp := List.pairwise_cons.mp hsrt
      obtain ⟨ks, k1, k2, k3, k4⟩ := ih (fun y hy => hsub y (by simp [hy])) hp.2
      obtain ⟨k, h1, h2, h3⟩ := hidx x (hsub x (by simp))
      refine ⟨k :: ks, by simp [k1, h3], by simp [k2, h2], ?_, ?_⟩
      · intro j hj
        rcases List.mem_cons.mp hj with rfl | hj
        · exact h1
        · exact k3 j hj
      · rw [List.pairwise_cons]
        refine ⟨fun j hj => ?_, k4⟩
        have : frameKey L s j ∈ m'.map (fun x => some x.1) := by
          rw [← k2]; exact List.mem_map_of_mem hj
        obtain ⟨y, hy, he⟩ := List.mem_map.mp this
        exact ⟨x.1, y.1, h2, he.symm, hp.1 y hy⟩
  have hfilter : (m.map Prod.snd).filter (fun ts =>
      ((SMap.find ts s.data).getD []).any (fun cg => cg.2.detected)) =
      (m.filter (fun x => ((SMap.find x.2 s.data).getD []).any (fun cg => cg.2.detected))).map Prod.snd := by
    rw [List.filter_map]; rfl
  refine ⟨hne, ?_, ?_, ?_, ?_⟩
  · obtain ⟨ks, k1, k2, k3, k4⟩ := hks m (fun _ h => h) i1
    apply List.Nodup.filter
    have hknd : ks.Nodup := k4.imp (fun {i j} h => by
      rintro rfl
      obtain ⟨a, b, h1, h2, h3⟩ := h
      rw [h1] at h2
      simp only [Option.some.injEq] at h2
      rw [h2] at h3
      exact lt_irrefl _ h3)
    have hpn : ((posed L s s.data).map Prod.fst).Nodup := by
      refine (posed_sublist L s s.data).nodup ?_
      have := data_sorted h
      rw [SMap.Sorted, ← List.pairwise_map] at this
      exact this.imp (fun h => ne_of_lt h)
    have : ((m.map Prod.snd).map some).Nodup := by
      rw [← k1]
      refine List.Nodup.map_on ?_ hknd
      intro a ha b hb hab
      have ha' : a < ((posed L s s.data).map Prod.fst).length := by
        rw [List.length_map]; have := k3 a ha; unfold Inner at this; omega
      have hb' : b < ((posed L s s.data).map Prod.fst).length := by
        rw [List.length_map]; have := k3 b hb; unfold Inner at this; omega
      rw [← List.getElem?_map, ← List.getElem?_map, List.getElem?_eq_getElem ha',
        List.getElem?_eq_getElem hb'] at hab
      simp only [Option.some.injEq] at hab
      exact (hpn.getElem_inj_iff).mp hab
    exact List.Nodup.of_map _ this
  · rw [hfilter]
    obtain ⟨ks, k1, _, k3, k4⟩ := hks (m.filter (fun x =>
      ((SMap.find x.2 s.data).getD []).any (fun cg => cg.2.detected)))
      (fun x hx => (List.mem_filter.mp hx).1) (List.Pairwise.filter _ i1)
    exact ⟨ks, k1, k3, k4⟩
  · intro ts hts
    exact (hseen ts).mp (List.mem_filter.mp hts).2
  · intro k ts hk hts hseen' hlast
    obtain ⟨key, hkey⟩ := i3 k hk
    have : SMap.find key m = some ts := (i4 key ts).mpr ⟨k, hk, hkey, hts, fun j hj hin => by
      have := hlast j hj hin
      rw [hkey] at this; exact this⟩
    rw [List.mem_filter]
    exact ⟨List.mem_map.mpr ⟨(key, ts), SMap.mem_of_find this, rfl⟩, (hseen ts).mpr hseen'⟩

/-- C81 is false for the first and the last frame with a pose: they are never tried. -/
theorem C81_ends_refuted (L : LoopEnv K V) {s : Cal K V} (h : Loaded s) {l : List Int}
    (hs : nbvStamps L s = .ok l) (ts : Int)
    (he : ((posed L s s.data).head?).map Prod.fst = some ts ∨
      ((posed L s s.data).getLast?).map Prod.fst = some ts) : ts ∉ l := by
  obtain ⟨_, _, ⟨ks, k1, k2, _⟩, _, _⟩ := C81_order_partial L h hs
  intro hmem
  have : some ts ∈ l.map some := List.mem_map_of_mem hmem
  rw [← k1] at this
  obtain ⟨k, hk, hkt⟩ := List.mem_map.mp this
  have hin := k2 k hk
  have hpn : ((posed L s s.data).map Prod.fst).Nodup := by
    refine (posed_sublist L s s.data).nodup ?_
    have := data_sorted h
    rw [SMap.Sorted, ← List.pairwise_map] at this
    exact this.imp (fun h => ne_of_lt h)
  unfold Inner at hin
  have hk' : k < ((posed L s s.data).map Prod.fst).length := by rw [List.length_map]; omega
  rw [← List.getElem?_map, List.getElem?_eq_getElem hk', Option.some.injEq] at hkt
  rcases he with he | he
  · rw [← List.head?_map, List.head?_eq_getElem?] at he
    have h0 : 0 < ((posed L s s.data).map Prod.fst).length := by omega
    rw [List.getElem?_eq_getElem h0, Option.some.injEq, ← hkt] at he
    have := (hpn.getElem_inj_iff).mp he
    omega
  · rw [← List.getLast?_map, List.getLast?_eq_getElem?] at he
    have h0 : ((posed L s s.data).map Prod.fst).length - 1 < ((posed L s s.data).map Prod.fst).length := by omega
    rw [List.getElem?_eq_getElem h0, Option.some.injEq, ← hkt] at he
    have := (hpn.getElem_inj_iff).mp he
    rw [List.length_map] at this
    omega

/-- C81 is false when no pose can be estimated: the loop over the frames runs past the end of
an empty list; with one or two poses, or without a detection between the first and the
last, the calibration is aborted. -/
theorem C81_empty_refuted (L : LoopEnv K V) {s : Cal K V} (o : Opts) (order : List Int → List Int)
    (f1 : List Int) (f2 : Bool) (f3 : List Int) (f4 : List (Int × Track K V))
    (hfr : ∀ tg ∈ s.data, ∃ o, framePose L s tg.2 = .ok o) :
    (posed L s s.data = [] → solveNbv L o order ⟨s, f1, f2, f3, f4⟩ = .error .oob) ∧
    ((posed L s s.data).length = 1 ∨ (posed L s s.data).length = 2 →
      solveNbv L o order ⟨s, f1, f2, f3, f4⟩ = .error .fatal) := by
  have hfold : ∀ (data : List (Int × List (Int × Grid K))) (acc : List (Int × V) × List Int),
      (∀ tg ∈ data, ∃ o, framePose L s tg.2 = .ok o) →
      ∃ out, data.foldlM (motionFrame L s) acc = .ok out := by
    intro data
    induction data with
    | nil => intro acc _; exact ⟨acc, rfl⟩
    | cons tg data ih =>
      intro acc hall
      obtain ⟨x, hx⟩ := hall tg (by simp)
      rw [List.foldlM_cons]
      unfold motionFrame
      rw [hx, AprilGrid.ok_bind, AprilGrid.ok_bind]
      exact ih _ (fun y hy => hall y (by simp [hy]))
  obtain ⟨out, ho⟩ := hfold s.data ([], []) hfr
  obtain ⟨e, _⟩ := motionFold _ _ _ ho
  simp only [List.nil_append] at e
  constructor
  · intro hp
    unfold solveNbv nbvStamps calculateMotion
    rw [ho, AprilGrid.ok_bind, if_pos (by rw [e]; exact hp)]
    rfl
  · intro hp
    unfold solveNbv nbvStamps calculateMotion
    have hne : posed L s s.data ≠ [] := by
      intro hc; rw [hc] at hp; simp at hp
    rw [ho, AprilGrid.ok_bind, if_neg (by rw [e]; exact hne)]
    have : out.1.length - 2 = 0 := by rw [e]; simp only; omega
    rw [this]
    rfl

/-! ## What the loop does -/

theorem Steps.stamps {L : LoopEnv K V} {o : Opts} {s s' : Sess K V} {l : List Int} {bs : List Bool}
    (h : Steps L o s l bs s') : s'.stamps = s.stamps ++ l := by
  induction h with
  | nil => simp
  | cons h1 _ ih => rw [ih, h1.stamps]; simp

theorem Steps.hist {L : LoopEnv K V} {o : Opts} {s s' : Sess K V} {l : List Int} {bs : List Bool}
    (h : Steps L o s l bs s') : ∀ t, t ∉ l → SMap.find t s'.hist = SMap.find t s.hist := by
  induction h with
  | nil => intro t _; rfl
  | cons h1 _ ih =>
    intro t ht
    simp only [List.mem_cons, not_or] at ht
    obtain ⟨k, _, hk⟩ := h1.hist
    rw [ih t ht.2, hk, SMap.find_set, if_neg ht.1]

theorem Steps.flags {L : LoopEnv K V} {o : Opts} {s s' : Sess K V} {l : List Int} {bs : List Bool}
    (h : Steps L o s l bs s') (hnd : l.Nodup) :
    l.map (fun t => (SMap.find t s'.hist).map Track.accepted) = bs.map some := by
  induction h with
  | nil => rfl
  | @cons s s1 s' ts b l bs h1 h2 ih =>
    rw [List.nodup_cons] at hnd
    obtain ⟨k, hb, hk⟩ := h1.hist
    rw [List.map_cons, List.map_cons, ih hnd.2, h2.hist ts hnd.1, hk, SMap.find_set, if_pos rfl]
    simp [hb]

theorem Steps.keys {L : LoopEnv K V} {o : Opts} {s s' : Sess K V} {l : List Int} {bs : List Bool}
    (h : Steps L o s l bs s') : ∀ t, (SMap.find t s'.cal.views).isSome = true →
      (SMap.find t s.cal.views).isSome = true ∨ (t, true) ∈ l.zip bs := by
  induction h with
  | nil => intro t ht; exact Or.inl ht
  | cons h1 _ ih =>
    intro t ht
    rcases ih t ht with hk | hk
    · rcases h1.keys t hk with hk | ⟨rfl, rfl⟩
      · exact Or.inl hk
      · exact Or.inr (by simp)
    · exact Or.inr (by simp [hk])

theorem Steps.frame {L : LoopEnv K V} {o : Opts} {s s' : Sess K V} {l : List Int} {bs : List Bool}
    (h : Steps L o s l bs s') : s'.cal.data = s.cal.data ∧ s'.cal.threshold = s.cal.threshold := by
  induction h with
  | nil => exact ⟨rfl, rfl⟩
  | cons h1 _ ih => exact ⟨ih.1.trans h1.data, ih.2.trans h1.threshold⟩

theorem Steps.window {L : LoopEnv K V} {o : Opts} {s s' : Sess K V} {l : List Int} {bs : List Bool}
    (h : Steps L o s l bs s') (hm : o.marginalize = true)
    (hw : (nbViews s.cal : Int) ≤ o.window) : (nbViews s'.cal : Int) ≤ o.window := by
  induction h with
  | nil => exact hw
  | cons h1 _ ih => exact ih (h1.window hm hw)

/-- C81: next-best-view calibration of a loaded calibrator tries the frames in the given
order; there is an outcome for each frame tried, and it is what the history says; the loop
ends at the first frame at which more views in a row were rejected than the early-stop
threshold, or when all were tried; and the views it ends with are accepted ones. -/
theorem C81_history (L : LoopEnv K V) (o : Opts) (order : List Int → List Int)
    (hperm : ∀ l, (order l).Perm l) {s : Cal K V} (h : Loaded s) {s' : Sess K V}
    (hs : solveNbv L o order ⟨s, [], true, [], []⟩ = .ok s') :
    Ran L s' ∧ ∃ l bs, nbvStamps L s = .ok l ∧ bs.length ≤ l.length ∧
      s'.stamps = (order l).take bs.length ∧
      s'.stamps.map (fun t => (SMap.find t s'.hist).map Track.accepted) = bs.map some ∧
      (∀ t, t ∉ s'.stamps → SMap.find t s'.hist = none) ∧
      (∀ k, 0 < k → k < bs.length → ¬ (o.early = true ∧ staleAfter 0 (bs.take k) > o.stale)) ∧
      (bs.length = l.length ∨ (o.early = true ∧ staleAfter 0 bs > o.stale)) ∧
      (∀ t, (SMap.find t s'.cal.views).isSome = true →
        ∃ k, SMap.find t s'.hist = some k ∧ k.accepted = true) ∧
      s'.cal.data = s.data := by
  unfold solveNbv at hs
  obtain ⟨l, hl, hs⟩ := bind_ok hs
  obtain ⟨r, hr, hs⟩ := bind_ok hs
  have hnd := (C81_order_partial L h hl).2.1
  have hnd' : (order l).Nodup := (hperm l).nodup_iff.mpr hnd
  have r0 : Ran L ⟨s, [], true, [], []⟩ := .loaded h
  obtain ⟨bs, k1, k2, k3, k4, k5⟩ := nbvLoop_spec (order l) _ 0 r r0 hnd'
    (fun t _ => by rw [h.blank.views]; rfl) hr
  have hlen := (hperm l).length_eq
  have rf : Ran L s' := .finish k3 hs
  unfold nbvFinish at hs
  obtain ⟨⟨c, n⟩, h1, hs⟩ := bind_ok hs
  simp only [Except.ok.injEq] at hs
  have f1 := k3.tidy.filterAllViews _ _ h1
  have hst : s'.stamps = r.1.stamps := by rw [← hs]
  have hhi : s'.hist = r.1.hist := by rw [← hs]
  have hda : s'.cal.data = c.data := by rw [← hs]; rfl
  have hvi : s'.cal.views = c.views := by rw [← hs]; rfl
  have hstamps : s'.stamps = (order l).take bs.length := by
    rw [hst, k2.stamps, List.nil_append]
  have hndt : ((order l).take bs.length).Nodup := hnd'.sublist (List.take_sublist _ _)
  have hflags := k2.flags hndt
  refine ⟨rf, l, bs, hl, by omega, hstamps, ?_, ?_, k4, ?_, ?_, ?_⟩
  · rw [hstamps, hhi]; exact hflags
  · intro t ht
    rw [hstamps] at ht
    rw [hhi, k2.hist t ht]
    rfl
  · rcases k5 with k5 | k5
    · exact Or.inl (by omega)
    · exact Or.inr k5.2
  · intro t ht
    rw [hvi, f1.2.2.2.2.2] at ht
    rcases k2.keys t ht with hk | hk
    · simp only [h.blank.views] at hk; simp [SMap.find] at hk
    · have hl' : ((order l).take bs.length).length = bs.length := by
        rw [List.length_take]; omega
      rw [hhi]
      obtain ⟨i, hi, he⟩ := List.mem_iff_getElem.mp hk
      rw [List.getElem_zip] at he
      simp only [Prod.mk.injEq] at he
      rw [List.length_zip] at hi
      have hi1 : i < ((order l).take bs.length).length := by omega
      have hi2 : i < bs.length := by omega
      have := congrArg (fun x => x[i]?) hflags
      simp only [List.getElem?_map, List.getElem?_eq_getElem hi1, List.getElem?_eq_getElem hi2,
        Option.map_some, Option.some.injEq] at this
      rw [he.1, he.2, Option.map_eq_some_iff] at this
      exact this
  · rw [hda, f1.2.1, k2.frame.1]

/-- C81: with marginalisation there are never more views than the sliding window. -/
theorem C81_window (L : LoopEnv K V) (o : Opts) (order : List Int → List Int)
    (hperm : ∀ l, (order l).Perm l) {s : Cal K V} (h : Loaded s) {s' : Sess K V}
    (hm : o.marginalize = true) (hw : 0 ≤ o.window)
    (hs : solveNbv L o order ⟨s, [], true, [], []⟩ = .ok s') :
    (nbViews s'.cal : Int) ≤ o.window := by
  unfold solveNbv at hs
  obtain ⟨l, hl, hs⟩ := bind_ok hs
  obtain ⟨r, hr, hs⟩ := bind_ok hs
  have hnd := (C81_order_partial L h hl).2.1
  have hnd' : (order l).Nodup := (hperm l).nodup_iff.mpr hnd
  obtain ⟨bs, k1, k2, k3, k4, k5⟩ := nbvLoop_spec (order l) _ 0 r (.loaded h) hnd'
    (fun t _ => by rw [h.blank.views]; rfl) hr
  have := k2.window hm (by simp only [nbViews, h.blank.views, List.length_nil]; simpa using hw)
  unfold nbvFinish at hs
  obtain ⟨⟨c, n⟩, h1, hs⟩ := bind_ok hs
  simp only [Except.ok.injEq] at hs
  subst hs
  have f1 := k3.tidy.filterAllViews _ _ h1
  have hle : nbViews c ≤ nbViews r.1.cal := by
    have := nbViews_le (s := c) f1.1 (l := r.1.cal.views.map Prod.fst)
      (fun t ht => by rw [f1.2.2.2.2.2] at ht; exact SMap.find_isSome.mp ht)
    simpa [nbViews] using this
  show (nbViews c : Int) ≤ _
  omega

variable [IsStrictOrderedRing K]

/-- C81 (missing: outlier removal inside the loop, which recomputes the information): every
view that is accepted lowers the recorded information measure by at least twice the
threshold, so after `n` acceptances it is lower by at least `2 n` thresholds, and a
rejected view leaves it alone. -/
theorem C81_gain_partial (L : LoopEnv K V) {o : Opts} (hf : o.nbvFilter = false)
    {s s' : Sess K V} {l : List Int} {bs : List Bool} (h : Steps L o s l bs s') :
    s'.cal.infoK ≤ s.cal.infoK - 2 * s.cal.threshold * (bs.countP id : Nat) := by
  induction h with
  | nil => simp
  | @cons s s1 s' ts b l bs h1 h2 ih =>
    rw [h1.threshold] at ih
    cases b with
    | false =>
      have := (h1.kept rfl).2
      rw [this] at ih
      simpa using ih
    | true =>
      have hg := h1.gain rfl hf
      rw [not_lt] at hg
      rw [List.countP_cons_of_pos (by rfl)]
      push_cast
      nlinarith

/-- C81: `C81_gain_partial` applies to the whole loop. -/
theorem C81_gain_run (L : LoopEnv K V) (o : Opts) (hf : o.nbvFilter = false) {s : Sess K V}
    (h : Ran L s) {l : List Int} (hnd : l.Nodup) (hnew : ∀ t ∈ l, SMap.find t s.cal.views = none)
    {r : Sess K V × Int} (hs : nbvLoop L o l s 0 = .ok r) :
    ∃ bs : List Bool, r.1.stamps = s.stamps ++ l.take bs.length ∧
      (l.take bs.length).map (fun t => (SMap.find t r.1.hist).map Track.accepted) = bs.map some ∧
      r.1.cal.infoK ≤ s.cal.infoK - 2 * s.cal.threshold * (bs.countP id : Nat) := by
  obtain ⟨bs, k1, k2, k3, _⟩ := nbvLoop_spec l s 0 r h hnd hnew hs
  exact ⟨bs, k2.stamps, k2.flags (hnd.sublist (List.take_sublist _ _)), C81_gain_partial L hf k2⟩

end Yac.Calib
