import Verif.Calib.OutlierProps
import Mathlib.Data.List.Perm.Subperm

namespace Yac.Calib

open Yac.AprilGrid (Grid)

variable {K V : Type} [Field K] [LinearOrder K]

/-- `s'` has no views that `s` has not, and the same detections and settings. -/
structure Within (s s' : Cal K V) : Prop where
  keys : ∀ t, (SMap.find t s'.views).isSome = true → (SMap.find t s.views).isSome = true
  data : s'.data = s.data
  timestamps : s'.timestamps = s.timestamps
  threshold : s'.threshold = s.threshold

theorem Within.refl (s : Cal K V) : Within s s := ⟨fun _ h => h, rfl, rfl, rfl⟩

theorem Within.trans {a b c : Cal K V} (h : Within a b) (h' : Within b c) : Within a c :=
  ⟨fun t ht => h.keys t (h'.keys t ht), h'.data.trans h.data, h'.timestamps.trans h.timestamps,
    h'.threshold.trans h.threshold⟩

theorem Visit.within {L : LoopEnv K V} {s s' : Cal K V} {ts : Int} {n d : Nat}
    (h : Visit L s ts s' n d) : Within s s' := by
  obtain ⟨v, v1, s1, s2, hv, ht, hcase⟩ := h
  have hkey : ∀ t, (t ≠ ts → SMap.find t s'.views = SMap.find t s.views) →
      (SMap.find t s'.views).isSome = true → (SMap.find t s.views).isSome = true := by
    intro t hf hs
    by_cases he : t = ts
    · rw [he, hv]; rfl
    · rw [hf he] at hs; exact hs
  rcases hcase with ⟨_, rfl, _⟩ | ⟨_, _, _, _, _, _, hf, _⟩ | ⟨_, _, _, _, _, _, hf, _⟩
  · exact ⟨fun t => hkey t (ht.kin1.views t), ht.kin1.data, ht.kin1.timestamps, ht.kin1.threshold⟩
  · exact ⟨fun t => hkey t (hf.views t), hf.data, hf.timestamps, hf.threshold⟩
  · exact ⟨fun t => hkey t (hf.views t), hf.data, hf.timestamps, hf.threshold⟩

theorem Visits.within {L : LoopEnv K V} {s s' : Cal K V} {l : List Int} {n d : Nat}
    (h : Visits L s l s' n d) : Within s s' := by
  induction h with
  | nil s => exact .refl s
  | cons h1 _ ih => exact h1.within.trans ih

theorem removeOutliers_within {L : LoopEnv K V} {s s' : Sess K V} {all : Bool} {n : Nat}
    (h : Tidy s.cal) (hs : removeOutliers L s all = .ok (s', n)) : Within s.cal s'.cal := by
  obtain ⟨_, _, _, _, _, _, c, d, hv, _, he⟩ := removeOutliers_spec h hs
  have := hv.within
  rw [he]
  split_ifs
  · exact this
  · obtain ⟨i, e, hr⟩ := refreshInfo_eq L c
    rw [hr]
    exact ⟨this.keys, this.data, this.timestamps, this.threshold⟩

theorem Tidy.keys_nodup {s : Cal K V} (h : Tidy s) : (s.views.map Prod.fst).Nodup := by
  have := h.wf.viewsSorted
  rw [SMap.Sorted, ← List.pairwise_map] at this
  exact this.imp (fun h => ne_of_lt h)

/-- Views among given timestamps are at most as many. -/
theorem nbViews_le {s : Cal K V} (h : Tidy s) {l : List Int}
    (hs : ∀ t, (SMap.find t s.views).isSome = true → t ∈ l) : nbViews s ≤ l.length := by
  have hsub : s.views.map Prod.fst ⊆ l := fun t ht => hs t (SMap.find_isSome.mpr ht)
  have := (List.subperm_of_subset h.keys_nodup hsub).length_le
  simpa [nbViews] using this

theorem Within.nbViews_le {s s' : Cal K V} (h : Tidy s') (hw : Within s s') :
    nbViews s' ≤ nbViews s := by
  have := Calib.nbViews_le h (l := s.views.map Prod.fst) (fun t ht => SMap.find_isSome.mp (hw.keys t ht))
  simpa [nbViews] using this

/-- The part of the loop after a view was accepted. -/
theorem nbvTail_spec {L : LoopEnv K V} {o : Opts} {s s1 s2 : Sess K V} (h : Ran L s)
    (h1 : nbvFilterStep L o s = .ok s1) (h2 : nbvMargStep o s1 = .ok s2) :
    Ran L s2 ∧ Within s.cal s2.cal ∧ s2.stamps = s.stamps ∧ s2.hist = s.hist ∧
      (o.nbvFilter = false → s2.cal.infoK = s.cal.infoK) ∧
      (o.marginalize = true → (nbViews s2.cal : Int) ≤ max o.window ((nbViews s.cal : Int) - 1)) := by
  have a1 : Ran L s1 ∧ Within s.cal s1.cal ∧ s1.stamps = s.stamps ∧ s1.hist = s.hist ∧
      (o.nbvFilter = false → s1.cal.infoK = s.cal.infoK) := by
    unfold nbvFilterStep at h1
    split_ifs at h1 with hc
    · obtain ⟨⟨r, n⟩, hr, h1⟩ := bind_ok h1
      simp only [Except.ok.injEq] at h1
      subst h1
      obtain ⟨_, _, _, e1, e2, _⟩ := removeOutliers_spec h.tidy hr
      have hw : Within s.cal r.cal := removeOutliers_within h.tidy hr
      exact ⟨.setFilterAll false (.removeOutliers _ h hr), hw, e1, e2,
        fun hf => by rw [hf] at hc; simp at hc⟩
    · simp only [Except.ok.injEq] at h1
      subst h1
      exact ⟨h, .refl _, rfl, rfl, fun _ => rfl⟩
  obtain ⟨r1, w1, e1, e2, e3⟩ := a1
  unfold nbvMargStep at h2
  split_ifs at h2 with hc
  · obtain ⟨c, hr, h2⟩ := bind_ok h2
    simp only [Except.ok.injEq] at h2
    subst h2
    obtain ⟨t2, ts, v, l, hv, hl, hd, _, _, htm, hi, hth⟩ := r1.tidy.marginalize hr
    have hw : Within s1.cal c := by
      refine ⟨fun t ht => ?_, hd, htm, hth⟩
      rw [hl, SMap.find_isSome] at ht
      rw [hv, SMap.find_isSome]
      simp only [List.map_cons, List.mem_cons]
      exact Or.inr ht
    refine ⟨.marginalize r1 hr, w1.trans hw, e1, e2, fun hf => hi.trans (e3 hf), fun _ => ?_⟩
    have hn : nbViews s1.cal = nbViews c + 1 := by simp [nbViews, hv, hl]
    have := w1.nbViews_le r1.tidy
    show (nbViews c : Int) ≤ _
    omega
  · simp only [Except.ok.injEq] at h2
    subst h2
    refine ⟨r1, w1, e1, e2, e3, fun hm => ?_⟩
    have : ¬ (nbViews s1.cal : Int) > o.window := fun hgt => hc ⟨hm, hgt⟩
    omega

/-- What one iteration of the loop does. -/
structure Step (L : LoopEnv K V) (o : Opts) (s : Sess K V) (ts : Int) (b : Bool) (s' : Sess K V) : Prop where
  ran : Ran L s'
  stamps : s'.stamps = s.stamps ++ [ts]
  hist : ∃ k : Track K V, k.accepted = b ∧ s'.hist = SMap.set ts k s.hist
  keys : ∀ t, (SMap.find t s'.cal.views).isSome = true →
    (SMap.find t s.cal.views).isSome = true ∨ (t = ts ∧ b = true)
  data : s'.cal.data = s.cal.data
  timestamps : s'.cal.timestamps = s.cal.timestamps
  threshold : s'.cal.threshold = s.cal.threshold
  kept : b = false → s'.cal.views = s.cal.views ∧ s'.cal.infoK = s.cal.infoK
  gain : b = true → o.nbvFilter = false → ¬ (1 / 2) * (s.cal.infoK - s'.cal.infoK) < s.cal.threshold
  window : o.marginalize = true → (nbViews s.cal : Int) ≤ o.window → (nbViews s'.cal : Int) ≤ o.window

theorem nbvStep_spec {L : LoopEnv K V} {o : Opts} {s : Sess K V} {stale ts : Int}
    {r : Sess K V × Int} (h : Ran L s) (hnew : SMap.find ts s.cal.views = none)
    (hs : nbvStep L o s stale ts = .ok r) :
    ∃ b, r.2 = (if b = true then 0 else stale + 1) ∧ Step L o s ts b r.1 := by
  unfold nbvStep at hs
  obtain ⟨⟨c, b⟩, ha, hs⟩ := bind_ok hs
  obtain ⟨tc, hd, htm, hth, hcase⟩ := h.tidy.addNbvFrame hnew ha
  have hr : Ran L { s with cal := c } := .addNbvFrame ts h hnew ha
  rcases hcase with ⟨rfl, hv, hi⟩ | ⟨rfl, s1, v, p, _, _, hv, _, hg⟩
  · simp only [Bool.false_eq_true, if_false, Except.ok.injEq] at hs
    subst hs
    refine ⟨false, by simp, .track ts false hr, rfl, ⟨_, rfl, rfl⟩, fun t ht => ?_, hd, htm, hth,
      fun _ => ⟨hv, hi⟩, by simp, fun _ hw => ?_⟩
    · have ht' : (SMap.find t c.views).isSome = true := ht
      rw [hv] at ht'; exact Or.inl ht'
    · show (nbViews c : Int) ≤ _
      rw [nbViews, hv]; exact hw
  · simp only [if_true] at hs
    obtain ⟨s2, h2, hs⟩ := bind_ok hs
    obtain ⟨s3, h3, hs⟩ := bind_ok hs
    simp only [Except.ok.injEq] at hs
    subst hs
    obtain ⟨r3, w3, e1, e2, e3, e4⟩ := nbvTail_spec hr h2 h3
    have hh : ∃ k : Track K V, k.accepted = true ∧
        (trackEstimates L s3 ts true).hist = SMap.set ts k s.hist := by
      unfold trackEstimates
      rw [e2]
      exact ⟨_, rfl, rfl⟩
    refine ⟨true, by simp, .track ts true r3, ?_, hh, fun t ht => ?_, w3.data.trans hd,
      w3.timestamps.trans htm, w3.threshold.trans hth, by simp, fun _ hf => ?_, fun hm hw => ?_⟩
    · show s3.stamps ++ [ts] = _
      rw [e1]
    · have := w3.keys t ht
      simp only [hv, SMap.find_set] at this
      split_ifs at this with he
      · exact Or.inr ⟨he, rfl⟩
      · exact Or.inl this
    · show ¬ (1 / 2) * (s.cal.infoK - s3.cal.infoK) < s.cal.threshold
      rw [e3 hf]; exact hg
    · show (nbViews s3.cal : Int) ≤ _
      have := e4 hm
      have hn : nbViews c ≤ nbViews s.cal + 1 := by
        have := nbViews_le (s := c) tc (l := ts :: s.cal.views.map Prod.fst) (fun t ht => by
          rw [hv, SMap.find_set] at ht
          split_ifs at ht with he
          · simp [he]
          · exact List.mem_cons_of_mem _ (SMap.find_isSome.mp ht))
        simpa [nbViews] using this
      simp only at this
      omega

/-- A run of the loop over `l` with the given outcomes. -/
inductive Steps (L : LoopEnv K V) (o : Opts) : Sess K V → List Int → List Bool → Sess K V → Prop
  | nil (s : Sess K V) : Steps L o s [] [] s
  | cons {s s1 s' : Sess K V} {ts : Int} {b : Bool} {l : List Int} {bs : List Bool} :
      Step L o s ts b s1 → Steps L o s1 l bs s' → Steps L o s (ts :: l) (b :: bs) s'

/-- The number of rejections since the last acceptance, starting from `n`. -/
def staleAfter (n : Int) (bs : List Bool) : Int :=
  bs.foldl (fun n b => if b = true then 0 else n + 1) n

theorem nbvLoop_spec {L : LoopEnv K V} {o : Opts} : ∀ (l : List Int) (s : Sess K V) (stale : Int)
    (r : Sess K V × Int), Ran L s → l.Nodup → (∀ t ∈ l, SMap.find t s.cal.views = none) →
    nbvLoop L o l s stale = .ok r →
    ∃ bs, bs.length ≤ l.length ∧ Steps L o s (l.take bs.length) bs r.1 ∧ Ran L r.1 ∧
      (∀ k, 0 < k → k < bs.length → ¬ (o.early = true ∧ staleAfter stale (bs.take k) > o.stale)) ∧
      (bs.length = l.length ∨ (0 < bs.length ∧ o.early = true ∧ staleAfter stale bs > o.stale))
  | [], s, stale, r, h, _, _, hs => by
    simp only [nbvLoop, Except.ok.injEq] at hs
    subst hs
    exact ⟨[], by simp, .nil s, h, by simp, by simp⟩
  | ts :: l, s, stale, r, h, hnd, hnew, hs => by
    unfold nbvLoop at hs
    obtain ⟨⟨s1, st1⟩, h1, hs⟩ := bind_ok hs
    obtain ⟨b, hb, hst⟩ := nbvStep_spec h (hnew ts (by simp)) h1
    simp only at hb hst hs
    rw [List.nodup_cons] at hnd
    split_ifs at hs with hc
    · simp only [Except.ok.injEq] at hs
      subst hs
      refine ⟨[b], by simp, .cons hst (.nil _), hst.ran, ?_, Or.inr ⟨by simp, hc.1, ?_⟩⟩
      · intro k h1 h2
        simp only [List.length_singleton] at h2
        omega
      · show staleAfter stale [b] > o.stale
        simp only [staleAfter, List.foldl_cons, List.foldl_nil]
        rw [← hb]; exact hc.2
    · have hnew' : ∀ t ∈ l, SMap.find t s1.cal.views = none := by
        intro t ht
        by_contra hne
        have : (SMap.find t s1.cal.views).isSome = true := by
          rw [Option.isSome_iff_ne_none]; exact hne
        rcases hst.keys t this with h2 | ⟨rfl, _⟩
        · rw [hnew t (by simp [ht])] at h2; simp at h2
        · exact hnd.1 ht
      obtain ⟨bs, k1, k2, k3, k4, k5⟩ := nbvLoop_spec l s1 st1 r hst.ran hnd.2 hnew' hs
      have hsa : ∀ bs, staleAfter stale (b :: bs) = staleAfter st1 bs := by
        intro bs
        simp only [staleAfter, List.foldl_cons]
        rw [hb]
      refine ⟨b :: bs, by simp only [List.length_cons]; omega, ?_, k3, ?_, ?_⟩
      · rw [List.length_cons, List.take_succ_cons]; exact .cons hst k2
      · intro k hk1 hk2
        cases k with
        | zero => omega
        | succ k =>
          rw [List.take_succ_cons, hsa]
          cases k with
          | zero =>
            simp only [List.take_zero, staleAfter, List.foldl_nil]
            exact hc
          | succ k => exact k4 (k + 1) (by omega) (by simp only [List.length_cons] at hk2; omega)
      · rw [List.length_cons, List.length_cons, hsa]
        rcases k5 with k5 | ⟨k5, k6, k7⟩
        · exact Or.inl (by omega)
        · exact Or.inr ⟨by omega, k6, k7⟩

/-! ## The order of the views -/

/-- The frames whose pose can be estimated, with the poses, in order of time. -/
def posed (L : LoopEnv K V) (s : Cal K V) (data : List (Int × List (Int × Grid K))) :
    List (Int × V) :=
  data.filterMap (fun tg => match framePose L s tg.2 with
    | .ok (some T) => some (tg.1, T)
    | _ => none)

theorem motionFold {L : LoopEnv K V} {s : Cal K V} :
    ∀ (data : List (Int × List (Int × Grid K))) (acc out : List (Int × V) × List Int),
    data.foldlM (motionFrame L s) acc = .ok out →
    out = (acc.1 ++ posed L s data, acc.2 ++ data.map (fun tg => frameTags tg.2)) ∧
      ∀ tg ∈ data, ∃ o, framePose L s tg.2 = .ok o
  | [], acc, out, h => by
    simp only [List.foldlM_nil, AprilGrid.pure_eq_ok, Except.ok.injEq] at h
    subst h
    simp [posed]
  | tg :: data, acc, out, h => by
    rw [List.foldlM_cons] at h
    obtain ⟨a1, h1, h2⟩ := bind_ok h
    unfold motionFrame at h1
    obtain ⟨o, ho, h1⟩ := bind_ok h1
    simp only [Except.ok.injEq] at h1
    obtain ⟨e, hall⟩ := motionFold data a1 out h2
    constructor
    · rw [e, ← h1]
      unfold posed
      rw [List.filterMap_cons, ho]
      cases o with
      | none => simp
      | some T => simp
    · intro x hx
      rcases List.mem_cons.mp hx with rfl | hx
      · exact ⟨o, ho⟩
      · exact hall x hx

/-- The key of the `k`-th posed frame: minus the `k`-th tag count, and the motion since the
frame before. -/
def motionKey (L : LoopEnv K V) (poses : List (Int × V)) (tags : List Int) (k : Nat) :
    Option (Int ×ₗ K ×ₗ K) :=
  match tags[k]?, poses[k - 1]?, poses[k]? with
  | some n, some p, some q => some (toLex (-n, toLex (L.moved p.2 q.2)))
  | _, _, _ => none

theorem motionPair_ok {L : LoopEnv K V} {poses : List (Int × V)} {tags : List Int}
    {m m' : List ((Int ×ₗ K ×ₗ K) × Int)} {k : Nat} (h : motionPair L poses tags m k = .ok m') :
    ∃ key q, motionKey L poses tags k = some key ∧ poses[k]? = some q ∧ m' = SMap.set key q.1 m := by
  unfold motionPair at h
  unfold motionKey
  cases h1 : tags[k]? with
  | none => rw [h1] at h; simp at h
  | some n =>
    cases h2 : poses[k - 1]? with
    | none => rw [h1, h2] at h; simp at h
    | some p =>
      cases h3 : poses[k]? with
      | none => rw [h1, h2, h3] at h; simp at h
      | some q =>
        rw [h1, h2, h3] at h
        simp only [Except.ok.injEq] at h
        exact ⟨_, q, rfl, rfl, h.symm⟩

/-- The map that the second loop builds: sorted, and the value of a key is the timestamp of
the last frame with that key. -/
theorem motionPairs {L : LoopEnv K V} {poses : List (Int × V)} {tags : List Int} :
    ∀ (ks : List Nat) (m m' : List ((Int ×ₗ K ×ₗ K) × Int)), SMap.Sorted m →
    ks.foldlM (motionPair L poses tags) m = .ok m' →
    SMap.Sorted m' ∧ (∀ k ∈ ks, ∃ key q, motionKey L poses tags k = some key ∧ poses[k]? = some q) ∧
    ∀ key, SMap.find key m' = ((ks.reverse.find? (fun k => decide (motionKey L poses tags k = some key))).bind
      (fun k => (poses[k]?).map Prod.fst)).or (SMap.find key m)
  | [], m, m', hm, h => by
    simp only [List.foldlM_nil, AprilGrid.pure_eq_ok, Except.ok.injEq] at h
    subst h
    simp [hm]
  | k :: ks, m, m', hm, h => by
    rw [List.foldlM_cons] at h
    obtain ⟨m1, h1, h2⟩ := bind_ok h
    obtain ⟨key, q, hk, hq, rfl⟩ := motionPair_ok h1
    obtain ⟨i1, i2, i3⟩ := motionPairs ks _ m' (SMap.set_sorted _ _ _ hm) h2
    refine ⟨i1, ?_, fun x => ?_⟩
    · intro j hj
      rcases List.mem_cons.mp hj with rfl | hj
      · exact ⟨key, q, hk, hq⟩
      · exact i2 j hj
    · rw [i3 x, SMap.find_set, List.reverse_cons, List.find?_append]
      cases hf : ks.reverse.find? (fun k => decide (motionKey L poses tags k = some x)) with
      | some j =>
        have hj : j ∈ ks := by
          have := List.mem_of_find?_eq_some hf
          simpa using this
        obtain ⟨_, qj, _, hqj⟩ := i2 j hj
        simp [hqj]
      | none =>
        by_cases hx : key = x
        · subst hx
          simp [hk, hq]
        · simp [hk, hx, Ne.symm hx]

end Yac.Calib
