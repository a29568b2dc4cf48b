import Verif.Calib.NbvLoopProps

/-!
# C82: batch and incremental calibration
-/

namespace Yac.Calib

open Yac.AprilGrid (Grid)

variable {K V : Type} [Field K] [LinearOrder K]

instance (s : Cal K V) (ts : Int) : Decidable (Seen s ts) :=
  decidable_of_iff (((SMap.find ts s.data).getD []).any (fun cg => cg.2.detected) = true) (by
    unfold Seen
    cases SMap.find ts s.data with
    | none => simp
    | some gs => simp)

/-- The timestamps at which something was detected, in order of time. -/
def seen (s : Cal K V) : List Int := s.timestamps.filter (fun t => decide (Seen s t))

theorem viewStamp_data {s : Cal K V} (h : ∀ ts gs, SMap.find ts s.data = some gs →
      ∀ cg ∈ gs, cg.2.timestamp = ts) (t : Int) :
    viewStamp ((SMap.find t s.data).getD []) = if Seen s t then some t else none := by
  have hst : ∀ cg ∈ (SMap.find t s.data).getD [], cg.2.timestamp = t := by
    cases hf : SMap.find t s.data with
    | none => simp
    | some gs => exact h t gs hf
  have hse : Seen s t ↔ ∃ cg ∈ (SMap.find t s.data).getD [], cg.2.detected = true := by
    unfold Seen
    cases SMap.find t s.data with
    | none => simp
    | some gs => simp
  rcases viewStamp_cases hst with ⟨h1, h2⟩ | ⟨h1, h2⟩
  · rw [h1, if_neg]
    rw [hse]
    rintro ⟨cg, hcg, hd⟩
    rw [h2 cg hcg] at hd; simp at hd
  · rw [h1, if_pos (hse.mpr h2)]

/-! ## Batch -/

/-- The view at `t` consists of all corners that calibrated cameras saw at `t`. -/
def AllCorners (s : Cal K V) (t : Int) (v : View K) : Prop :=
  v.grids = (SMap.find t s.data).getD [] ∧
  (∀ c g, SMap.find c ((SMap.find t s.data).getD []) = some g →
    (SMap.find c s.params).isSome = true → v.camKeys c = gridMeas g) ∧
  ∀ c, (SMap.find c ((SMap.find t s.data).getD []) = none ∨
    (SMap.find c s.params).isSome = false) → v.camKeys c = []

theorem seen_congr {s s' : Cal K V} (h : s'.data = s.data) (t : Int) : Seen s' t ↔ Seen s t := by
  unfold Seen; rw [h]

theorem batchFold {L : LoopEnv K V} (x : Sess K V) : ∀ (l : List Int) (s out : Cal K V),
    Ran L { x with cal := s } → l.Nodup → (∀ t ∈ l, SMap.find t s.views = none) →
    l.foldlM (fun (s : Cal K V) ts =>
      addView L.toEnv s ((SMap.find ts s.data).getD []) >>= fun r => .ok r.1) s = .ok out →
    Ran L { x with cal := out } ∧ out.data = s.data ∧ out.params = s.params ∧ out.exts = s.exts ∧
      out.timestamps = s.timestamps ∧ out.marg = s.marg ∧
      (∀ t, t ∈ l → Seen s t → ∃ v, SMap.find t out.views = some v ∧ AllCorners s t v) ∧
      (∀ t, ¬ (t ∈ l ∧ Seen s t) → SMap.find t out.views = SMap.find t s.views)
  | [], s, out, h, _, _, hs => by
    simp only [List.foldlM_nil, AprilGrid.pure_eq_ok, Except.ok.injEq] at hs
    subst hs
    exact ⟨h, rfl, rfl, rfl, rfl, rfl, by simp, fun _ _ => rfl⟩
  | ts :: l, s, out, h, hnd, hnew, hs => by
    rw [List.foldlM_cons] at hs
    obtain ⟨s1, h1', hs'⟩ := bind_ok hs
    clear hs
    have hs := hs'
    clear hs'
    obtain ⟨⟨s1', b⟩, h1, e1⟩ := bind_ok h1'
    clear h1'
    simp only [Except.ok.injEq] at e1
    subst e1
    rw [List.nodup_cons] at hnd
    have t0 : Tidy s := h.tidy
    have r1 : Ran L { x with cal := s1' } := .addFrame (s := { x with cal := s }) ts h (hnew ts (by simp)) h1
    obtain ⟨_, d1, hcase⟩ := t0.addFrame (hnew ts (by simp)) h1
    rcases hcase with ⟨_, rfl, hno⟩ | ⟨_, hyes, v, p, ha, hg, hp, hk1, hk2⟩
    · obtain ⟨i1, i2, i3, i4, i5, i6, i7, i8⟩ := batchFold x l s1' out r1 hnd.2
        (fun t ht => hnew t (by simp [ht])) hs
      have hns : ¬ Seen s1' ts := by
        rintro ⟨gs, hgs, cg, hcg, hd⟩
        have := hno cg (by rw [hgs]; exact hcg)
        rw [this] at hd; simp at hd
      refine ⟨i1, i2, i3, i4, i5, i6, ?_, ?_⟩
      · intro t ht hse
        rcases List.mem_cons.mp ht with rfl | ht
        · exact absurd hse hns
        · exact i7 t ht hse
      · intro t ht
        exact i8 t (fun hc => ht ⟨by simp [hc.1], hc.2⟩)
    · have hnew' : ∀ t ∈ l, SMap.find t s1'.views = none := by
        intro t ht
        rw [ha.views, SMap.find_set, if_neg (by rintro rfl; exact hnd.1 ht)]
        exact hnew t (by simp [ht])
      obtain ⟨i1, i2, i3, i4, i5, i6, i7, i8⟩ := batchFold x l s1' out r1 hnd.2 hnew' hs
      refine ⟨i1, i2.trans d1, i3.trans ha.params, i4.trans ha.exts, i5.trans ha.timestamps,
        i6.trans ha.marg, ?_, ?_⟩
      · intro t ht hse
        rcases List.mem_cons.mp ht with rfl | ht
        · refine ⟨v, ?_, hg, hk1, hk2⟩
          rw [i8 t (fun hc => hnd.1 hc.1), ha.views, SMap.find_set, if_pos rfl]
        · obtain ⟨w, hw, hc⟩ := i7 t ht ((seen_congr d1 t).mpr hse)
          refine ⟨w, hw, ?_⟩
          unfold AllCorners at hc ⊢
          rw [d1, ha.params] at hc
          exact hc
      · intro t ht
        have hst : Seen s ts := by
          obtain ⟨cg, hcg, hd⟩ := hyes
          cases hf : SMap.find ts s.data with
          | none => rw [hf] at hcg; simp at hcg
          | some gs => rw [hf] at hcg; exact ⟨gs, hf, cg, hcg, hd⟩
        have hne : t ≠ ts := by rintro rfl; exact ht ⟨by simp, hst⟩
        rw [i8 t (fun hc => ht ⟨by simp [hc.1], (seen_congr d1 t).mp hc.2⟩), ha.views, SMap.find_set,
          if_neg hne]

theorem Blank.stamps_nodup {s : Cal K V} (h : Blank s) : s.timestamps.Nodup :=
  h.sorted.imp (fun h => ne_of_lt h)

/-- C82: batch calibration makes a view of every recorded frame in which something was
detected, with every corner that a calibrated camera saw, and no other view, and then
solves once; the problem is consistent (`C80_sound`). -/
theorem C82_batch (L : LoopEnv K V) {s s' : Cal K V} (h : Loaded s) (hs : solveBatch L s = .ok s') :
    Ran L ⟨s', [], true, [], []⟩ ∧
    (∀ t, Seen s t → ∃ v, SMap.find t s'.views = some v ∧ AllCorners s t v) ∧
    (∀ t, ¬ Seen s t → SMap.find t s'.views = none) ∧
    s'.data = s.data ∧
    ∃ c, s' = solveFinal L c ∧ c.params = s.params ∧ c.exts = s.exts ∧ c.views = s'.views := by
  unfold solveBatch at hs
  obtain ⟨c, h1, hs⟩ := bind_ok hs
  simp only [Except.ok.injEq] at hs
  subst hs
  have hb := h.blank
  obtain ⟨i1, i2, i3, i4, _, _, i7, i8⟩ := batchFold ⟨s, [], true, [], []⟩ s.timestamps s c (.loaded h)
    hb.stamps_nodup (fun t _ => by rw [hb.views]; rfl) h1
  refine ⟨.solve _ i1, fun t ht => ?_, fun t ht => ?_, i2, c, rfl, i3, i4, rfl⟩
  · have hm : t ∈ s.timestamps := by
      rw [hb.stamps]
      obtain ⟨gs, hg, _⟩ := ht
      rw [hg]; rfl
    exact i7 t hm ht
  · show SMap.find t c.views = none
    rw [i8 t (fun hc => ht hc.2), hb.views]; rfl

theorem batch_ok {L : LoopEnv K V} (x : Sess K V) : ∀ (l : List Int) (s : Cal K V),
    Ran L { x with cal := s } → l.Nodup → (∀ t ∈ l, SMap.find t s.views = none) →
    (∀ t gs, SMap.find t s.data = some gs → ∀ cg ∈ gs, ∀ p, SMap.find cg.1 s.params = some p →
      (L.estimate cg.2 p.val).isSome = true) →
    (∀ t gs, SMap.find t s.data = some gs → ∀ cg ∈ gs, (SMap.find cg.1 s.params).isSome = true) →
    ∃ out, l.foldlM (fun (s : Cal K V) ts =>
      addView L.toEnv s ((SMap.find ts s.data).getD []) >>= fun r => .ok r.1) s = .ok out
  | [], s, _, _, _, _, _ => ⟨s, rfl⟩
  | ts :: l, s, h, hnd, hnew, hest, hkn => by
    rw [List.nodup_cons] at hnd
    have t0 : Tidy s := h.tidy
    rw [List.foldlM_cons]
    have hadd : ∃ s1 b, addView L.toEnv s ((SMap.find ts s.data).getD []) = .ok (s1, b) := by
      by_cases hse : Seen s ts
      · obtain ⟨gs, hg, cg, hcg, hd⟩ := hse
        have hdt := t0.data ts gs hg
        obtain ⟨s1, h1⟩ := addView_ok (env := L.toEnv) (grids := gs) t0.wf hdt.1.1 hdt.1.2 (hest ts gs hg)
          ⟨cg, hcg, hd, hkn ts gs hg cg hcg⟩
        exact ⟨s1, true, by rw [hg]; exact h1⟩
      · refine ⟨s, false, ?_⟩
        unfold addView
        rw [viewStamp_data (fun t gs hg => (t0.data t gs hg).2), if_neg hse]
    obtain ⟨s1, b, h1⟩ := hadd
    rw [h1, AprilGrid.ok_bind, AprilGrid.ok_bind]
    have r1 : Ran L { x with cal := s1 } := .addFrame (s := { x with cal := s }) ts h (hnew ts (by simp)) h1
    obtain ⟨_, d1, hcase⟩ := t0.addFrame (hnew ts (by simp)) h1
    have hpar : s1.params = s.params := by
      rcases hcase with ⟨_, rfl, _⟩ | ⟨_, _, v, p, ha, _⟩
      · rfl
      · exact ha.params
    refine batch_ok x l s1 r1 hnd.2 ?_ (by rw [d1, hpar]; exact hest) (by rw [d1, hpar]; exact hkn)
    intro t ht
    rcases hcase with ⟨_, rfl, _⟩ | ⟨_, _, v, p, ha, _⟩
    · exact hnew t (by simp [ht])
    · rw [ha.views, SMap.find_set, if_neg (by rintro rfl; exact hnd.1 ht)]
      exact hnew t (by simp [ht])

/-- C82: batch calibration does not abort if every camera of the data is known and the poses
can be estimated. -/
theorem C82_batch_ok (L : LoopEnv K V) {s : Cal K V} (h : Loaded s)
    (hest : ∀ t gs, SMap.find t s.data = some gs → ∀ cg ∈ gs, ∀ p,
      SMap.find cg.1 s.params = some p → (L.estimate cg.2 p.val).isSome = true)
    (hkn : ∀ t gs, SMap.find t s.data = some gs → ∀ cg ∈ gs,
      (SMap.find cg.1 s.params).isSome = true) : ∃ s', solveBatch L s = .ok s' := by
  have hb := h.blank
  obtain ⟨c, hc⟩ := batch_ok ⟨s, [], true, [], []⟩ s.timestamps s (.loaded h) hb.stamps_nodup
    (fun t _ => by rw [hb.views]; rfl) hest hkn
  unfold solveBatch
  rw [hc, AprilGrid.ok_bind]
  exact ⟨_, rfl⟩

theorem addView_data {env : Env K V} {s s' : Cal K V} {grids : List (Int × Grid K)} {b : Bool}
    (hd : ∀ ts, viewStamp grids = some ts → (SMap.find ts s.data).isSome = true)
    (hs : addView env s grids = .ok (s', b)) : s'.data = s.data ∧ s'.timestamps = s.timestamps := by
  unfold addView at hs
  cases hst : viewStamp grids with
  | none =>
    rw [hst] at hs
    simp only [Except.ok.injEq, Prod.mk.injEq] at hs
    rw [← hs.1]; exact ⟨rfl, rfl⟩
  | some ts =>
    rw [hst] at hs
    simp only at hs
    have he : ensureData s ts grids = s := by
      unfold ensureData; rw [if_pos (hd ts hst)]
    rw [he] at hs
    obtain ⟨s1, h1, hs⟩ := bind_ok hs
    have e1 : s1.data = s.data ∧ s1.timestamps = s.timestamps := by
      unfold ensurePose addPose at h1
      split_ifs at h1
      · simp only [Except.ok.injEq] at h1
        rw [← h1]; exact ⟨rfl, rfl⟩
      · simp only at h1
        split at h1
        · simp at h1
        · split at h1
          · simp at h1
          · split at h1
            · simp at h1
            · simp only [Except.ok.injEq] at h1
              rw [← h1]; exact ⟨rfl, rfl⟩
    cases hp : SMap.find ts s1.poses with
    | none => rw [hp] at hs; simp at hs
    | some p =>
      rw [hp] at hs
      simp only [attachView] at hs
      obtain ⟨out, _, hs⟩ := bind_ok hs
      simp only [Except.ok.injEq, Prod.mk.injEq] at hs
      rw [← hs.1]
      have : (ensureParam s1 p).data = s1.data ∧ (ensureParam s1 p).timestamps = s1.timestamps := by
        unfold ensureParam; split_ifs <;> exact ⟨rfl, rfl⟩
      exact ⟨this.1.trans e1.1, this.2.trans e1.2⟩

theorem batch_viewTs {L : LoopEnv K V} : ∀ (l : List Int) (s out : Cal K V),
    (∀ ts gs, SMap.find ts s.data = some gs → ∀ cg ∈ gs, cg.2.timestamp = ts) →
    l.foldlM (fun (s : Cal K V) ts =>
      addView L.toEnv s ((SMap.find ts s.data).getD []) >>= fun r => .ok r.1) s = .ok out →
    out.viewTs = s.viewTs ++ l.filter (fun t => decide (Seen s t))
  | [], s, out, _, hs => by
    simp only [List.foldlM_nil, AprilGrid.pure_eq_ok, Except.ok.injEq] at hs
    subst hs
    simp
  | ts :: l, s, out, hd, hs => by
    rw [List.foldlM_cons] at hs
    obtain ⟨s1, h1', hs⟩ := bind_ok hs
    obtain ⟨⟨s1', b⟩, h1, e1⟩ := bind_ok h1'
    clear h1'
    simp only [Except.ok.injEq] at e1
    subst e1
    have hvs := viewStamp_data hd ts
    obtain ⟨d1, _⟩ := addView_data (fun t ht => by
      rw [hvs] at ht
      split_ifs at ht with hse
      simp only [Option.some.injEq] at ht
      subst ht
      obtain ⟨gs, hg, _⟩ := hse
      rw [hg]; rfl) h1
    have ih := batch_viewTs l s1' out (by rw [d1]; exact hd) hs
    have hcong : (fun t => decide (Seen s1' t)) = (fun t => decide (Seen s t)) := by
      funext t
      simp only [seen_congr d1 t]
    rw [hcong] at ih
    rw [ih, List.filter_cons]
    by_cases hse : Seen s ts
    · rw [if_pos hse] at hvs
      obtain ⟨_, h2, _⟩ := addView_lists hvs h1
      rw [h2]
      simp [hse]
    · rw [if_neg hse] at hvs
      unfold addView at h1
      rw [hvs] at h1
      simp only [Except.ok.injEq, Prod.mk.injEq] at h1
      rw [← h1.1]
      simp [hse]

/-- C82 is false for a calibrator that is solved twice: every view is added again, each
timestamp is listed twice, and the list no longer tells the number of views. -/
theorem C82_twice_refuted (L : LoopEnv K V) {s s' s'' : Cal K V} (h : Loaded s)
    (hs : solveBatch L s = .ok s') (hs' : solveBatch L s' = .ok s'') :
    s''.viewTs = seen s ++ seen s ∧ (seen s ≠ [] → ¬ s''.viewTs.Nodup) := by
  obtain ⟨r1, _, _, hd, _⟩ := C82_batch L h hs
  have hb := h.blank
  have hst : ∀ ts gs, SMap.find ts s.data = some gs → ∀ cg ∈ gs, cg.2.timestamp = ts :=
    fun t gs hg => (hb.tidy.data t gs hg).2
  unfold solveBatch at hs hs'
  obtain ⟨c, h1, hs⟩ := bind_ok hs
  simp only [Except.ok.injEq] at hs
  obtain ⟨c', h1', hs'⟩ := bind_ok hs'
  simp only [Except.ok.injEq] at hs'
  have e1 := batch_viewTs _ _ _ hst h1
  have e2 := batch_viewTs _ _ _ (by rw [hd]; exact hst) h1'
  have hv0 : s.viewTs = [] := by
    have := hb.tidy.wf.tsMem
    rw [List.eq_nil_iff_forall_not_mem]
    intro t ht
    rw [this t, hb.views] at ht
    simp [SMap.find] at ht
  obtain ⟨_, _, _, _, htm, _⟩ := batchFold ⟨s, [], true, [], []⟩ s.timestamps s c (.loaded h)
    hb.stamps_nodup (fun t _ => by rw [hb.views]; rfl) h1
  have htm' : s'.timestamps = s.timestamps := by rw [← hs]; exact htm
  have hcong : (fun t => decide (Seen s' t)) = (fun t => decide (Seen s t)) := by
    funext t
    simp only [seen_congr hd t]
  have hv1 : s'.viewTs = seen s := by
    rw [← hs]
    show c.viewTs = _
    rw [e1, hv0, List.nil_append]; rfl
  have hv2 : s''.viewTs = seen s ++ seen s := by
    rw [← hs']
    show c'.viewTs = _
    rw [e2, hv1, hcong, htm']; rfl
  refine ⟨hv2, fun hne hnd => ?_⟩
  rw [hv2, List.nodup_append] at hnd
  obtain ⟨a, ha⟩ := List.exists_mem_of_ne_nil _ hne
  exact hnd.2.2 a ha a ha rfl

/-! ## Incremental -/

theorem set_last {ν : Type} (k : Int) (v : ν) : ∀ (m : List (Int × ν)), (∀ x ∈ m, x.1 < k) →
    SMap.set k v m = m ++ [(k, v)]
  | [], _ => rfl
  | (q, w) :: m, h => by
    have hq := h (q, w) (by simp)
    simp only at hq
    rw [SMap.set, if_neg (by omega), if_pos hq, set_last k v m (fun x hx => h x (by simp [hx]))]
    rfl

theorem incFold {L : LoopEnv K V} {o : Opts} (x : Sess K V) (s0 : Cal K V) :
    ∀ (l pre : List Int) (s out : Cal K V),
    Ran L { x with cal := s } → s.data = s0.data → (pre ++ l).Pairwise (· < ·) →
    s.views.map Prod.fst = (pre.filter (fun t => decide (Seen s0 t))).drop
      ((pre.filter (fun t => decide (Seen s0 t))).length - (o.window - 1).toNat) →
    (((pre.filter (fun t => decide (Seen s0 t))).length : Int) < o.window →
      s.params = s0.params ∧ s.exts = s0.exts ∧ s.marg = s0.marg) →
    l.foldlM (incStep L o) s = .ok out →
    Ran L { x with cal := out } ∧ out.data = s0.data ∧
      out.views.map Prod.fst = ((pre ++ l).filter (fun t => decide (Seen s0 t))).drop
        (((pre ++ l).filter (fun t => decide (Seen s0 t))).length - (o.window - 1).toNat) ∧
      ((((pre ++ l).filter (fun t => decide (Seen s0 t))).length : Int) < o.window →
        out.params = s0.params ∧ out.exts = s0.exts ∧ out.marg = s0.marg)
  | [], pre, s, out, h, hd, _, hv, hp, hs => by
    simp only [List.foldlM_nil, AprilGrid.pure_eq_ok, Except.ok.injEq] at hs
    subst hs
    rw [List.append_nil]
    exact ⟨h, hd, hv, hp⟩
  | ts :: l, pre, s, out, h, hd, hsort, hv, hp, hs => by
    rw [List.foldlM_cons] at hs
    obtain ⟨s1, h1', hs'⟩ := bind_ok hs
    replace hs := hs'
    clear hs'
    have t0 : Tidy s := h.tidy
    have hlt : ∀ t ∈ pre, t < ts := by
      intro t ht
      exact (List.pairwise_append.mp hsort).2.2 t ht ts (by simp)
    have hkeys : ∀ y ∈ s.views, y.1 < ts := by
      intro y hy
      have : y.1 ∈ s.views.map Prod.fst := List.mem_map_of_mem hy
      rw [hv] at this
      exact hlt _ (List.mem_filter.mp (List.mem_of_mem_drop this)).1
    have hnew : SMap.find ts s.views = none := by
      refine SMap.find_none_of_not_mem ?_
      intro hc
      obtain ⟨y, hy, he⟩ := List.mem_map.mp hc
      have := hkeys y hy
      omega
    unfold incStep at h1'
    obtain ⟨⟨s2, b⟩, h2, h1⟩ := bind_ok h1'
    clear h1'
    have r2 : Ran L { x with cal := s2 } := .addFrame (s := { x with cal := s }) ts h hnew h2
    obtain ⟨_, d2, hcase⟩ := t0.addFrame hnew h2
    have happ : pre ++ ts :: l = (pre ++ [ts]) ++ l := by simp
    rw [happ]
    rcases hcase with ⟨rfl, rfl, hno⟩ | ⟨rfl, hyes, v, p, ha, _⟩
    · rw [if_pos rfl, Except.ok.injEq] at h1
      subst h1
      have hns : ¬ Seen s0 ts := by
        rintro ⟨gs, hgs, cg, hcg, hdt⟩
        have := hno cg (by rw [hd, hgs]; exact hcg)
        rw [this] at hdt; simp at hdt
      refine incFold x s0 l (pre ++ [ts]) s2 out h hd (by rw [← happ]; exact hsort) ?_ ?_ hs
      · rw [List.filter_append]; simpa [hns] using hv
      · rw [List.filter_append]; simpa [hns] using hp
    · have hse : Seen s0 ts := by
        obtain ⟨cg, hcg, hdt⟩ := hyes
        rw [hd] at hcg
        cases hf : SMap.find ts s0.data with
        | none => rw [hf] at hcg; simp at hcg
        | some gs => rw [hf] at hcg; exact ⟨gs, hf, cg, hcg, hdt⟩
      have hfil : (pre ++ [ts]).filter (fun t => decide (Seen s0 t)) =
          pre.filter (fun t => decide (Seen s0 t)) ++ [ts] := by
        rw [List.filter_append]; simp [hse]
      have hv2 : s2.views.map Prod.fst = s.views.map Prod.fst ++ [ts] := by
        rw [ha.views, set_last ts v s.views hkeys]; simp
      have hn : (nbViews s2 : Int) = ((s.views.map Prod.fst).length : Int) + 1 := by
        have := congrArg List.length hv2
        simp only [List.length_append, List.length_singleton, List.length_map] at this
        rw [nbViews, this, List.length_map]; push_cast; rfl
      generalize hP : pre.filter (fun t => decide (Seen s0 t)) = P at hv hp hfil
      have hvl : (s.views.map Prod.fst).length = P.length - (P.length - (o.window - 1).toNat) := by
        rw [hv, List.length_drop]
      rw [if_neg (by simp)] at h1
      split_ifs at h1 with hw <;> simp only at hw
      · -- solved and marginalised
        have r3 : Ran L { x with cal := Calib.solve L.toEnv s2 } := .solve L.toEnv.solve r2
        have r4 : Ran L { x with cal := s1 } := .marginalize (s := { x with cal := Calib.solve L.toEnv s2 }) r3 h1
        obtain ⟨_, ts', v', l', hvv, hl', hdd, _⟩ := r3.tidy.marginalize h1
        have hv1 : s1.views.map Prod.fst = (s2.views.map Prod.fst).tail := by
          rw [hl']
          have : s2.views = (ts', v') :: l' := hvv
          rw [this]; rfl
        refine incFold x s0 l (pre ++ [ts]) s1 out r4 (hdd.trans (d2.trans hd))
          (by rw [← happ]; exact hsort) ?_ ?_ hs
        · rw [hfil, hv1, hv2, hv]
          have hge : (o.window - 1).toNat ≤ P.length := by omega
          rw [List.length_append, List.length_singleton, ← List.drop_append_of_le_length (by omega),
            List.tail_drop]
          congr 1
          omega
        · intro hlt'
          rw [hfil, List.length_append, List.length_singleton] at hlt'
          push_cast at hlt'
          omega
      · simp only [Except.ok.injEq] at h1
        subst h1
        refine incFold x s0 l (pre ++ [ts]) s2 out r2 (d2.trans hd)
          (by rw [← happ]; exact hsort) ?_ ?_ hs
        · rw [hfil, hv2, hv, List.length_append, List.length_singleton,
            ← List.drop_append_of_le_length (by omega)]
          congr 1
          omega
        · intro hlt'
          rw [hfil, List.length_append, List.length_singleton] at hlt'
          push_cast at hlt'
          obtain ⟨p1, p2, p3⟩ := hp (by omega)
          exact ⟨ha.params.trans p1, ha.exts.trans p2, ha.marg.trans p3⟩

/-- C82: incremental calibration ends with the views of the last `window - 1` frames in which
something was detected, and its problem is consistent (`C80_sound`). -/
theorem C82_incremental (L : LoopEnv K V) (o : Opts) {s s' : Cal K V} (h : Loaded s)
    (hs : solveInc L o s = .ok s') :
    Ran L ⟨s', [], true, [], []⟩ ∧ s'.data = s.data ∧
    s'.views.map Prod.fst = (seen s).drop ((seen s).length - (o.window - 1).toNat) ∧
    (nbViews s' : Int) < max o.window 1 := by
  have hb := h.blank
  unfold solveInc at hs
  obtain ⟨i1, i2, i3, _⟩ := incFold ⟨s, [], true, [], []⟩ s s.timestamps [] s s' (.loaded h) rfl
    (by simpa using hb.sorted) (by rw [hb.views]; simp) (fun _ => ⟨rfl, rfl, rfl⟩) hs
  rw [List.nil_append] at i3
  refine ⟨i1, i2, i3, ?_⟩
  have := congrArg List.length i3
  rw [List.length_map, List.length_drop] at this
  rw [nbViews, this]
  omega

/-- C82 is false when there are fewer frames than the window: nothing is ever solved. -/
theorem C82_unsolved_refuted (L : LoopEnv K V) (o : Opts) {s s' : Cal K V} (h : Loaded s)
    (hf : ((seen s).length : Int) < o.window) (hs : solveInc L o s = .ok s') :
    s'.params = s.params ∧ s'.exts = s.exts ∧ s'.marg = s.marg := by
  have hb := h.blank
  unfold solveInc at hs
  obtain ⟨_, _, _, i4⟩ := incFold ⟨s, [], true, [], []⟩ s s.timestamps [] s s' (.loaded h) rfl
    (by simpa using hb.sorted) (by rw [hb.views]; simp) (fun _ => ⟨rfl, rfl, rfl⟩) hs
  rw [List.nil_append] at i4
  exact i4 hf

end Yac.Calib
