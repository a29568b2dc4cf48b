import Verif.Calib.LoopRan

/-!
# C80: outlier removal between the views of a calibration

`Ran`, `Loaded`, `Visit`, `Visits`, `toVisit`, `Frame` and `HoldsView` (LoopRan.lean,
LoopVisit.lean) are the specification: histories of a calibrator, and what one call of
`_remove_outliers` does.
-/

namespace Yac.Calib

open Yac.AprilGrid (Grid)

variable {K V : Type} [Field K] [LinearOrder K]

/-- C80: whatever views were added, tried, filtered, dropped or marginalised, every corner a
view holds was recorded for that camera at that time, no corner is held twice, and views,
poses and the problem handed to the optimiser agree. -/
theorem C80_sound (L : LoopEnv K V) {s : Sess K V} (h : Ran L s) :
    (∀ ts v, SMap.find ts s.cal.views = some v → ∀ c, ((v.camKeys c).map Prod.fst).Nodup ∧
      ∀ m ∈ v.camKeys c, InData s.cal ts c m) ∧
    (∀ ts v, SMap.find ts s.cal.views = some v → v.ts = ts ∧
      ∃ p, SMap.find ts s.cal.poses = some p ∧ p.id = v.pose) ∧
    (∀ ts, (SMap.find ts s.cal.poses).isSome = (SMap.find ts s.cal.views).isSome) ∧
    s.cal.viewTs.Nodup ∧ (∀ ts, ts ∈ s.cal.viewTs ↔ (SMap.find ts s.cal.views).isSome = true) ∧
    (problemResiduals s.cal).Nodup ∧
    (∀ r, r ∈ problemResiduals s.cal ↔
      (∃ ts v x, SMap.find ts s.cal.views = some v ∧ x ∈ v.all ∧ r = .reproj x) ∨
        s.cal.marg = some r) := by
  have t := h.tidy
  obtain ⟨c1, c2, c3, c4, _, c6, c7, _⟩ := t.wf.consistent t.piv
  refine ⟨fun ts v hv c => ⟨?_, t.src ts v hv c⟩, c1, c2, c3, c4, c6, c7⟩
  have tv := t.views ts v hv
  by_cases hk : (SMap.find c s.cal.params).isSome = true
  · cases hg : SMap.find c v.grids with
    | some g => rw [tv.meas c g hg hk]; exact gridMeas_nodup g
    | none =>
      have : v.camKeys c = [] := by
        unfold View.camKeys
        cases hr : SMap.find c v.resFns with
        | none => rfl
        | some rs =>
          cases rs with
          | nil => rfl
          | cons r rs =>
            have := (tv.own c _ hr).2 (by simp)
            rw [hg] at this; simp at this
      simp [this]
  · have : v.camKeys c = [] := by
      unfold View.camKeys
      cases hr : SMap.find c v.resFns with
      | none => rfl
      | some rs => exact absurd ((t.wf.views ts v hv).2.2.cams c rs hr) hk
    simp [this]

/-- C80: a call visits all views, latest first, or the view with the largest timestamp unless
that view was visited before, and treats them one after the other as `Visit` says; only
the settings, the detections and the histories stay as they are without exception. -/
theorem C80_remove_outliers (L : LoopEnv K V) {s s' : Sess K V} {all : Bool} {n : Nat}
    (h : Ran L s) (hs : removeOutliers L s all = .ok (s', n)) :
    (all = false → s.cal.views ≠ []) ∧
    s'.filterAll = s.filterAll ∧ s'.stamps = s.stamps ∧ s'.hist = s.hist ∧
    s'.filtered = (if all = true ∨ toVisit s all = [] then s.filtered else
      setInsert ((s.cal.views.map Prod.fst).getLastD 0) s.filtered) ∧
    ∃ c d, Visits L s.cal (toVisit s all) c n d ∧
      s'.cal = if toVisit s all = [] then c else refreshInfo L c := by
  obtain ⟨_, h1, h2, h3, h4, h5, c, d, h6, _, h7⟩ := removeOutliers_spec h.tidy hs
  exact ⟨h1, h2, h3, h4, h5, c, d, h6, h7⟩

/-- What remains of the estimates and views of `s`. -/
structure Reduced (s s' : Cal K V) : Prop where
  params : s'.params = s.params
  exts : s'.exts = s.exts
  pose : ∀ t p', SMap.find t s'.poses = some p' →
    ∃ p, SMap.find t s.poses = some p ∧ p'.val = p.val
  view : ∀ t v', SMap.find t s'.views = some v' → ∃ v, SMap.find t s.views = some v ∧
    ∀ c, (v'.camKeys c).Sublist (v.camKeys c)
  data : s'.data = s.data
  timestamps : s'.timestamps = s.timestamps
  marg : s'.marg = s.marg
  threshold : s'.threshold = s.threshold

theorem Reduced.refl (s : Cal K V) : Reduced s s :=
  ⟨rfl, rfl, fun _ p h => ⟨p, h, rfl⟩, fun _ v h => ⟨v, h, fun _ => List.Sublist.refl _⟩, rfl, rfl,
    rfl, rfl⟩

theorem Reduced.trans {a b c : Cal K V} (h : Reduced a b) (h' : Reduced b c) : Reduced a c := by
  refine ⟨h'.params.trans h.params, h'.exts.trans h.exts, fun t p hp => ?_, fun t v hv => ?_,
    h'.data.trans h.data, h'.timestamps.trans h.timestamps, h'.marg.trans h.marg,
    h'.threshold.trans h.threshold⟩
  · obtain ⟨q, h1, h2⟩ := h'.pose t p hp
    obtain ⟨r, h3, h4⟩ := h.pose t q h1
    exact ⟨r, h3, h2.trans h4⟩
  · obtain ⟨q, h1, h2⟩ := h'.view t v hv
    obtain ⟨r, h3, h4⟩ := h.view t q h1
    exact ⟨r, h3, fun c => (h2 c).trans (h4 c)⟩

theorem Frame.reduced {s s' : Cal K V} {ts : Int} (h : Frame s s' ts) {v : View K}
    (hv : SMap.find ts s.views = some v)
    (hc : ∀ v', SMap.find ts s'.views = some v' → ∀ c, (v'.camKeys c).Sublist (v.camKeys c)) :
    Reduced s s' := by
  refine ⟨h.params, h.exts, fun t p hp => ?_, fun t w hw => ?_, h.data, h.timestamps, h.marg,
    h.threshold⟩
  · by_cases ht : t = ts
    · subst ht; exact h.pose p hp
    · rw [h.poses t ht] at hp; exact ⟨p, hp, rfl⟩
  · by_cases ht : t = ts
    · subst ht; exact ⟨v, hv, hc w hw⟩
    · rw [h.views t ht] at hw; exact ⟨w, hw, fun _ => List.Sublist.refl _⟩

theorem keptCorners_sublist (L : LoopEnv K V) (s : Cal K V) (v : View K) (c : Int) :
    (keptCorners L s v c).Sublist (v.camKeys c) := by
  unfold keptCorners View.camKeys
  exact List.Sublist.map _ List.filter_sublist

theorem Visit.reduced {L : LoopEnv K V} {s s' : Cal K V} {ts : Int} {n d : Nat}
    (hi : ∀ a, (L.info a).isSome = true) (h : Visit L s ts s' n d) :
    Reduced s s' ∧ s'.removedOutliers = s.removedOutliers + (n : Int) ∧
      (∀ t, t ≠ ts → SMap.find t s'.views = SMap.find t s.views) := by
  obtain ⟨v, v1, s1, s2, hv, ht, hcase⟩ := h
  have key : ∀ {cs : Int → List ((Int × Int) × (K × K))}, HoldsView s' ts cs →
      (∀ c, (cs c).Sublist (v.camKeys c)) → Frame s s' ts → Reduced s s' := by
    intro cs hh hsub hf
    refine hf.reduced hv (fun v' hv' c => ?_)
    rcases hh with ⟨w, hw, hk⟩ | ⟨hno, _⟩
    · rw [hv'] at hw
      simp only [Option.some.injEq] at hw
      subst hw
      rw [hk]; exact hsub c
    · rw [hno] at hv'; simp at hv'
  rcases hcase with ⟨h0, _⟩ | ⟨i, e, h0, h1, _⟩ | ⟨i, e, j, f, h0, h1, hf, hc⟩
  · have := hi s1; rw [h0] at this; simp at this
  · have := hi s2; rw [h1] at this; simp at this
  · refine ⟨?_, ?_, hf.views⟩
    · rcases hc with ⟨_, _, _, _, hh⟩ | ⟨_, _, _, _, hno⟩
      · exact key hh (keptCorners_sublist L s v) hf
      · exact hf.reduced hv (fun v' hv' => by rw [hno] at hv'; simp at hv')
    · rcases hc with ⟨_, _, _, hr, _⟩ | ⟨_, hn, _, hr, _⟩
      · exact hr
      · rw [hr, hn]; simp

theorem Visits.reduced {L : LoopEnv K V} {s s' : Cal K V} {l : List Int} {n d : Nat}
    (hi : ∀ a, (L.info a).isSome = true) (h : Visits L s l s' n d) :
    Reduced s s' ∧ s'.removedOutliers = s.removedOutliers + (n : Int) ∧
      (∀ t, t ∉ l → SMap.find t s'.views = SMap.find t s.views) := by
  induction h with
  | nil s => exact ⟨Reduced.refl s, by simp, fun _ _ => rfl⟩
  | @cons s s1 s' ts l n d n' d' h1 _ ih =>
    obtain ⟨r1, c1, v1⟩ := Visit.reduced hi h1
    obtain ⟨r2, c2, v2⟩ := ih
    refine ⟨r1.trans r2, by rw [c2, c1]; push_cast; ring, fun t ht => ?_⟩
    simp only [List.mem_cons, not_or] at ht
    rw [v2 t ht.2, v1 t ht.1]

/-- C80 (missing: calls during which the information cannot be computed, for which it is
false): outlier removal changes no camera parameter, extrinsic, detection, prior or pose
value; it adds no view and no corner, leaves alone every view it does not visit, and what
it reports is what it adds to the count of removed outliers. -/
theorem C80_frame_partial (L : LoopEnv K V) (hi : ∀ a, (L.info a).isSome = true)
    {s s' : Sess K V} {all : Bool} {n : Nat}
    (h : Ran L s) (hs : removeOutliers L s all = .ok (s', n)) :
    Reduced s.cal s'.cal ∧ s'.cal.removedOutliers = s.cal.removedOutliers + (n : Int) ∧
      (∀ t, t ∉ toVisit s all → SMap.find t s'.cal.views = SMap.find t s.cal.views) ∧
      (toVisit s all ≠ [] → ∃ c, L.info c = some (s'.cal.infoK, s'.cal.entropyK) ∧
        s'.cal = { c with infoK := s'.cal.infoK, entropyK := s'.cal.entropyK }) := by
  obtain ⟨_, _, _, _, _, c, d, hv, he⟩ := C80_remove_outliers L h hs
  obtain ⟨r, cn, vs⟩ := hv.reduced hi
  by_cases hl : toVisit s all = []
  · rw [if_pos hl] at he
    rw [he]
    exact ⟨r, cn, vs, fun hne => absurd hl hne⟩
  · rw [if_neg hl] at he
    obtain ⟨ie, hie⟩ := Option.isSome_iff_exists.mp (hi c)
    have he' : s'.cal = { c with infoK := ie.1, entropyK := ie.2 } := by
      rw [he, refreshInfo, hie]
    rw [he']
    exact ⟨⟨r.params, r.exts, r.pose, r.view, r.data, r.timestamps, r.marg, r.threshold⟩, cn, vs,
      fun _ => ⟨c, hie, rfl⟩⟩

/-- C80 is false for a view that is not the latest: the call made after a view was accepted
looks at the view with the largest timestamp, so any other view keeps its outliers. -/
theorem C80_last_refuted (L : LoopEnv K V) {s s' : Sess K V} {n : Nat} {t t' : Int}
    (h : Ran L s) (hlt : t < t') (ht' : (SMap.find t' s.cal.views).isSome = true)
    (hs : removeOutliers L s false = .ok (s', n)) :
    SMap.find t s'.cal.views = SMap.find t s.cal.views := by
  obtain ⟨_, _, _, _, _, c, d, hv, he⟩ := C80_remove_outliers L h hs
  have hc : SMap.find t s'.cal.views = SMap.find t c.views := by
    rw [he]
    split_ifs
    · rfl
    · obtain ⟨i, e, hr⟩ := refreshInfo_eq L c
      rw [hr]
  rw [hc]
  have hnot : t ∉ toVisit s false := by
    unfold toVisit
    simp only [Bool.false_eq_true, if_false]
    cases hl : s.cal.views.getLast? with
    | none => simp
    | some x =>
      obtain ⟨last, w⟩ := x
      have hle : t' ≤ last := by
        have hsrt := h.tidy.wf.viewsSorted
        rw [SMap.find_isSome] at ht'
        obtain ⟨y, hy, rfl⟩ := List.mem_map.mp ht'
        obtain ⟨ys, hys⟩ := List.getLast?_eq_some_iff.mp hl
        rw [hys] at hy hsrt
        rcases List.mem_append.mp hy with hy | hy
        · exact le_of_lt ((List.pairwise_append.mp hsrt).2.2 y hy (last, w) (by simp))
        · simp only [List.mem_singleton] at hy
          rw [hy]
      simp only
      split_ifs
      · simp
      · simp only [List.mem_singleton]; omega
  have key : ∀ {s c : Cal K V} {l : List Int} {n d : Nat}, Visits L s l c n d → t ∉ l →
      SMap.find t c.views = SMap.find t s.views := by
    intro s c l n d hv
    induction hv with
    | nil => intro _; rfl
    | @cons s s1 s' ts l n d n' d' h1 _ ih =>
      intro hm
      simp only [List.mem_cons, not_or] at hm
      rw [ih hm.2]
      obtain ⟨v, v1, a, b, _, ht, hcase⟩ := h1
      rcases hcase with ⟨_, rfl, _⟩ | ⟨_, _, _, _, _, _, hf, _⟩ | ⟨_, _, _, _, _, _, hf, _⟩
      · exact ht.kin1.views t hm.1
      · exact hf.views t hm.1
      · exact hf.views t hm.1
  exact key hv hnot

/-- C80 is false for a view that was the latest before: it is not looked at again, whatever
the estimates are by then. -/
theorem C80_again_refuted (L : LoopEnv K V) {s s' : Sess K V} {n : Nat} {last : Int} {v : View K}
    (hl : s.cal.views.getLast? = some (last, v)) (hf : last ∈ s.filtered)
    (hs : removeOutliers L s false = .ok (s', n)) : s' = s ∧ n = 0 := by
  unfold removeOutliers outlierStamps at hs
  simp only [Bool.false_eq_true, if_false, hl, if_pos hf, AprilGrid.ok_bind, List.foldlM_nil,
    AprilGrid.pure_eq_ok, if_true, Except.ok.injEq, Prod.mk.injEq] at hs
  exact ⟨hs.1.symm, hs.2.symm⟩

end Yac.Calib
