import Verif.Calib.LoopOps

namespace Yac.Calib

open Yac.AprilGrid (Grid Meas Row MadeBy)
open Yac.Solver (CBook)

variable {K V : Type} [Field K] [LinearOrder K]

/-- `T` is `s` with other values, possibly another view at `ts`, and the estimates of `s`
cached. -/
structure Kin (s T : Cal K V) (ts : Int) : Prop where
  params : ∀ i, (SMap.find i T.params).map CamP.fixed = (SMap.find i s.params).map CamP.fixed
  exts : ∀ i, (SMap.find i T.exts).map CamP.fixed = (SMap.find i s.exts).map CamP.fixed
  poses : ∀ t, t ≠ ts → (SMap.find t T.poses).map PoseObj.id = (SMap.find t s.poses).map PoseObj.id
  views : ∀ t, t ≠ ts → SMap.find t T.views = SMap.find t s.views
  ptmp : T.posesTmp = (cacheEstimates s).posesTmp
  ctmp : T.paramsTmp = (cacheEstimates s).paramsTmp
  etmp : T.extsTmp = (cacheEstimates s).extsTmp
  rows : T.rows = s.rows
  cols : T.cols = s.cols
  data : T.data = s.data
  timestamps : T.timestamps = s.timestamps
  marg : T.marg = s.marg
  infoK : T.infoK = s.infoK
  entropyK : T.entropyK = s.entropyK
  threshold : T.threshold = s.threshold

/-- Everything but the view at `ts` is as before, and a pose at `ts` has the value it had. -/
structure Frame (s s' : Cal K V) (ts : Int) : Prop where
  params : s'.params = s.params
  exts : s'.exts = s.exts
  poses : ∀ t, t ≠ ts → SMap.find t s'.poses = SMap.find t s.poses
  pose : ∀ p', SMap.find ts s'.poses = some p' → ∃ p, SMap.find ts s.poses = some p ∧ p'.val = p.val
  views : ∀ t, t ≠ ts → SMap.find t s'.views = SMap.find t s.views
  rows : s'.rows = s.rows
  cols : s'.cols = s.cols
  data : s'.data = s.data
  timestamps : s'.timestamps = s.timestamps
  marg : s'.marg = s.marg
  infoK : s'.infoK = s.infoK
  entropyK : s'.entropyK = s.entropyK
  threshold : s'.threshold = s.threshold

theorem Kin.solve {s T : Cal K V} {ts : Int} (h : Kin s T ts) (env : Env K V) :
    Kin s (Calib.solve env T) ts := by
  refine ⟨fun i => ?_, fun i => ?_, fun t ht => ?_, h.views, h.ptmp, h.ctmp, h.etmp, h.rows, h.cols,
    h.data, h.timestamps, h.marg, h.infoK, h.entropyK, h.threshold⟩
  · rw [← h.params i]
    simp only [Calib.solve]
    rw [find_revalue_params (f := fun i p => if T.solver.hasParam (.cam i) then env.solve T (.cam i) else p.val),
      Option.map_map]
    rfl
  · rw [← h.exts i]
    simp only [Calib.solve]
    rw [find_revalue_params (f := fun i p => if T.solver.hasParam (.ext i) then env.solve T (.ext i) else p.val),
      Option.map_map]
    rfl
  · rw [← h.poses t ht]
    simp only [Calib.solve]
    rw [find_revalue_poses (f := fun _ p => if T.solver.hasParam (.pose p.id) then env.solve T (.pose p.id) else p.val),
      Option.map_map]
    rfl

theorem Kin.removeView {s T T' : Cal K V} {ts : Int} (h : Kin s T ts) (hw : WF T)
    (hs : Calib.removeView T ts = .ok T') : Kin s T' ts ∧ T'.views = SMap.erase ts T.views ∧
      T'.removedOutliers = T.removedOutliers := by
  obtain ⟨b, e, w⟩ := hw.removeView ts
  rw [hs] at e
  simp only [Except.ok.injEq] at e
  subst e
  refine ⟨⟨h.params, h.exts, fun t ht => ?_, fun t ht => ?_, h.ptmp, h.ctmp, h.etmp, h.rows, h.cols,
    h.data, h.timestamps, h.marg, h.infoK, h.entropyK, h.threshold⟩, rfl, rfl⟩
  · simp only [SMap.find_erase, if_neg ht]; exact h.poses t ht
  · simp only [SMap.find_erase, if_neg ht]; exact h.views t ht

theorem Kin.added {s T T' : Cal K V} {ts : Int} {v : View K} {p : PoseObj V} (h : Kin s T ts)
    (ha : Added T T' ts v p) (hd : T'.data = T.data)
    (ht : T'.posesTmp = T.posesTmp ∧ T'.paramsTmp = T.paramsTmp ∧ T'.extsTmp = T.extsTmp) :
    Kin s T' ts := by
  refine ⟨by rw [ha.params]; exact h.params, by rw [ha.exts]; exact h.exts, fun t htt => ?_,
    fun t htt => ?_, ht.1.trans h.ptmp, ht.2.1.trans h.ctmp, ht.2.2.trans h.etmp,
    ha.rows.trans h.rows, ha.cols.trans h.cols, hd.trans h.data, ha.timestamps.trans h.timestamps,
    ha.marg.trans h.marg, ha.infoK.trans h.infoK, ha.entropyK.trans h.entropyK,
    ha.threshold.trans h.threshold⟩
  · rw [ha.poses]
    split_ifs
    · exact h.poses t htt
    · rw [SMap.find_set, if_neg htt]; exact h.poses t htt
  · rw [ha.views, SMap.find_set, if_neg htt]; exact h.views t htt

/-- Restoring the estimates. -/
theorem Kin.restore {s T : Cal K V} {ts : Int} (hs : WF s) (hT : WF T) (h : Kin s T ts)
    (hp : (SMap.find ts s.poses).isSome = true) : Frame s (restoreEstimates T) ts := by
  have hval : ∀ t q, SMap.find t s.poses = some q → SMap.find t T.posesTmp = some q.val := by
    intro t q hq
    rw [h.ptmp]
    simp only [cacheEstimates]
    rw [SMap.find_map (fun _ p => PoseObj.val p) t s.poses, hq]; rfl
  refine ⟨?_, ?_, ?_, ?_, h.views, h.rows, h.cols, h.data, h.timestamps, h.marg, h.infoK,
    h.entropyK, h.threshold⟩
  · refine SMap.sorted_ext hT.restore.psorted hs.psorted (fun i => ?_)
    simp only [restoreEstimates]
    rw [find_revalue_params (f := fun i p => (SMap.find i T.paramsTmp).getD p.val)]
    have := h.params i
    cases hf : SMap.find i s.params with
    | none =>
      rw [hf] at this
      simp only [Option.map_none, Option.map_eq_none_iff] at this
      rw [this]; rfl
    | some p =>
      rw [hf] at this
      simp only [Option.map_some, Option.map_eq_some_iff] at this
      obtain ⟨q, hq, hfx⟩ := this
      rw [hq]
      have : SMap.find i T.paramsTmp = some p.val := by
        rw [h.ctmp]
        simp only [cacheEstimates]
        rw [SMap.find_map (fun _ p => CamP.val p) i s.params, hf]; rfl
      simp [this, hfx]
  · refine SMap.sorted_ext hT.restore.esorted hs.esorted (fun i => ?_)
    simp only [restoreEstimates]
    rw [find_revalue_params (f := fun i p => if (SMap.find i T.params).isSome then
      (SMap.find i T.extsTmp).getD p.val else p.val)]
    have := h.exts i
    cases hf : SMap.find i s.exts with
    | none =>
      rw [hf] at this
      simp only [Option.map_none, Option.map_eq_none_iff] at this
      rw [this]; rfl
    | some p =>
      rw [hf] at this
      simp only [Option.map_some, Option.map_eq_some_iff] at this
      obtain ⟨q, hq, hfx⟩ := this
      rw [hq]
      have hk : (SMap.find i s.params).isSome = true := by rw [hs.keys, hf]; rfl
      have hk' : (SMap.find i T.params).isSome = true := by
        rw [hT.keys, hq]; rfl
      have : SMap.find i T.extsTmp = some p.val := by
        rw [h.etmp, find_extsTmp, if_pos hk, hf]; rfl
      simp [this, hfx, hk']
  · intro t ht
    simp only [restoreEstimates]
    rw [find_revalue_poses (f := fun t p => (SMap.find t T.posesTmp).getD p.val)]
    have := h.poses t ht
    cases hf : SMap.find t s.poses with
    | none =>
      rw [hf] at this
      simp only [Option.map_none, Option.map_eq_none_iff] at this
      rw [this]; rfl
    | some p =>
      rw [hf] at this
      simp only [Option.map_some, Option.map_eq_some_iff] at this
      obtain ⟨q, hq, hfx⟩ := this
      rw [hq]
      simp [hval t p hf, hfx]
  · intro p' hp'
    simp only [restoreEstimates] at hp'
    rw [find_revalue_poses (f := fun t p => (SMap.find t T.posesTmp).getD p.val),
      Option.map_eq_some_iff] at hp'
    obtain ⟨q, hq, rfl⟩ := hp'
    obtain ⟨p, hpp⟩ := Option.isSome_iff_exists.mp hp
    exact ⟨p, hpp, by simp [hval ts p hpp]⟩

theorem Frame.refl (s : Cal K V) (ts : Int) : Frame s s ts :=
  ⟨rfl, rfl, fun _ _ => rfl, fun p h => ⟨p, h, rfl⟩, fun _ _ => rfl, rfl, rfl, rfl, rfl, rfl, rfl, rfl, rfl⟩

/-- The outliers among the residuals of a view: those beyond the threshold of any camera. -/
def outlierOf (L : LoopEnv K V) (s : Cal K V) (r : Reproj K) : Bool :=
  (camIdxs s).any (fun c => match L.resid s r with
    | some e => decide (e.1 > (L.thresh (camResiduals (L.resid s) s c)).1) ||
        decide (e.2 > (L.thresh (camResiduals (L.resid s) s c)).2)
    | none => false)

theorem outlierOf_eq {L : LoopEnv K V} {s : Cal K V} (h : WF s) (r : Reproj K) :
    (camThresholds L s).any (fun ct => isOutlier (L.resid s) ct.2 r) = outlierOf L s r := by
  unfold camThresholds outlierOf
  rw [List.any_map]
  congr 1
  funext c
  simp only [Function.comp, residualsOf_eq h, isOutlier]
  cases L.resid s r <;> rfl

/-- The corners of camera `c` that filtering leaves in a view. -/
def keptCorners (L : LoopEnv K V) (s : Cal K V) (v : View K) (c : Int) :
    List ((Int × Int) × (K × K)) :=
  (((SMap.find c v.resFns).getD []).filter (fun r => !outlierOf L s r)).map Reproj.key

/-- The view at `ts` holds exactly these corners; a view without corners may be absent. -/
def HoldsView (s : Cal K V) (ts : Int) (corners : Int → List ((Int × Int) × (K × K))) : Prop :=
  (∃ v, SMap.find ts s.views = some v ∧ ∀ c, v.camKeys c = corners c) ∨
    (SMap.find ts s.views = none ∧ ∀ c, corners c = [])

/-- The two problems `_remove_outliers` compares for the view `v` at `ts`: `s1` with the
outliers of the view removed, `s2` without the view, both solved. -/
structure Trial (L : LoopEnv K V) (s : Cal K V) (ts : Int) (v v1 : View K) (s1 s2 : Cal K V) :
    Prop where
  corners : ∀ c, v1.camKeys c = keptCorners L s v c
  kin1 : Kin s s1 ts
  kin2 : Kin s s2 ts
  tidy1 : Tidy s1
  tidy2 : Tidy s2
  views1 : s1.views = SMap.set ts v1 s.views
  views2 : s2.views = SMap.erase ts s.views
  solved1 : ∃ a, s1 = solveFew L a
  solved2 : ∃ a, s2 = solveFew L a
  removed1 : s1.removedOutliers = s.removedOutliers

/-- One iteration of `_remove_outliers`: the view at `ts` is tried, `n` outliers are counted,
and `d` views dropped. -/
def Visit (L : LoopEnv K V) (s : Cal K V) (ts : Int) (s' : Cal K V) (n d : Nat) : Prop :=
  ∃ v v1 s1 s2, SMap.find ts s.views = some v ∧ Trial L s ts v v1 s1 s2 ∧
    ((L.info s1 = none ∧ s' = s1 ∧ n = 0 ∧ d = 0) ∨
     (∃ i e, L.info s1 = some (i, e) ∧ L.info s2 = none ∧ n = 0 ∧ d = 0 ∧ Frame s s' ts ∧
        s'.removedOutliers = s.removedOutliers ∧ HoldsView s' ts v.camKeys) ∨
     (∃ i e j f, L.info s1 = some (i, e) ∧ L.info s2 = some (j, f) ∧ Frame s s' ts ∧
        (((1 / 2) * (j - i) > s.threshold ∧ n = v.all.countP (outlierOf L s) ∧ d = 0 ∧
            s'.removedOutliers = s.removedOutliers + (n : Int) ∧
            HoldsView s' ts (keptCorners L s v)) ∨
         (¬ (1 / 2) * (j - i) > s.threshold ∧ n = 0 ∧ d = 1 ∧
            s'.removedOutliers = s.removedOutliers ∧ SMap.find ts s'.views = none))))

theorem restore_removed (s : Cal K V) (n : Int) :
    restoreEstimates { s with removedOutliers := n } =
      { restoreEstimates s with removedOutliers := n } := rfl

theorem readd_spec {L : LoopEnv K V} {s s2 s' : Cal K V} {ts : Int} {v w : View K} {n : Nat}
    (h : Tidy s) (hv : SMap.find ts s.views = some v) (h2 : Tidy s2) (hk : Kin s s2 ts)
    (hv2 : SMap.find ts s2.views = none)
    (hw : TidyView s.rows s.cols (fun i => (SMap.find i s.params).isSome = true) ts w)
    (hsub : ∀ c, ∀ m ∈ w.camKeys c, m ∈ v.camKeys c)
    (hcam : ∀ c, (SMap.find c s.params).isSome = false → w.camKeys c = [])
    (hs : readd L s2 w.grids n = .ok s') :
    Tidy s' ∧ Frame s s' ts ∧ s'.removedOutliers = s2.removedOutliers + (n : Int) ∧
      HoldsView s' ts w.camKeys := by
  have hpose : (SMap.find ts s.poses).isSome = true := by rw [h.piv, hv]; rfl
  have hkn : ∀ c, (SMap.find c s2.params).isSome = (SMap.find c s.params).isSome := by
    intro c
    have := congrArg Option.isSome (hk.params c)
    simpa only [Option.isSome_map] using this
  unfold readd at hs
  obtain ⟨⟨s3, b⟩, h3, hs⟩ := bind_ok hs
  simp only [Except.ok.injEq] at hs
  subst hs
  obtain ⟨t3, d3, hcase⟩ := h2.addView (t := ts) (by rw [hk.rows, hk.cols]; exact hw.made) hw.stamp hv2
    (fun _ => by rw [hk.data]; exact h.has ts v hv)
    (by
      intro c g hg hkc m hm
      rw [hkn] at hkc
      have : m ∈ w.camKeys c := by rw [hw.meas c g hg hkc]; exact hm
      have := h.src ts v hv c m (hsub c m this)
      unfold InData at this ⊢
      rw [hk.data]; exact this) h3
  have htmp := addView_tmp h3
  have hempty : ∀ c, SMap.find c w.grids = none → w.camKeys c = [] := by
    intro c hc
    unfold View.camKeys
    cases hr : SMap.find c w.resFns with
    | none => rfl
    | some rs =>
      cases rs with
      | nil => rfl
      | cons r rs =>
        have := (hw.own c _ hr).2 (by simp)
        rw [hc] at this; simp at this
  have hkin3 : Kin s s3 ts := by
    rcases hcase with ⟨_, rfl, _⟩ | ⟨_, _, v', p, ha, _⟩
    · exact hk
    · exact hk.added ha d3 htmp
  have hrm : s3.removedOutliers = s2.removedOutliers := by
    rcases hcase with ⟨_, rfl, _⟩ | ⟨_, _, v', p, ha, _⟩
    · rfl
    · exact ha.removed
  have hkin4 : Kin s { s3 with removedOutliers := s3.removedOutliers + (n : Int) } ts := { hkin3 with }
  have t4 : Tidy { s3 with removedOutliers := s3.removedOutliers + (n : Int) } :=
    t3.of_eq { t3.wf with } (fun _ => rfl) (fun _ => rfl) rfl rfl rfl rfl
  refine ⟨t4.restore, Kin.restore h.wf t4.wf hkin4 hpose, ?_, ?_⟩
  · show s3.removedOutliers + (n : Int) = _
    rw [hrm]
  · show HoldsView (restoreEstimates s3) ts w.camKeys
    rcases hcase with ⟨_, rfl, hdet⟩ | ⟨_, _, v', p, ha, hg, _, hkeys, hnone⟩
    · refine Or.inr ⟨hv2, fun c => ?_⟩
      cases hc : SMap.find c w.grids with
      | none => exact hempty c hc
      | some g =>
        by_cases hkc : (SMap.find c s.params).isSome = true
        · rw [hw.meas c g hc hkc]
          exact gridMeas_undetected (hw.made.2 _ (SMap.mem_of_find hc)) (hdet _ (SMap.mem_of_find hc))
        · exact hcam c (by simpa using hkc)
    · refine Or.inl ⟨v', ?_, fun c => ?_⟩
      · show SMap.find ts s3.views = _
        rw [ha.views, SMap.find_set, if_pos rfl]
      · cases hc : SMap.find c w.grids with
        | none => rw [hempty c hc]; exact hnone c (Or.inl hc)
        | some g =>
          by_cases hkc : (SMap.find c s.params).isSome = true
          · rw [hw.meas c g hc hkc]
            exact hkeys c g hc (by rw [hkn]; exact hkc)
          · rw [hcam c (by simpa using hkc)]
            exact hnone c (Or.inr (by rw [hkn]; simpa using hkc))

theorem outlierStep_spec {L : LoopEnv K V} {s : Cal K V} {cnt : Nat × Nat}
    {out : Cal K V × Nat × Nat} {ts : Int} (h : Tidy s)
    (hs : outlierStep L (s, cnt) ts = .ok out) :
    Tidy out.1 ∧ ∃ n d, out.2 = (cnt.1 + d, cnt.2 + n) ∧ Visit L s ts out.1 n d := by
  unfold outlierStep at hs
  cases hv : SMap.find ts s.views with
  | none => simp only [hv] at hs; simp at hs
  | some v =>
    simp only [hv] at hs
    obtain ⟨v1, b, m, e, tF, _, _, hall, hcount, hkeys⟩ := h.filterOne (L.resid s) (camThresholds L s) hv
    simp only [outlierOf_eq h.wf] at hall hcount hkeys
    rw [e, AprilGrid.ok_bind] at hs
    simp only at hs
    -- the filtered problem
    have tA : Tidy { cacheEstimates s with views := SMap.set ts v1 s.views, solver := b } :=
      tF.of_eq { tF.wf with } (fun _ => rfl) (fun _ => rfl) rfl rfl rfl rfl
    have kA : Kin s { cacheEstimates s with views := SMap.set ts v1 s.views, solver := b } ts :=
      ⟨fun _ => rfl, fun _ => rfl, fun _ _ => rfl, fun t ht => by simp only [SMap.find_set, if_neg ht],
        rfl, rfl, rfl, rfl, rfl, rfl, rfl, rfl, rfl, rfl, rfl⟩
    have t1 := tA.solve { L.toEnv with solve := L.few }
    have k1 := kA.solve { L.toEnv with solve := L.few }
    change Tidy (solveFew L _) at t1
    change Kin s (solveFew L _) ts at k1
    have hv1 : (solveFew L { cacheEstimates s with views := SMap.set ts v1 s.views, solver := b }).views =
      SMap.set ts v1 s.views := rfl
    have hr1 : (solveFew L { cacheEstimates s with views := SMap.set ts v1 s.views, solver := b }).removedOutliers =
      s.removedOutliers := rfl
    have hsol1 : ∃ a, solveFew L { cacheEstimates s with views := SMap.set ts v1 s.views, solver := b } =
      solveFew L a := ⟨_, rfl⟩
    generalize solveFew L { cacheEstimates s with views := SMap.set ts v1 s.views, solver := b } = s1
      at hs t1 k1 hv1 hr1 hsol1
    -- the problem without the view
    obtain ⟨s2, e2⟩ : ∃ s2, Calib.removeView s1 ts = .ok s2 := by
      obtain ⟨b2, e2, _⟩ := t1.wf.removeView ts
      exact ⟨_, e2⟩
    obtain ⟨k2, hv2, hr2⟩ := k1.removeView t1.wf e2
    have t2 := t1.removeView e2
    have k3 := k2.solve { L.toEnv with solve := L.few }
    have t3 := t2.solve { L.toEnv with solve := L.few }
    change Tidy (solveFew L _) at t3
    change Kin s (solveFew L _) ts at k3
    rw [e2] at hs
    simp only [AprilGrid.ok_bind] at hs
    have hv3 : (solveFew L s2).views = SMap.erase ts s.views := by
      show s2.views = _
      rw [hv2, hv1]
      exact erase_set_same _ _ _ h.wf.viewsSorted
    have hr3 : (solveFew L s2).removedOutliers = s.removedOutliers := by
      show s2.removedOutliers = _
      rw [hr2, hr1]
    have htrial : Trial L s ts v v1 s1 (solveFew L s2) :=
      ⟨hkeys, k1, k3, t1, t3, hv1, hv3, hsol1, ⟨_, rfl⟩, hr1⟩
    have hgone : SMap.find ts (solveFew L s2).views = none := by
      rw [hv3, SMap.find_erase, if_pos rfl]
    have hth : (solveFew L s2).threshold = s.threshold := k3.threshold
    have hvT : TidyView s.rows s.cols (fun i => (SMap.find i s.params).isSome = true) ts v :=
      h.views ts v hv
    have hv1T : TidyView s.rows s.cols (fun i => (SMap.find i s.params).isSome = true) ts v1 :=
      tF.views ts v1 (by simp [SMap.find_set])
    have hcamv : ∀ c, (SMap.find c s.params).isSome = false → v.camKeys c = [] := by
      intro c hc
      unfold View.camKeys
      cases hr : SMap.find c v.resFns with
      | none => rfl
      | some rs =>
        have := (h.wf.views ts v hv).2.2.cams c rs hr
        rw [hc] at this; simp at this
    have hsub1 : ∀ c, ∀ m ∈ v1.camKeys c, m ∈ v.camKeys c := by
      intro c m hm
      rw [hkeys] at hm
      obtain ⟨r, hr, rfl⟩ := List.mem_map.mp hm
      exact List.mem_map.mpr ⟨r, (List.mem_filter.mp hr).1, rfl⟩
    have hcam1 : ∀ c, (SMap.find c s.params).isSome = false → v1.camKeys c = [] := by
      intro c hc
      rw [List.eq_nil_iff_forall_not_mem]
      intro x hx
      have := hsub1 c x hx
      rw [hcamv c hc] at this; simp at this
    generalize solveFew L s2 = s3 at hs htrial hgone hth k3 t3 hr3
    cases hi : L.info s1 with
    | none =>
      simp only [hi, Except.ok.injEq] at hs
      subst hs
      exact ⟨t1, 0, 0, by simp, v, v1, s1, s3, hv, htrial, Or.inl ⟨hi, rfl, rfl, rfl⟩⟩
    | some ie =>
      obtain ⟨i, en⟩ := ie
      simp only [hi] at hs
      unfold settleView at hs
      cases hj : L.info s3 with
      | none =>
        simp only [hj] at hs
        obtain ⟨s4, h4, hs⟩ := bind_ok hs
        simp only [Except.ok.injEq] at hs
        subst hs
        obtain ⟨t4, f4, r4, hh⟩ := readd_spec h hv t3 k3 hgone hvT (fun _ _ h => h) hcamv h4
        refine ⟨t4, 0, 0, by simp, v, v1, s1, s3, hv, htrial, Or.inr (Or.inl ⟨i, en, hi, hj, rfl, rfl, f4, ?_, hh⟩)⟩
        rw [r4, hr3]; simp
      | some jf =>
        obtain ⟨j, f⟩ := jf
        simp only [hj, hth] at hs
        by_cases hgain : (1 / 2) * (j - i) > s.threshold
        · rw [if_pos hgain] at hs
          obtain ⟨s4, h4, hs⟩ := bind_ok hs
          simp only [Except.ok.injEq] at hs
          subst hs
          obtain ⟨t4, f4, r4, hh⟩ := readd_spec h hv t3 k3 hgone hv1T hsub1 hcam1 h4
          refine ⟨t4, m, 0, by simp, v, v1, s1, s3, hv, htrial, Or.inr (Or.inr ⟨i, en, j, f, hi, hj, f4,
            Or.inl ⟨hgain, hcount, rfl, by rw [r4, hr3], ?_⟩⟩)⟩
          rcases hh with ⟨w, hw1, hw2⟩ | ⟨hw1, hw2⟩
          · exact Or.inl ⟨w, hw1, fun c => (hw2 c).trans (hkeys c)⟩
          · exact Or.inr ⟨hw1, fun c => (hkeys c).symm.trans (hw2 c)⟩
        · rw [if_neg hgain] at hs
          simp only [Except.ok.injEq] at hs
          subst hs
          refine ⟨t3.restore, 0, 1, by simp, v, v1, s1, s3, hv, htrial, Or.inr (Or.inr ⟨i, en, j, f, hi, hj,
            Kin.restore h.wf t3.wf k3 (by rw [h.piv, hv]; rfl), Or.inr ⟨hgain, rfl, rfl, hr3, hgone⟩⟩)⟩

end Yac.Calib
