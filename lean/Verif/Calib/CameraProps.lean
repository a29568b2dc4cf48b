import Verif.Calib.CameraNbv
import Verif.Containers.Lemmas

/-!
Properties C51-C55 and C71-C73: the camera calibrator as a state machine.

`Env` is arbitrary throughout: every outcome of the optimiser, every information value,
every residual and every pose estimate is covered.
-/

namespace Yac.Calib

open Yac.AprilGrid (Grid Meas Row MadeBy)
open Yac.Solver (CBook insSet mem_insSet)

variable {K V : Type} [Field K] [LinearOrder K]

/-! ## Specification -/

/-- The residuals in the problem handed to the optimiser. -/
def problemResiduals (s : Cal K V) : List (Res K) := s.solver.prob.rblocks.map Prod.snd

/-- The parameters in the problem handed to the optimiser. -/
def problemParams (s : Cal K V) : List Par := s.solver.prob.pblocks

/-- Detections as the detector returns them: at most one grid per camera, every grid made by
valid calls for the calibration target. -/
def Detections (rows cols : Nat) (grids : List (Int × Grid K)) : Prop :=
  SMap.Sorted grids ∧ ∀ cg ∈ grids, ∃ ops, MadeBy rows cols ops cg.2

/-- The states of a calibrator that calls can produce.  `add_view` and `add_nbv_view` are
only called with a timestamp that is not yet a view. -/
inductive Reach (env : Env K V) : Cal K V → Prop
  | new (rows cols : Nat) (th : K) : Reach env (Cal.new rows cols th)
  | addCamera {s s' : Cal K V} (i : Int) (p e : V) (fp fe : Bool) : Reach env s →
      addCamera s i p e fp fe = .ok s' → Reach env s'
  | addCameraData {s : Cal K V} (cam : Int) (grids : List (Grid K)) : Reach env s →
      Reach env (addCameraData s cam grids)
  | addView {s s' : Cal K V} {b : Bool} (grids : List (Int × Grid K)) : Reach env s →
      Detections s.rows s.cols grids →
      (∀ ts, viewStamp grids = some ts → SMap.find ts s.views = none) →
      addView env s grids = .ok (s', b) → Reach env s'
  | addNbvView {s s' : Cal K V} {b : Bool} (grids : List (Int × Grid K)) : Reach env s →
      Detections s.rows s.cols grids →
      (∀ ts, viewStamp grids = some ts → SMap.find ts s.views = none) →
      addNbvView env s grids = .ok (s', b) → Reach env s'
  | removeView {s s' : Cal K V} (ts : Int) : Reach env s → removeView s ts = .ok s' → Reach env s'
  | removeAllViews {s s' : Cal K V} : Reach env s → removeAllViews s = .ok s' → Reach env s'
  | marginalize {s s' : Cal K V} : Reach env s → marginalize s = .ok s' → Reach env s'
  | solve {s : Cal K V} : Reach env s → Reach env (solve env s)
  | filterAllViews {s s' : Cal K V} {n : Nat} (resid : Reproj K → Option (K × K))
      (thresh : List (K × K) → K × K) : Reach env s →
      filterAllViews resid thresh s = .ok (s', n) → Reach env s'

/-! ## The invariant -/

/-- A pose for every view and no other pose. -/
def PoseIffView (s : Cal K V) : Prop :=
  ∀ t, (SMap.find t s.poses).isSome = (SMap.find t s.views).isSome

theorem addCameraData_frame (s : Cal K V) (cam : Int) (grids : List (Grid K)) :
    ∃ d t, addCameraData s cam grids = { s with data := d, timestamps := t } := by
  unfold addCameraData
  induction grids generalizing s with
  | nil => exact ⟨_, _, rfl⟩
  | cons g l ih =>
    obtain ⟨d, t, h⟩ := ih (addGrid cam s g)
    exact ⟨d, t, by rw [List.foldl_cons, h]; rfl⟩

/-- `s₁` without the view `ts`, its pose and the cached estimates, with solver `b`. -/
def withoutView (s₁ : Cal K V) (ts : Int) (b : CBook Par (Res K)) : Cal K V :=
  { s₁ with posesTmp := [], paramsTmp := [], extsTmp := [], solver := b,
            poses := SMap.erase ts s₁.poses, views := SMap.erase ts s₁.views,
            viewTs := s₁.viewTs.erase ts }

/-- The state in which `add_nbv_view` takes its decision, and the decision. -/
theorem addNbvView_spec {env : Env K V} {s s' : Cal K V} {grids : List (Int × Grid K)} {ok : Bool}
    (h : WF s) (hd : Detections s.rows s.cols grids)
    (hnew : ∀ ts, viewStamp grids = some ts → SMap.find ts s.views = none)
    (hs : addNbvView env s grids = .ok (s', ok)) :
    (viewStamp grids = none ∧ s' = s ∧ ok = false) ∨
    ∃ ts s₁ v p, viewStamp grids = some ts ∧ addView env s grids = .ok (s₁, true) ∧ WF s₁ ∧
      Added s s₁ ts v p ∧
      let s₂ := solve env (cacheEstimates s₁)
      (ok = true ∧ ∃ info ent, env.info s₂ = some (info, ent) ∧
          ¬ (1 / 2) * (s.infoK - info) < s.threshold ∧
          s' = { s₂ with infoK := info, entropyK := ent }) ∨
      (ok = false ∧ (∀ info ent, env.info s₂ = some (info, ent) →
          (1 / 2) * (s.infoK - info) < s.threshold) ∧
        ∃ b, WF s' ∧ s' = withoutView s₁ ts b) := by
  unfold addNbvView at hs
  obtain ⟨⟨s₁, ok₁⟩, h1, hs⟩ := bind_ok hs
  have hok : ∀ cg ∈ grids, GridOK cg.2 := fun cg hcg => (hd.2 cg hcg).elim fun _ h => madeBy_ok h
  rcases addView_spec h hd.1 hok hnew h1 with ⟨hst, rfl, rfl⟩ | ⟨ts, v, p, hst, rfl, hw, ha, _⟩
  · simp only [if_true, Except.ok.injEq, Prod.mk.injEq] at hs
    exact Or.inl ⟨hst, hs.1.symm, hs.2.symm⟩
  · right
    refine ⟨ts, s₁, v, p, hst, h1, hw, ha, ?_⟩
    simp only [Bool.true_eq_false, if_false] at hs
    have hlast : (solve env (cacheEstimates s₁)).viewTs.getLast? = some ts := by
      show s₁.viewTs.getLast? = some ts
      rw [ha.viewTs]; simp
    rw [hlast] at hs
    simp only at hs
    have hrej : ∀ {s'' : Cal K V} {b : Bool}, rejectView (solve env (cacheEstimates s₁)) ts = .ok (s'', b) →
        b = false ∧ ∃ b', WF s'' ∧ s'' = withoutView s₁ ts b' := by
      intro s'' b hr
      rw [rejectView, cache_solve_restore hw env] at hr
      have hw' : WF ({ s₁ with posesTmp := [], paramsTmp := [], extsTmp := [] } : Cal K V) := { hw with }
      obtain ⟨b', e, w⟩ := hw'.removeView ts
      rw [e, AprilGrid.ok_bind] at hr
      simp only [Except.ok.injEq, Prod.mk.injEq] at hr
      obtain ⟨rfl, rfl⟩ := hr
      exact ⟨rfl, b', w, rfl⟩
    have hik : (solve env (cacheEstimates s₁)).infoK = s.infoK := ha.infoK
    have hth : (solve env (cacheEstimates s₁)).threshold = s.threshold := ha.threshold
    unfold judgeView at hs
    intro s₂
    cases hi : env.info (solve env (cacheEstimates s₁)) with
    | none =>
      rw [hi] at hs
      obtain ⟨e1, e2⟩ := hrej hs
      exact Or.inr ⟨e1, by intro a b hab; simp at hab, e2⟩
    | some ie =>
      obtain ⟨info, ent⟩ := ie
      rw [hi] at hs
      simp only at hs
      by_cases hg : (1 / 2) * (s.infoK - info) < s.threshold
      · rw [if_pos (by rw [hik, hth]; exact hg)] at hs
        obtain ⟨e1, e2⟩ := hrej hs
        refine Or.inr ⟨e1, ?_, e2⟩
        intro a b hab
        simp only [Option.some.injEq, Prod.mk.injEq] at hab
        rw [← hab.1]; exact hg
      · rw [if_neg (by rw [hik, hth]; exact hg)] at hs
        simp only [Except.ok.injEq, Prod.mk.injEq] at hs
        exact Or.inl ⟨hs.2.symm, info, ent, rfl, hg, hs.1.symm⟩

theorem find_isSome_map {ν : Type} (f : Int → ν → ν) (m : List (Int × ν)) (t : Int) :
    (SMap.find t (m.map (fun x => (x.1, f x.1 x.2)))).isSome = (SMap.find t m).isSome := by
  induction m with
  | nil => rfl
  | cons x m ih => by_cases h : x.1 = t <;> simp_all [SMap.find]

theorem solve_poses (env : Env K V) (s : Cal K V) (t : Int) :
    (SMap.find t (solve env s).poses).isSome = (SMap.find t s.poses).isSome :=
  find_isSome_map (fun _ (p : PoseObj V) => { p with
      val := if s.solver.hasParam (.pose p.id) then env.solve s (.pose p.id) else p.val }) s.poses t

theorem filteredViews_keys {out : Reproj K → Bool} : ∀ {l l' : List (Int × View K)},
    FilteredViews out l l' → ∀ t, (SMap.find t l').isSome = (SMap.find t l).isSome
  | [], [], _, _ => rfl
  | (t, v) :: l, (t', v') :: l', h, x => by
    obtain ⟨rfl, _, _, _, h⟩ := h
    have := filteredViews_keys h x
    by_cases hx : t' = x <;> simp_all [SMap.find]
  | [], _ :: _, h, _ => h.elim
  | _ :: _, [], h, _ => h.elim

theorem Reach.wf {env : Env K V} {s : Cal K V} (h : Reach env s) : WF s ∧ PoseIffView s := by
  induction h with
  | new rows cols th => exact ⟨WF.new rows cols th, fun t => rfl⟩
  | addCamera i p e fp fe _ hs ih =>
    refine ⟨ih.1.addCamera hs, ?_⟩
    unfold Calib.addCamera at hs
    split_ifs at hs
    simp only [Except.ok.injEq] at hs
    subst hs
    exact ih.2
  | @addCameraData s cam grids _ ih =>
    obtain ⟨d, t, e⟩ := addCameraData_frame s cam grids
    rw [e]
    exact ⟨{ ih.1 with }, ih.2⟩
  | addView grids _ hd hnew hs ih =>
    rcases addView_spec ih.1 hd.1 (fun cg hcg => (hd.2 cg hcg).elim fun _ h => madeBy_ok h) hnew hs
      with ⟨_, rfl, _⟩ | ⟨ts, v, p, _, _, hw, ha, _⟩
    · exact ih
    · refine ⟨hw, fun t => ?_⟩
      rw [ha.poses, ha.views]
      split_ifs with hp
      · rw [SMap.find_set]
        split_ifs with ht
        · rw [ht, hp]; rfl
        · exact ih.2 t
      · rw [SMap.find_set, SMap.find_set]
        split_ifs
        · rfl
        · exact ih.2 t
  | @addNbvView s s' b grids _ hd hnew hs ih =>
    rcases addNbvView_spec ih.1 hd hnew hs with ⟨_, rfl, _⟩ | ⟨ts, s₁, v, p, _, _, hw, ha, hcase⟩
    · exact ih
    · have hpv : PoseIffView s₁ := by
        intro t
        rw [ha.poses, ha.views]
        split_ifs with hp
        · rw [SMap.find_set]
          split_ifs with ht
          · rw [ht, hp]; rfl
          · exact ih.2 t
        · rw [SMap.find_set, SMap.find_set]
          split_ifs
          · rfl
          · exact ih.2 t
      rcases hcase with ⟨_, info, ent, _, _, rfl⟩ | ⟨_, _, b', hw', rfl⟩
      · refine ⟨{ (hw.cache.solve env) with }, fun t => ?_⟩
        exact (solve_poses env (cacheEstimates s₁) t).trans (hpv t)
      · refine ⟨hw', fun t => ?_⟩
        simp only [withoutView, SMap.find_erase]
        split_ifs
        · rfl
        · exact hpv t
  | removeView ts _ hs ih =>
    obtain ⟨b, e, w⟩ := ih.1.removeView ts
    rw [hs] at e
    simp only [Except.ok.injEq] at e
    subst e
    refine ⟨w, fun t => ?_⟩
    simp only [SMap.find_erase]
    split_ifs
    · rfl
    · exact ih.2 t
  | @removeAllViews s s' _ hs ih =>
    obtain ⟨s1, e1, w1, hv1, hp1, _⟩ := ih.1.removeViews (s.views.map Prod.fst)
    rw [Calib.removeAllViews, e1, AprilGrid.ok_bind, checkEmpty] at hs
    split_ifs at hs
    simp only [Except.ok.injEq] at hs
    subst hs
    refine ⟨{ w1 with }, fun t => ?_⟩
    show (SMap.find t s1.poses).isSome = (SMap.find t s1.views).isSome
    rw [hv1, hp1]
    split_ifs
    · rfl
    · exact ih.2 t
  | @marginalize s s' _ hs ih =>
    cases hv : s.views with
    | nil => rw [Calib.marginalize, hv] at hs; simp at hs
    | cons x l =>
      obtain ⟨ts, v⟩ := x
      obtain ⟨h1, h2⟩ := ih.1.marginalize hv
      by_cases hc : v.all = [] ∨ ∀ p, ¬ RemainSpec s v p
      · rw [h1 hc] at hs; simp at hs
      · obtain ⟨b, ps, e, w, _⟩ := h2 hc
        rw [hs] at e
        simp only [Except.ok.injEq] at e
        subst e
        refine ⟨w, fun t => ?_⟩
        simp only [SMap.find_erase]
        split_ifs
        · rfl
        · exact ih.2 t
  | @solve s _ ih =>
    exact ⟨ih.1.solve env, fun t => (solve_poses env s t).trans (ih.2 t)⟩
  | filterAllViews resid thresh _ hs ih =>
    obtain ⟨vs, b, m, e, w, f, _⟩ := filterAllViews_spec resid thresh ih.1
    rw [hs] at e
    simp only [Except.ok.injEq, Prod.mk.injEq] at e
    obtain ⟨rfl, _⟩ := e
    refine ⟨w, fun t => ?_⟩
    simp only
    rw [filteredViews_keys f t]
    exact ih.2 t

/-! ## C53: consistency -/

theorem WF.consistent {s : Cal K V} (hw : WF s) (hpv : PoseIffView s) :
    (∀ ts v, SMap.find ts s.views = some v → v.ts = ts ∧
      ∃ p, SMap.find ts s.poses = some p ∧ p.id = v.pose) ∧
    (∀ ts, (SMap.find ts s.poses).isSome = (SMap.find ts s.views).isSome) ∧
    s.viewTs.Nodup ∧ (∀ ts, ts ∈ s.viewTs ↔ (SMap.find ts s.views).isSome = true) ∧
    s.viewTs.length = nbViews s ∧
    (problemResiduals s).Nodup ∧
    (∀ r, r ∈ problemResiduals s ↔
      (∃ ts v x, SMap.find ts s.views = some v ∧ x ∈ v.all ∧ r = .reproj x) ∨ s.marg = some r) ∧
    (problemParams s).Nodup ∧
    (∀ p, p ∈ problemParams s ↔ match p with
      | .cam i => (SMap.find i s.params).isSome = true
      | .ext i => (SMap.find i s.params).isSome = true
      | .pose k => ∃ ts q, SMap.find ts s.poses = some q ∧ q.id = k) := by
  refine ⟨fun ts v hv => ⟨(hw.views ts v hv).1, (hw.views ts v hv).2.1⟩, hpv, hw.tsNodup, hw.tsMem,
    ?_, ?_, hw.residuals, ?_, ?_⟩
  · have hnd : (s.views.map Prod.fst).Nodup := by
      have := hw.viewsSorted
      rw [SMap.Sorted, ← List.pairwise_map] at this
      exact this.imp (fun h => ne_of_lt h)
    rw [nbViews, ← List.length_map (f := Prod.fst)]
    apply List.Perm.length_eq
    rw [List.perm_ext_iff_of_nodup hw.tsNodup hnd]
    intro a
    rw [hw.tsMem, SMap.find_isSome]
  · obtain ⟨Q, S, hc, _⟩ := hw.book; exact hc.rnd
  · obtain ⟨Q, S, hc, _⟩ := hw.book; exact hc.pnd
  · intro p
    have := hw.blocks p
    rw [problemParams, this]
    cases p with
    | cam i => rfl
    | ext i => simp only [Known]; rw [← hw.keys]
    | pose k => rfl

/-- C53 (missing: histories in which `add_view` is called with the timestamp of a present
view, for which it is false): after any history every view has a pose and its own
timestamp, there are no other poses, `calib_view_timestamps` lists every view once, and the
problem handed to the optimiser holds every residual of a present view and the
marginalisation prior, once each, and nothing else; its parameters are those of the known
cameras and of the present poses. -/
theorem C53_consistent_partial (env : Env K V) {s : Cal K V} (h : Reach env s) :
    (∀ ts v, SMap.find ts s.views = some v → v.ts = ts ∧
      ∃ p, SMap.find ts s.poses = some p ∧ p.id = v.pose) ∧
    (∀ ts, (SMap.find ts s.poses).isSome = (SMap.find ts s.views).isSome) ∧
    s.viewTs.Nodup ∧ (∀ ts, ts ∈ s.viewTs ↔ (SMap.find ts s.views).isSome = true) ∧
    s.viewTs.length = nbViews s ∧
    (problemResiduals s).Nodup ∧
    (∀ r, r ∈ problemResiduals s ↔
      (∃ ts v x, SMap.find ts s.views = some v ∧ x ∈ v.all ∧ r = .reproj x) ∨ s.marg = some r) ∧
    (problemParams s).Nodup ∧
    (∀ p, p ∈ problemParams s ↔ match p with
      | .cam i => (SMap.find i s.params).isSome = true
      | .ext i => (SMap.find i s.params).isSome = true
      | .pose k => ∃ ts q, SMap.find ts s.poses = some q ∧ q.id = k) := h.wf.1.consistent h.wf.2

/-- C53: a new view consists of exactly the corners that the calibrated cameras detected. -/
theorem C53_add_view (env : Env K V) {s s' : Cal K V} (h : Reach env s)
    (grids : List (Int × Grid K)) (hd : Detections s.rows s.cols grids) {ts : Int}
    (hts : viewStamp grids = some ts) (hnew : SMap.find ts s.views = none) {b : Bool}
    (hs : addView env s grids = .ok (s', b)) :
    b = true ∧ s'.viewTs = s.viewTs ++ [ts] ∧ s'.params = s.params ∧ s'.exts = s.exts ∧
    (∀ t, t ≠ ts → SMap.find t s'.views = SMap.find t s.views ∧
      SMap.find t s'.poses = SMap.find t s.poses) ∧
    ∃ v, SMap.find ts s'.views = some v ∧ v.grids = grids ∧
      (∀ cam g ops, (cam, g) ∈ grids → MadeBy s.rows s.cols ops g →
        (v.all.filter (fun r => decide (r.cam = cam))).map (fun r => ((r.tag, r.corner), r.z)) =
        if (SMap.find cam s.params).isSome = true then
          AprilGrid.Spec.held s.rows s.cols (AprilGrid.Spec.run ops) else []) ∧
      (∀ r ∈ v.all, r.cam ∈ grids.map Prod.fst) := by
  obtain ⟨hw, hpv⟩ := h.wf
  have hok : ∀ cg ∈ grids, GridOK cg.2 := fun cg hcg => (hd.2 cg hcg).elim fun _ h => madeBy_ok h
  have hn : ∀ t, viewStamp grids = some t → SMap.find t s.views = none := by
    intro t ht; rw [hts] at ht; simp only [Option.some.injEq] at ht; rw [← ht]; exact hnew
  rcases addView_spec hw hd.1 hok hn hs with ⟨h0, _⟩ | ⟨t, v, p, ht, hb, hw', ha, hg, hp, hid, hm⟩
  · rw [hts] at h0; simp at h0
  · rw [hts] at ht
    simp only [Option.some.injEq] at ht
    subst ht
    have hfv : SMap.find ts s'.views = some v := by rw [ha.views, SMap.find_set, if_pos rfl]
    have hvWF := (hw'.views ts v hfv).2.2
    refine ⟨hb, ha.viewTs, ha.params, ha.exts, ?_, v, hfv, hg, ?_, ?_⟩
    · intro t' ht'
      rw [ha.views, SMap.find_set, if_neg ht', ha.poses]
      refine ⟨rfl, ?_⟩
      split_ifs
      · rfl
      · rw [SMap.find_set, if_neg ht']
    · intro cam g ops hin hmade
      rw [← of_eq_filter hvWF cam]
      have := hm (cam, g) hin
      simp only at this
      rw [this, (madeBy_meas hmade).2.2.1]
      by_cases hk : (SMap.find cam s.params).isSome = true
      · rw [if_pos hk]
        by_cases hdet : g.detected = true
        · rw [if_pos ⟨hk, hdet⟩]
        · rw [if_neg (fun hc => hdet hc.2)]
          have hdec := (madeBy_meas hmade).2.2.2.2
          have hle := (madeBy_meas hmade).2.2.2.1
          rw [setCorners, (madeBy_meas hmade).2.2.1] at hle
          have : ¬ 0 < g.nbDetections := by
            intro h0; rw [decide_eq_true h0] at hdec; exact hdet hdec
          symm
          rw [← List.length_eq_zero_iff]; omega
      · rw [if_neg hk, if_neg (fun hc => hk hc.1)]
    · intro r hr
      obtain ⟨_, _, _, rs, k1, k2⟩ := hvWF.of_mem hr
      obtain ⟨_, _, h3, _⟩ := (hvWF.res _ _ k1)
      obtain ⟨g, hg', _⟩ := h3 r k2
      rw [hg] at hg'
      exact List.mem_map.mpr ⟨_, SMap.mem_of_find hg', rfl⟩

/-- C53: `add_view` succeeds whenever a calibrated camera detected something and poses can
be estimated. -/
theorem C53_add_view_ok (env : Env K V) {s : Cal K V} (h : Reach env s)
    (grids : List (Int × Grid K)) (hd : Detections s.rows s.cols grids)
    (hest : ∀ cg ∈ grids, ∀ p, SMap.find cg.1 s.params = some p →
      (env.estimate cg.2 p.val).isSome = true)
    (hdet : ∃ cg ∈ grids, cg.2.detected = true ∧ (SMap.find cg.1 s.params).isSome = true) :
    ∃ s', addView env s grids = .ok (s', true) :=
  addView_ok h.wf.1 hd.1 hd.2 hest hdet

/-- C53: `remove_view` never fails; it removes the view, its pose and its timestamp and
nothing else. -/
theorem C53_remove_view (env : Env K V) {s : Cal K V} (h : Reach env s) (ts : Int) :
    ∃ s', removeView s ts = .ok s' ∧
      (∀ t, SMap.find t s'.views = if t = ts then none else SMap.find t s.views) ∧
      (∀ t, SMap.find t s'.poses = if t = ts then none else SMap.find t s.poses) ∧
      s'.viewTs = s.viewTs.erase ts ∧ s'.params = s.params ∧ s'.exts = s.exts ∧
      s'.marg = s.marg ∧ s'.data = s.data ∧ s'.timestamps = s.timestamps := by
  obtain ⟨b, e, w⟩ := h.wf.1.removeView ts
  exact ⟨_, e, fun t => SMap.find_erase .., fun t => SMap.find_erase .., rfl, rfl, rfl, rfl, rfl, rfl⟩

/-- C53: `remove_all_views` succeeds exactly when there is no marginalisation prior, and then
leaves no view, no timestamp, no pose and no residual, and the cameras untouched. -/
theorem C53_remove_all_views (env : Env K V) {s : Cal K V} (h : Reach env s) :
    (s.marg = none → ∃ s', removeAllViews s = .ok s' ∧ nbViews s' = 0 ∧ s'.viewTs = [] ∧
      s'.poses = [] ∧ problemResiduals s' = [] ∧ s'.solver.numResiduals = 0 ∧
      s'.params = s.params ∧ s'.exts = s.exts ∧ s'.removedOutliers = 0) ∧
    (s.marg ≠ none → removeAllViews s = .error .fatal) := by
  obtain ⟨hw, hpv⟩ := h.wf
  obtain ⟨s1, e1, w1, hv1, hp1, hpar, hext, hmarg, _⟩ := hw.removeViews (s.views.map Prod.fst)
  have hnone : ∀ t, SMap.find t s1.views = none := by
    intro t
    rw [hv1]
    split_ifs with ht
    · rfl
    · exact SMap.find_none_of_not_mem ht
  have hvn : s1.views = [] := views_nil_of_find hnone
  have hnum := w1.numResiduals_noViews hvn
  rw [hmarg] at hnum
  constructor
  · intro hm
    rw [hm] at hnum
    simp only [Option.isSome_none, Bool.false_eq_true, if_false] at hnum
    refine ⟨{ s1 with removedOutliers := 0 }, ?_, ?_, ?_, ?_, ?_, hnum, hpar, hext, rfl⟩
    · rw [Calib.removeAllViews, e1, AprilGrid.ok_bind, checkEmpty, hvn, if_neg (by simp),
        if_neg (by rw [hnum]; simp)]
    · simp [nbViews, hvn]
    · have : ∀ t, t ∉ s1.viewTs := by intro t; rw [w1.tsMem, hnone]; simp
      exact List.eq_nil_iff_forall_not_mem.mpr this
    · have hpn : ∀ t, SMap.find t s1.poses = none := by
        intro t
        rw [hp1]
        split_ifs with ht
        · rfl
        · have := hpv t
          rw [SMap.find_none_of_not_mem ht] at this
          simpa using this
      cases hq : s1.poses with
      | nil => rfl
      | cons x l => have := hpn x.1; rw [hq] at this; simp [SMap.find] at this
    · have : s1.solver.prob.rblocks.length = 0 := hnum
      simp only [problemResiduals]
      rw [List.length_eq_zero_iff.mp this]; rfl
  · intro hm
    have : s.marg.isSome = true := Option.isSome_iff_ne_none.mpr hm
    rw [this] at hnum
    simp only [if_true] at hnum
    rw [Calib.removeAllViews, e1, AprilGrid.ok_bind, checkEmpty, hvn, if_neg (by simp),
      if_pos (by rw [hnum]; simp)]

/-- C53: `marginalize` replaces the oldest view by a prior on the parameters it shared with
the rest; it is fatal when the view has no residual or nothing remains to be constrained. -/
theorem C53_marginalize (env : Env K V) {s : Cal K V} (h : Reach env s) {ts : Int} {v : View K}
    {l : List (Int × View K)} (hv : s.views = (ts, v) :: l) :
    (marginalize s = .error .fatal ↔ v.all = [] ∨ ∀ p, ¬ RemainSpec s v p) ∧
    ∀ s', marginalize s = .ok s' → SMap.find ts s'.views = none ∧
      SMap.find ts s'.poses = none ∧
      (∀ t, t ≠ ts → SMap.find t s'.views = SMap.find t s.views ∧
        SMap.find t s'.poses = SMap.find t s.poses) ∧
      s'.params = s.params ∧ s'.exts = s.exts ∧
      ∃ id ps, s'.marg = some (.marg id ps) ∧ ∀ p, p ∈ ps ↔ RemainSpec s v p := by
  obtain ⟨h1, h2⟩ := h.wf.1.marginalize hv
  by_cases hc : v.all = [] ∨ ∀ p, ¬ RemainSpec s v p
  · refine ⟨⟨fun _ => hc, h1⟩, ?_⟩
    intro s' hs'
    rw [h1 hc] at hs'; simp at hs'
  · obtain ⟨b, ps, e, w, hps⟩ := h2 hc
    refine ⟨⟨fun he => by rw [e] at he; simp at he, fun hc' => absurd hc' hc⟩, ?_⟩
    intro s' hs'
    rw [e] at hs'
    simp only [Except.ok.injEq] at hs'
    subst hs'
    refine ⟨by simp [SMap.find_erase], by simp [SMap.find_erase], ?_, rfl, rfl, _, ps, rfl, hps⟩
    intro t ht
    simp [SMap.find_erase, ht]

/-- The effect of `add_view` on the list of views, for every state. -/
theorem addView_lists {env : Env K V} {s s' : Cal K V} {grids : List (Int × Grid K)} {ts : Int}
    {b : Bool} (hts : viewStamp grids = some ts) (hs : addView env s grids = .ok (s', b)) :
    b = true ∧ s'.viewTs = s.viewTs ++ [ts] ∧ ∃ v, s'.views = SMap.set ts v s.views := by
  unfold addView at hs
  rw [hts] at hs
  simp only at hs
  obtain ⟨s1, h1, hs⟩ := bind_ok hs
  have hd : (ensureData s ts grids).viewTs = s.viewTs ∧ (ensureData s ts grids).views = s.views := by
    unfold ensureData; split_ifs <;> exact ⟨rfl, rfl⟩
  have h2 : s1.viewTs = s.viewTs ∧ s1.views = s.views := by
    unfold ensurePose at h1
    split_ifs at h1
    · simp only [Except.ok.injEq] at h1
      subst h1; exact hd
    · obtain ⟨_, x, rfl⟩ := addPose_ok h1
      exact hd
  cases hp : SMap.find ts s1.poses with
  | none => rw [hp] at hs; simp at hs
  | some p =>
    rw [hp] at hs
    simp only [attachView] at hs
    obtain ⟨out, _, hs⟩ := bind_ok hs
    simp only [Except.ok.injEq, Prod.mk.injEq] at hs
    obtain ⟨rfl, rfl⟩ := hs
    have h3 : (ensureParam s1 p).viewTs = s1.viewTs ∧ (ensureParam s1 p).views = s1.views := by
      unfold ensureParam; split_ifs <;> exact ⟨rfl, rfl⟩
    exact ⟨rfl, by simp only [h3.1, h2.1], out.1, by simp only [h3.2, h2.2]⟩

/-- C53 is false when `add_view` is called with the timestamp of a present view: the
timestamp is then listed twice, and after `remove_view` it is listed without a view. -/
theorem C53_duplicate_refuted (env : Env K V) {s s' : Cal K V} (h : Reach env s)
    (grids : List (Int × Grid K)) {ts : Int} (hts : viewStamp grids = some ts)
    (hold : (SMap.find ts s.views).isSome = true) {b : Bool}
    (hs : addView env s grids = .ok (s', b)) :
    ¬ s'.viewTs.Nodup ∧ s'.viewTs.length = nbViews s' + 1 ∧
    ∀ s'', removeView s' ts = .ok s'' → ts ∈ s''.viewTs ∧ SMap.find ts s''.views = none := by
  obtain ⟨_, h1, v, h2⟩ := addView_lists hts hs
  have hmem : ts ∈ s.viewTs := (h.wf.1.tsMem ts).mpr hold
  refine ⟨?_, ?_, ?_⟩
  · rw [h1, List.nodup_append]
    rintro ⟨_, _, h3⟩
    exact h3 ts hmem ts (by simp) rfl
  · have h5 := (C53_consistent_partial env h).2.2.2.2.1
    rw [h1, List.length_append, h5, nbViews, nbViews, h2]
    have key : ∀ (m : List (Int × View K)), SMap.Sorted m → (SMap.find ts m).isSome = true →
        (SMap.set ts v m).length = m.length := by
      intro m
      induction m with
      | nil => intro _ h; simp [SMap.find] at h
      | cons x m ih =>
        intro hsort hf
        have hp := List.pairwise_cons.mp hsort
        by_cases hx : x.1 = ts
        · rw [SMap.set, if_neg (by omega), if_neg (by omega)]; simp
        · have hf' : (SMap.find ts m).isSome = true := by simpa [SMap.find, hx] using hf
          obtain ⟨y, hy, he⟩ := List.mem_map.mp (SMap.find_isSome.mp hf')
          have := hp.1 y hy
          rw [SMap.set, if_neg (by omega), if_pos (by omega)]
          simp [ih hp.2 hf']
    rw [key s.views h.wf.1.viewsSorted hold]; simp
  · intro s'' hr
    unfold removeView at hr
    obtain ⟨s1, e1, e2⟩ := bind_ok hr
    have h3 : s1.viewTs = s'.viewTs ∧ s1.views = s'.views := by
      unfold removePose at e1
      cases hp : SMap.find ts s'.poses with
      | none => rw [hp] at e1; simp only [Except.ok.injEq] at e1; subst e1; exact ⟨rfl, rfl⟩
      | some p =>
        rw [hp] at e1
        obtain ⟨b, _, e1⟩ := bind_ok e1
        simp only [Except.ok.injEq] at e1
        subst e1; exact ⟨rfl, rfl⟩
    have hf : (SMap.find ts s1.views).isSome = true := by
      rw [h3.2, h2, SMap.find_set, if_pos rfl]; rfl
    have hm1 : ts ∈ s1.viewTs := by rw [h3.1, h1]; simp
    rw [dropView, if_pos hf, if_pos hm1] at e2
    simp only [Except.ok.injEq] at e2
    subst e2
    refine ⟨?_, by simp [SMap.find_erase]⟩
    simp only [h3.1, h1]
    rw [List.erase_append_left _ hmem]
    simp

/-! ## C52: rejected views -/

/-- C52 (missing: `add_nbv_view` with the timestamp of a present view, for which it is
false): when `add_nbv_view` returns false the calibration problem is what it was, whatever
the optimiser and the information computation did. -/
theorem C52_reject_partial (env : Env K V) {s s' : Cal K V} (h : Reach env s)
    (grids : List (Int × Grid K)) (hd : Detections s.rows s.cols grids)
    (hnew : ∀ ts, viewStamp grids = some ts → SMap.find ts s.views = none)
    (hs : addNbvView env s grids = .ok (s', false)) :
    s'.params = s.params ∧ s'.exts = s.exts ∧ s'.poses = s.poses ∧ s'.views = s.views ∧
    s'.viewTs = s.viewTs ∧ s'.timestamps = s.timestamps ∧ s'.marg = s.marg ∧
    s'.infoK = s.infoK ∧ s'.entropyK = s.entropyK ∧
    (∀ r, r ∈ problemResiduals s' ↔ r ∈ problemResiduals s) ∧
    (∀ p, p ∈ problemParams s' ↔ p ∈ problemParams s) := by
  obtain ⟨hw, hpv⟩ := h.wf
  rcases addNbvView_spec hw hd hnew hs with ⟨_, rfl, _⟩ | ⟨ts, s₁, v, p, hts, _, hw1, ha, hcase⟩
  · exact ⟨rfl, rfl, rfl, rfl, rfl, rfl, rfl, rfl, rfl, fun _ => Iff.rfl, fun _ => Iff.rfl⟩
  · rcases hcase with ⟨hf, _⟩ | ⟨_, _, b, hw', e⟩
    · simp at hf
    · have hv := hnew ts hts
      have hp : SMap.find ts s.poses = none := by
        have := hpv ts; rw [hv] at this; simpa using this
      have hposes : s'.poses = s.poses := by
        rw [e]
        simp only [withoutView, ha.poses, hp, Option.isSome_none, Bool.false_eq_true, if_false]
        exact erase_set_none _ _ _ hw.posesSorted hp
      have hviews : s'.views = s.views := by
        rw [e]
        simp only [withoutView, ha.views]
        exact erase_set_none _ _ _ hw.viewsSorted hv
      have hvts : s'.viewTs = s.viewTs := by
        rw [e]
        simp only [withoutView, ha.viewTs]
        exact erase_append_self _ _ (by rw [hw.tsMem, hv]; simp)
      have same := SameProblem.mk' hw hw' (by rw [e]; exact ha.rows) (by rw [e]; exact ha.cols)
        (by rw [e]; exact ha.params) (by rw [e]; exact ha.exts) hposes hviews hvts
        (by rw [e]; exact ha.timestamps) (by rw [e]; exact ha.marg) (by rw [e]; exact ha.infoK)
        (by rw [e]; exact ha.entropyK) (by rw [e]; exact ha.threshold) (by rw [e]; exact ha.removed)
      exact ⟨same.params, same.exts, same.poses, same.views, same.viewTs, same.timestamps, same.marg,
        same.infoK, same.entropyK, same.presid, same.pparam⟩

/-- C52: `add_nbv_view` accepts a view exactly when there is one, the information of the
re-solved problem can be computed and exceeds the last by the threshold; an accepted view
is kept with the re-solved estimates. -/
theorem C52_decision (env : Env K V) {s s' : Cal K V} {ok : Bool} (h : Reach env s)
    (grids : List (Int × Grid K)) (hd : Detections s.rows s.cols grids)
    (hnew : ∀ ts, viewStamp grids = some ts → SMap.find ts s.views = none)
    (hs : addNbvView env s grids = .ok (s', ok)) :
    ok = true ↔ ∃ ts s₁ info ent, viewStamp grids = some ts ∧
      addView env s grids = .ok (s₁, true) ∧
      env.info (solve env (cacheEstimates s₁)) = some (info, ent) ∧
      s.threshold ≤ (1 / 2) * (s.infoK - info) ∧
      s' = { solve env (cacheEstimates s₁) with infoK := info, entropyK := ent } := by
  obtain ⟨hw, hpv⟩ := h.wf
  rcases addNbvView_spec hw hd hnew hs with ⟨h0, _, rfl⟩ | ⟨ts, s₁, v, p, hts, hadd, hw1, ha, hcase⟩
  · constructor
    · intro hf; simp at hf
    · rintro ⟨ts, _, _, _, h1, _⟩; rw [h0] at h1; simp at h1
  · rcases hcase with ⟨rfl, info, ent, h1, h2, rfl⟩ | ⟨rfl, h1, _⟩
    · exact ⟨fun _ => ⟨ts, s₁, info, ent, hts, hadd, h1, not_lt.mp h2, rfl⟩, fun _ => rfl⟩
    · constructor
      · intro hf; simp at hf
      · rintro ⟨t, s₂, info, ent, _, h3, h4, h5, _⟩
        rw [hadd] at h3
        simp only [Except.ok.injEq, Prod.mk.injEq, and_true] at h3
        subst h3
        exact absurd (h1 info ent h4) (not_lt.mpr h5)

/-- C52 is false for the timestamp of a present view: the rejected call deletes that view. -/
theorem C52_present_view_refuted (env : Env K V) {s s' : Cal K V}
    (grids : List (Int × Grid K)) {ts : Int} (hts : viewStamp grids = some ts)
    (hs : addNbvView env s grids = .ok (s', false)) :
    SMap.find ts s'.views = none := by
  unfold addNbvView at hs
  obtain ⟨⟨s₁, ok₁⟩, h1, hs⟩ := bind_ok hs
  obtain ⟨rfl, h2, v, h3⟩ := addView_lists hts h1
  simp only [Bool.true_eq_false, if_false] at hs
  have hlast : (solve env (cacheEstimates s₁)).viewTs.getLast? = some ts := by
    show s₁.viewTs.getLast? = some ts
    rw [h2]; simp
  rw [hlast] at hs
  have hrej : ∀ {t t' : Cal K V}, rejectView t ts = .ok (t', false) → SMap.find ts t'.views = none := by
    intro t t' hr
    unfold rejectView at hr
    obtain ⟨t1, hr1, he⟩ := bind_ok hr
    simp only [Except.ok.injEq, Prod.mk.injEq, and_true] at he
    subst he
    unfold removeView at hr1
    obtain ⟨t2, _, e2⟩ := bind_ok hr1
    unfold dropView at e2
    split_ifs at e2 with k1 k2
    · simp only [Except.ok.injEq] at e2
      subst e2
      simp [SMap.find_erase]
    · simp only [Except.ok.injEq] at e2
      subst e2
      simpa using k1
  simp only [judgeView] at hs
  cases hi : env.info (solve env (cacheEstimates s₁)) with
  | none => rw [hi] at hs; exact hrej hs
  | some ie =>
    rw [hi] at hs
    simp only at hs
    split_ifs at hs with hg
    · exact hrej hs
    · simp at hs

/-! ## C51: outlier filtering -/

/-- C51 (missing: residuals are compared with their sign, so a large negative residual
stays): filtering a view never fails, removes exactly the measurements whose residual
exceeds the threshold in x or y, from the view, from the camera's grid and from the problem,
keeps the others in order, and reports how many it removed. -/
theorem C51_filter_partial (env : Env K V) {s : Cal K V} (h : Reach env s) {ts : Int} {v : View K}
    (hv : SMap.find ts s.views = some v) (resid : Reproj K → Option (K × K)) (th : K × K) :
    let out : Reproj K → Prop := fun r => ∃ e, resid r = some e ∧ (e.1 > th.1 ∨ e.2 > th.2)
    ∃ v' b n, View.filter resid (camIdxs s) th v s.solver = .ok (v', b, n) ∧
      (∀ r, r ∈ v'.all ↔ r ∈ v.all ∧ ¬ out r) ∧ (v'.all).Sublist v.all ∧
      v.all.length = v'.all.length + n ∧
      v'.ts = v.ts ∧ v'.pose = v.pose ∧
      (∀ x, x ∈ b.prob.rblocks.map Prod.snd ↔ x ∈ problemResiduals s ∧
        ¬ ∃ r ∈ v.all, out r ∧ x = .reproj r) ∧
      (∀ p, p ∈ b.prob.pblocks ↔ p ∈ problemParams s) ∧
      ∀ cam g, SMap.find cam v.grids = some g → ∃ g', SMap.find cam v'.grids = some g' ∧
        g'.timestamp = g.timestamp ∧
        ∀ t k, 0 ≤ t → 0 ≤ k → k < 4 →
          ((∃ r ∈ v.all, out r ∧ r.cam = cam ∧ r.tag = t ∧ r.corner = k) →
            AprilGrid.has g' t k = .ok false) ∧
          ((¬ ∃ r ∈ v.all, out r ∧ r.cam = cam ∧ r.tag = t ∧ r.corner = k) →
            AprilGrid.has g' t k = AprilGrid.has g t k) := by
  intro out
  obtain ⟨hw, _⟩ := h.wf
  obtain ⟨Q, S, hc, hQ, hS⟩ := hw.book
  have hout : ∀ r, isOutlier resid th r = true ↔ out r := by
    intro r
    simp only [isOutlier, out]
    cases resid r with
    | none => simp
    | some e => simp
  obtain ⟨v', b, S', n, e, f⟩ := filter_spec (rows := s.rows) (cols := s.cols) (next := s.next)
    (known := fun i => (SMap.find i s.params).isSome) (Q := Q) resid th (camIdxs s)
    (hw.views ts v hv).2.2 (fun c => by rw [SMap.find_isSome, camIdxs]) hc
    (fun r hr => (hS _).mpr (Or.inl ⟨ts, v, r, hv, hr, rfl⟩))
  refine ⟨v', b, n, e, ?_, ?_, ?_, f.ts, f.pose, ?_, ?_, ?_⟩
  · intro r
    rw [f.res, List.mem_filter, ← hout]
    simp
  · rw [f.res]; exact List.filter_sublist
  · rw [f.res, f.count, List.length_eq_countP_add_countP (isOutlier resid th) (l := v.all),
      ← List.countP_eq_length_filter, add_comm]
    congr 1
    apply List.countP_congr
    intro a _; cases isOutlier resid th a <;> simp
  · intro x
    rw [f.book.rmem, f.mem, problemResiduals, hc.rmem]
    simp only [hout]
  · intro p
    rw [f.book.pmem, problemParams, hc.pmem]
  · intro cam g hg
    obtain ⟨g', h1, h2, _, h4⟩ := f.grids cam g hg
    refine ⟨g', h1, h2, ?_⟩
    intro t k ht hk hk4
    rw [h4 t k ht hk hk4]
    simp only [hout]
    exact ⟨fun hx => if_pos hx, fun hx => if_neg hx⟩

/-- C51 for the magnitude of residuals is false: a residual that is far below the threshold
on the negative side stays. -/
theorem C51_magnitude_refuted (env : Env K V) {s : Cal K V} (h : Reach env s) {ts : Int}
    {v : View K} (hv : SMap.find ts s.views = some v) (resid : Reproj K → Option (K × K))
    (th : K × K) {r : Reproj K} (hr : r ∈ v.all) {e : K × K} (he : resid r = some e)
    (h1 : e.1 ≤ th.1) (h2 : e.2 ≤ th.2) :
    ∃ v' b n, View.filter resid (camIdxs s) th v s.solver = .ok (v', b, n) ∧ r ∈ v'.all := by
  obtain ⟨v', b, n, e1, e2, _⟩ := C51_filter_partial env h hv resid th
  refine ⟨v', b, n, e1, (e2 r).mpr ⟨hr, ?_⟩⟩
  rintro ⟨e', he', h3⟩
  rw [he] at he'
  simp only [Option.some.injEq] at he'
  subst he'
  rcases h3 with h3 | h3
  · exact absurd h3 (not_lt.mpr h1)
  · exact absurd h3 (not_lt.mpr h2)

/-- C51 for `filter_view` with a threshold per camera: every threshold is applied to every
camera, so a measurement stays exactly when it is within the thresholds of all cameras. -/
theorem C51_thresholds (env : Env K V) {s : Cal K V} (h : Reach env s) {ts : Int} {v : View K}
    (hv : SMap.find ts s.views = some v) (resid : Reproj K → Option (K × K))
    (ths : List (Int × (K × K))) :
    ∃ v' b n, View.filterAll resid (camIdxs s) ths v s.solver = .ok (v', b, n) ∧
      (∀ r, r ∈ v'.all ↔ r ∈ v.all ∧
        ∀ ct ∈ ths, ∀ e, resid r = some e → e.1 ≤ ct.2.1 ∧ e.2 ≤ ct.2.2) ∧
      v.all.length = v'.all.length + n := by
  obtain ⟨hw, _⟩ := h.wf
  obtain ⟨Q, S, hc, hQ, hS⟩ := hw.book
  obtain ⟨v', b, S', n, e, f⟩ := filterAll_spec (rows := s.rows) (cols := s.cols) (next := s.next)
    (known := fun i => (SMap.find i s.params).isSome) (Q := Q) resid (camIdxs s)
    (fun c => by rw [SMap.find_isSome, camIdxs]) ths v s.solver S
    (hw.views ts v hv).2.2 hc
    (fun r hr => (hS _).mpr (Or.inl ⟨ts, v, r, hv, hr, rfl⟩))
  refine ⟨v', b, n, e, ?_, ?_⟩
  · intro r
    rw [f.res, List.mem_filter]
    constructor
    · rintro ⟨h1, h2⟩
      refine ⟨h1, ?_⟩
      intro ct hct e' he'
      simp only [Bool.not_eq_true', List.any_eq_false] at h2
      have := h2 ct hct
      simp only [isOutlier, he', Bool.or_eq_true, decide_eq_true_eq, not_or, not_lt] at this
      exact this
    · rintro ⟨h1, h2⟩
      refine ⟨h1, ?_⟩
      simp only [Bool.not_eq_true', List.any_eq_false]
      intro ct hct
      simp only [isOutlier]
      cases he : resid r with
      | none => simp
      | some e' =>
        have := h2 ct hct e' he
        simp [this.1, this.2]
  · rw [f.res, f.count, List.length_eq_countP_add_countP (fun r => ths.any
        (fun ct => isOutlier resid ct.2 r)) (l := v.all), ← List.countP_eq_length_filter, add_comm]
    congr 1
    apply List.countP_congr
    intro a _
    cases ths.any (fun ct => isOutlier resid ct.2 a) <;> simp

/-- C51 with a threshold per camera is false: a measurement within its own camera's threshold
is removed when it exceeds another camera's. -/
theorem C51_per_camera_refuted (env : Env K V) {s : Cal K V} (h : Reach env s) {ts : Int}
    {v : View K} (hv : SMap.find ts s.views = some v) (resid : Reproj K → Option (K × K))
    (ths : List (Int × (K × K))) {r : Reproj K} {e : K × K} (he : resid r = some e)
    {other : Int × (K × K)} (ho : other ∈ ths) (hgt : e.1 > other.2.1) :
    ∃ v' b n, View.filterAll resid (camIdxs s) ths v s.solver = .ok (v', b, n) ∧ r ∉ v'.all := by
  obtain ⟨v', b, n, e1, e2, _⟩ := C51_thresholds env h hv resid ths
  refine ⟨v', b, n, e1, ?_⟩
  rw [e2]
  rintro ⟨_, h2⟩
  exact absurd (h2 other ho e he).1 (not_le.mpr hgt)

/-- The evaluable residuals of camera `c` in all views: what its threshold is computed from. -/
def camResiduals (resid : Reproj K → Option (K × K)) (s : Cal K V) (c : Int) : List (K × K) :=
  ((s.views.flatMap (fun tv => tv.2.all)).filter (fun r => decide (r.cam = c))).filterMap resid

theorem residualsOf_eq {s : Cal K V} (h : WF s) (resid : Reproj K → Option (K × K)) (c : Int) :
    residualsOf resid s c = camResiduals resid s c := by
  unfold residualsOf camResiduals
  have hv : ∀ tv ∈ s.views, tv.2.residualsOf resid c =
      (tv.2.all.filter (fun r => decide (r.cam = c))).filterMap resid := by
    intro tv htv
    have hw := (h.views tv.1 tv.2 ((SMap.find_eq_some h.viewsSorted).mpr htv)).2.2
    have hcam : ∀ cr ∈ tv.2.resFns, ∀ r ∈ cr.2, r.cam = cr.1 := fun cr hcr r hr =>
      ((hw.res cr.1 cr.2 ((SMap.find_eq_some hw.rsorted).mpr hcr)).own r hr).1
    unfold View.residualsOf View.all
    generalize tv.2.resFns = l at hcam
    clear hw
    induction l with
    | nil => rfl
    | cons cr l ih =>
      have ih' := ih (fun x hx => hcam x (List.mem_cons_of_mem _ hx))
      have hcr := hcam cr List.mem_cons_self
      rw [List.flatMap_cons, List.filter_append, List.filterMap_append, ← ih', List.filter_cons]
      by_cases hc : cr.1 = c
      · have : cr.2.filter (fun r => decide (r.cam = c)) = cr.2 := by
          rw [List.filter_eq_self]
          intro r hr
          simp [hcr r hr, hc]
        rw [this, if_pos (by simp [hc]), List.flatMap_cons]
      · have : cr.2.filter (fun r => decide (r.cam = c)) = [] := by
          rw [List.filter_eq_nil_iff]
          intro r hr
          simp [hcr r hr, hc]
        rw [this, if_neg (by simp [hc])]
        rfl
  generalize s.views = l at hv
  induction l with
  | nil => rfl
  | cons tv l ih =>
    rw [List.flatMap_cons, List.flatMap_cons, List.filter_append, List.filterMap_append,
      hv tv List.mem_cons_self, ih (fun x hx => hv x (List.mem_cons_of_mem _ hx))]

/-- C51: filtering all views removes from every view the measurements that exceed the
threshold of some camera, reports the total and leaves everything else alone. -/
theorem C51_filter_all (env : Env K V) {s : Cal K V} (h : Reach env s)
    (resid : Reproj K → Option (K × K)) (thresh : List (K × K) → K × K) :
    ∃ s' n, filterAllViews resid thresh s = .ok (s', n) ∧ Reach env s' ∧
      s'.params = s.params ∧ s'.exts = s.exts ∧ s'.poses = s.poses ∧ s'.viewTs = s.viewTs ∧
      (s.views.flatMap (fun tv => tv.2.all)).length =
        (s'.views.flatMap (fun tv => tv.2.all)).length + n ∧
      ∀ r, r ∈ s'.views.flatMap (fun tv => tv.2.all) ↔ r ∈ s.views.flatMap (fun tv => tv.2.all) ∧
        ∀ c, (SMap.find c s.params).isSome = true → ∀ e, resid r = some e →
          e.1 ≤ (thresh (camResiduals resid s c)).1 ∧ e.2 ≤ (thresh (camResiduals resid s c)).2 := by
  obtain ⟨vs, b, m, e, w, f, hm⟩ := filterAllViews_spec resid thresh h.wf.1
  simp only [residualsOf_eq h.wf.1] at f hm
  refine ⟨_, m, e, Reach.filterAllViews resid thresh h e, rfl, rfl, rfl, rfl, ?_⟩
  have hall : ∀ {out : Reproj K → Bool} (l l' : List (Int × View K)), FilteredViews out l l' →
      l'.flatMap (fun tv => tv.2.all) = (l.flatMap (fun tv => tv.2.all)).filter (fun r => !out r) := by
    intro out l
    induction l with
    | nil => intro l' hl; cases l' with
      | nil => rfl
      | cons => exact hl.elim
    | cons x l ih =>
      intro l' hl
      cases l' with
      | nil => exact hl.elim
      | cons y l' =>
        obtain ⟨_, _, _, h4, h5⟩ := hl
        rw [List.flatMap_cons, List.flatMap_cons, List.filter_append, ih l' h5, h4]
  have hfl := hall _ _ f
  refine ⟨?_, ?_⟩
  · simp only [hfl]
    rw [hm, List.length_eq_countP_add_countP (fun r => (camIdxs s).any
      (fun c => isOutlier resid (thresh (camResiduals resid s c)) r))
      (l := s.views.flatMap (fun tv => tv.2.all)), ← List.countP_eq_length_filter, add_comm]
    congr 1
    apply List.countP_congr
    intro a _
    cases (camIdxs s).any (fun c => isOutlier resid (thresh (camResiduals resid s c)) a) <;> simp
  · intro r
    simp only [hfl]
    rw [List.mem_filter]
    refine and_congr_right fun _ => ?_
    simp only [Bool.not_eq_true', List.any_eq_false]
    constructor
    · intro h2 c hc e' he'
      have := h2 c (by rw [camIdxs, ← SMap.find_isSome]; exact hc)
      simp only [isOutlier, he', Bool.or_eq_true, decide_eq_true_eq, not_or, not_lt] at this
      exact this
    · intro h2 c hc
      rw [camIdxs, ← SMap.find_isSome] at hc
      simp only [isOutlier]
      cases he : resid r with
      | none => simp
      | some e' =>
        have := h2 c hc e' he
        simp [this.1, this.2]

/-! ## C54: the next best view -/

/-- What a caller expects of the candidate that was chosen, when some candidate has
negative information: it is one of the candidates, and none has smaller information. -/
def Best.IsArgmin (tab : List (Scored K V)) (cam : Int) (idx : Nat) (info : K) : Prop :=
  (∃ e ∈ tab, e.cam = cam ∧ e.idx = idx ∧ e.info = some info) ∧
    ∀ e ∈ tab, ∀ v, e.info = some v → info ≤ v

theorem nbvResult_code (th info : K) (b : Best K) :
    ((nbvResult th info b).code = -2 ↔ (nbvResult th info b).gain < th) ∧
    ((nbvResult th info b).code = 0 ↔ th ≤ (nbvResult th info b).gain) := by
  unfold nbvResult
  by_cases hg : (1 / 2) * (info - b.info) < th
  · simp only [if_pos hg]
    exact ⟨⟨fun _ => hg, fun _ => trivial⟩, ⟨fun h => by simp at h, fun h => absurd hg (not_lt.mpr h)⟩⟩
  · simp only [if_neg hg]
    exact ⟨⟨fun h => by simp at h, fun h => absurd h hg⟩, ⟨fun _ => not_lt.mp hg, fun _ => trivial⟩⟩

/-- C54 for `find_nbv` (missing: candidates whose information is not negative are never
chosen): there is a table with one entry per candidate, whose information is that of the
calibrator with the candidate's simulated view added; if some entry is negative the result
is a candidate of minimal information; the code is -2 exactly when the gain is below the
threshold, and 0 otherwise. -/
theorem C54_find_nbv_partial (env : Env K V) {s s' : Cal K V} (h : Reach env s)
    (cands : List (Int × List V)) {last : Int} (hl : s.timestamps.getLast? = some last)
    (hsim : SimOK env s.rows s.cols) (hv : SMap.find (last + 1) s.views = none)
    {res : NbvResult K} (hs : findNbv env s cands = .ok (s', some res)) :
    ∃ tab, tab.map (fun e => (e.cam, e.idx, e.T)) = candList cands ∧
      (∀ e ∈ tab, ∃ st, Candidate env s (last + 1) e.T st ∧ e.info = (env.info st).map Prod.fst) ∧
      ((∃ e ∈ tab, ∃ v, e.info = some v ∧ v < 0) →
        Best.IsArgmin tab res.cam res.idx res.nbvInfo) ∧
      (∃ ent, env.info s = some (res.info, ent)) ∧
      res.gain = (res.info - res.nbvInfo) / 2 ∧
      (res.code = -2 ↔ res.gain < s.threshold) ∧ (res.code = 0 ↔ s.threshold ≤ res.gain) := by
  obtain ⟨hw, hpv⟩ := h.wf
  have hp : SMap.find (last + 1) s.poses = none := by
    have := hpv (last + 1); rw [hv] at this; simpa using this
  have hc : cands ≠ [] := by
    rintro rfl; simp [findNbv] at hs
  have hn : s.views ≠ [] := by
    intro h0; simp [findNbv, hc, nbViews, h0] at hs
  rcases findNbv_spec hw cands hc hn hl hsim hp hv with ⟨_, h2⟩ | ⟨info, ent, s₂, tab, h1, h2, _, _, h3, h4⟩
  · rw [hs] at h2; simp at h2
  · rw [hs] at h2
    simp only [Except.ok.injEq, Prod.mk.injEq, Option.some.injEq] at h2
    obtain ⟨_, rfl⟩ := h2
    refine ⟨tab, h3, h4, ?_, ⟨ent, h1⟩, ?_, ?_, ?_⟩
    · rintro ⟨e, he, v, hev, hneg⟩
      rcases pick_chosen tab with ⟨_, k2⟩ | ⟨_, k2, k3⟩
      · exact absurd hneg (not_lt.mpr (k2 e he v hev))
      · exact ⟨k2, k3⟩
    · simp only [nbvResult]; ring
    · exact (nbvResult_code ..).1
    · exact (nbvResult_code ..).2

/-- C54 for `find_nbv_fast`, for every scoring function (same missing part); it fails unless
the candidates' cameras are 0, 1, ..., n-1. -/
theorem C54_find_nbv_fast_partial (env : Env K V) (score : V → K) {s : Cal K V}
    (cands : List (Int × List V)) {res : NbvResult K}
    (hs : findNbvFast env score s cands = .ok (some res)) :
    ((∃ c ∈ candList cands, score c.2.2 < 0) →
      (∃ c ∈ candList cands, c.1 = res.cam ∧ c.2.1 = res.idx ∧ score c.2.2 = res.nbvInfo) ∧
      ∀ c ∈ candList cands, res.nbvInfo ≤ score c.2.2) ∧
    (∃ ent, env.info s = some (res.info, ent)) ∧
    res.gain = (res.info - res.nbvInfo) / 2 ∧
    (res.code = -2 ↔ res.gain < s.threshold) ∧ (res.code = 0 ↔ s.threshold ≤ res.gain) := by
  unfold findNbvFast at hs
  split_ifs at hs with h1 h2 h3
  case neg => cases hi : env.info s <;> rw [hi] at hs <;> simp at hs
  cases hi : env.info s with
  | none => rw [hi] at hs; simp at hs
  | some ie =>
    obtain ⟨info, ent⟩ := ie
    rw [hi] at hs
    simp only [Except.ok.injEq, Option.some.injEq] at hs
    subst hs
    refine ⟨?_, ⟨ent, rfl⟩, ?_, ?_, ?_⟩
    · rintro ⟨c, hc, hneg⟩
      rw [scanScores_eq]
      have hmem : ∀ c ∈ candList cands, (⟨c.1, c.2.1, c.2.2, some (score c.2.2)⟩ : Scored K V) ∈
          fastTable score cands := fun c hc => List.mem_map.mpr ⟨c, hc, rfl⟩
      rcases pick_chosen (fastTable score cands) with ⟨_, k2⟩ | ⟨_, ⟨e, he, k2, k3, k4⟩, k5⟩
      · exact absurd hneg (not_lt.mpr (k2 _ (hmem c hc) _ rfl))
      · refine ⟨?_, fun c hc => k5 _ (hmem c hc) _ rfl⟩
        obtain ⟨c, hc, rfl⟩ := List.mem_map.mp he
        simp only [Option.some.injEq] at k4
        exact ⟨c, hc, k2, k3, k4⟩
    · simp only [nbvResult]; ring
    · exact (nbvResult_code ..).1
    · exact (nbvResult_code ..).2

/-- C54 is false when no candidate has negative information: the result is then always
candidate 0 of camera 0 with information 0, whatever the candidates' values are. -/
theorem C54_nonnegative_refuted (env : Env K V) (score : V → K) {s : Cal K V}
    (cands : List (Int × List V)) (hpos : ∀ c ∈ candList cands, 0 ≤ score c.2.2)
    {res : NbvResult K} (hs : findNbvFast env score s cands = .ok (some res)) :
    res.cam = 0 ∧ res.idx = 0 ∧ res.nbvInfo = 0 := by
  unfold findNbvFast at hs
  split_ifs at hs with h1 h2 h3
  case neg => cases hi : env.info s <;> rw [hi] at hs <;> simp at hs
  cases hi : env.info s with
  | none => rw [hi] at hs; simp at hs
  | some ie =>
    obtain ⟨info, ent⟩ := ie
    rw [hi] at hs
    simp only [Except.ok.injEq, Option.some.injEq] at hs
    subst hs
    rw [scanScores_eq]
    rcases pick_chosen (fastTable score cands) with ⟨k1, _⟩ | ⟨k1, ⟨e, he, _, _, k4⟩, _⟩
    · simp [k1, nbvResult]
    · exfalso
      obtain ⟨c, hc, rfl⟩ := List.mem_map.mp he
      simp only [Option.some.injEq] at k4
      have := hpos c hc
      rw [k4] at this
      exact absurd k1 (not_lt.mpr this)

/-! ## C71: searching does not disturb -/

/-- C71 (missing: it records a simulated detection): on a reachable calibrator with a view,
`find_nbv` never fails, and afterwards cameras, poses, views, prior, information and the
problem handed to the optimiser are what they were. -/
theorem C71_find_nbv_frame_partial (env : Env K V) {s : Cal K V} (h : Reach env s)
    (cands : List (Int × List V)) (hc : cands ≠ []) (hn : s.views ≠ []) {last : Int}
    (hl : s.timestamps.getLast? = some last)
    (hsim : SimOK env s.rows s.cols) (hv : SMap.find (last + 1) s.views = none) :
    ∃ s' res, findNbv env s cands = .ok (s', res) ∧ (res = none ↔ env.info s = none) ∧
      s'.params = s.params ∧ s'.exts = s.exts ∧ s'.poses = s.poses ∧ s'.views = s.views ∧
      s'.viewTs = s.viewTs ∧ s'.timestamps = s.timestamps ∧ s'.marg = s.marg ∧
      s'.infoK = s.infoK ∧ s'.entropyK = s.entropyK ∧
      (∀ r, r ∈ problemResiduals s' ↔ r ∈ problemResiduals s) ∧
      (∀ p, p ∈ problemParams s' ↔ p ∈ problemParams s) := by
  obtain ⟨hw, hpv⟩ := h.wf
  have hp : SMap.find (last + 1) s.poses = none := by
    have := hpv (last + 1); rw [hv] at this; simpa using this
  rcases findNbv_spec hw cands hc hn hl hsim hp hv with ⟨h1, h2⟩ | ⟨info, ent, s₂, tab, h1, h2, hsame, _⟩
  · exact ⟨s, none, h2, by simp [h1], rfl, rfl, rfl, rfl, rfl, rfl, rfl, rfl, rfl, fun _ => Iff.rfl,
      fun _ => Iff.rfl⟩
  · exact ⟨s₂, _, h2, by simp [h1], hsame.params, hsame.exts, hsame.poses, hsame.views, hsame.viewTs,
      hsame.timestamps, hsame.marg, hsame.infoK, hsame.entropyK, hsame.presid, hsame.pparam⟩

/-! ## C72: the initial pose of a view -/

/-- C72: a new view's pose is the estimate from the calibrated camera that detected the most
corners, moved to the first camera's frame by that camera's extrinsics. -/
theorem C72_initial_pose (env : Env K V) {s s' : Cal K V} (h : Reach env s)
    (grids : List (Int × Grid K)) (hd : Detections s.rows s.cols grids) {ts : Int}
    (hts : viewStamp grids = some ts) (hnew : SMap.find ts s.views = none)
    (hdet : ∃ cg ∈ grids, cg.2.detected = true ∧ (SMap.find cg.1 s.params).isSome = true)
    {b : Bool} (hs : addView env s grids = .ok (s', b)) :
    ∃ cam g p e T, (cam, g) ∈ grids ∧ SMap.find cam s.params = some p ∧
      SMap.find cam s.exts = some e ∧ env.estimate g p.val = some T ∧
      (∃ q, SMap.find ts s'.poses = some q ∧ q.val = env.compose e.val T) ∧
      ∀ cg ∈ grids, (SMap.find cg.1 s.params).isSome = true → cg.2.nbDetections ≤ g.nbDetections := by
  obtain ⟨hw, hpv⟩ := h.wf
  have hp : SMap.find ts s.poses = none := by
    have := hpv ts; rw [hnew] at this; simpa using this
  unfold addView at hs
  rw [hts] at hs
  simp only at hs
  obtain ⟨s1, h1, hs⟩ := bind_ok hs
  have hd0 : ∃ d, ensureData s ts grids = { s with data := d } := by
    unfold ensureData; split_ifs <;> exact ⟨_, rfl⟩
  obtain ⟨d, hdeq⟩ := hd0
  rw [hdeq, ensurePose, if_neg (by simp [hp]), addPose, if_neg (by simp [hp])] at h1
  have hb := bestGrid_fold s.exts grids ((0, AprilGrid.default) : Int × Grid K)
  simp only at hb h1
  generalize grids.foldl (bestGrid s.exts) ((0, AprilGrid.default) : Int × Grid K) = best at hb h1
  obtain ⟨b1, b2, b3, b4⟩ := hb
  obtain ⟨cg, hcg, hcd, hck⟩ := hdet
  obtain ⟨ops, hops⟩ := hd.2 cg hcg
  have hpos : 0 < cg.2.nbDetections := by
    have := (madeBy_meas hops).2.2.2.2
    rw [hcd] at this
    simpa using this.symm
  have hge := b4 cg hcg (by rw [← hw.keys]; exact hck)
  have hbest : best ∈ grids ∧ (SMap.find best.1 s.exts).isSome = true := by
    rcases b1 with b1 | b1
    · rw [b1] at hge
      simp only [AprilGrid.default] at hge
      omega
    · exact b1
  cases hpar : SMap.find best.1 s.params with
  | none => rw [hpar] at h1; simp at h1
  | some p =>
    rw [hpar] at h1
    simp only at h1
    cases hest : env.estimate best.2 p.val with
    | none => rw [hest] at h1; simp at h1
    | some T =>
      rw [hest] at h1
      simp only at h1
      cases hext : SMap.find best.1 s.exts with
      | none => rw [hext] at h1; simp at h1
      | some e =>
        rw [hext] at h1
        simp only [Except.ok.injEq] at h1
        subst h1
        refine ⟨best.1, best.2, p, e, T, hbest.1, hpar, hext, hest, ?_, ?_⟩
        · simp only [SMap.find_set, if_true, attachView] at hs
          obtain ⟨out, _, hs⟩ := bind_ok hs
          simp only [Except.ok.injEq, Prod.mk.injEq] at hs
          obtain ⟨rfl, _⟩ := hs
          refine ⟨⟨s.next, env.compose e.val T⟩, ?_, rfl⟩
          unfold ensureParam
          split_ifs <;> simp [SMap.find_set]
        · intro x hx hk
          exact b4 x hx (by rw [← hw.keys]; exact hk)

/-! ## C73: filing of detections -/

/-- C73: `add_camera_data` records the timestamps of all grids and files every grid under its
own timestamp and the given camera (the last one, if several share a timestamp); everything
filed under other cameras or timestamps stays. -/
theorem C73_add_camera_data (s : Cal K V) (cam : Int) (grids : List (Grid K)) :
    (∀ t, t ∈ (addCameraData s cam grids).timestamps ↔
      t ∈ s.timestamps ∨ ∃ g ∈ grids, g.timestamp = t) ∧
    (s.timestamps.Pairwise (· < ·) → (addCameraData s cam grids).timestamps.Pairwise (· < ·)) ∧
    ∀ t c, ((SMap.find t (addCameraData s cam grids).data).bind (SMap.find c)) =
      if c = cam then ((grids.reverse.find? (fun g => decide (g.timestamp = t))).or
          ((SMap.find t s.data).bind (SMap.find c)))
      else (SMap.find t s.data).bind (SMap.find c) := by
  induction grids using List.reverseRecOn with
  | nil => simp [addCameraData]
  | append_singleton l g ih =>
    obtain ⟨h1, h2, h3⟩ := ih
    have he : addCameraData s cam (l ++ [g]) = addGrid cam (addCameraData s cam l) g := by
      simp [addCameraData]
    rw [he]
    refine ⟨?_, ?_, ?_⟩
    · intro t
      simp only [addGrid, mem_setInsert, h1, List.mem_append, List.mem_singleton]
      constructor
      · rintro (rfl | h | ⟨x, hx, rfl⟩)
        · exact Or.inr ⟨g, Or.inr rfl, rfl⟩
        · exact Or.inl h
        · exact Or.inr ⟨x, Or.inl hx, rfl⟩
      · rintro (h | ⟨x, hx | rfl, rfl⟩)
        · exact Or.inr (Or.inl h)
        · exact Or.inr (Or.inr ⟨x, hx, rfl⟩)
        · exact Or.inl rfl
    · intro hs
      exact setInsert_sorted (h2 hs)
    · intro t c
      have h3' := h3 t c
      simp only [addGrid, SMap.find_set, List.reverse_append, List.reverse_singleton,
        List.singleton_append, List.find?_cons]
      by_cases ht : t = g.timestamp
      · subst ht
        simp only [if_true, decide_true, Option.some_or]
        simp only [Option.bind_some, SMap.find_set]
        by_cases hc : c = cam
        · simp [hc]
        · rw [if_neg hc] at h3'
          rw [if_neg hc, if_neg hc, ← h3']
          cases SMap.find g.timestamp (addCameraData s cam l).data with
          | none => simp [SMap.find]
          | some x => simp
      · rw [if_neg ht, h3']
        have : ¬ (g.timestamp = t) := fun h => ht h.symm
        simp [this]

/-- C73, several cameras: each camera's grids are filed under that camera; cameras that are not
mentioned keep what they have. -/
theorem C73_add_cameras_data (s : Cal K V) (gs : List (Int × List (Grid K))) (hs : SMap.Sorted gs) :
    (∀ t, t ∈ (addCamerasData s gs).timestamps ↔
      t ∈ s.timestamps ∨ ∃ cg ∈ gs, ∃ g ∈ cg.2, g.timestamp = t) ∧
    ∀ t c, ((SMap.find t (addCamerasData s gs).data).bind (SMap.find c)) =
      ((((SMap.find c gs).getD []).reverse.find? (fun g => decide (g.timestamp = t))).or
          ((SMap.find t s.data).bind (SMap.find c))) := by
  induction gs generalizing s with
  | nil => simp [addCamerasData, SMap.find]
  | cons cg gs ih =>
    have hsub : SMap.Sorted gs := (List.pairwise_cons.1 hs).2
    have hno : ∀ x ∈ gs, cg.1 ≠ x.1 := fun x hx => ne_of_lt ((List.pairwise_cons.1 hs).1 x hx)
    obtain ⟨h1, h2⟩ := ih (addCameraData s cg.1 cg.2) hsub
    obtain ⟨a1, -, a3⟩ := C73_add_camera_data s cg.1 cg.2
    have he : addCamerasData s (cg :: gs) = addCamerasData (addCameraData s cg.1 cg.2) gs := rfl
    rw [he]
    refine ⟨fun t => ?_, fun t c => ?_⟩
    · rw [h1, a1]; simp [or_assoc]
    · rw [h2, a3]
      by_cases hc : c = cg.1
      · subst hc
        have : SMap.find cg.1 gs = none := SMap.find_none_of_not_mem (by
          simp only [List.mem_map, not_exists, not_and]
          exact fun x hx h => hno x hx h.symm)
        rw [this, if_pos rfl]
        simp [SMap.find]
      · rw [if_neg hc]
        simp [SMap.find, Ne.symm hc]


/-! ## C55: image buffer -/

/-- C55 (missing: buffered images newer than the one that arrived, and cameras that have not
delivered an image yet, do not keep the calibrator from reporting ready): the image replaces
the camera's previous one, and the result is whether no buffered image is older. -/
theorem C55_ready_partial (buf : List (Int × Int)) (hs : SMap.Sorted buf) (ts cam : Int) :
    (∀ c, SMap.find c (addMeasurement buf ts cam).1 = if c = cam then some ts else SMap.find c buf) ∧
    ((addMeasurement buf ts cam).2 = true ↔ ∀ c t, c ≠ cam → SMap.find c buf = some t → ts ≤ t) := by
  refine ⟨fun c => SMap.find_set .., ?_⟩
  simp only [addMeasurement, List.all_eq_true, Bool.not_eq_true', decide_eq_false_iff_not, not_lt]
  constructor
  · intro h c t hc hf
    have := h (c, t) (SMap.mem_of_find (by rw [SMap.find_set, if_neg hc]; exact hf))
    exact this
  · rintro h ⟨c, t⟩ hm
    have hf := (SMap.find_eq_some (SMap.set_sorted _ _ _ hs)).mpr hm
    rw [SMap.find_set] at hf
    split_ifs at hf with hc
    · simp only [Option.some.injEq] at hf; exact le_of_eq hf
    · exact h c t hc hf

/-- C55: images that arrive in the order of their timestamps are only processed when all
buffered images carry the same timestamp. -/
theorem C55_in_order (buf : List (Int × Int)) (hs : SMap.Sorted buf) (ts cam : Int)
    (hle : ∀ c t, SMap.find c buf = some t → t ≤ ts)
    (h : (addMeasurement buf ts cam).2 = true) :
    ∀ c t, SMap.find c (addMeasurement buf ts cam).1 = some t → t = ts := by
  obtain ⟨h1, h2⟩ := C55_ready_partial buf hs ts cam
  intro c t hf
  rw [h1] at hf
  split_ifs at hf with hc
  · simp only [Option.some.injEq] at hf; exact hf.symm
  · exact le_antisymm (hle c t hf) (h2.mp h c t hc hf)

/-- C55 is false: a late image is processed together with newer images of other cameras. -/
theorem C55_newer_refuted (buf : List (Int × Int)) (ts cam : Int) {c t : Int} (hc : c ≠ cam)
    (hf : SMap.find c buf = some t) (hnew : ∀ x ∈ buf, ts < x.2) :
    (addMeasurement buf ts cam).2 = true ∧
      SMap.find c (addMeasurement buf ts cam).1 = some t ∧ t ≠ ts := by
  refine ⟨?_, ?_, ?_⟩
  · simp only [addMeasurement, List.all_eq_true, Bool.not_eq_true', decide_eq_false_iff_not, not_lt]
    intro x hx
    rcases SMap.mem_set hx with h | h
    · rw [h]
    · exact (hnew x h).le
  · simp only [addMeasurement, SMap.find_set, if_neg hc]; exact hf
  · have := hnew (c, t) (SMap.mem_of_find hf)
    simp only at this
    omega

/-- C55 is false: the first camera's image is processed alone, before any other camera has
delivered one. -/
theorem C55_missing_refuted (ts cam : Int) : (addMeasurement [] ts cam).2 = true := by
  simp [addMeasurement, SMap.set]

end Yac.Calib
