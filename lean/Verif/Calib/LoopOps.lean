import Verif.Calib.LoopInv

namespace Yac.Calib

open Yac.AprilGrid (Grid Meas Row MadeBy)
open Yac.Solver (CBook)

variable {K V : Type} [Field K] [LinearOrder K]

/-! ## Steps that keep the views -/

/-- Changing values, cached values and numbers keeps a calibrator tidy. -/
theorem Tidy.of_eq {s s' : Cal K V} (h : Tidy s) (hw : WF s')
    (hp : ∀ t, (SMap.find t s'.poses).isSome = (SMap.find t s.poses).isSome)
    (hk : ∀ i, (SMap.find i s'.params).isSome = (SMap.find i s.params).isSome)
    (hr : s'.rows = s.rows) (hc : s'.cols = s.cols) (hv : s'.views = s.views)
    (hd : s'.data = s.data) : Tidy s' where
  wf := hw
  piv := fun t => by rw [hp, hv]; exact h.piv t
  views := fun ts v hf => by
    rw [hv] at hf
    have := h.views ts v hf
    rw [hr, hc]
    exact ⟨this.made, this.stamp, fun c g hg hkn => this.meas c g hg (by rw [← hk]; exact hkn), this.own⟩
  src := fun ts v hf c m hm => by
    rw [hv] at hf
    have := h.src ts v hf c m hm
    unfold InData at this ⊢
    rw [hd]; exact this
  has := fun ts v hf => by rw [hd]; rw [hv] at hf; exact h.has ts v hf
  data := fun ts gs hf => by rw [hr, hc]; rw [hd] at hf; exact h.data ts gs hf

theorem Tidy.solve {s : Cal K V} (h : Tidy s) (env : Env K V) : Tidy (Calib.solve env s) := by
  refine h.of_eq (h.wf.solve env) (solve_poses env s) ?_ rfl rfl rfl rfl
  intro i
  exact find_isSome_map (fun i (p : CamP V) => { p with
    val := if s.solver.hasParam (.cam i) then env.solve s (.cam i) else p.val }) s.params i

theorem Tidy.cache {s : Cal K V} (h : Tidy s) : Tidy (cacheEstimates s) :=
  h.of_eq h.wf.cache (fun _ => rfl) (fun _ => rfl) rfl rfl rfl rfl

theorem Tidy.restore {s : Cal K V} (h : Tidy s) : Tidy (restoreEstimates s) := by
  refine h.of_eq h.wf.restore (fun t => ?_) (fun i => ?_) rfl rfl rfl rfl
  · exact find_isSome_map (fun t (p : PoseObj V) => { p with
      val := (SMap.find t s.posesTmp).getD p.val }) s.poses t
  · exact find_isSome_map (fun i (p : CamP V) => { p with
      val := (SMap.find i s.paramsTmp).getD p.val }) s.params i

/-! ## Adding and removing views -/

theorem viewStamp_cases {grids : List (Int × Grid K)} {t : Int}
    (h : ∀ cg ∈ grids, cg.2.timestamp = t) :
    (viewStamp grids = none ∧ ∀ cg ∈ grids, cg.2.detected = false) ∨
      (viewStamp grids = some t ∧ ∃ cg ∈ grids, cg.2.detected = true) := by
  unfold viewStamp
  cases hf : grids.find? (fun cg => cg.2.detected) with
  | none =>
    left
    refine ⟨rfl, fun cg hcg => ?_⟩
    have := List.find?_eq_none.mp hf cg hcg
    simpa using this
  | some x =>
    right
    have hx := List.mem_of_find?_eq_some hf
    have hd := List.find?_some hf
    exact ⟨by simp [h x hx], x, hx, hd⟩

theorem gridMeas_undetected {rows cols : Nat} {g : Grid K} (hm : ∃ ops, MadeBy rows cols ops g)
    (hd : g.detected = false) : gridMeas g = [] := by
  obtain ⟨ops, h⟩ := hm
  have := madeBy_meas h
  have h1 := this.2.2.2.1
  have h2 := this.2.2.2.2
  rw [hd] at h2
  have h3 : ¬ (0 < g.nbDetections) := by simpa using h2.symm
  rw [setCorners] at h1
  have : (gridMeas g).length = 0 := by omega
  exact List.length_eq_zero_iff.mp this

theorem addView_tmp {env : Env K V} {s s' : Cal K V} {grids : List (Int × Grid K)} {b : Bool}
    (hs : addView env s grids = .ok (s', b)) :
    s'.posesTmp = s.posesTmp ∧ s'.paramsTmp = s.paramsTmp ∧ s'.extsTmp = s.extsTmp := by
  unfold addView at hs
  cases hst : viewStamp grids with
  | none =>
    rw [hst] at hs
    simp only [Except.ok.injEq, Prod.mk.injEq] at hs
    rw [← hs.1]; exact ⟨rfl, rfl, rfl⟩
  | some ts =>
    rw [hst] at hs
    simp only at hs
    obtain ⟨s1, h1, hs⟩ := bind_ok hs
    have h2 : s1.posesTmp = s.posesTmp ∧ s1.paramsTmp = s.paramsTmp ∧ s1.extsTmp = s.extsTmp := by
      have h0 : (ensureData s ts grids).posesTmp = s.posesTmp ∧
          (ensureData s ts grids).paramsTmp = s.paramsTmp ∧
          (ensureData s ts grids).extsTmp = s.extsTmp := by
        unfold ensureData; split_ifs <;> exact ⟨rfl, rfl, rfl⟩
      unfold ensurePose at h1
      split_ifs at h1
      · simp only [Except.ok.injEq] at h1
        rw [← h1]; exact h0
      · obtain ⟨_, x, rfl⟩ := addPose_ok h1
        exact h0
    cases hp : SMap.find ts s1.poses with
    | none => rw [hp] at hs; simp at hs
    | some p =>
      rw [hp] at hs
      simp only at hs
      unfold attachView at hs
      obtain ⟨⟨v, bk, n⟩, _, hs⟩ := bind_ok hs
      simp only [Except.ok.injEq, Prod.mk.injEq] at hs
      rw [← hs.1]
      unfold ensureParam
      split_ifs <;> exact h2

theorem Tidy.addView {env : Env K V} {s s' : Cal K V} {grids : List (Int × Grid K)} {t : Int}
    {b : Bool} (h : Tidy s) (hd : Detections s.rows s.cols grids)
    (hst : ∀ cg ∈ grids, cg.2.timestamp = t) (hnew : SMap.find t s.views = none)
    (hdata : grids ≠ [] → (SMap.find t s.data).isSome = true)
    (hsrc : ∀ c g, SMap.find c grids = some g → (SMap.find c s.params).isSome = true →
      ∀ m ∈ gridMeas g, InData s t c m)
    (hs : addView env s grids = .ok (s', b)) :
    Tidy s' ∧ s'.data = s.data ∧
      ((b = false ∧ s' = s ∧ ∀ cg ∈ grids, cg.2.detected = false) ∨
       (b = true ∧ (∃ cg ∈ grids, cg.2.detected = true) ∧ ∃ v p, Added s s' t v p ∧ v.grids = grids ∧
          v.pose = p.id ∧
          (∀ c g, SMap.find c grids = some g → (SMap.find c s.params).isSome = true →
            v.camKeys c = gridMeas g) ∧
          ∀ c, (SMap.find c grids = none ∨ (SMap.find c s.params).isSome = false) →
            v.camKeys c = [])) := by
  have hok : ∀ cg ∈ grids, GridOK cg.2 := fun cg hcg => (hd.2 cg hcg).elim fun _ h => madeBy_ok h
  rcases viewStamp_cases hst with ⟨h1, h2⟩ | ⟨h1, h2⟩
  · rcases addView_spec h.wf hd.1 hok (by intro ts hts; rw [h1] at hts; simp at hts) hs with
      ⟨_, rfl, rfl⟩ | ⟨ts, v, p, hts, _⟩
    · exact ⟨h, rfl, Or.inl ⟨rfl, rfl, h2⟩⟩
    · rw [h1] at hts; simp at hts
  · rcases addView_spec h.wf hd.1 hok (by
        intro ts hts; rw [h1] at hts; simp only [Option.some.injEq] at hts; rw [← hts]; exact hnew) hs with
      ⟨hts, _⟩ | ⟨ts, v, p, hts, rfl, hw, ha, hg, hp, _, hm⟩
    · rw [h1] at hts; simp at hts
    · rw [h1] at hts
      simp only [Option.some.injEq] at hts
      subst hts
      have hdat : s'.data = s.data := by
        rcases ha.data with e | ⟨e, _⟩
        · exact e
        · have := hdata (by obtain ⟨cg, hcg, _⟩ := h2; rintro rfl; simp at hcg)
          rw [e] at this; simp at this
      have hkeys : ∀ c g, SMap.find c grids = some g → (SMap.find c s.params).isSome = true →
          v.camKeys c = gridMeas g := by
        intro c g hcg hk
        have := hm (c, g) (SMap.mem_of_find hcg)
        simp only [hk, true_and] at this
        show ((SMap.find c v.resFns).getD []).map (fun r => ((r.tag, r.corner), r.z)) = gridMeas g
        rw [this]
        split_ifs with hdet
        · rfl
        · exact (gridMeas_undetected (hd.2 _ (SMap.mem_of_find hcg)) (by simpa using hdet)).symm
      have hvw := hw.views t v (by rw [ha.views, SMap.find_set, if_pos rfl])
      have hnone : ∀ c, (SMap.find c grids = none ∨ (SMap.find c s.params).isSome = false) →
            v.camKeys c = [] := by
        intro c hc
        unfold View.camKeys
        cases hr : SMap.find c v.resFns with
        | none => rfl
        | some rs =>
          rcases hc with hc | hc
          · cases rs with
            | nil => rfl
            | cons r rs =>
              obtain ⟨g, h3, _⟩ := (hvw.2.2.res c _ hr).held r (by simp)
              rw [hg, hc] at h3; simp at h3
          · have := hvw.2.2.cams c rs hr
            rw [ha.params] at this
            rw [hc] at this; simp at this
      refine ⟨⟨hw, ?_, ?_, ?_, ?_, ?_⟩, hdat, Or.inr ⟨rfl, h2, v, p, ha, hg, hp, hkeys, hnone⟩⟩
      · intro x
        rw [ha.poses, ha.views]
        split_ifs with hpp
        · rw [SMap.find_set]
          split_ifs with hx
          · rw [hx, hpp]; rfl
          · exact h.piv x
        · rw [SMap.find_set, SMap.find_set]
          split_ifs
          · rfl
          · exact h.piv x
      · intro x w hx
        rw [ha.views, SMap.find_set] at hx
        rw [ha.rows, ha.cols, ha.params]
        split_ifs at hx with he
        · simp only [Option.some.injEq] at hx
          subst hx he
          refine ⟨by rw [hg]; exact hd, by rw [hg]; exact hst, by rw [hg]; exact hkeys, ?_⟩
          intro c rs hr
          have hcw := hvw.2.2.res c rs hr
          rw [ha.rows, ha.cols] at hcw
          refine ⟨fun r hr => (hcw.own r hr).2.2.2, ?_⟩
          intro hne
          obtain ⟨r, hr⟩ := List.exists_mem_of_ne_nil rs hne
          obtain ⟨g, h3, _⟩ := hcw.held r hr
          rw [h3]; rfl
        · exact h.views x w hx
      · intro x w hx c m hm'
        unfold InData
        rw [hdat]
        rw [ha.views, SMap.find_set] at hx
        split_ifs at hx with he
        · simp only [Option.some.injEq] at hx
          subst hx he
          cases hcg : SMap.find c grids with
          | none => rw [hnone c (Or.inl hcg)] at hm'; simp at hm'
          | some g =>
            by_cases hk : (SMap.find c s.params).isSome = true
            · rw [hkeys c g hcg hk] at hm'
              exact hsrc c g hcg hk m hm'
            · rw [hnone c (Or.inr (by simpa using hk))] at hm'; simp at hm'
        · exact h.src x w hx c m hm'
      · intro x w hx
        rw [hdat]
        rw [ha.views, SMap.find_set] at hx
        split_ifs at hx with he
        · rw [he]
          exact hdata (by obtain ⟨cg, hcg, _⟩ := h2; rintro rfl; simp at hcg)
        · exact h.has x w hx
      · intro x gs hx
        rw [hdat] at hx
        rw [ha.rows, ha.cols]
        exact h.data x gs hx

/-- The view of a recorded frame. -/
theorem Tidy.addFrame {env : Env K V} {s s' : Cal K V} {t : Int} {b : Bool} (h : Tidy s)
    (hnew : SMap.find t s.views = none)
    (hs : Calib.addView env s ((SMap.find t s.data).getD []) = .ok (s', b)) :
    Tidy s' ∧ s'.data = s.data ∧
      ((b = false ∧ s' = s ∧ ∀ cg ∈ (SMap.find t s.data).getD [], cg.2.detected = false) ∨
       (b = true ∧ (∃ cg ∈ (SMap.find t s.data).getD [], cg.2.detected = true) ∧
        ∃ v p, Added s s' t v p ∧ v.grids = (SMap.find t s.data).getD [] ∧ v.pose = p.id ∧
          (∀ c g, SMap.find c ((SMap.find t s.data).getD []) = some g →
            (SMap.find c s.params).isSome = true → v.camKeys c = gridMeas g) ∧
          ∀ c, (SMap.find c ((SMap.find t s.data).getD []) = none ∨
            (SMap.find c s.params).isSome = false) → v.camKeys c = [])) := by
  cases hf : SMap.find t s.data with
  | none =>
    rw [hf] at hs
    simp only [Option.getD_none] at hs ⊢
    exact h.addView ⟨by simp [SMap.Sorted], by simp⟩ (by simp) hnew (by simp) (by simp [SMap.find]) hs
  | some gs =>
    rw [hf] at hs
    simp only [Option.getD_some] at hs ⊢
    obtain ⟨h1, h2⟩ := h.data t gs hf
    refine h.addView h1 h2 hnew (fun _ => by rw [hf]; rfl) ?_ hs
    intro c g hg _ m hm
    exact ⟨gs, g, hf, hg, hm⟩

theorem Tidy.erase {s : Cal K V} (h : Tidy s) {ts : Int} {s' : Cal K V} (hw : WF s')
    (hpo : s'.poses = SMap.erase ts s.poses) (hvi : s'.views = SMap.erase ts s.views)
    (hpa : s'.params = s.params) (hr : s'.rows = s.rows) (hc : s'.cols = s.cols)
    (hd : s'.data = s.data) : Tidy s' where
  wf := hw
  piv := fun t => by
    rw [hpo, hvi, SMap.find_erase, SMap.find_erase]
    split_ifs
    · rfl
    · exact h.piv t
  views := fun t v hf => by
    rw [hvi, SMap.find_erase] at hf
    split_ifs at hf
    rw [hr, hc, hpa]
    exact h.views t v hf
  src := fun t v hf c m hm => by
    rw [hvi, SMap.find_erase] at hf
    split_ifs at hf
    have := h.src t v hf c m hm
    unfold InData at this ⊢
    rw [hd]; exact this
  has := fun t v hf => by
    rw [hvi, SMap.find_erase] at hf
    split_ifs at hf
    rw [hd]; exact h.has t v hf
  data := fun t gs hf => by rw [hd] at hf; rw [hr, hc]; exact h.data t gs hf

theorem Tidy.removeView {s s' : Cal K V} (h : Tidy s) {ts : Int}
    (hs : Calib.removeView s ts = .ok s') : Tidy s' := by
  obtain ⟨b, e, w⟩ := h.wf.removeView ts
  rw [hs] at e
  simp only [Except.ok.injEq] at e
  subst e
  exact h.erase w rfl rfl rfl rfl rfl rfl

theorem Tidy.marginalize {s s' : Cal K V} (h : Tidy s) (hs : Calib.marginalize s = .ok s') :
    Tidy s' ∧ ∃ ts v l, s.views = (ts, v) :: l ∧ s'.views = l ∧ s'.data = s.data ∧
      s'.params = s.params ∧ s'.exts = s.exts ∧ s'.timestamps = s.timestamps ∧
      s'.infoK = s.infoK ∧ s'.threshold = s.threshold := by
  cases hv : s.views with
  | nil => rw [Calib.marginalize, hv] at hs; simp at hs
  | cons x l =>
    obtain ⟨ts, v⟩ := x
    obtain ⟨h1, h2⟩ := h.wf.marginalize hv
    by_cases hc : v.all = [] ∨ ∀ p, ¬ RemainSpec s v p
    · rw [h1 hc] at hs; simp at hs
    · obtain ⟨b, ps, e, w, _⟩ := h2 hc
      rw [hs] at e
      simp only [Except.ok.injEq] at e
      subst e
      refine ⟨h.erase w rfl rfl rfl rfl rfl rfl, ts, v, l, rfl, ?_, rfl, rfl, rfl, rfl, rfl, rfl⟩
      show SMap.erase ts s.views = l
      rw [hv]
      have hso := h.wf.viewsSorted
      rw [hv] at hso
      refine SMap.sorted_ext (SMap.erase_sorted _ _ hso) (List.pairwise_cons.mp hso).2 (fun k => ?_)
      rw [SMap.find_erase]
      by_cases hk : k = ts
      · rw [if_pos hk]
        symm
        apply SMap.find_none_of_not_mem
        intro hmem
        obtain ⟨y, hy, he⟩ := List.mem_map.mp hmem
        have := (List.pairwise_cons.mp hso).1 y hy
        simp only at this
        rw [he, hk] at this
        exact lt_irrefl _ this
      · rw [if_neg hk]
        simp [SMap.find, Ne.symm hk]

theorem mem_camIdxs {s : Cal K V} (c : Int) : c ∈ camIdxs s ↔ (SMap.find c s.params).isSome = true := by
  rw [SMap.find_isSome, camIdxs]

/-- Filtering one view. -/
theorem Tidy.filterOne {s : Cal K V} (h : Tidy s) (resid : Reproj K → Option (K × K))
    (ths : List (Int × (K × K))) {ts : Int} {v : View K} (hv : SMap.find ts s.views = some v) :
    ∃ v' b n, View.filterAll resid (camIdxs s) ths v s.solver = .ok (v', b, n) ∧
      Tidy { s with views := SMap.set ts v' s.views, solver := b } ∧
      v'.ts = v.ts ∧ v'.pose = v.pose ∧
      v'.all = v.all.filter (fun r => !ths.any (fun ct => isOutlier resid ct.2 r)) ∧
      n = v.all.countP (fun r => ths.any (fun ct => isOutlier resid ct.2 r)) ∧
      ∀ c, v'.camKeys c = (((SMap.find c v.resFns).getD []).filter
        (fun r => !ths.any (fun ct => isOutlier resid ct.2 r))).map Reproj.key := by
  obtain ⟨Q, S, hc, hQ, hS⟩ := h.wf.book
  obtain ⟨v', b', S', m, e, f⟩ := filterAll_spec (rows := s.rows) (cols := s.cols) (next := s.next)
    (known := fun i => (SMap.find i s.params).isSome) (Q := Q) resid (camIdxs s) mem_camIdxs ths v
    s.solver S (h.wf.views ts v hv).2.2 hc (fun r hr => (hS _).mpr (Or.inl ⟨ts, v, r, hv, hr, rfl⟩))
  have hw := h.wf.withFiltered hv hQ hS f
  have ht := filterAll_tidy (known := fun i => (SMap.find i s.params).isSome = true) resid
    (fun c hc => (mem_camIdxs c).mp hc) (h.views ts v hv) e
  have hsub : ∀ c, v'.camKeys c = (((SMap.find c v.resFns).getD []).filter
        (fun r => !ths.any (fun ct => isOutlier resid ct.2 r))).map Reproj.key := by
    intro c
    have key : ∀ (w : View K), ViewWF s.rows s.cols s.next (fun i => (SMap.find i s.params).isSome) w →
        (SMap.find c w.resFns).getD [] = w.all.filter (fun r => decide (r.cam = c)) := by
      intro w hw
      have hcam : ∀ c' rs, SMap.find c' w.resFns = some rs → ∀ r ∈ rs, r.cam = c' :=
        fun c' rs hr r hrr => ((hw.res c' rs hr).own r hrr).1
      have hso := hw.rsorted
      unfold View.all
      generalize w.resFns = l at hcam hso
      induction l with
      | nil => rfl
      | cons x l ih =>
        obtain ⟨k, rs⟩ := x
        have h1 := List.pairwise_cons.mp hso
        rw [List.flatMap_cons, List.filter_append]
        have hrest : ∀ c' rs', SMap.find c' l = some rs' → ∀ r ∈ rs', r.cam = c' := by
          intro c' rs' hr
          refine hcam c' rs' ?_
          have hlt := h1.1 _ (SMap.mem_of_find hr)
          simp only at hlt
          simp [SMap.find, ne_of_lt hlt, hr]
        have ih' := ih hrest h1.2
        by_cases hk : k = c
        · subst hk
          have e1 : rs.filter (fun r => decide (r.cam = k)) = rs := by
            rw [List.filter_eq_self]
            intro r hr
            simp [hcam k rs (by simp [SMap.find]) r hr]
          have e2 : (SMap.find k l) = none := by
            apply SMap.find_none_of_not_mem
            intro hmem
            obtain ⟨y, hy, he⟩ := List.mem_map.mp hmem
            have := h1.1 y hy
            simp only at this
            rw [he] at this
            exact lt_irrefl _ this
          rw [e2] at ih'
          simp only [Option.getD_none] at ih'
          rw [e1, ← ih', List.append_nil]
          simp [SMap.find]
        · have e1 : rs.filter (fun r => decide (r.cam = c)) = [] := by
            rw [List.filter_eq_nil_iff]
            intro r hr
            have := hcam k rs (by simp [SMap.find]) r hr
            simp [this, hk]
          rw [e1, List.nil_append, ← ih']
          simp [SMap.find, hk]
    unfold View.camKeys
    rw [key v' f.wf, key v (h.wf.views ts v hv).2.2, f.res, List.filter_filter, List.filter_filter]
    congr 1
    apply List.filter_congr
    intro x _
    exact Bool.and_comm _ _
  refine ⟨v', b', m, e, ⟨hw, ?_, ?_, ?_, ?_, h.data⟩, f.ts, f.pose, f.res, f.count, hsub⟩
  · intro t
    show (SMap.find t s.poses).isSome = (SMap.find t (SMap.set ts v' s.views)).isSome
    rw [SMap.find_set]
    split_ifs with he
    · rw [he, h.piv, hv]; rfl
    · exact h.piv t
  · intro t w hw'
    simp only [SMap.find_set] at hw'
    split_ifs at hw' with he
    · simp only [Option.some.injEq] at hw'
      subst hw' he
      exact ht
    · exact h.views t w hw'
  · intro t w hw' c x hx
    simp only [SMap.find_set] at hw'
    split_ifs at hw' with he
    · simp only [Option.some.injEq] at hw'
      subst hw' he
      refine h.src t v hv c x ?_
      rw [hsub] at hx
      obtain ⟨r, hr, rfl⟩ := List.mem_map.mp hx
      exact List.mem_map.mpr ⟨r, (List.mem_filter.mp hr).1, rfl⟩
    · exact h.src t w hw' c x hx
  · intro t w hw'
    simp only [SMap.find_set] at hw'
    split_ifs at hw' with he
    · rw [he]; exact h.has ts v hv
    · exact h.has t w hw'

end Yac.Calib
