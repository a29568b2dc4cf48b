import Verif.Calib.CameraLemmas

namespace Yac.Calib

open Yac.AprilGrid (Grid Meas Row)
open Yac.Solver (CBook insSet mem_insSet)

variable {K V : Type} [Field K] [LinearOrder K]

/-- A parameter of the calibrator: a known camera or the pose of some timestamp. -/
def Known (s : Cal K V) : Par → Prop
  | .cam i => (SMap.find i s.params).isSome
  | .ext i => (SMap.find i s.exts).isSome
  | .pose k => ∃ ts p, SMap.find ts s.poses = some p ∧ p.id = k

/-- A residual of one of the calibrator's present views. -/
def OfView (s : Cal K V) (r : Res K) : Prop :=
  ∃ ts v x, SMap.find ts s.views = some v ∧ x ∈ v.all ∧ r = .reproj x

/-- The residuals of one camera of a view match the view's grid. -/
structure CamWF (rows cols next pose : Nat) (grids : List (Int × Grid K)) (cam : Int)
    (rs : List (Reproj K)) : Prop where
  own : ∀ r ∈ rs, r.cam = cam ∧ r.pose = pose ∧ r.id < next ∧ hasCorner rows cols r.tag r.corner
  corners : (rs.map (fun r => (r.tag, r.corner))).Nodup
  held : ∀ r ∈ rs, ∃ g, SMap.find cam grids = some g ∧ AprilGrid.has g r.tag r.corner = .ok true
  count : rs = [] ∨ ∀ g, SMap.find cam grids = some g → (rs.length : Int) ≤ g.nbDetections

/-- A view is consistent with itself. -/
structure ViewWF (rows cols next : Nat) (known : Int → Prop) (v : View K) : Prop where
  gsorted : SMap.Sorted v.grids
  rsorted : SMap.Sorted v.resFns
  cams : ∀ cam rs, SMap.find cam v.resFns = some rs → known cam
  res : ∀ cam rs, SMap.find cam v.resFns = some rs → CamWF rows cols next v.pose v.grids cam rs

/-- The calibrator is consistent. -/
structure WF (s : Cal K V) : Prop where
  psorted : SMap.Sorted s.params
  esorted : SMap.Sorted s.exts
  keys : ∀ i, (SMap.find i s.params).isSome = (SMap.find i s.exts).isSome
  posesSorted : SMap.Sorted s.poses
  viewsSorted : SMap.Sorted s.views
  poseInj : ∀ t t' p p', SMap.find t s.poses = some p → SMap.find t' s.poses = some p' →
    p.id = p'.id → t = t'
  poseLt : ∀ t p, SMap.find t s.poses = some p → p.id < s.next
  views : ∀ ts v, SMap.find ts s.views = some v → v.ts = ts ∧
    (∃ p, SMap.find ts s.poses = some p ∧ p.id = v.pose) ∧
    ViewWF s.rows s.cols s.next (fun i => (SMap.find i s.params).isSome) v
  tsNodup : s.viewTs.Nodup
  tsMem : ∀ ts, ts ∈ s.viewTs ↔ (SMap.find ts s.views).isSome
  marg : ∀ r, s.marg = some r → ∃ id ps, r = .marg id ps ∧ id < s.next ∧ ps.Nodup ∧
    ∀ p ∈ ps, ∃ i, (p = .cam i ∨ p = .ext i) ∧ (SMap.find i s.params).isSome
  book : ∃ Q S, Solver.CInv Res.blocks s.solver Q S ∧ (∀ p, p ∈ Q ↔ Known s p) ∧
    (∀ r, r ∈ S ↔ OfView s r ∨ s.marg = some r)

theorem mem_all {v : View K} (hs : SMap.Sorted v.resFns) (x : Reproj K) :
    x ∈ v.all ↔ ∃ cam rs, SMap.find cam v.resFns = some rs ∧ x ∈ rs := by
  rw [View.all, List.mem_flatMap]
  constructor
  · rintro ⟨⟨c, rs⟩, h1, h2⟩
    exact ⟨c, rs, (SMap.find_eq_some hs).mpr h1, h2⟩
  · rintro ⟨c, rs, h1, h2⟩
    exact ⟨(c, rs), SMap.mem_of_find h1, h2⟩

theorem ViewWF.mono {rows cols next next' : Nat} {known known' : Int → Prop} {v : View K}
    (h : ViewWF rows cols next known v) (hn : next ≤ next') (hk : ∀ i, known i → known' i) :
    ViewWF rows cols next' known' v where
  gsorted := h.gsorted
  rsorted := h.rsorted
  cams := fun c rs hf => hk _ (h.cams c rs hf)
  res := fun c rs hf => by
    have := h.res c rs hf
    exact ⟨fun r hr => by have := this.own r hr; exact ⟨this.1, this.2.1, by omega, this.2.2.2⟩,
      this.corners, this.held, this.count⟩

theorem ViewWF.of_mem {rows cols next : Nat} {known : Int → Prop} {v : View K}
    (h : ViewWF rows cols next known v) {x : Reproj K} (hx : x ∈ v.all) :
    x.pose = v.pose ∧ x.id < next ∧ known x.cam ∧
      ∃ rs, SMap.find x.cam v.resFns = some rs ∧ x ∈ rs := by
  obtain ⟨c, rs, h1, h2⟩ := (mem_all h.rsorted x).mp hx
  have := (h.res c rs h1).own x h2
  refine ⟨this.2.1, this.2.2.1, ?_, ?_⟩
  · rw [this.1]; exact h.cams c rs h1
  · rw [this.1]; exact ⟨rs, h1, h2⟩

theorem ViewWF.all_nodup {rows cols next : Nat} {known : Int → Prop} {v : View K}
    (h : ViewWF rows cols next known v) : v.all.Nodup := by
  rw [View.all, List.nodup_flatMap]
  constructor
  · rintro ⟨c, rs⟩ hm
    have := (h.res c rs ((SMap.find_eq_some h.rsorted).mpr hm)).corners
    exact List.Nodup.of_map _ this
  · have hs : List.Pairwise (fun a b : Int × List (Reproj K) => a.1 < b.1) v.resFns := h.rsorted
    rw [List.Pairwise.and_mem] at hs
    refine hs.imp ?_
    rintro ⟨c, rs⟩ ⟨c', rs'⟩ ⟨h1, h2, h3⟩ x hx hx'
    have e1 := ((h.res c rs ((SMap.find_eq_some h.rsorted).mpr h1)).own x hx).1
    have e2 := ((h.res c' rs' ((SMap.find_eq_some h.rsorted).mpr h2)).own x hx').1
    simp only at h3 e1 e2
    omega

/-! ## New calibrator, cameras -/

theorem WF.new (rows cols : Nat) (th : K) : WF (Cal.new rows cols th : Cal K V) where
  psorted := by simp [Cal.new, SMap.Sorted]
  esorted := by simp [Cal.new, SMap.Sorted]
  keys := by simp [Cal.new, SMap.find]
  posesSorted := by simp [Cal.new, SMap.Sorted]
  viewsSorted := by simp [Cal.new, SMap.Sorted]
  poseInj := by simp [Cal.new, SMap.find]
  poseLt := by simp [Cal.new, SMap.find]
  views := by simp [Cal.new, SMap.find]
  tsNodup := by simp [Cal.new]
  tsMem := by simp [Cal.new, SMap.find]
  marg := by simp [Cal.new]
  book := ⟨∅, ∅, Solver.CInv.empty, by intro p; cases p <;> simp [Known, Cal.new, SMap.find],
    by simp [OfView, Cal.new, SMap.find]⟩

theorem WF.addCamera {s s' : Cal K V} (h : WF s) {i : Int} {p e : V} {fp fe : Bool}
    (hs : addCamera s i p e fp fe = .ok s') : WF s' := by
  unfold Calib.addCamera at hs
  split_ifs at hs with hn
  simp only [Except.ok.injEq] at hs
  subst hs
  have hmono : ∀ j, (SMap.find j s.params).isSome →
      (SMap.find j (SMap.set i (⟨p, fp⟩ : CamP V) s.params)).isSome := by
    intro j hj; rw [SMap.find_set]; split_ifs <;> simp_all
  refine ⟨SMap.set_sorted _ _ _ h.psorted, SMap.set_sorted _ _ _ h.esorted, ?_, h.posesSorted,
    h.viewsSorted, h.poseInj, h.poseLt, ?_, h.tsNodup, h.tsMem, ?_, ?_⟩
  · intro j
    simp only [SMap.find_set]
    split_ifs
    · rfl
    · exact h.keys j
  · intro ts v hv
    obtain ⟨h1, h2, h3⟩ := h.views ts v hv
    exact ⟨h1, h2, h3.mono le_rfl (fun j hj => hmono j hj)⟩
  · intro r hr
    obtain ⟨id, ps, h1, h2, h3, h4⟩ := h.marg r hr
    refine ⟨id, ps, h1, h2, h3, fun q hq => ?_⟩
    obtain ⟨j, hj, hj'⟩ := h4 q hq
    exact ⟨j, hj, hmono j hj'⟩
  · obtain ⟨Q, S, hc, hQ, hS⟩ := h.book
    refine ⟨_, S, (hc.addParam (.cam i)).addParam (.ext i), ?_, hS⟩
    intro q
    rw [Finset.mem_insert, Finset.mem_insert, hQ]
    cases q with
    | cam j =>
      simp only [Known, SMap.find_set, Par.cam.injEq, reduceCtorEq, false_or]
      by_cases hj : j = i <;> simp [hj]
    | ext j =>
      simp only [Known, SMap.find_set, Par.ext.injEq, reduceCtorEq, false_or]
      by_cases hj : j = i <;> simp [hj]
    | pose k => simp [Known]

/-! ## Building a view -/

/-- Creation number of a residual. -/
def Res.id : Res K → Nat
  | .reproj r => r.id
  | .marg i _ => i

theorem hasCorner_idx {rows cols : Nat} {t c : Int} (h : hasCorner rows cols t c = true) :
    0 ≤ t ∧ 0 ≤ c ∧ c < 4 := by
  simp only [hasCorner, decide_eq_true_eq] at h; omega

theorem addReproj_fold {rows cols : Nat} {cam : Int} {pose : Nat}
    {Q : Finset Par} (hq : .ext cam ∈ Q ∧ .pose pose ∈ Q ∧ .cam cam ∈ Q) :
    ∀ (ms : List ((Int × Int) × (K × K))) (rs : List (Reproj K)) (b : CBook Par (Res K)) (n : Nat)
      (S : Finset (Res K)), Solver.CInv Res.blocks b Q S → (∀ r ∈ S, r.id < n) →
    (∀ out, ms.foldlM (addReproj rows cols cam pose) (rs, b, n) = .ok out →
      ∃ new, out.1 = rs ++ new ∧ new.map (fun r => ((r.tag, r.corner), r.z)) = ms ∧
        (∀ r ∈ new, r.cam = cam ∧ r.pose = pose ∧ n ≤ r.id ∧ r.id < out.2.2 ∧
          hasCorner rows cols r.tag r.corner) ∧ n ≤ out.2.2 ∧
        ∃ S', Solver.CInv Res.blocks out.2.1 Q S' ∧ (∀ r ∈ S', r.id < out.2.2) ∧
          ∀ x, x ∈ S' ↔ x ∈ S ∨ ∃ r ∈ new, x = .reproj r) ∧
    ((∀ m ∈ ms, hasCorner rows cols m.1.1 m.1.2) →
      ∃ out, ms.foldlM (addReproj rows cols cam pose) (rs, b, n) = .ok out) := by
  intro ms
  induction ms with
  | nil =>
    intro rs b n S hc hid
    constructor
    · intro out h
      simp only [List.foldlM_nil, AprilGrid.pure_eq_ok, Except.ok.injEq] at h
      subst h
      exact ⟨[], by simp, rfl, by simp, le_rfl, S, hc, hid, by simp⟩
    · intro _; exact ⟨_, rfl⟩
  | cons m ms ih =>
    intro rs b n S hc hid
    have hfresh : Res.reproj (⟨n, cam, pose, m.1.1, m.1.2, m.2⟩ : Reproj K) ∉ S := by
      intro hm; have := hid _ hm; simp [Res.id] at this
    obtain ⟨b', hb', hinv⟩ := hc.addResidual _ hfresh
      (by simp only [Res.blocks, List.mem_cons, List.not_mem_nil, or_false]
          rintro p (rfl | rfl | rfl)
          · exact hq.1
          · exact hq.2.1
          · exact hq.2.2) (by simp [Res.blocks])
    have hid' : ∀ r ∈ insert (Res.reproj (⟨n, cam, pose, m.1.1, m.1.2, m.2⟩ : Reproj K)) S, r.id < n + 1 := by
      intro r hr
      rcases Finset.mem_insert.mp hr with rfl | hr
      · simp [Res.id]
      · have := hid r hr; omega
    have ih' := ih (rs ++ [⟨n, cam, pose, m.1.1, m.1.2, m.2⟩]) b' (n + 1) _ hinv hid'
    have hstep : hasCorner rows cols m.1.1 m.1.2 = true →
        addReproj rows cols cam pose (rs, b, n) m =
          .ok (rs ++ [⟨n, cam, pose, m.1.1, m.1.2, m.2⟩], b', n + 1) := by
      intro hcn
      simp only [addReproj, hcn, if_true, hb', AprilGrid.ok_bind]
      rfl
    constructor
    · intro out h
      rw [List.foldlM_cons] at h
      obtain ⟨a, h1, h2⟩ := bind_ok h
      have hcn : hasCorner rows cols m.1.1 m.1.2 = true := by
        by_contra hcn
        simp only [addReproj, if_neg hcn] at h1
        simp at h1
      rw [hstep hcn] at h1
      simp only [Except.ok.injEq] at h1
      subst h1
      obtain ⟨new, e1, e2, e3, e4, S', e5, e6, e7⟩ := ih'.1 out h2
      refine ⟨⟨n, cam, pose, m.1.1, m.1.2, m.2⟩ :: new, ?_, ?_, ?_, by omega, S', e5, e6, ?_⟩
      · rw [e1]; simp
      · rw [List.map_cons, e2]
      · intro r hr
        rcases List.mem_cons.mp hr with rfl | hr
        · exact ⟨rfl, rfl, le_rfl, by simp only; omega, hcn⟩
        · have := e3 r hr
          exact ⟨this.1, this.2.1, by omega, this.2.2.2⟩
      · intro x
        rw [e7, Finset.mem_insert]
        simp only [List.mem_cons, exists_eq_or_imp]
        tauto
    · intro hall
      rw [List.foldlM_cons, hstep (hall m (by simp)), AprilGrid.ok_bind]
      exact ih'.2 (fun x hx => hall x (by simp [hx]))

/-- A grid handed to `add_view` is a proper grid if anything was detected in it. -/
def GridOK (g : Grid K) : Prop :=
  g.detected = true → g.init = true ∧ (setCorners g : Int) ≤ g.nbDetections

/-- What the constructor of a view has established after the cameras in `done`. -/
structure Built (rows cols : Nat) (params : List (Int × CamP V)) (pose : Nat) (Q : Finset Par)
    (S₀ : Finset (Res K)) (n₀ : Nat) (all done : List (Int × Grid K))
    (acc : List (Int × List (Reproj K)) × CBook Par (Res K) × Nat) : Prop where
  sorted : SMap.Sorted acc.1
  le : n₀ ≤ acc.2.2
  entry : ∀ c rs, SMap.find c acc.1 = some rs → c ∈ done.map Prod.fst ∧
    (SMap.find c params).isSome ∧ CamWF rows cols acc.2.2 pose all c rs ∧ ∀ r ∈ rs, n₀ ≤ r.id
  meas : ∀ cg ∈ done, ((SMap.find cg.1 acc.1).getD []).map (fun r => ((r.tag, r.corner), r.z)) =
    if (SMap.find cg.1 params).isSome ∧ cg.2.detected = true then gridMeas cg.2 else []
  book : ∃ S', Solver.CInv Res.blocks acc.2.1 Q S' ∧ (∀ r ∈ S', r.id < acc.2.2) ∧
    ∀ x, x ∈ S' ↔ x ∈ S₀ ∨ ∃ c rs r, SMap.find c acc.1 = some rs ∧ r ∈ rs ∧ x = .reproj r

theorem CamWF.mono {rows cols n n' pose : Nat} {grids : List (Int × Grid K)} {cam : Int}
    {rs : List (Reproj K)} (h : CamWF rows cols n pose grids cam rs) (hn : n ≤ n') :
    CamWF rows cols n' pose grids cam rs :=
  ⟨fun r hr => by have := h.own r hr; exact ⟨this.1, this.2.1, by omega, this.2.2.2⟩,
    h.corners, h.held, h.count⟩

theorem Built.step {rows cols : Nat} {params exts : List (Int × CamP V)} {pose : Nat}
    {Q : Finset Par} (hpose : .pose pose ∈ Q)
    (hcam : ∀ i, (SMap.find i params).isSome → .cam i ∈ Q ∧ .ext i ∈ Q)
    {S₀ : Finset (Res K)} {n₀ : Nat} {all done : List (Int × Grid K)} (hsort : SMap.Sorted all)
    {cg : Int × Grid K} (hin : cg ∈ all) (hok : GridOK cg.2) (hnew : cg.1 ∉ done.map Prod.fst)
    {acc acc' : List (Int × List (Reproj K)) × CBook Par (Res K) × Nat}
    (h : Built rows cols params pose Q S₀ n₀ all done acc)
    (hs : addCamGrid rows cols params exts pose acc cg = .ok acc') :
    Built rows cols params pose Q S₀ n₀ all (done ++ [cg]) acc' := by
  have hnone : SMap.find cg.1 acc.1 = none := by
    by_contra hne
    obtain ⟨rs, hrs⟩ := Option.ne_none_iff_exists'.mp hne
    exact hnew (h.entry _ _ hrs).1
  -- nothing happens
  have skip : acc' = acc → (¬ ((SMap.find cg.1 params).isSome ∧ cg.2.detected = true) ∨
      gridMeas cg.2 = []) → Built rows cols params pose Q S₀ n₀ all (done ++ [cg]) acc' := by
    rintro rfl hcase
    refine ⟨h.sorted, h.le, ?_, ?_, h.book⟩
    · intro c rs hf
      obtain ⟨h1, h2⟩ := h.entry c rs hf
      exact ⟨by simp only [List.map_append, List.mem_append]; exact Or.inl h1, h2⟩
    · intro x hx
      rcases List.mem_append.mp hx with hx | hx
      · exact h.meas x hx
      · simp only [List.mem_singleton] at hx
        subst hx
        rw [hnone]
        rcases hcase with hc | hc
        · rw [if_neg hc]; rfl
        · rw [hc]; simp
  unfold addCamGrid at hs
  by_cases h1 : (SMap.find cg.1 params).isNone = true
  · rw [if_pos h1] at hs
    simp only [Except.ok.injEq] at hs
    exact skip hs.symm (Or.inl (by simp_all))
  by_cases h2 : cg.2.detected = false
  · rw [if_neg h1, if_pos h2] at hs
    simp only [Except.ok.injEq] at hs
    exact skip hs.symm (Or.inl (by simp_all))
  · rw [if_neg h1, if_neg h2] at hs
    have hp : (SMap.find cg.1 params).isSome = true := by
      cases hf : SMap.find cg.1 params <;> simp_all
    have hd : cg.2.detected = true := by simpa using h2
    obtain ⟨m, hm, hs⟩ := bind_ok hs
    have hms := getMeasurements_list cg.2 m hd hm
    simp only [hms] at hs
    by_cases h3 : gridMeas cg.2 = []
    · rw [if_pos h3] at hs
      simp only [AprilGrid.pure_eq_ok, Except.ok.injEq] at hs
      exact skip hs.symm (Or.inr h3)
    · rw [if_neg h3] at hs
      by_cases h4 : (SMap.find cg.1 exts).isNone = true
      · rw [if_pos h4] at hs; simp at hs
      rw [if_neg h4] at hs
      obtain ⟨out, ho, hs⟩ := bind_ok hs
      simp only [AprilGrid.pure_eq_ok, Except.ok.injEq] at hs
      subst hs
      rw [hnone] at ho
      obtain ⟨S', hc, hid, hmem⟩ := h.book
      obtain ⟨new, e1, e2, e3, e4, S'', e5, e6, e7⟩ :=
        (addReproj_fold ⟨(hcam _ hp).2, hpose, (hcam _ hp).1⟩ _ _ _ _ S' hc hid).1 out ho
      simp only [Option.getD_none, List.nil_append] at e1
      obtain ⟨hgi, hgc⟩ := hok hd
      have hfind : SMap.find cg.1 all = some cg.2 := (SMap.find_eq_some hsort).mpr hin
      have hnewWF : CamWF rows cols out.2.2 pose all cg.1 new := by
        refine ⟨fun r hr => ?_, ?_, ?_, ?_⟩
        · have := e3 r hr; exact ⟨this.1, this.2.1, this.2.2.2.1, this.2.2.2.2⟩
        · have := gridMeas_nodup cg.2
          rw [← e2, List.map_map] at this
          exact this
        · intro r hr
          refine ⟨cg.2, hfind, ?_⟩
          have : ((r.tag, r.corner), r.z) ∈ gridMeas cg.2 := by
            rw [← e2]; exact List.mem_map.mpr ⟨r, hr, rfl⟩
          exact gridMeas_has cg.2 hgi _ this
        · right
          intro g hg
          rw [hfind] at hg
          have : g = cg.2 := (Option.some.inj hg).symm
          subst this
          have hl : new.length = (gridMeas cg.2).length := by rw [← e2, List.length_map]
          rw [hl]; exact hgc
      have hle : acc.2.2 ≤ out.2.2 := e4
      refine ⟨SMap.set_sorted _ _ _ h.sorted, le_trans h.le hle, ?_, ?_, S'', e5, e6, ?_⟩
      · intro c rs hf
        simp only [SMap.find_set] at hf
        simp only [List.map_append, List.mem_append]
        split_ifs at hf with hcc
        · subst hcc
          have : rs = new := by rw [← e1]; exact (Option.some.inj hf).symm
          subst this
          refine ⟨Or.inr (by simp), hp, hnewWF, fun r hr => ?_⟩
          have := e3 r hr; have := h.le; omega
        · obtain ⟨k1, k2, k3, k4⟩ := h.entry c rs hf
          exact ⟨Or.inl k1, k2, k3.mono hle, k4⟩
      · intro x hx
        rcases List.mem_append.mp hx with hx | hx
        · have hne : x.1 ≠ cg.1 := by
            intro he; exact hnew (he ▸ List.mem_map.mpr ⟨x, hx, rfl⟩)
          simp only [SMap.find_set, if_neg hne]
          exact h.meas x hx
        · simp only [List.mem_singleton] at hx
          subst hx
          simp only [SMap.find_set, if_true, Option.getD_some]
          rw [if_pos ⟨hp, hd⟩, e1, e2]
      · intro x
        rw [e7, hmem]
        simp only [SMap.find_set]
        constructor
        · rintro ((hx | ⟨c, rs, r, k1, k2, k3⟩) | ⟨r, hr, rfl⟩)
          · exact Or.inl hx
          · refine Or.inr ⟨c, rs, r, ?_, k2, k3⟩
            have : c ≠ cg.1 := by rintro rfl; rw [hnone] at k1; simp at k1
            rw [if_neg this]; exact k1
          · exact Or.inr ⟨cg.1, out.1, r, by simp, by rw [e1]; exact hr, rfl⟩
        · rintro (hx | ⟨c, rs, r, k1, k2, k3⟩)
          · exact Or.inl (Or.inl hx)
          · split_ifs at k1 with hcc
            · have : rs = new := by rw [← e1]; exact (Option.some.inj k1).symm
              subst this
              exact Or.inr ⟨r, k2, k3⟩
            · exact Or.inl (Or.inr ⟨c, rs, r, k1, k2, k3⟩)

theorem Built.run {rows cols : Nat} {params exts : List (Int × CamP V)} {pose : Nat}
    {Q : Finset Par} (hpose : .pose pose ∈ Q)
    (hcam : ∀ i, (SMap.find i params).isSome → .cam i ∈ Q ∧ .ext i ∈ Q)
    {S₀ : Finset (Res K)} {n₀ : Nat} {all : List (Int × Grid K)} (hsort : SMap.Sorted all)
    (hok : ∀ cg ∈ all, GridOK cg.2) :
    ∀ (grids done : List (Int × Grid K)), all = done ++ grids →
    ∀ (acc acc' : List (Int × List (Reproj K)) × CBook Par (Res K) × Nat),
    Built rows cols params pose Q S₀ n₀ all done acc →
    grids.foldlM (addCamGrid rows cols params exts pose) acc = .ok acc' →
    Built rows cols params pose Q S₀ n₀ all all acc' := by
  intro grids
  induction grids with
  | nil =>
    intro done hall acc acc' hb hs
    simp only [List.foldlM_nil, AprilGrid.pure_eq_ok, Except.ok.injEq] at hs
    subst hs
    simp only [List.append_nil] at hall
    rw [← hall] at hb
    exact hb
  | cons cg grids ih =>
    intro done hall acc acc' hb hs
    rw [List.foldlM_cons] at hs
    obtain ⟨a, h1, h2⟩ := bind_ok hs
    have hin : cg ∈ all := by rw [hall]; simp
    refine ih (done ++ [cg]) (by rw [hall]; simp) a acc' ?_ h2
    refine hb.step hpose hcam hsort hin (hok cg hin) ?_ h1
    intro hmem
    have hs' : SMap.Sorted (done ++ cg :: grids) := hall ▸ hsort
    rw [SMap.Sorted, List.pairwise_append] at hs'
    rw [List.mem_map] at hmem
    obtain ⟨x, hx, he⟩ := hmem
    have := hs'.2.2 x hx cg (by simp)
    omega

end Yac.Calib
