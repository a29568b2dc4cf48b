import Verif.Calib.CameraInv

namespace Yac.Calib

open Yac.AprilGrid (Grid Meas Row)
open Yac.Solver (CBook insSet mem_insSet)

variable {K V : Type} [Field K] [LinearOrder K]

/-! ## Poses -/

theorem WF.withPose {s : Cal K V} (h : WF s) {ts : Int} (hn : SMap.find ts s.poses = none) (x : V) :
    WF { s with poses := SMap.set ts ⟨s.next, x⟩ s.poses,
                solver := s.solver.addParam (.pose s.next), next := s.next + 1 } where
  psorted := h.psorted
  esorted := h.esorted
  keys := h.keys
  posesSorted := SMap.set_sorted _ _ _ h.posesSorted
  viewsSorted := h.viewsSorted
  poseInj := by
    intro t t' p p' hp hp' he
    simp only [SMap.find_set] at hp hp'
    split_ifs at hp with h1 <;> split_ifs at hp' with h2
    · rw [h1, h2]
    · exfalso
      have := h.poseLt _ _ hp'
      simp only [Option.some.injEq] at hp
      rw [← hp] at he; simp only at he; omega
    · exfalso
      have := h.poseLt _ _ hp
      simp only [Option.some.injEq] at hp'
      rw [← hp'] at he; simp only at he; omega
    · exact h.poseInj _ _ _ _ hp hp' he
  poseLt := by
    intro t p hp
    simp only [SMap.find_set] at hp
    split_ifs at hp with h1
    · simp only [Option.some.injEq] at hp
      rw [← hp]; simp
    · have := h.poseLt _ _ hp; simp only; omega
  views := by
    intro t v hv
    obtain ⟨h1, ⟨p, h2, h3⟩, h4⟩ := h.views t v hv
    refine ⟨h1, ⟨p, ?_, h3⟩, h4.mono (by simp) (fun _ h => h)⟩
    have : t ≠ ts := by rintro rfl; rw [hn] at h2; simp at h2
    simp only [SMap.find_set, if_neg this]; exact h2
  tsNodup := h.tsNodup
  tsMem := h.tsMem
  marg := by
    intro r hr
    obtain ⟨id, ps, h1, h2, h3⟩ := h.marg r hr
    exact ⟨id, ps, h1, by simp only; omega, h3⟩
  book := by
    obtain ⟨Q, S, hc, hQ, hS⟩ := h.book
    refine ⟨_, S, hc.addParam (.pose s.next), ?_, hS⟩
    intro q
    rw [Finset.mem_insert, hQ]
    cases q with
    | cam j => simp [Known]
    | ext j => simp [Known]
    | pose k =>
      simp only [Known, SMap.find_set, Par.pose.injEq]
      constructor
      · rintro (rfl | ⟨t, p, h1, h2⟩)
        · exact ⟨ts, ⟨s.next, x⟩, by simp, rfl⟩
        · refine ⟨t, p, ?_, h2⟩
          have : t ≠ ts := by rintro rfl; rw [hn] at h1; simp at h1
          rw [if_neg this]; exact h1
      · rintro ⟨t, p, h1, h2⟩
        split_ifs at h1 with h3
        · left; simp only [Option.some.injEq] at h1; rw [← h2, ← h1]
        · exact Or.inr ⟨t, p, h1, h2⟩

theorem addPose_ok {env : Env K V} {s s' : Cal K V} {ts : Int} {grids : List (Int × Grid K)}
    (h : addPose env s ts grids = .ok s') :
    SMap.find ts s.poses = none ∧ ∃ x, s' = { s with
      poses := SMap.set ts ⟨s.next, x⟩ s.poses,
      solver := s.solver.addParam (.pose s.next), next := s.next + 1 } := by
  unfold addPose at h
  split_ifs at h with h1
  have hn : SMap.find ts s.poses = none := by
    cases hf : SMap.find ts s.poses <;> simp_all
  refine ⟨hn, ?_⟩
  dsimp only at h
  split at h
  · simp at h
  · split at h
    · simp at h
    · split at h
      · simp at h
      · simp only [Except.ok.injEq] at h
        exact ⟨_, h.symm⟩

theorem WF.hasParam {s : Cal K V} (h : WF s) (p : Par) : s.solver.hasParam p = true ↔ Known s p := by
  obtain ⟨Q, S, hc, hQ, hS⟩ := h.book
  rw [hc.hasParam, decide_eq_true_eq, hQ]

/-! ## Adding a view -/

/-- The effect of a successful `add_view` on everything except `data`. -/
structure Added (s s' : Cal K V) (ts : Int) (v : View K) (pose : PoseObj V) : Prop where
  rows : s'.rows = s.rows
  cols : s'.cols = s.cols
  params : s'.params = s.params
  exts : s'.exts = s.exts
  poses : s'.poses = if (SMap.find ts s.poses).isSome then s.poses else SMap.set ts pose s.poses
  pose : SMap.find ts s'.poses = some pose
  views : s'.views = SMap.set ts v s.views
  viewTs : s'.viewTs = s.viewTs ++ [ts]
  timestamps : s'.timestamps = s.timestamps
  marg : s'.marg = s.marg
  infoK : s'.infoK = s.infoK
  entropyK : s'.entropyK = s.entropyK
  threshold : s'.threshold = s.threshold
  removed : s'.removedOutliers = s.removedOutliers
  data : s'.data = s.data ∨ (SMap.find ts s.data = none ∧ ∃ g, s'.data = SMap.set ts g s.data)
  next : s.next ≤ s'.next

theorem WF.withView {s : Cal K V} (h : WF s) {ts : Int} {p : PoseObj V} {grids : List (Int × Grid K)}
    (hp : SMap.find ts s.poses = some p) (hv : SMap.find ts s.views = none)
    (hsort : SMap.Sorted grids) (hok : ∀ cg ∈ grids, GridOK cg.2)
    {v : View K} {b : CBook Par (Res K)} {n : Nat}
    (hnew : View.new s.rows s.cols s.params s.exts ts grids p.id s.solver s.next = .ok (v, b, n)) :
    WF { s with viewTs := s.viewTs ++ [ts], views := SMap.set ts v s.views,
                solver := b, next := n } ∧ s.next ≤ n ∧ v.grids = grids ∧ v.pose = p.id ∧
      (∀ x ∈ v.all, s.next ≤ x.id) ∧
      ∀ cg ∈ grids, ((SMap.find cg.1 v.resFns).getD []).map (fun r => ((r.tag, r.corner), r.z)) =
        if (SMap.find cg.1 s.params).isSome ∧ cg.2.detected = true then gridMeas cg.2 else [] := by
  obtain ⟨Q, S, hc, hQ, hS⟩ := h.book
  unfold View.new at hnew
  obtain ⟨out, ho, hnew⟩ := bind_ok hnew
  simp only [AprilGrid.pure_eq_ok, Except.ok.injEq, Prod.mk.injEq] at hnew
  obtain ⟨rfl, rfl, rfl⟩ := hnew
  have hidS : ∀ r ∈ S, r.id < s.next := by
    intro r hr
    rcases (hS r).mp hr with ⟨t, v, x, h1, h2, rfl⟩ | hm
    · exact ((h.views t v h1).2.2.of_mem h2).2.1
    · obtain ⟨id, ps, rfl, h2, _⟩ := h.marg r hm; exact h2
  have hbuilt := Built.run (rows := s.rows) (cols := s.cols) (params := s.params) (exts := s.exts)
    (pose := p.id) (Q := Q) ((hQ _).mpr ⟨ts, p, hp, rfl⟩)
    (fun i hi => ⟨(hQ _).mpr hi, (hQ _).mpr (by simp only [Known]; rw [← h.keys]; exact hi)⟩)
    (S₀ := S) (n₀ := s.next) hsort hok grids [] rfl ([], s.solver, s.next) out
    ⟨by simp [SMap.Sorted], le_rfl, by simp [SMap.find], by simp, S, hc, hidS, by simp [SMap.find]⟩ ho
  obtain ⟨S', hc', hid', hmem'⟩ := hbuilt.book
  have hvWF : ViewWF s.rows s.cols out.2.2 (fun i => (SMap.find i s.params).isSome)
      (⟨ts, grids, p.id, out.1⟩ : View K) :=
    ⟨hsort, hbuilt.sorted, fun c rs hf => (hbuilt.entry c rs hf).2.1,
      fun c rs hf => (hbuilt.entry c rs hf).2.2.1⟩
  refine ⟨⟨h.psorted, h.esorted, h.keys, h.posesSorted, SMap.set_sorted _ _ _ h.viewsSorted,
    h.poseInj, ?_, ?_, ?_, ?_, ?_, ?_⟩, hbuilt.le, rfl, rfl, ?_, hbuilt.meas⟩
  · intro t q hq
    have := h.poseLt t q hq; have := hbuilt.le; simp only; omega
  · intro t w hw
    simp only [SMap.find_set] at hw
    split_ifs at hw with ht
    · simp only [Option.some.injEq] at hw
      subst hw ht
      exact ⟨rfl, ⟨p, hp, rfl⟩, hvWF⟩
    · obtain ⟨h1, h2, h3⟩ := h.views t w hw
      exact ⟨h1, h2, h3.mono hbuilt.le (fun _ h => h)⟩
  · rw [List.nodup_append]
    refine ⟨h.tsNodup, by simp, ?_⟩
    intro a ha b hb
    simp only [List.mem_singleton] at hb
    subst hb
    rintro rfl
    rw [h.tsMem, hv] at ha; simp at ha
  · intro t
    simp only [List.mem_append, List.mem_singleton, SMap.find_set, h.tsMem]
    by_cases ht : t = ts <;> simp [ht]
  · intro r hr
    obtain ⟨id, ps, h1, h2, h3⟩ := h.marg r hr
    exact ⟨id, ps, h1, by have := hbuilt.le; simp only; omega, h3⟩
  · refine ⟨Q, S', hc', hQ, ?_⟩
    intro r
    rw [hmem', hS]
    constructor
    · rintro ((⟨t, w, x, k1, k2, rfl⟩ | hm) | ⟨c, rs, x, k1, k2, rfl⟩)
      · refine Or.inl ⟨t, w, x, ?_, k2, rfl⟩
        have : t ≠ ts := by rintro rfl; rw [hv] at k1; simp at k1
        simp only [SMap.find_set, if_neg this]; exact k1
      · exact Or.inr hm
      · exact Or.inl ⟨ts, _, x, by simp only [SMap.find_set, if_true]; rfl,
          (mem_all hbuilt.sorted x).mpr ⟨c, rs, k1, k2⟩, rfl⟩
    · rintro (⟨t, w, x, k1, k2, rfl⟩ | hm)
      · simp only [SMap.find_set] at k1
        split_ifs at k1 with ht
        · simp only [Option.some.injEq] at k1
          subst k1
          obtain ⟨c, rs, k3, k4⟩ := (mem_all hbuilt.sorted x).mp k2
          exact Or.inr ⟨c, rs, x, k3, k4, rfl⟩
        · exact Or.inl (Or.inl ⟨t, w, x, k1, k2, rfl⟩)
      · exact Or.inl (Or.inr hm)
  · intro x hx
    obtain ⟨c, rs, k3, k4⟩ := (mem_all hbuilt.sorted x).mp hx
    exact (hbuilt.entry c rs k3).2.2.2 x k4

theorem addView_spec {env : Env K V} {s s' : Cal K V} {grids : List (Int × Grid K)} {ok : Bool}
    (h : WF s) (hsort : SMap.Sorted grids) (hok : ∀ cg ∈ grids, GridOK cg.2)
    (hnew : ∀ ts, viewStamp grids = some ts → SMap.find ts s.views = none)
    (hs : addView env s grids = .ok (s', ok)) :
    (viewStamp grids = none ∧ s' = s ∧ ok = false) ∨
    ∃ ts v p, viewStamp grids = some ts ∧ ok = true ∧ WF s' ∧ Added s s' ts v p ∧
      v.grids = grids ∧ v.pose = p.id ∧ (∀ x ∈ v.all, s.next ≤ x.id) ∧
      ∀ cg ∈ grids, ((SMap.find cg.1 v.resFns).getD []).map (fun r => ((r.tag, r.corner), r.z)) =
        if (SMap.find cg.1 s.params).isSome ∧ cg.2.detected = true then gridMeas cg.2 else [] := by
  unfold addView at hs
  cases hst : viewStamp grids with
  | none =>
    rw [hst] at hs
    simp only [Except.ok.injEq, Prod.mk.injEq] at hs
    exact Or.inl ⟨rfl, hs.1.symm, hs.2.symm⟩
  | some ts =>
    rw [hst] at hs
    right
    simp only at hs
    have hd : ∃ d, ensureData s ts grids = { s with data := d } ∧ (d = s.data ∨
        (SMap.find ts s.data = none ∧ ∃ g, d = SMap.set ts g s.data)) := by
      unfold ensureData
      split_ifs with hq
      · exact ⟨s.data, rfl, Or.inl rfl⟩
      · refine ⟨_, rfl, Or.inr ⟨?_, _, rfl⟩⟩
        cases hf : SMap.find ts s.data <;> simp_all
    obtain ⟨d, hdeq, hdata⟩ := hd
    rw [hdeq] at hs
    have hw0 : WF { s with data := d } := { h with }
    -- the pose
    obtain ⟨s1, h1, hs⟩ := bind_ok hs
    have hstep : ∃ p, WF s1 ∧ SMap.find ts s1.poses = some p ∧ s1.views = s.views ∧
        s.next ≤ s1.next ∧
        s1 = { s with data := d, poses := if (SMap.find ts s.poses).isSome then s.poses else
                SMap.set ts p s.poses, solver := s1.solver, next := s1.next } := by
      unfold ensurePose at h1
      by_cases hp : (SMap.find ts s.poses).isSome = true
      · rw [if_pos hp] at h1
        simp only [Except.ok.injEq] at h1
        subst h1
        obtain ⟨p, hp'⟩ := Option.isSome_iff_exists.mp hp
        refine ⟨p, hw0, hp', rfl, le_rfl, ?_⟩
        simp only [hp, if_true]
      · rw [if_neg hp] at h1
        obtain ⟨hn, x, rfl⟩ := addPose_ok h1
        refine ⟨⟨s.next, x⟩, hw0.withPose hn x, by simp [SMap.find_set], rfl, by simp, ?_⟩
        simp only [if_neg hp]
    obtain ⟨p, hw1, hp1, hv1, hle1, heq1⟩ := hstep
    simp only [hp1] at hs
    have hhas : s1.solver.hasParam (.pose p.id) = true := (hw1.hasParam _).mpr ⟨ts, p, hp1, rfl⟩
    rw [ensureParam, if_pos hhas, attachView] at hs
    obtain ⟨⟨v, b, n⟩, h2, hs⟩ := bind_ok hs
    simp only [Except.ok.injEq, Prod.mk.injEq] at hs
    obtain ⟨rfl, rfl⟩ := hs
    obtain ⟨k1, k2, k3, k4, k5, k6⟩ := hw1.withView hp1 (by rw [hv1]; exact hnew ts hst) hsort hok h2
    have hpar : s1.params = s.params := by rw [heq1]
    refine ⟨ts, v, p, rfl, rfl, k1, ?_, k3, k4, fun x hx => le_trans hle1 (k5 x hx), hpar ▸ k6⟩
    exact ⟨by rw [heq1], by rw [heq1], hpar, by rw [heq1], by rw [heq1], hp1, by simp only [hv1],
      by simp only; rw [show s1.viewTs = s.viewTs from by rw [heq1]], by rw [heq1], by rw [heq1],
      by rw [heq1], by rw [heq1], by rw [heq1], by rw [heq1],
      by simp only; rw [show s1.data = d from by rw [heq1]]; exact hdata, le_trans hle1 k2⟩

/-! ## Removing a view -/

theorem erase_none {κ ν : Type} [LinearOrder κ] (k : κ) (m : List (κ × ν)) (h : SMap.Sorted m)
    (hk : SMap.find k m = none) : SMap.erase k m = m := by
  refine SMap.sorted_ext (SMap.erase_sorted _ _ h) h (fun k' => ?_)
  rw [SMap.find_erase]
  split_ifs with h'
  · rw [h', hk]
  · rfl

theorem WF.removeView {s : Cal K V} (h : WF s) (ts : Int) :
    ∃ b, removeView s ts = .ok { s with
        solver := b, poses := SMap.erase ts s.poses, views := SMap.erase ts s.views,
        viewTs := s.viewTs.erase ts } ∧
      WF { s with
        solver := b, poses := SMap.erase ts s.poses, views := SMap.erase ts s.views,
        viewTs := s.viewTs.erase ts } := by
  cases hp : SMap.find ts s.poses with
  | none =>
    have hv : SMap.find ts s.views = none := by
      cases hv : SMap.find ts s.views with
      | none => rfl
      | some v =>
        obtain ⟨_, ⟨p, h2, _⟩, _⟩ := h.views ts v hv
        rw [hp] at h2; simp at h2
    have hts : ts ∉ s.viewTs := by rw [h.tsMem, hv]; simp
    have e : ({ s with
        solver := s.solver, poses := SMap.erase ts s.poses, views := SMap.erase ts s.views,
        viewTs := s.viewTs.erase ts } : Cal K V) = s := by
      rw [erase_none _ _ h.posesSorted hp, erase_none _ _ h.viewsSorted hv,
        List.erase_of_not_mem hts]
    refine ⟨s.solver, ?_, ?_⟩
    · rw [e, Calib.removeView, removePose, hp]
      simp only [AprilGrid.ok_bind, dropView, hv, Option.isSome_none, Bool.false_eq_true, if_false]
    · rw [e]; exact h
  | some p =>
    obtain ⟨Q, S, hc, hQ, hS⟩ := h.book
    have hknown : Known s (.pose p.id) := ⟨ts, p, hp, rfl⟩
    obtain ⟨b, hb, hinv⟩ := hc.removeParam (.pose p.id) ((hQ _).mpr hknown)
    refine ⟨b, ?_, ?_⟩
    · rw [Calib.removeView, removePose, hp]
      simp only [dropParam, (h.hasParam _).mpr hknown, if_true, hb, AprilGrid.ok_bind]
      simp only [dropView]
      cases hv : SMap.find ts s.views with
      | none =>
        have hts : ts ∉ s.viewTs := by rw [h.tsMem, hv]; simp
        simp only [Option.isSome_none, Bool.false_eq_true, if_false]
        rw [erase_none _ _ h.viewsSorted hv, List.erase_of_not_mem hts]
      | some v =>
        have hts : ts ∈ s.viewTs := by rw [h.tsMem, hv]; simp
        simp only [Option.isSome_some, if_true, hts]
    · refine ⟨h.psorted, h.esorted, h.keys, SMap.erase_sorted _ _ h.posesSorted,
        SMap.erase_sorted _ _ h.viewsSorted, ?_, ?_, ?_, h.tsNodup.erase _, ?_, h.marg,
        _, _, hinv, ?_, ?_⟩
      · intro t t' q q' hq hq' he
        simp only [SMap.find_erase] at hq hq'
        split_ifs at hq with h1
        split_ifs at hq' with h2
        exact h.poseInj _ _ _ _ hq hq' he
      · intro t q hq
        simp only [SMap.find_erase] at hq
        split_ifs at hq with h1
        exact h.poseLt _ _ hq
      · intro t v hv
        simp only [SMap.find_erase] at hv
        split_ifs at hv with h1
        obtain ⟨k1, ⟨q, k2, k3⟩, k4⟩ := h.views t v hv
        exact ⟨k1, ⟨q, by simp only [SMap.find_erase, if_neg h1]; exact k2, k3⟩, k4⟩
      · intro t
        simp only [SMap.find_erase]
        rw [h.tsNodup.mem_erase_iff, h.tsMem]
        by_cases ht : t = ts <;> simp [ht]
      · intro q
        rw [Finset.mem_erase, hQ]
        cases q with
        | cam i => simp [Known]
        | ext i => simp [Known]
        | pose k =>
          simp only [Known, SMap.find_erase, ne_eq, Par.pose.injEq]
          constructor
          · rintro ⟨hne, t, q, k1, k2⟩
            refine ⟨t, q, ?_, k2⟩
            have : t ≠ ts := by
              rintro rfl
              rw [hp] at k1
              simp only [Option.some.injEq] at k1
              exact hne (by rw [← k2, ← k1])
            rw [if_neg this]; exact k1
          · rintro ⟨t, q, k1, k2⟩
            split_ifs at k1 with ht
            refine ⟨?_, t, q, k1, k2⟩
            intro hk
            exact ht (h.poseInj _ _ _ _ k1 hp (by rw [k2, hk]))
      · intro r
        rw [Finset.mem_filter, hS]
        constructor
        · rintro ⟨⟨t, v, x, k1, k2, rfl⟩ | hm, hnot⟩
          · refine Or.inl ⟨t, v, x, ?_, k2, rfl⟩
            have : t ≠ ts := by
              rintro rfl
              obtain ⟨_, ⟨q, k3, k4⟩, k5⟩ := h.views t v k1
              rw [hp] at k3
              simp only [Option.some.injEq] at k3
              have := (k5.of_mem k2).1
              apply hnot
              simp only [Res.blocks, List.mem_cons, reduceCtorEq, Par.pose.injEq, List.not_mem_nil,
                or_false, false_or]
              rw [this, ← k4, k3]
            simp only [SMap.find_erase, if_neg this]; exact k1
          · exact Or.inr hm
        · rintro (⟨t, v, x, k1, k2, rfl⟩ | hm)
          · simp only [SMap.find_erase] at k1
            split_ifs at k1 with ht
            refine ⟨Or.inl ⟨t, v, x, k1, k2, rfl⟩, ?_⟩
            obtain ⟨_, ⟨q, k3, k4⟩, k5⟩ := h.views t v k1
            have hx := (k5.of_mem k2).1
            simp only [Res.blocks, List.mem_cons, reduceCtorEq, Par.pose.injEq, List.not_mem_nil,
                or_false, false_or]
            intro he
            exact ht (h.poseInj _ _ _ _ k3 hp (by rw [k4, ← hx, ← he]))
          · refine ⟨Or.inr hm, ?_⟩
            obtain ⟨id, ps, rfl, _, _, k4⟩ := h.marg r hm
            intro hin
            obtain ⟨i, hi | hi, _⟩ := k4 _ hin <;> simp at hi

/-- `removeView` over a list of timestamps. -/
theorem WF.removeViews {s : Cal K V} (h : WF s) (l : List Int) :
    ∃ s', l.foldlM Calib.removeView s = .ok s' ∧ WF s' ∧
      (∀ t, SMap.find t s'.views = if t ∈ l then none else SMap.find t s.views) ∧
      (∀ t, SMap.find t s'.poses = if t ∈ l then none else SMap.find t s.poses) ∧
      s'.params = s.params ∧ s'.exts = s.exts ∧ s'.marg = s.marg ∧ s'.timestamps = s.timestamps ∧
      s'.data = s.data := by
  induction l generalizing s with
  | nil => exact ⟨s, rfl, h, by simp, by simp, rfl, rfl, rfl, rfl, rfl⟩
  | cons a l ih =>
    obtain ⟨b, hb, hw⟩ := h.removeView a
    obtain ⟨s', h1, h2, h3, h4, h5, h6, h7, h8, h9⟩ := ih hw
    refine ⟨s', ?_, h2, ?_, ?_, h5, h6, h7, h8, h9⟩
    · rw [List.foldlM_cons, hb, AprilGrid.ok_bind, h1]
    · intro t
      rw [h3]
      simp only [SMap.find_erase, List.mem_cons]
      by_cases h1 : t ∈ l <;> by_cases h2 : t = a <;> simp [h1, h2]
    · intro t
      rw [h4]
      simp only [SMap.find_erase, List.mem_cons]
      by_cases h1 : t ∈ l <;> by_cases h2 : t = a <;> simp [h1, h2]

theorem views_nil_of_find {s : Cal K V} (h : ∀ t, SMap.find t s.views = none) : s.views = [] := by
  cases hv : s.views with
  | nil => rfl
  | cons x l =>
    have := h x.1
    rw [hv] at this
    simp [SMap.find] at this

theorem WF.numResiduals_noViews {s : Cal K V} (h : WF s) (hv : s.views = []) :
    s.solver.numResiduals = if s.marg.isSome then 1 else 0 := by
  obtain ⟨Q, S, hc, hQ, hS⟩ := h.book
  rw [hc.numResiduals]
  cases hm : s.marg with
  | none =>
    have : S = ∅ := by
      ext r; rw [hS, hm]; simp [OfView, hv, SMap.find]
    simp [this]
  | some x =>
    have : S = {x} := by
      ext r; rw [hS, hm, Finset.mem_singleton]; simp [OfView, hv, SMap.find, eq_comm]
    simp [this]

end Yac.Calib
