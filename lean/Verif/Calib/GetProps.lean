import Verif.Calib.GetModel
import Verif.Calib.CameraProps
import Verif.Calib.LoopRan

/-! C144: the camera calibrator gives back what it was given. -/

namespace Yac.Calib
open Yac.AprilGrid (Grid)

variable {K V : Type} [Field K] [LinearOrder K]

/-! ## Specification -/

/-- The grids handed over, one by one, for several calls of `add_camera_data`. -/
def handed (calls : List (Int × List (Grid K))) : List (Int × Grid K) := calls.flatMap fun c => c.2.map fun g => (c.1, g)

/-- The last grid handed over for a camera and a time. -/
def latest (l : List (Int × Grid K)) (cam ts : Int) : Option (Grid K) :=
  ((l.filter fun e => e.1 = cam ∧ e.2.timestamp = ts).getLast?).map Prod.snd

/-! ## Data -/

omit [Field K] [LinearOrder K] in
theorem latest_concat (l : List (Int × Grid K)) (e : Int × Grid K) (cam ts : Int) :
    latest (l ++ [e]) cam ts = if e.1 = cam ∧ e.2.timestamp = ts then some e.2 else latest l cam ts := by
  unfold latest
  rw [List.filter_append]
  by_cases h : e.1 = cam ∧ e.2.timestamp = ts
  · rw [List.filter_cons_of_pos (by simpa using h)]; simp [h]
  · rw [List.filter_cons_of_neg (by simpa using h)]; simp [h]

omit [Field K] [LinearOrder K] in
theorem latest_ts {l : List (Int × Grid K)} {cam ts : Int} {g : Grid K} (h : latest l cam ts = some g) :
    g.timestamp = ts ∧ (cam, g) ∈ l := by
  unfold latest at h
  obtain ⟨e, he, rfl⟩ := Option.map_eq_some_iff.mp h
  have := List.mem_of_getLast? he
  rw [List.mem_filter] at this
  obtain ⟨h1, h2⟩ := this
  simp only [decide_eq_true_eq] at h2
  exact ⟨h2.2, by rw [← h2.1]; exact h1⟩

/-- What the calibrator holds after the grids `l`. -/
structure GetHolds (s : Cal K V) (l : List (Int × Grid K)) : Prop where
  data : ∀ cam ts, (SMap.find ts s.data).bind (SMap.find cam) = latest l cam ts
  sorted : s.timestamps.Pairwise (· < ·)
  mem : ∀ ts, ts ∈ s.timestamps ↔ ∃ e ∈ l, e.2.timestamp = ts

omit [Field K] [LinearOrder K] in
theorem GetHolds.add {s : Cal K V} {l : List (Int × Grid K)} (h : GetHolds s l) (e : Int × Grid K) :
    GetHolds (addGrid e.1 s e.2) (l ++ [e]) := by
  refine ⟨?_, setInsert_sorted h.sorted, ?_⟩
  · intro cam ts
    show (SMap.find ts (SMap.set e.2.timestamp (SMap.set e.1 e.2 ((SMap.find e.2.timestamp s.data).getD [])) s.data)).bind
      (SMap.find cam) = _
    rw [latest_concat, SMap.find_set]
    by_cases ht : ts = e.2.timestamp
    · rw [if_pos ht]
      show SMap.find cam (SMap.set e.1 e.2 _) = _
      rw [SMap.find_set]
      by_cases hc : cam = e.1
      · rw [if_pos hc, if_pos ⟨hc.symm, ht.symm⟩]
      · rw [if_neg hc, if_neg (fun x => hc x.1.symm), ← h.data cam ts, ht]
        cases SMap.find e.2.timestamp s.data with
        | none => rfl
        | some f => rfl
    · rw [if_neg ht, if_neg (fun x => ht x.2.symm), h.data]
  · intro ts
    show ts ∈ setInsert e.2.timestamp s.timestamps ↔ _
    rw [setInsert_mem, h.mem]
    constructor
    · rintro (rfl | ⟨x, hx, rfl⟩)
      · exact ⟨e, by simp, rfl⟩
      · exact ⟨x, by simp [hx], rfl⟩
    · rintro ⟨x, hx, rfl⟩
      rcases List.mem_append.mp hx with hx | hx
      · exact .inr ⟨x, hx, rfl⟩
      · rw [List.mem_singleton] at hx; subst hx; exact .inl rfl

omit [Field K] [LinearOrder K] in
theorem GetHolds.call {s : Cal K V} (cam : Int) : ∀ (gs : List (Grid K)) {s : Cal K V} {l : List (Int × Grid K)}, GetHolds s l →
    GetHolds (addCameraData s cam gs) (l ++ gs.map fun g => (cam, g))
  | [], s, l, h => by simpa [addCameraData] using h
  | g :: gs, s, l, h => by
    have := GetHolds.call (s := s) cam gs (h.add (cam, g))
    simpa [addCameraData] using this

omit [Field K] [LinearOrder K] in
theorem GetHolds.calls : ∀ (cs : List (Int × List (Grid K))) {s : Cal K V} {l : List (Int × Grid K)}, GetHolds s l →
    GetHolds (addCamerasData s cs) (l ++ handed cs)
  | [], s, l, h => by simpa [addCamerasData, handed] using h
  | c :: cs, s, l, h => by
    have := GetHolds.calls cs (GetHolds.call (s := s) c.1 c.2 h)
    simpa [addCamerasData, handed] using this

omit [Field K] [LinearOrder K] in
theorem getData_eq (s : Cal K V) (cam : Int) :
    getCameraData s cam = s.timestamps.filterMap fun ts => (SMap.find ts s.data).bind (SMap.find cam) := by
  unfold getCameraData
  have : ∀ (l : List Int) (acc : List (Grid K)), l.foldl (dataAt s cam) acc =
      acc ++ l.filterMap fun ts => (SMap.find ts s.data).bind (SMap.find cam) := by
    intro l
    induction l with
    | nil => intro acc; simp
    | cons ts l ih =>
      intro acc
      rw [List.foldl_cons, ih, List.filterMap_cons]
      cases h1 : SMap.find ts s.data with
      | none => simp [dataAt, h1]
      | some f =>
        cases h2 : SMap.find cam f with
        | none => simp [dataAt, h1, h2]
        | some g => simp [dataAt, h1, h2]
  simpa using this s.timestamps []

omit [Field K] [LinearOrder K] in
/-- C144: after any number of calls of `add_camera_data` on a calibrator without data, `get_camera_data` returns, in the
order of time and once for each time, exactly the grids handed over last for that camera and time. -/
theorem C144_data (s : Cal K V) (h1 : s.data = []) (h2 : s.timestamps = []) (calls : List (Int × List (Grid K))) (cam : Int) :
    (getCameraData (addCamerasData s calls) cam).Pairwise (fun g g' => g.timestamp < g'.timestamp) ∧
    ∀ g, g ∈ getCameraData (addCamerasData s calls) cam ↔ latest (handed calls) cam g.timestamp = some g := by
  have h0 : GetHolds s [] := ⟨by intro cam ts; rw [h1]; rfl, by rw [h2]; exact .nil, by intro ts; rw [h2]; simp⟩
  have h := h0.calls calls
  rw [List.nil_append] at h
  rw [getData_eq]
  simp only [h.data]
  constructor
  · rw [List.pairwise_filterMap]
    refine h.sorted.imp ?_
    intro a b hab g hg g' hg'
    rw [(latest_ts hg).1, (latest_ts hg').1]
    exact hab
  · intro g
    rw [List.mem_filterMap]
    constructor
    · rintro ⟨ts, -, hg⟩
      rw [(latest_ts hg).1]; exact hg
    · intro hg
      exact ⟨g.timestamp, (h.mem _).mpr ⟨(cam, g), (latest_ts hg).2, rfl⟩, hg⟩

/-- C144 refuted: the grids of a view added with `add_view` to a calibrator that was given no others are not returned. -/
theorem C144_view_refuted {env : Env K V} {s s' : Cal K V} (hr : Reach env s) (h2 : s.timestamps = [])
    {grids : List (Int × Grid K)} (hd : Detections s.rows s.cols grids)
    (hnew : ∀ ts, viewStamp grids = some ts → SMap.find ts s.views = none) (h : addView env s grids = .ok (s', true)) (cam : Int) :
    (∃ ts, (SMap.find ts s'.views).isSome) ∧ getCameraData s' cam = [] := by
  have hok : ∀ cg ∈ grids, GridOK cg.2 := fun cg hcg => (hd.2 cg hcg).elim fun _ h => madeBy_ok h
  rcases addView_spec hr.wf.1 hd.1 hok hnew h with ⟨-, -, c⟩ | ⟨ts, v, p, -, -, -, ha, -⟩
  · cases c
  · refine ⟨⟨ts, by rw [ha.views, SMap.find_set, if_pos rfl]; rfl⟩, ?_⟩
    unfold getCameraData
    rw [ha.timestamps, h2]
    rfl

/-! ## Views -/

/-- C144: after a view was added, `get_last_view` is that view: the one with the grids just given. -/
theorem C144_last_added {env : Env K V} {s s' : Cal K V} (hr : Reach env s)
    {grids : List (Int × Grid K)} (hd : Detections s.rows s.cols grids)
    (hnew : ∀ ts, viewStamp grids = some ts → SMap.find ts s.views = none) (h : addView env s grids = .ok (s', true)) :
    ∃ v, getLastView s' = .ok (some v) ∧ viewStamp grids = some v.ts ∧ v.grids = grids := by
  have hok : ∀ cg ∈ grids, GridOK cg.2 := fun cg hcg => (hd.2 cg hcg).elim fun _ h => madeBy_ok h
  rcases addView_spec hr.wf.1 hd.1 hok hnew h with ⟨-, -, c⟩ | ⟨ts, v, p, hst, -, hw, ha, hg, -⟩
  · cases c
  · have hf : SMap.find ts s'.views = some v := by rw [ha.views, SMap.find_set, if_pos rfl]
    refine ⟨v, ?_, ?_, hg⟩
    · unfold getLastView
      rw [ha.viewTs]
      simp [hf]
    · rw [(hw.views ts v hf).1]; exact hst

/-- C144: removing the view added last makes the one before it the last again. -/
theorem C144_last_removed {env : Env K V} {s s1 s2 : Cal K V} (hr : Reach env s) {grids : List (Int × Grid K)}
    (hd : Detections s.rows s.cols grids) (hnew : ∀ ts, viewStamp grids = some ts → SMap.find ts s.views = none)
    (h : addView env s grids = .ok (s1, true)) (ts : Int) (hts : viewStamp grids = some ts) (h2 : removeView s1 ts = .ok s2) :
    getLastView s2 = getLastView s := by
  have hok : ∀ cg ∈ grids, GridOK cg.2 := fun cg hcg => (hd.2 cg hcg).elim fun _ h => madeBy_ok h
  rcases addView_spec hr.wf.1 hd.1 hok hnew h with ⟨-, -, c⟩ | ⟨ts', v, p, hst, -, hw, ha, hg, -⟩
  · cases c
  · rw [hts] at hst
    cases hst
    obtain ⟨b, e, -⟩ := hw.removeView ts
    rw [e] at h2
    cases h2
    have hno : ts ∉ s.viewTs := by
      rw [hr.wf.1.tsMem, hnew ts hts]; simp
    have he : s1.viewTs.erase ts = s.viewTs := by
      rw [ha.viewTs, List.erase_append_right _ hno]
      simp
    unfold getLastView
    show (match (s1.viewTs.erase ts).getLast? with
      | none => _
      | some t => Except.ok (SMap.find t (SMap.erase ts s1.views))) = _
    rw [he]
    cases hl : s.viewTs.getLast? with
    | none => rfl
    | some t =>
      have htm := List.mem_of_getLast? hl
      have hne : t ≠ ts := fun c => hno (c ▸ htm)
      show Except.ok _ = Except.ok _
      rw [SMap.find_erase, if_neg hne, ha.views, SMap.find_set, if_neg hne]

/-- C144: `get_last_view` finds a view exactly when there is one; with no view it reads outside the vector. -/
theorem C144_last {env : Env K V} {s : Cal K V} (hr : Reach env s) :
    (nbViews s ≠ 0 → ∃ v, getLastView s = .ok (some v) ∧ SMap.find v.ts s.views = some v) ∧
    (nbViews s = 0 → getLastView s = .error .oob) := by
  have w := hr.wf.1
  constructor
  · intro h
    cases hl : s.viewTs.getLast? with
    | none =>
      have hn : s.viewTs = [] := List.getLast?_eq_none_iff.mp hl
      exfalso
      apply h
      unfold nbViews
      rw [List.length_eq_zero_iff, List.eq_nil_iff_forall_not_mem]
      rintro ⟨t, v⟩ hm
      have := (w.tsMem t).mpr (by rw [(SMap.find_eq_some w.viewsSorted).mpr hm]; rfl)
      rw [hn] at this
      cases this
    | some t =>
      have := (w.tsMem t).mp (List.mem_of_getLast? hl)
      obtain ⟨v, hv⟩ := Option.isSome_iff_exists.mp this
      refine ⟨v, by unfold getLastView; rw [hl]; simp only [hv], ?_⟩
      rw [(w.views t v hv).1]; exact hv
  · intro h
    have hn : s.viewTs = [] := by
      rw [List.eq_nil_iff_forall_not_mem]
      intro t ht
      have := (w.tsMem t).mp ht
      obtain ⟨v, hv⟩ := Option.isSome_iff_exists.mp this
      have hm := (SMap.find_eq_some w.viewsSorted).mp hv
      have : s.views = [] := List.length_eq_zero_iff.mp h
      rw [this] at hm
      cases hm
    unfold getLastView
    rw [hn]
    rfl

/-! ## Cameras -/

/-- C144: the parameters of a camera just added are those given, those of the other cameras do not change, and asking
for a camera that was never added throws. -/
theorem C144_camera {s s' : Cal K V} (i : Int) (p e : V) (fp fe : Bool) (h : addCamera s i p e fp fe = .ok s') (j : Int) :
    getCameraParams s' j = (if j = i then .ok p else getCameraParams s j) ∧
    getCameraExtrinsics s' j = (if j = i then .ok e else getCameraExtrinsics s j) ∧
    (getCameraParams s j = .error .exn ↔ SMap.find j s.params = none) := by
  unfold addCamera at h
  split_ifs at h with h0
  cases h
  refine ⟨?_, ?_, ?_⟩
  · unfold getCameraParams
    show (match SMap.find j (SMap.set i _ s.params) with | none => _ | some p => _) = _
    rw [SMap.find_set]
    by_cases hj : j = i
    · simp [hj]
    · rw [if_neg hj, if_neg hj]
      cases SMap.find j s.params <;> rfl
  · unfold getCameraExtrinsics
    show (match SMap.find j (SMap.set i _ s.exts) with | none => _ | some p => _) = _
    rw [SMap.find_set]
    by_cases hj : j = i
    · simp [hj]
    · rw [if_neg hj, if_neg hj]
      cases SMap.find j s.exts <;> rfl
  · unfold getCameraParams
    cases SMap.find j s.params with
    | none => simp
    | some p => simp

end Yac.Calib
