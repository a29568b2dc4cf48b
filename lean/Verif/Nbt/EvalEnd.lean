import Verif.Nbt.EvalProps

/-!
# C133: the evaluation as a whole
-/

namespace Yac.Nbt

open Yac.AprilGrid (Grid)
open Yac.Geom (Mat4 Vec3)
open Yac.VI (St VEnv Ev Par feed frame tg GridsOk WF EqLen seenIn CamFlags)

/-! ### The data of the simulated cameras -/

/-- A map of maps without empty maps. -/
def Tidy (d : CamData) : Prop := SMap.Sorted d ∧ ∀ p ∈ d, SMap.Sorted p.2 ∧ p.2 ≠ []

theorem Tidy.set {d : CamData} (h : Tidy d) (k idx : ℤ) (g : Grid ℝ) :
    Tidy (SMap.set k (SMap.set idx g ((SMap.find k d).getD [])) d) := by
  refine ⟨SMap.set_sorted _ _ _ h.1, fun p hp => ?_⟩
  rcases SMap.mem_set hp with hp | hp
  · subst hp
    have hs : SMap.Sorted ((SMap.find k d).getD []) := by
      cases hf : SMap.find k d with
      | none => exact List.Pairwise.nil
      | some m => exact (h.2 _ ((SMap.find_eq_some h.1).1 hf)).1
    refine ⟨SMap.set_sorted _ _ _ hs, ?_⟩
    intro he
    have he' : SMap.set idx g ((SMap.find k d).getD []) = [] := he
    have := SMap.find_set idx idx g ((SMap.find k d).getD [])
    rw [he', if_pos rfl] at this
    cases this
  · exact h.2 p hp

theorem tidy_camera {rig : Rig} {tg : Nbv.Target} {k : ℤ} {T : Mat4 ℝ} {d d' : CamData} {ci : ℤ × Nbv.Lens}
    (h : Tidy d) (e : cameraStep rig tg k T d ci = .ok d') : Tidy d' := by
  unfold cameraStep at e
  obtain ⟨x1, -, e⟩ := VI.bindOk e
  obtain ⟨x2, -, e⟩ := VI.bindOk e
  obtain ⟨x3, -, e⟩ := VI.bindOk e
  obtain ⟨g, -, e⟩ := VI.bindOk e
  cases e
  exact h.set k ci.1 g

theorem tidy_cameras {rig : Rig} {tg : Nbv.Target} {k : ℤ} {T : Mat4 ℝ} (l : List (ℤ × Nbv.Lens)) {d d' : CamData}
    (h : Tidy d) (e : l.foldlM (cameraStep rig tg k T) d = .ok d') : Tidy d' := by
  induction l generalizing d with
  | nil => cases e; exact h
  | cons c l ih =>
    rw [List.foldlM_cons] at e
    obtain ⟨d1, e1, e⟩ := VI.bindOk e
    exact ih (tidy_camera h e1) e

theorem tidy_ticks {tr : Traj} {tg : Nbv.Target} {rig : Rig} {T_WF : Mat4 ℝ} (te dt : ℤ) (fuel : ℕ) :
    ∀ (ts : ℤ) (st st' : CamData × List (ℤ × Mat4 ℝ)), Tidy st.1 →
      ticks (frameStep tr tg rig T_WF) te dt fuel ts st = .ok st' → Tidy st'.1 := by
  induction fuel with
  | zero =>
    intro ts st st' h e
    unfold ticks at e
    cases e
  | succ n ih =>
    intro ts st st' h e
    unfold ticks at e
    split_ifs at e
    · obtain ⟨s1, e1, e⟩ := VI.bindOk e
      refine ih _ s1 st' ?_ e
      unfold frameStep at e1
      obtain ⟨x1, -, e1⟩ := VI.bindOk e1
      obtain ⟨x2, -, e1⟩ := VI.bindOk e1
      obtain ⟨x3, -, e1⟩ := VI.bindOk e1
      obtain ⟨d1, h1, e1⟩ := VI.bindOk e1
      cases e1
      exact tidy_cameras _ h h1
    · cases e; exact h

/-- The simulated cameras store a frame of all cameras at every frame time. -/
theorem cameras_frames {tr : Traj} {ts te : ℤ} (h : Ready tr ts te) (hp : Rigid (tr.T_WF * tr.T_FO)) {rig : Rig}
    (hr : rig.Calibrated) (hne : rig.geoms ≠ []) (tg : Nbv.Target) {T_WF : Mat4 ℝ} (hW : Rigid T_WF) (rate : ℝ)
    (h0 : 0 < rate) (h1 : rate ≤ 1000000000) (fuel : ℕ)
    (hf : (sampleTimes ts te (secToTs (1 / rate))).length < fuel) :
    let times := sampleTimes ts te (secToTs (1 / rate))
    ∃ (gr : ℤ → ℤ → Grid ℝ) (ps : List (ℤ × Mat4 ℝ)),
      simulateCameras fuel ts te tr tg rig rate T_WF ([], []) =
        .ok (times.map fun k => (k, frame (rig.geoms.map Prod.fst) gr k), ps) ∧
      (∀ c k, (gr c k).timestamp = k) ∧
      ∀ k ∈ times, ∀ ci ∈ rig.geoms, Pictures rig tg k (T_WF⁻¹ * poseAt tr (tr.at k)) ci (gr ci.1 k) := by
  intro times
  have htimes : times = sampleTimes ts te (secToTs (1 / rate)) := rfl
  obtain ⟨d, ps, e, -, e2, e3⟩ := C78_cameras h hp hr tg hW rate h0 h1 [] [] fuel hf
  rw [← htimes] at e2 e3
  have hd := secToTs_pos h0 h1
  have ht : Tidy d := by
    unfold simulateCameras at e
    rw [if_neg h0.ne'] at e
    have := tidy_ticks (tr := tr) (tg := tg) (rig := rig) (T_WF := T_WF) te _ fuel ts ([], []) (d, ps)
      ⟨List.Pairwise.nil, fun p h => by cases h⟩ e
    exact this
  have hsort : times.Pairwise (· < ·) := (C78_times ts te _ hd).2.1
  obtain ⟨c0, hc0⟩ := List.exists_mem_of_ne_nil _ hne
  -- the grid of a camera at a time
  let gr : ℤ → ℤ → Grid ℝ := fun c k =>
    if (shot d k c).isSome ∧ k ∈ times ∧ (∃ ci ∈ rig.geoms, ci.1 = c) then (shot d k c).getD ⟨true, k, 0, 0, 0, 0, false, 0, []⟩ else ⟨true, k, 0, 0, 0, 0, false, 0, []⟩
  have hgr : ∀ k ∈ times, ∀ ci ∈ rig.geoms, shot d k ci.1 = some (gr ci.1 k) := by
    intro k hk ci hci
    obtain ⟨g, hg, -⟩ := e3 k hk ci hci
    show _ = some (if _ then _ else _)
    rw [if_pos ⟨by rw [hg]; rfl, hk, ci, hci, rfl⟩, hg]
    rfl
  have hpic : ∀ k ∈ times, ∀ ci ∈ rig.geoms, Pictures rig tg k (T_WF⁻¹ * poseAt tr (tr.at k)) ci (gr ci.1 k) := by
    intro k hk ci hci
    obtain ⟨g, hg, hP⟩ := e3 k hk ci hci
    have := hgr k hk ci hci
    rw [hg] at this
    injection this with this
    rw [← this]; exact hP
  have hd' : d = times.map fun k => (k, frame (rig.geoms.map Prod.fst) gr k) := by
    refine SMap.sorted_ext ht.1 (by unfold SMap.Sorted; rw [List.pairwise_map]; exact hsort) (fun k => ?_)
    have hR : SMap.Sorted (times.map fun k => (k, frame (rig.geoms.map Prod.fst) gr k)) := by
      unfold SMap.Sorted; rw [List.pairwise_map]; exact hsort
    by_cases hk : k ∈ times
    · rw [(SMap.find_eq_some hR).2 (List.mem_map.2 ⟨k, hk, rfl⟩)]
      have hs := hgr k hk c0 hc0
      unfold shot at hs
      cases hf' : SMap.find k d with
      | none => rw [hf'] at hs; cases hs
      | some m =>
        have hm := (ht.2 _ ((SMap.find_eq_some ht.1).1 hf')).1
        congr 1
        refine SMap.sorted_ext hm ?_ (fun c => ?_)
        · unfold SMap.Sorted frame
          rw [List.pairwise_map, List.pairwise_map]
          exact hr.sorted
        · have hfm : SMap.find c m = shot d k c := by unfold shot; rw [hf']; rfl
          rw [hfm]
          by_cases hc : ∃ ci ∈ rig.geoms, ci.1 = c
          · obtain ⟨ci, hci, rfl⟩ := hc
            rw [hgr k hk ci hci, VI.frame_find, if_pos (List.mem_map_of_mem hci)]
          · have hc' : c ∉ rig.geoms.map Prod.fst := by
              intro hh
              obtain ⟨ci, hci, e⟩ := List.mem_map.1 hh
              exact hc ⟨ci, hci, e⟩
            rw [e2 k c (Or.inr fun ci hci e => hc ⟨ci, hci, e⟩), VI.frame_find, if_neg hc']
            rfl
    · have hn : SMap.find k (times.map fun k => (k, frame (rig.geoms.map Prod.fst) gr k)) = none := by
        apply SMap.find_none_of_not_mem
        simpa using hk
      rw [hn]
      cases hf' : SMap.find k d with
      | none => rfl
      | some m =>
        exfalso
        obtain ⟨hm, hne'⟩ := ht.2 _ ((SMap.find_eq_some ht.1).1 hf')
        obtain ⟨q, hq⟩ := List.exists_mem_of_ne_nil _ hne'
        have h1 : shot d k q.1 = some q.2 := by
          unfold shot
          rw [hf']
          exact (SMap.find_eq_some hm).2 hq
        rw [e2 k q.1 (Or.inl hk)] at h1
        cases h1
  refine ⟨gr, ps, ?_, ?_, hpic⟩
  · rw [e, hd']
  · intro c k
    show (if _ then _ else _ : Grid ℝ).timestamp = k
    split_ifs with hc
    · obtain ⟨-, hk, ci, hci, rfl⟩ := hc
      have hs := hgr k hk ci hci
      obtain ⟨pr, e, hpr, he, hg⟩ := hpic k hk ci hci
      rw [hs]
      obtain ⟨e', he', hre⟩ := hr.exts ci hci
      rw [he] at he'
      cases he'
      obtain ⟨g', hg', htime⟩ := targetGrid_ok tg ⟨ci.2, pr.1, pr.2⟩ k ((hW.inv.mul (poseAt_rigid tr hp (tr.at k))).mul hre)
      rw [hg] at hg'
      injection hg' with hg'
      rw [← hg'] at htime
      exact htime
    · rfl

/-! ### The evaluation -/

/-- What the evaluation needs of the trajectory and of the data. -/
structure Sound (tr : Traj) (n : Data) : Prop where
  traj : Ready tr tr.ts_start (tr.ts_start + secToTs tr.T)
  rigid : Rigid (tr.T_WF * tr.T_FO)
  frame : Rigid n.T_WF
  rig : n.rig.Calibrated
  keys : n.rig.params.map Prod.fst = n.rig.geoms.map Prod.fst
  zero : (0 : ℤ) ∈ n.rig.geoms.map Prod.fst
  imuRate : 0 < n.imu.rate ∧ n.imu.rate ≤ 1000000000
  camRate : 0 < n.rate ∧ n.rate ≤ 1000000000
  start : ¬ |sec tr.ts_start - 1 / n.imu.rate| < 1 / n.imu.rate / 2

/-- The times of the samples. -/
noncomputable def imuTimes (tr : Traj) (n : Data) : List ℤ :=
  sampleTimes tr.ts_start (tr.ts_start + secToTs tr.T) (secToTs (1 / n.imu.rate))

/-- The times of the frames. -/
noncomputable def camTimes (tr : Traj) (n : Data) : List ℤ :=
  sampleTimes tr.ts_start (tr.ts_start + secToTs tr.T) (secToTs (1 / n.rate))

/-- Every camera sees the target at every frame, well enough to tell where it is. -/
def InSight (env : VEnv ℝ (Vec3 ℝ)) (tr : Traj) (n : Data) : Prop :=
  ∀ k ∈ camTimes tr n, ∀ ci ∈ n.rig.geoms, ∀ g,
    Pictures n.rig n.target k (n.T_WF⁻¹ * poseAt tr (tr.at k)) ci g →
      (∃ ms, env.meas false g = .ok ms) ∧ g.detected = true ∧ env.estimate g = true

open Classical in
/-- C133: the evaluation of a trajectory on which the target is in sight computes the information
of a calibrator that has the cameras and flags of the data, the ideal IMU readings of the trajectory
at the IMU rate, and a view of what the cameras see for every frame, at the camera rate, that has two
samples before it and one after it not later than the next frame.  The program ends if a view other
than the first has fewer than four samples before it. -/
theorem C133_eval_partial (env : VEnv ℝ (Vec3 ℝ)) (cov : St ℝ (Vec3 ℝ) → (Par → Bool) → VI.Recover.Cov)
    (res : VI.Fid ℝ → ℝ × ℝ) (noise : ℕ → Vec3 ℝ) (H : Matrix (Fin 6) (Fin 6) ℝ) {tr : Traj} {n : Data}
    (h : Sound tr n) (hs : InSight env tr n) (fuel : ℕ) (hfi : (imuTimes tr n).length < fuel)
    (hfc : (camTimes tr n).length < fuel) :
    let used := (camTimes tr n).filter fun f => decide (Used (camTimes tr n) (imuTimes tr n) f)
    ((∀ f ∈ used.tail, 4 ≤ before (imuTimes tr n) f) →
      ∃ (t : St ℝ (Vec3 ℝ)) (gr : ℤ → ℤ → Grid ℝ), nbtEval fuel noise env cov res tr n H = finish cov res H t ∧ WF t ∧
        t.cams = n.rig.params.map (fun c => (c.1, ⟨n.fixPar c.1, n.fixExt c.1⟩)) ∧
        t.imu = ⟨imuTimes tr n, (imuTimes tr n).map (fun k => (ideal tr n.imu.g k).acc),
          (imuTimes tr n).map (fun k => (ideal tr n.imu.g k).gyr)⟩ ∧
        t.views.map tg = used.map (fun f => (f, frame (n.rig.geoms.map Prod.fst) gr f)) ∧
        ∀ f ∈ camTimes tr n, ∀ ci ∈ n.rig.geoms,
          Pictures n.rig n.target f (n.T_WF⁻¹ * poseAt tr (tr.at f)) ci (gr ci.1 f)) ∧
    ((∃ f ∈ used.tail, before (imuTimes tr n) f < 4) → nbtEval fuel noise env cov res tr n H = .error .fatal) := by
  intro used
  have hne : n.rig.geoms ≠ [] := by
    intro e
    have := h.zero
    rw [e] at this; cases this
  obtain ⟨gr, ps, ec, hts, hpic⟩ := cameras_frames h.traj h.rigid h.rig hne n.target h.frame n.rate h.camRate.1
    h.camRate.2 fuel hfc
  have ei := C78_imu_partial h.traj n.imu h.imuRate.1 h.imuRate.2 h.start noise ⟨[], [], [], [], []⟩ fuel hfi
  simp only [List.nil_append] at ei
  have hsp : SMap.Sorted n.rig.params := by
    have := h.rig.sorted
    unfold SMap.Sorted at this ⊢
    rw [← List.pairwise_map (f := Prod.fst) (R := fun a b => a < b)] at this ⊢
    rw [h.keys]; exact this
  obtain ⟨s, es, hfr, -⟩ := C133_setup (K := ℝ) (D := Vec3 ℝ) n.rig.exts n.rig.params hsp (fun c hc => by
      have hc' : c.1 ∈ n.rig.geoms.map Prod.fst := by rw [← h.keys]; exact List.mem_map_of_mem hc
      obtain ⟨ci, hci, e⟩ := List.mem_map.1 hc'
      obtain ⟨x, hx, -⟩ := h.rig.exts ci hci
      rw [← e, hx]; rfl) n.fixPar n.fixExt n.imuExtFixed n.delayFixed
  have hck : (n.rig.params.map fun c => (c.1, (⟨n.fixPar c.1, n.fixExt c.1⟩ : CamFlags))).map Prod.fst =
      n.rig.geoms.map Prod.fst := by
    rw [List.map_map, ← h.keys]; rfl
  let imu : List (ℤ × Vec3 ℝ × Vec3 ℝ) :=
    (imuTimes tr n).map fun k => (k, (ideal tr n.imu.g k).acc, (ideal tr n.imu.g k).gyr)
  have i1 : imu.map (·.1) = imuTimes tr n := by simp [imu, Function.comp_def]
  have i2 : imu.map (·.2.1) = (imuTimes tr n).map (fun k => (ideal tr n.imu.g k).acc) := by
    simp [imu, Function.comp_def]
  have i3 : imu.map (·.2.2) = (imuTimes tr n).map (fun k => (ideal tr n.imu.g k).gyr) := by
    simp [imu, Function.comp_def]
  have hdi := secToTs_pos h.imuRate.1 h.imuRate.2
  have hdc := secToTs_pos h.camRate.1 h.camRate.2
  obtain ⟨tl, et, v1, v2⟩ := C133_views_partial env _ gr hts (by rw [hck, List.pairwise_map]; exact h.rig.sorted)
    (by rw [hck]; exact h.zero) (camTimes tr n) (C78_times _ _ _ hdc).2.1 imu
    (by rw [List.pairwise_map]; exact (C78_times _ _ _ hdi).2.1)
    (fun f hf c hc => by
      rw [hck] at hc
      obtain ⟨ci, hci, rfl⟩ := List.mem_map.1 hc
      exact hs f hf ci hci _ (hpic f hf ci hci)) s hfr
  rw [hck, i1, i2, i3] at et
  rw [hck, i1, i2, i3] at v1
  rw [i1] at v2
  have hrun : nbtEval fuel noise env cov res tr n H = replay env tl s >>= fun s => finish cov res H s := by
    unfold nbtEval
    simp only
    rw [ei, AprilGrid.ok_bind, ec, AprilGrid.ok_bind]
    have et' : createTimeline ((sampleTimes tr.ts_start (tr.ts_start + secToTs tr.T) (secToTs (1 / n.rate))).map
        fun k => (k, frame (n.rig.geoms.map Prod.fst) gr k)) (imuTimes tr n)
        ((imuTimes tr n).map (fun k => (ideal tr n.imu.g k).acc))
        ((imuTimes tr n).map (fun k => (ideal tr n.imu.g k).gyr)) Timeline.empty = .ok tl := et
    simp only [imuTimes] at et'
    rw [et', AprilGrid.ok_bind, es, AprilGrid.ok_bind]
  refine ⟨fun hall => ?_, fun hbad => ?_⟩
  · obtain ⟨t, e1, e2, e3, e4, e5⟩ := v1 hall
    exact ⟨t, gr, by rw [hrun, e1]; rfl, e2, e3, e4, e5, hpic⟩
  · rw [hrun, v2 hbad]; rfl

end Yac.Nbt
