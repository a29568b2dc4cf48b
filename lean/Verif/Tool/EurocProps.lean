import Verif.Tool.EurocModel
import Verif.Save.CamWitness
import Verif.VI.LoadWitness
import Verif.Ctor.ViMain
import Verif.Mocap.Ops

/-! # C140: the EuRoC program -/

namespace Yac.Tool.Euroc
open Yac.Save Yac.Ctor Yac.Config Yac.VI
open Yac.AprilGrid (Grid)

theorem cameras_of {D : Dec} (hD : Reads D) {c : CamCalib} (h : CompleteCam c) (total : Y) (each : List (ℤ × Y)) {f0 : Bool} {T0 : M4}
    (h0 : SMap.find 0 c.exts = some (f0, T0)) :
    imuCameras D (some (.map (camDoc c total each T0))) = .ok (c.cams.map (newCam' c T0 true (fun _ => true))) := by
  have hs := camDoc_sections c total each T0
  have hc : CamerasAre (.map (camDoc c total each T0)) (ViCameraIs D (.map (camDoc c total each T0))) (c.cams.map (newCam' c T0 true (fun _ => true))) :=
    cameras_file hD h total each h0 true _ _ (fun n cam a1 a2 a3 a4 a5 a6 a7 => ⟨a1, a2, a3, a4, fun hn => (a5 hn).1, a6, a7⟩)
  obtain ⟨l1, l2⟩ := loop_iff (readViCamera_iff D hs) 100
  obtain ⟨r, hr⟩ := l2 (by
    intro n hn ha
    rcases hc.2.1 n hn with ⟨h1, -⟩ | ⟨-, cam, -, h2⟩
    · exact absurd h1 ha
    · exact ⟨cam, h2⟩)
  obtain ⟨-, hu⟩ := l1 r hr
  have := cameras_unique vicamera_unique hu hc
  unfold imuCameras
  simp only
  rw [hr]
  show Except.ok r.1 = _
  rw [this]

/-- **C140, cameras.**  The IMU calibration starts with the cameras of the camera calibration: the same indices, resolutions and
models, exactly the same intrinsics, and the poses with respect to camera 0 to the printed digits; all are held fixed.  (As
configuration of `calib_vi_t` the file is refused, since it has no IMU: C128.) -/
theorem C140_cameras (D : Dec) (hD : Reads D) (old : Option Y) (c : CamCalib) (total : Y) (each : List (ℤ × Y)) (h : CompleteCam c) :
    ∃ cams, main D true old c total each = .ok cams ∧ CamerasKept c cams ∧ ∀ e ∈ cams, e.2.fixed = true ∧ e.2.fixedExt = true := by
  obtain ⟨f0, T0, h0⟩ := zero_ext h
  refine ⟨c.cams.map (newCam' c T0 true (fun _ => true)), ?_, cameras_kept h h0 _ _, ?_⟩
  · unfold main calibrateCameras
    rw [if_pos rfl, saveCam_eq h0]
    exact cameras_of hD h total each h0
  · intro e he
    obtain ⟨a, -, rfl⟩ := List.mem_map.mp he
    exact ⟨rfl, rfl⟩

/-- **C140, refuted.**  If the results cannot be written, the IMU calibration goes on with the cameras of whatever calibration
left its results there before. -/
theorem C140_stale_refuted (D : Dec) (hD : Reads D) (c c' : CamCalib) (total total' : Y) (each each' : List (ℤ × Y)) (h' : CompleteCam c')
    (old : Y) (ho : saveCam c' total' each' = .ok old) :
    ∃ cams, main D false (some old) c total each = .ok cams ∧ CamerasKept c' cams := by
  obtain ⟨f0, T0, h0⟩ := zero_ext h'
  rw [saveCam_eq h0] at ho
  cases ho
  exact ⟨_, cameras_of hD h' total' each' h0, cameras_kept h' h0 _ _⟩

variable {K D : Type} [DecidableEq K]

/-- **C140, order.**  Every grid and every IMU sample is handed over exactly once, in the order of the timestamps, and those of the
same timestamp in the order in which they were entered. -/
theorem C140_order (env : VEnv K D) (grids : List (Int × List (Grid K))) (imu : List (Int × D × D)) (s : St K D) :
    ∃ l : List (Int × Ev K D), feedAll env grids imu s = (l.map Prod.snd).foldlM (feed env) s ∧
      l.Perm (events grids imu) ∧ l.Pairwise (fun a b => a.1 ≤ b.1) ∧
      ∀ ts, l.filter (fun p => decide (p.1 = ts)) = (events grids imu).filter (fun p => decide (p.1 = ts)) := by
  set es := events grids imu with hes
  have key : ∀ (T : List Int) (s : St K D), T.foldlM (feedAt env (Timeline.run es)) s =
      ((T.flatMap (Timeline.equalRange (Timeline.run es))).map Prod.snd).foldlM (feed env) s := by
    intro T
    induction T with
    | nil => intro s; rfl
    | cons t T ih =>
      intro s
      rw [List.foldlM_cons, List.flatMap_cons, List.map_append, List.foldlM_append]
      unfold feedAt Timeline.getEvents
      cases ((Timeline.equalRange (Timeline.run es) t).map Prod.snd).foldlM (feed env) s with
      | error e => rfl
      | ok u => exact ih u
  obtain ⟨h1, h2, h3, h4⟩ := Timeline.run_inv es
  have hr : ∀ t, Timeline.equalRange (Timeline.run es) t = es.filter (fun p => decide (p.1 = t)) := by
    intro t
    rw [Timeline.equalRange, Timeline.range_filter _ _ h1, h4]
  have hfl : ∀ ts, ((Timeline.run es).timestamps.flatMap (Timeline.equalRange (Timeline.run es))).filter
      (fun p => decide (p.1 = ts)) = es.filter (fun p => decide (p.1 = ts)) := by
    intro ts
    have hgen : ∀ T : List Int, T.Nodup →
        (T.flatMap (Timeline.equalRange (Timeline.run es))).filter (fun p => decide (p.1 = ts)) =
          if ts ∈ T then es.filter (fun p => decide (p.1 = ts)) else [] := by
      intro T
      induction T with
      | nil => intro _; rfl
      | cons t T ih =>
        intro hn
        obtain ⟨n1, n2⟩ := List.nodup_cons.1 hn
        rw [List.flatMap_cons, List.filter_append, ih n2, hr, List.filter_filter]
        by_cases ht : t = ts
        · subst ht
          rw [if_neg n1, if_pos (by simp), List.append_nil]
          refine List.filter_congr (fun p _ => ?_)
          simp
        · have : es.filter (fun a => decide (a.1 = ts) && decide (a.1 = t)) = [] := by
            rw [List.filter_eq_nil_iff]
            intro a _ hh
            simp only [Bool.and_eq_true, decide_eq_true_eq] at hh
            exact ht (hh.2.symm.trans hh.1)
          rw [this, List.nil_append]
          simp [Ne.symm ht]
    rw [hgen _ (h2.imp (fun h => ne_of_lt h))]
    by_cases hm : ts ∈ (Timeline.run es).timestamps
    · rw [if_pos hm]
    · rw [if_neg hm]
      symm
      rw [List.filter_eq_nil_iff]
      intro p hp hh
      rw [decide_eq_true_eq] at hh
      exact hm ((h3 ts).2 (List.mem_map.2 ⟨p, hp, hh⟩))
  refine ⟨_, key _ s, ?_, ?_, hfl⟩
  · classical
    rw [List.perm_iff_count]
    intro a
    have hc : ∀ l : List (Int × Ev K D), l.count a = (l.filter (fun p => decide (p.1 = a.1))).count a := by
      intro l
      rw [List.count_filter]
      simp
    rw [hc, hfl, ← hc]
  · have hgen : ∀ T : List Int, T.Pairwise (· < ·) →
        (T.flatMap (Timeline.equalRange (Timeline.run es))).Pairwise (fun a b => a.1 ≤ b.1) := by
      intro T hT
      rw [List.pairwise_flatMap]
      refine ⟨?_, ?_⟩
      · intro t _
        rw [hr]
        refine List.Pairwise.imp_of_mem (R := fun _ _ => True) ?_ (by simp [List.pairwise_iff_getElem])
        intro a b ha hb _
        have h1 := (List.mem_filter.1 ha).2
        have h2 := (List.mem_filter.1 hb).2
        rw [decide_eq_true_eq] at h1 h2
        omega
      · refine hT.imp ?_
        intro t u htu a ha b hb
        rw [hr] at ha hb
        have h1 := (List.mem_filter.1 ha).2
        have h2 := (List.mem_filter.1 hb).2
        rw [decide_eq_true_eq] at h1 h2
        omega
    exact hgen _ h2

/-- **C140, loading.**  When every camera of the calibrator has grids, the data are handed over as `load_data` of `calib_vi_t`
does (C118). -/
theorem C140_load (env : VEnv K D) (grids : List (Int × List (Grid K))) (hg : SMap.Sorted grids) (imu : List (Int × D × D)) (s : St K D)
    (hs : s.cams.map Prod.fst = grids.map Prod.fst) :
    feedAll env grids imu s = loadData env ⟨fun c => (SMap.find c grids).getD [], imu⟩ s := by
  have : events grids imu = entries (s.cams.map Prod.fst) (⟨fun c => (SMap.find c grids).getD [], imu⟩ : LoadIn K D) := by
    unfold events entries
    rw [hs]
    congr 1
    rw [List.flatMap_map]
    refine List.flatMap_congr ?_
    rintro ⟨c, gs⟩ hc
    simp only
    rw [(SMap.find_eq_some hg).mpr hc]
    rfl
  unfold feedAll loadData
  rw [this]

/-- Only grids of the cameras `cams` are waiting, and there is no view. -/
def Waiting (cams : List Int) (s s' : St K D) : Prop :=
  s'.views = s.views ∧ s'.cams = s.cams ∧ SMap.Sorted s'.gridBuf ∧ ∀ c ∈ s'.gridBuf.map Prod.fst, c ∈ cams

/-- **C140, refuted.**  If the target was never seen by one of the cameras, no view is made, whatever the others have seen. -/
theorem C140_blind_refuted (env : VEnv K D) (grids : List (Int × List (Grid K))) (imu : List (Int × D × D)) (s : St K D)
    (hb : s.gridBuf = []) (hg : (grids.map Prod.fst).Nodup) (hlt : grids.length < s.cams.length) :
    ∃ s', feedAll env grids imu s = .ok s' ∧ s'.views = s.views := by
  obtain ⟨l, h1, h2, -, -⟩ := C140_order env grids imu s
  have hev : ∀ e ∈ l.map Prod.snd, ∀ c g, e = Ev.grid c g → c ∈ grids.map Prod.fst := by
    rintro e he c g rfl
    obtain ⟨p, hp, hpe⟩ := List.mem_map.mp he
    have := h2.mem_iff.mp hp
    rcases List.mem_append.mp this with h | h
    · obtain ⟨cg, hcg, h⟩ := List.mem_flatMap.mp h
      obtain ⟨g', -, rfl⟩ := List.mem_map.mp h
      simp only [Ev.grid.injEq] at hpe
      exact List.mem_map.mpr ⟨cg, hcg, hpe.1⟩
    · obtain ⟨r, -, rfl⟩ := List.mem_map.mp h
      cases hpe
  have key : ∀ (es : List (Ev K D)), (∀ e ∈ es, ∀ c g, e = Ev.grid c g → c ∈ grids.map Prod.fst) → ∀ t : St K D,
      Waiting (grids.map Prod.fst) s t → ∃ t', es.foldlM (feed env) t = .ok t' ∧ Waiting (grids.map Prod.fst) s t' := by
    intro es
    induction es with
    | nil => intro _ t ht; exact ⟨t, rfl, ht⟩
    | cons e es ih =>
      intro he t ht
      obtain ⟨w1, w2, w3, w4⟩ := ht
      have hstep : ∃ t', feed env t e = .ok t' ∧ Waiting (grids.map Prod.fst) s t' := by
        cases e with
        | grid c g =>
          refine ⟨_, rfl, ?_⟩
          unfold addGrid
          by_cases hi : t.imuStarted = false
          · rw [if_pos hi]; exact ⟨w1, w2, w3, w4⟩
          · rw [if_neg hi]
            refine ⟨w1, w2, SMap.set_sorted _ _ _ w3, ?_⟩
            intro c' hc'
            obtain ⟨p, hp, rfl⟩ := List.mem_map.mp hc'
            rcases SMap.mem_set hp with rfl | hp
            · exact he _ (List.mem_cons_self ..) c g rfl
            · exact w4 _ (List.mem_map.mpr ⟨p, hp, rfl⟩)
        | imu ts a w =>
          have hl : t.gridBuf.length ≤ grids.length := by
            have hn : (t.gridBuf.map Prod.fst).Nodup := SMap.sorted_nodup w3
            have := (hn.subperm w4).length_le
            simpa using this
          have hne : t.gridBuf.length ≠ t.cams.length := by rw [w2]; omega
          refine ⟨{ t with imu := t.imu.add ts a w, imuStarted := true }, ?_, w1, w2, w3, w4⟩
          unfold feed addImu
          simp only
          rw [if_pos hne]
          rfl
      obtain ⟨t', e1, e2⟩ := hstep
      obtain ⟨t'', e3, e4⟩ := ih (fun e' h' => he e' (List.mem_cons_of_mem _ h')) t' e2
      refine ⟨t'', ?_, e4⟩
      rw [List.foldlM_cons, e1]
      exact e3
  obtain ⟨t', e1, e2⟩ := key _ hev s ⟨rfl, rfl, by rw [hb]; exact List.Pairwise.nil, by rw [hb]; simp⟩
  exact ⟨t', by rw [h1]; exact e1, e2.1⟩

example (old : Option Y) : ∃ cams, main yaml true old { stereo with imu := none } (.map []) [] = .ok cams ∧
    CamerasKept { stereo with imu := none } cams ∧ ∀ e ∈ cams, e.2.fixed = true ∧ e.2.fixedExt = true :=
  C140_cameras yaml yaml_reads old _ _ _
    ⟨stereo_complete.cams_map, stereo_complete.exts, stereo_complete.index, stereo_complete.zero, stereo_complete.models, stereo_complete.ints⟩

open Yac.VI.Witness in
/-- C140 witness: two cameras, of which the second never saw the target; with both seeing it, views are made. -/
example : (∃ s', feedAll env [(0, [g 2, g 3])] din.imu empty2 = .ok s' ∧ s'.views = empty2.views) ∧
    feedAll env [(0, din.grids 0), (1, din.grids 1)] din.imu empty2 = loadData env din empty2 := by
  refine ⟨C140_blind_refuted env _ _ empty2 rfl (by decide) (by decide), ?_⟩
  rw [C140_load env _ (by unfold SMap.Sorted; decide) _ empty2 rfl]
  rfl

end Yac.Tool.Euroc
