import Verif.Save.ViProps
import Verif.Save.CamSpec
import Verif.Ctor.MocapMain

/-! # C128, C129: results of camera and motion capture calibrations can be loaded again -/

namespace Yac.Save
open Yac.Config Yac.Text Yac.Fmt Yac.Ctor

/-! ### The document -/

def camHead (c : CamCalib) (total : Y) : List (Str × Y) :=
  [("settings".toList, camSettingsNode c), ("calib_target".toList, targetNode' c.target), ("total_reproj_error".toList, total)]

def camStats (each : List (ℤ × Y)) : List (Str × Y) := each.map (fun e => (camKey e.1 ++ "_reproj_error".toList, e.2))

def camNodes (cams : List (ℤ × Bool × ViCam)) : List (Str × Y) := cams.map (fun e => (camKey e.1, camNode' e.2.1 e.2.2))

noncomputable def extNodes (T0 : M4) (exts : List (ℤ × Bool × M4)) : List (Str × Y) :=
  (exts.filter (fun e => decide (e.1 ≠ 0))).map (fun e => ("T_cam0_cam".toList ++ fmtLd e.1, poseNode' e.2.1 (T0⁻¹ * e.2.2)))

noncomputable def camDoc (c : CamCalib) (total : Y) (each : List (ℤ × Y)) (T0 : M4) : List (Str × Y) :=
  camHead c total ++ camStats each ++ camNodes c.cams ++ extNodes T0 c.exts ++ camImuNodes c.imu

theorem saveCam_eq {c : CamCalib} {total : Y} {each : List (ℤ × Y)} {f : Bool} {T0 : M4} (h : SMap.find 0 c.exts = some (f, T0)) :
    saveCam c total each = .ok (.map (camDoc c total each T0)) := by
  unfold saveCam estimateNodes
  rw [h]
  show Except.ok _ = _
  congr 2
  unfold camDoc camHead camStats camNodes extNodes
  simp only [List.append_assoc]

theorem stats_none (each : List (ℤ × Y)) (k : Str) (h : k.take 3 ≠ "cam".toList ∨ '_' ∉ k) : lookup (camStats each) k = none := by
  refine lookup_missing (fun e he hk => ?_)
  obtain ⟨a, _, rfl⟩ := List.mem_map.mp he
  subst hk
  rcases h with h | h
  · exact h (by unfold camKey; rw [List.append_assoc]; exact take_cam _)
  · exact h (List.mem_append_right _ (by decide))

theorem cams_none (cams : List (ℤ × Bool × ViCam)) (k : Str) (h : k.take 3 ≠ "cam".toList) : lookup (camNodes cams) k = none := by
  refine lookup_missing (fun e he hk => ?_)
  obtain ⟨a, _, rfl⟩ := List.mem_map.mp he
  subst hk
  exact h (take_cam _)

theorem exts_none (T0 : M4) (exts : List (ℤ × Bool × M4)) (k : Str) (h : k.take 7 ≠ "T_cam0_".toList) : lookup (extNodes T0 exts) k = none := by
  refine lookup_missing (fun e he hk => ?_)
  obtain ⟨a, _, rfl⟩ := List.mem_map.mp he
  subst hk
  refine h ?_
  show ("T_cam0_".toList ++ ("cam".toList ++ fmtLd a.1)).take 7 = _
  exact take_ext _

theorem imu_key (i : Option ImuNums) (k : Str) (h : k ≠ "imu0".toList) : lookup (camImuNodes i) k = none := by
  cases i with
  | none => rfl
  | some i =>
    refine lookup_missing (fun e he hk => ?_)
    rw [camImuNodes, List.mem_singleton] at he
    subst he
    exact h hk.symm

theorem head_key (c : CamCalib) (total : Y) (k : Str)
    (h : ∀ s ∈ ["settings".toList, "calib_target".toList, "total_reproj_error".toList], s ≠ k) : lookup (camHead c total) k = none := by
  refine lookup_missing (fun e he => h _ ?_)
  have : (camHead c total).map Prod.fst = ["settings".toList, "calib_target".toList, "total_reproj_error".toList] := rfl
  rw [← this]
  exact List.mem_map_of_mem he

theorem camDoc_lit (c : CamCalib) (total : Y) (each : List (ℤ × Y)) (T0 : M4) (k : Str) (h1 : k.take 3 ≠ "cam".toList) (h2 : k.take 7 ≠ "T_cam0_".toList) :
    lookup (camDoc c total each T0) k = lookup (camHead c total ++ camImuNodes c.imu) k := by
  unfold camDoc
  simp only [lookup_append, stats_none each k (Or.inl h1), cams_none _ k h1, exts_none T0 _ k h2, Option.or_none]

theorem lookup_camNodes (cams : List (ℤ × Bool × ViCam)) (n : ℕ) :
    lookup (camNodes cams) (camName n) = (SMap.find (n : ℤ) cams).map (fun e => camNode' e.1 e.2) := by
  unfold camNodes
  induction cams with
  | nil => rfl
  | cons e t ih =>
    rw [List.map_cons, lookup_cons, ih, ← camKey_nat]
    obtain ⟨i, cam⟩ := e
    by_cases h : i = n
    · subst h
      simp [SMap.find]
    · have : camKey i ≠ camKey (n : ℤ) := fun hk => h (camKey_inj hk)
      simp [SMap.find, h, this]

theorem cam_head (n : ℕ) (l : Str) (h : l.head? ≠ some 'c') : ∀ s, camName n ≠ l ++ s ∨ l = [] := by
  intro s
  by_cases hl : l = []
  · exact Or.inr hl
  · left
    intro hk
    have h1 : (camName n).head? = some 'c' := rfl
    rw [hk, List.head?_append] at h1
    cases hh : l.head? with
    | none => exact hl (List.head?_eq_none_iff.mp hh)
    | some a =>
      rw [hh] at h1 h
      exact h h1

theorem cam_not_ext (n : ℕ) : (camName n).take 7 ≠ "T_cam0_".toList := by
  intro h
  have h1 : (camName n).head? = some 'c' := rfl
  have h' := congrArg List.head? h
  cases hc : camName n with
  | nil => rw [hc] at h1; cases h1
  | cons a t =>
    rw [hc] at h1 h'
    simp at h1 h'
    rw [h1] at h'
    exact absurd h' (by decide)

theorem camDoc_cam (c : CamCalib) (total : Y) (each : List (ℤ × Y)) (T0 : M4) (n : ℕ) :
    lookup (camDoc c total each T0) (camName n) = (SMap.find (n : ℤ) c.cams).map (fun e => camNode' e.1 e.2) := by
  have hne : ∀ s ∈ ["settings".toList, "calib_target".toList, "total_reproj_error".toList, "imu0".toList], s ≠ camName n := by
    intro s hs hk
    have : s.take 3 = "cam".toList := by rw [hk]; exact take_cam _
    clear hk
    revert this
    revert s
    decide
  unfold camDoc
  simp only [lookup_append, stats_none each _ (Or.inr (under_cam n)), lookup_camNodes, exts_none T0 _ _ (cam_not_ext n),
    head_key c total _ (fun s hs => hne s (by revert hs; revert s; decide)), imu_key _ _ (fun h => hne "imu0".toList (by decide) h.symm),
    Option.or_none, Option.none_or]

theorem extKey_inj {i j : ℤ} (h : "T_cam0_cam".toList ++ fmtLd i = "T_cam0_cam".toList ++ fmtLd j) : i = j :=
  fmtLd_inj (List.append_cancel_left h)

theorem lookup_extNodes (T0 : M4) (exts : List (ℤ × Bool × M4)) (n : ℕ) :
    lookup (extNodes T0 exts) (extName n) = if n = 0 then none else (SMap.find (n : ℤ) exts).map (fun e => poseNode' e.1 (T0⁻¹ * e.2)) := by
  unfold extNodes
  induction exts with
  | nil => simp [lookup, SMap.find]
  | cons e t ih =>
    obtain ⟨i, f⟩ := e
    rw [List.filter_cons]
    by_cases h0 : i = 0
    · subst h0
      rw [if_neg (by simp), ih]
      by_cases hn : n = 0
      · rw [if_pos hn, if_pos hn]
      · rw [if_neg hn, if_neg hn]
        have : ¬ (0 : ℤ) = n := by omega
        simp [SMap.find, this]
    · rw [if_pos (by simpa using h0), List.map_cons, lookup_cons, ih, ← extKey_nat]
      by_cases h : i = n
      · subst h
        have : n ≠ 0 := by omega
        simp [SMap.find, this]
      · have : "T_cam0_cam".toList ++ fmtLd i ≠ "T_cam0_cam".toList ++ fmtLd (n : ℤ) := fun hk => h (extKey_inj hk)
        rw [if_neg this]
        by_cases hn : n = 0
        · rw [if_pos hn, if_pos hn]
        · rw [if_neg hn, if_neg hn]
          simp [SMap.find, h]

theorem ext_not_cam (n : ℕ) : (extName n).take 3 ≠ "cam".toList := by
  intro h
  have h1 : (extName n).take 3 = "T_c".toList := rfl
  rw [h1] at h
  exact absurd h (by decide)

theorem camDoc_ext (c : CamCalib) (total : Y) (each : List (ℤ × Y)) (T0 : M4) (n : ℕ) :
    lookup (camDoc c total each T0) (extName n) = if n = 0 then none else (SMap.find (n : ℤ) c.exts).map (fun e => poseNode' e.1 (T0⁻¹ * e.2)) := by
  have hne : ∀ s ∈ ["settings".toList, "calib_target".toList, "total_reproj_error".toList, "imu0".toList], s ≠ extName n := by
    intro s hs hk
    have : s.take 7 = "T_cam0_".toList := by rw [hk]; exact take_ext _
    clear hk
    revert this
    revert s
    decide
  unfold camDoc
  simp only [lookup_append, stats_none each _ (Or.inl (ext_not_cam n)), cams_none _ _ (ext_not_cam n), lookup_extNodes,
    head_key c total _ (fun s hs => hne s (by revert hs; revert s; decide)), imu_key _ _ (fun h => hne "imu0".toList (by decide) h.symm),
    Option.or_none, Option.none_or]

theorem camDoc_sections (c : CamCalib) (total : Y) (each : List (ℤ × Y)) (T0 : M4) : Sections (.map (camDoc c total each T0)) := by
  refine ⟨_, rfl, fun s y hs hf => ?_⟩
  have hl := lookup_first hf
  rcases hs with rfl | rfl | rfl | ⟨n, rfl⟩
  · rw [camDoc_lit _ _ _ _ _ (by decide) (by decide)] at hl
    cases hl
    exact ⟨_, rfl⟩
  · rw [camDoc_lit _ _ _ _ _ (by decide) (by decide)] at hl
    cases hl
    exact ⟨_, rfl⟩
  · rw [camDoc_lit _ _ _ _ _ (by decide) (by decide)] at hl
    cases hi : c.imu with
    | none => rw [hi] at hl; cases hl
    | some i => rw [hi] at hl; cases hl; exact ⟨_, rfl⟩
  · rw [camDoc_cam] at hl
    cases hc : SMap.find (n : ℤ) c.cams with
    | none => rw [hc] at hl; cases hl
    | some cam => rw [hc] at hl; cases hl; exact ⟨_, rfl⟩

theorem read_pose' {D : Dec} (hD : Reads D) (f : Bool) (M : M4) : readMat D.int D.real 4 (poseNode' f M) = .ok (newPose M) := by
  have h := read_pose hD M
  have h4 : D.int "4".toList = some 4 := hD.int 4 (by norm_num) (by norm_num)
  have n1 : MatrixNode D.int (poseNode M) 4 4 ((items ("\n".toList ++ mat2str "    ".toList true (rowsOf M) ++ "\n  ".toList)).map .scalar) :=
    ⟨_, _, _, rfl, first_lookup.mpr rfl, first_lookup.mpr rfl, first_lookup.mpr rfl, h4, h4⟩
  have n2 : MatrixNode D.int (poseNode' f M) 4 4 ((items ("\n".toList ++ mat2str "    ".toList true (rowsOf M) ++ "\n  ".toList)).map .scalar) :=
    ⟨_, _, _, rfl, first_lookup.mpr rfl, first_lookup.mpr rfl, first_lookup.mpr rfl, h4, h4⟩
  rw [C22_matrix _ n2]
  rw [C22_matrix _ n1] at h
  exact h

/-! ### The parts of the calibrator -/

noncomputable def newTarget' (t : TargetNums) : List (Str × Ctor.Val) := keys [
  ("target_type", .text t.targetType), ("tag_rows", .int t.tagRows), ("tag_cols", .int t.tagCols),
  ("tag_size", .real (val (fmtF t.tagSize))), ("tag_spacing", .real (val (fmtF t.tagSpacing)))]

theorem target_kept (t : TargetNums) : TargetKept t (newTarget' t) := ⟨_, _, (val_F _).2, (val_F _).2, rfl⟩

theorem target_table {D : Dec} (hD : Reads D) {m : List (Str × Y)} {t : TargetNums} (hl : lookup m "calib_target".toList = some (targetNode' t))
    (h1 : IsInt t.tagRows) (h2 : IsInt t.tagCols) : TableIs D (.map m) "calib_target".toList false (keys targetTable) (newTarget' t) :=
  table_of (o := false) hl (.cons (e_text (by lk)) <| .cons (e_int hD h1 (by lk)) <| .cons (e_int hD h2 (by lk)) <| .cons (e_F hD (by lk)) <|
    .cons (e_F hD (by lk)) .nil)

noncomputable def newImu' (i : ImuNums) : List (Str × Ctor.Val) := keys [("rate", .real (val (fmtF i.rate))),
  ("sigma_g_c", .real (val (fmtE 6 i.sigma_g_c))), ("sigma_a_c", .real (val (fmtE 6 i.sigma_a_c))),
  ("sigma_gw_c", .real (val (fmtE 6 i.sigma_gw_c))), ("sigma_aw_c", .real (val (fmtE 6 i.sigma_aw_c))),
  ("sigma_bg", .real (val (fmtE 6 i.sigma_bg))), ("sigma_ba", .real (val (fmtE 6 i.sigma_ba))), ("g", .real (val (fmtF i.g)))]

theorem imu_kept (i : ImuNums) : ImuKept i (newImu' i) :=
  ⟨_, _, _, _, _, _, _, _, (val_F _).2, (val_E _).2, (val_E _).2, (val_E _).2, (val_E _).2, (val_E _).2, (val_E _).2, (val_F _).2, rfl⟩

noncomputable def newExt' (c : CamCalib) (T0 : M4) (i : ℤ) : List (List ℝ) :=
  if i = 0 then identity4 else newPose (T0⁻¹ * ((SMap.find i c.exts).getD (false, 0)).2)

/-- A camera; `f`, `g`: what is fixed. -/
noncomputable def newCam' (c : CamCalib) (T0 : M4) (f : Bool) (g : ℤ → Bool) (e : ℤ × Bool × ViCam) : ℤ × Camera :=
  (e.1, ⟨[e.2.2.w, e.2.2.h], e.2.2.proj, e.2.2.dist, e.2.2.k.map (fun x : ℚ => (x : ℝ)), e.2.2.d.map (fun x : ℚ => (x : ℝ)), newExt' c T0 e.1, f, g e.1⟩)

theorem find_newCam' (c : CamCalib) (T0 : M4) (f : Bool) (g : ℤ → Bool) (i : ℤ) : SMap.find i (c.cams.map (newCam' c T0 f g)) =
    (SMap.find i c.cams).map (fun e => (newCam' c T0 f g (i, e)).2) := by
  induction c.cams with
  | nil => rfl
  | cons e t ih =>
    obtain ⟨j, cam⟩ := e
    show (if j = i then _ else SMap.find i (t.map (newCam' c T0 f g))) = _
    rw [ih]
    by_cases h : j = i
    · subst h
      simp [SMap.find, newCam']
    · simp [SMap.find, h]

theorem sorted_new {c : CamCalib} (h : CompleteCam c) (T0 : M4) (f : Bool) (g : ℤ → Bool) : SMap.Sorted (c.cams.map (newCam' c T0 f g)) := by
  have := h.cams_map
  unfold SMap.Sorted at this ⊢
  rw [List.pairwise_map]
  exact this

theorem ext_of_cam {c : CamCalib} (h : CompleteCam c) {i : ℤ} : (SMap.find i c.exts).isSome = (SMap.find i c.cams).isSome := by
  have := (SMap.find_isSome (k := i) (m := c.exts))
  have h2 := (SMap.find_isSome (k := i) (m := c.cams))
  rw [h.exts, ← h2] at this
  exact Bool.eq_iff_iff.mpr this

theorem zero_ext {c : CamCalib} (h : CompleteCam c) : ∃ f T0, SMap.find 0 c.exts = some (f, T0) := by
  have : (SMap.find 0 c.exts).isSome = true := by rw [ext_of_cam h]; exact h.zero
  obtain ⟨⟨f, T⟩, hT⟩ := Option.isSome_iff_exists.mp this
  exact ⟨f, T, hT⟩

theorem cameras_kept {c : CamCalib} (h : CompleteCam c) {f0 : Bool} {T0 : M4} (h0 : SMap.find 0 c.exts = some (f0, T0)) (f : Bool) (g : ℤ → Bool) :
    CamerasKept c (c.cams.map (newCam' c T0 f g)) := by
  refine ⟨by simp [newCam'], fun i fx cam hc => ⟨_, by rw [find_newCam', hc]; rfl, rfl, rfl, rfl, rfl, rfl⟩, f0, T0, h0, fun i fx M hM => ?_⟩
  have : (SMap.find i c.cams).isSome = true := by rw [← ext_of_cam h, hM]; rfl
  obtain ⟨cam, hc⟩ := Option.isSome_iff_exists.mp this
  refine ⟨(newCam' c T0 f g (i, cam)).2, by rw [find_newCam', hc]; rfl, ?_, ?_⟩
  · rintro rfl
    rfl
  · intro hi
    refine ⟨readPoseRows (T0⁻¹ * M), ?_⟩
    have : (newCam' c T0 f g (i, cam)).2.ext = newPose (T0⁻¹ * M) := by
      show newExt' c T0 i = _
      unfold newExt'
      rw [if_neg hi, hM]
      rfl
    rw [this]
    exact pose_near _

/-- The cameras of the file. -/
theorem cameras_file {D : Dec} (hD : Reads D) {c : CamCalib} (h : CompleteCam c) (total : Y) (each : List (ℤ × Y)) {f0 : Bool} {T0 : M4}
    (h0 : SMap.find 0 c.exts = some (f0, T0)) (f : Bool) (g : ℤ → Bool) (is : ℕ → Camera → Prop)
    (his : ∀ (n : ℕ) cam, ModelIs D (.map (camDoc c total each T0)) n cam →
      Gives (.map (camDoc c total each T0)) [camName n, "proj_params".toList] (readVecX D.real) cam.k →
      Gives (.map (camDoc c total each T0)) [camName n, "dist_params".toList] (readVecX D.real) cam.d →
      (n ≠ 0 → Gives (.map (camDoc c total each T0)) [extName n] (readMat D.int D.real 4) cam.ext) →
      (n = 0 → cam.ext = identity4 ∧ Absent (.map (camDoc c total each T0)) [extName n]) → cam.fixed = f → cam.fixedExt = g n → is n cam) :
    CamerasAre (.map (camDoc c total each T0)) is (c.cams.map (newCam' c T0 f g)) := by
  refine ⟨sorted_new h T0 f g, fun n hn => ?_, fun i hi => ?_⟩
  · cases hc : SMap.find (n : ℤ) c.cams with
    | none =>
      left
      refine ⟨absent_top (by rw [camDoc_cam, hc]; rfl), ?_⟩
      rw [find_newCam', hc]
      rfl
    | some e =>
      right
      obtain ⟨fx, cam⟩ := e
      have hlk : lookup (camDoc c total each T0) (camName n) = some (camNode' fx cam) := by rw [camDoc_cam, hc]; rfl
      refine ⟨fun ha => ha ⟨_, reach_top hlk⟩, (newCam' c T0 f g (n, fx, cam)).2, by rw [find_newCam', hc]; rfl, ?_⟩
      have hm : ((n : ℤ), fx, cam) ∈ c.cams := (SMap.find_eq_some h.cams_map).mp hc
      obtain ⟨m1, m2, m3, m4, m5⟩ := h.models _ hm
      refine his n _ ⟨⟨_, reach_two hlk rfl, read_ints hD m2 m3⟩, ⟨_, reach_two hlk rfl, rfl⟩, ⟨_, reach_two hlk rfl, rfl⟩, m1⟩
        ⟨_, reach_two hlk rfl, read_vec hD _ m4⟩ ⟨_, reach_two hlk rfl, read_vec hD _ m5⟩ ?_ ?_ rfl rfl
      · intro hn0
        have : (SMap.find (n : ℤ) c.exts).isSome = true := by rw [ext_of_cam h, hc]; rfl
        obtain ⟨⟨fe, M⟩, hM⟩ := Option.isSome_iff_exists.mp this
        refine ⟨_, reach_top (by rw [camDoc_ext, if_neg hn0, hM]; rfl), ?_⟩
        rw [read_pose' hD]
        show _ = Except.ok (newExt' c T0 (n : ℤ))
        unfold newExt'
        rw [if_neg (by omega), hM]
        rfl
      · intro hn0
        subst hn0
        exact ⟨rfl, absent_top (by rw [camDoc_ext, if_pos rfl])⟩
  · rw [find_newCam']
    cases hc : SMap.find i c.cams with
    | none => rfl
    | some e =>
      have hm : (i, e) ∈ c.cams := (SMap.find_eq_some h.cams_map).mp hc
      have hr := h.index _ hm
      exact absurd (show i = ((i.toNat : ℕ) : ℤ) by simp at hr; omega) (hi i.toNat (by simp at hr; omega))

noncomputable def camSettings' (c : CamCalib) : List (Str × Ctor.Val) := keys [("verbose", .flag c.verbose), ("max_num_threads", .int c.maxNumThreads),
  ("enable_nbv", .flag c.nbv), ("enable_shuffle_views", .flag c.shuffleViews), ("enable_nbv_filter", .flag c.nbvFilter),
  ("enable_outlier_filter", .flag c.outlierFilter), ("enable_early_stopping", .flag c.earlyStopping),
  ("enable_marginalization", .flag c.marginalization), ("enable_loss_fn", .flag c.lossOn), ("loss_fn_type", .text c.lossType),
  ("loss_fn_param", .real (val (fmtF c.lossParam))), ("min_nbv_views", .int c.minNbvViews), ("outlier_threshold", .real (val (fmtF c.outlierThreshold))),
  ("info_gain_threshold", .real (val (fmtF c.infoGainThreshold))), ("early_stop_threshold", .int c.earlyStopThreshold),
  ("sliding_window_size", .int c.slidingWindowSize), ("format_v2", .flag c.formatV2)]

noncomputable def newCamera (c : CamCalib) (T0 : M4) : Built :=
  ⟨camSettings' c, newTarget' c.target, c.cams.map (newCam' c T0 false (fun i => decide (i = 0))), c.imu.map newImu'⟩

theorem camera_file {D : Dec} (hD : Reads D) {c : CamCalib} (h : CompleteCam c) (total : Y) (each : List (ℤ × Y)) {f0 : Bool} {T0 : M4}
    (h0 : SMap.find 0 c.exts = some (f0, T0)) : CameraFile D (.map (camDoc c total each T0)) (newCamera c T0) := by
  have ls : lookup (camDoc c total each T0) "settings".toList = some (camSettingsNode c) := by
    rw [camDoc_lit _ _ _ _ _ (by decide) (by decide)]; rfl
  have lt : lookup (camDoc c total each T0) "calib_target".toList = some (targetNode' c.target) := by
    rw [camDoc_lit _ _ _ _ _ (by decide) (by decide)]; rfl
  obtain ⟨i1, i2, i3, i4, i5, i6⟩ := h.ints
  refine ⟨?_, target_table hD lt i5 i6, ?_, ?_, ?_, ?_⟩
  · exact table_of (o := true) ls (.cons (e_flag hD (by lk)) <| .cons (e_int hD i1 (by lk)) <| .cons (e_flag hD (by lk)) <| .cons (e_flag hD (by lk)) <|
      .cons (e_flag hD (by lk)) <| .cons (e_flag hD (by lk)) <| .cons (e_flag hD (by lk)) <| .cons (e_flag hD (by lk)) <| .cons (e_flag hD (by lk)) <|
      .cons (e_text (by lk)) <| .cons (e_F hD (by lk)) <| .cons (e_int hD i2 (by lk)) <| .cons (e_F hD (by lk)) <| .cons (e_F hD (by lk)) <|
      .cons (e_int hD i3 (by lk)) <| .cons (e_int hD i4 (by lk)) <| .cons (e_flag hD (by lk)) .nil)
  · refine cameras_file hD h total each h0 false _ _ (fun n cam a1 a2 a3 a4 a5 a6 a7 => ⟨a1, Or.inl ⟨a2, a3⟩, ?_, a6, ?_⟩)
    · by_cases hn : n = 0
      · exact Or.inr ⟨(a5 hn).2, (a5 hn).1⟩
      · exact Or.inl (a4 hn)
    · rw [a7]; simp
  · refine ⟨0, by norm_num, fun ha => ?_⟩
    obtain ⟨v, hv⟩ := Option.isSome_iff_exists.mp h.zero
    exact ha ⟨_, reach_top (by rw [camDoc_cam]; show (SMap.find 0 c.cams).map _ = _; rw [hv]; rfl)⟩
  · have li : lookup (camDoc c total each T0) "imu0".toList = lookup (camImuNodes c.imu) "imu0".toList := by
      rw [camDoc_lit _ _ _ _ _ (by decide) (by decide), lookup_append, head_key c total _ (by decide), Option.none_or]
    cases hi : c.imu with
    | none =>
      left
      rw [hi] at li
      exact ⟨by simp [newCamera, hi], absent_top li⟩
    | some i =>
      right
      rw [hi] at li
      have li : lookup (camDoc c total each T0) "imu0".toList = some (.map _) := li
      refine ⟨fun ha => ha ⟨_, reach_top li⟩, newImu' i, by simp [newCamera, hi], ?_⟩
      exact table_of (o := true) li (.cons (e_F hD (by lk)) <| .cons (e_E hD (by lk)) <| .cons (e_E hD (by lk)) <| .cons (e_E hD (by lk)) <|
        .cons (e_E hD (by lk)) <| .cons (e_E hD (by lk)) <| .cons (e_E hD (by lk)) <| .cons (e_F hD (by lk)) .nil)
  · exact Or.inl (absent_two ls (by rfl))

/-- Saving and loading of a camera calibration. -/
theorem C128_reload (D : Dec) (hD : Reads D) (c : CamCalib) (total : Y) (each : List (ℤ × Y)) (h : CompleteCam c) :
    ∃ doc b, saveCam c total each = .ok doc ∧ cameraCtor D doc = .ok b ∧ ReloadedCam c b := by
  obtain ⟨f0, T0, h0⟩ := zero_ext h
  refine ⟨_, newCamera c T0, saveCam_eq h0, (C121_camera D _ (camDoc_sections c total each T0) _).mpr (camera_file hD h total each h0), ?_⟩
  refine ⟨⟨_, _, _, (val_F _).2, (val_F _).2, (val_F _).2, rfl⟩, target_kept _, cameras_kept h h0 _ _, ?_, ?_⟩
  · intro hi
    simp [newCamera, hi]
  · intro i hi
    exact ⟨newImu' i, by simp [newCamera, hi], imu_kept i⟩

/-! ### From a camera calibration to a visual-inertial one -/

noncomputable def startSettings (c : CamCalib) : List (Str × Ctor.Val) := keys [("verbose", .flag c.verbose),
  ("max_num_threads", .int c.maxNumThreads), ("max_iter", .int 100),
  ("enable_outlier_rejection", .flag false), ("enable_marginalization", .flag c.marginalization),
  ("enable_vision_loss_fn", .flag false), ("vision_loss_fn_type", .text "CAUCHY".toList),
  ("vision_loss_fn_param", .real 1), ("enable_imu_loss_fn", .flag false),
  ("imu_loss_fn_type", .text "HUBER".toList), ("imu_loss_fn_param", .real 1), ("outlier_threshold", .real (val (fmtF c.outlierThreshold))),
  ("window_size", .int 5), ("estimate_time_delay", .flag true), ("time_delay_jac_step", .real 1e-8),
  ("format_v2", .flag c.formatV2)]

noncomputable def startVi (c : CamCalib) (i : ImuNums) (T0 : M4) : BuiltVi where
  settings := startSettings c
  target := newTarget' c.target
  imu := newImu' i
  T_BS := 1
  fixedDelay := false
  cams := c.cams.map (newCam' c T0 true (fun _ => true))
  fiducial := none
  visionLoss := none
  imuLoss := none

theorem vi_file {D : Dec} (hD : Reads D) {c : CamCalib} (h : CompleteCam c) (total : Y) (each : List (ℤ × Y)) {f0 : Bool} {T0 : M4}
    (h0 : SMap.find 0 c.exts = some (f0, T0)) {i : ImuNums} (hi : c.imu = some i) : ViFile D (.map (camDoc c total each T0)) (startVi c i T0) := by
  have ls : lookup (camDoc c total each T0) "settings".toList = some (camSettingsNode c) := by
    rw [camDoc_lit _ _ _ _ _ (by decide) (by decide)]; rfl
  have lt : lookup (camDoc c total each T0) "calib_target".toList = some (targetNode' c.target) := by
    rw [camDoc_lit _ _ _ _ _ (by decide) (by decide)]; rfl
  have li : lookup (camDoc c total each T0) "imu0".toList = lookup (camImuNodes c.imu) "imu0".toList := by
    rw [camDoc_lit _ _ _ _ _ (by decide) (by decide), lookup_append, head_key c total _ (by decide), Option.none_or]
  rw [hi] at li
  have li : lookup (camDoc c total each T0) "imu0".toList = some (.map _) := li
  have lp : lookup (camDoc c total each T0) "T_imu0_cam0".toList = none := by
    rw [camDoc_lit _ _ _ _ _ (by decide) (by decide), lookup_append, head_key c total _ (by decide), imu_key _ _ (by decide)]; rfl
  have lf : lookup (camDoc c total each T0) "T_WF".toList = none := by
    rw [camDoc_lit _ _ _ _ _ (by decide) (by decide), lookup_append, head_key c total _ (by decide), imu_key _ _ (by decide)]; rfl
  obtain ⟨i1, i2, i3, i4, i5, i6⟩ := h.ints
  refine ⟨?_, target_table hD lt i5 i6, ⟨(newImu' i).take 5, ((newImu' i).drop 5).take 2, (newImu' i).drop 7, rfl, ?_, ?_, ?_⟩, ?_, ?_, ?_, ?_, ?_, ?_, ?_⟩
  · exact table_of (o := true) ls (.cons (e_flag hD (by lk)) <| .cons (e_int hD i1 (by lk)) <| .cons (e_def (by lk)) <| .cons (e_def (by lk)) <|
      .cons (e_flag hD (by lk)) <| .cons (e_def (by lk)) <| .cons (e_def (by lk)) <| .cons (e_def (by lk)) <| .cons (e_def (by lk)) <|
      .cons (e_def (by lk)) <| .cons (e_def (by lk)) <| .cons (e_F hD (by lk)) <| .cons (e_def (by lk)) <| .cons (e_def (by lk)) <|
      .cons (e_def (by lk)) <| .cons (e_flag hD (by lk)) .nil)
  · exact table_of (o := false) li (.cons (e_F hD (by lk)) <| .cons (e_E hD (by lk)) <| .cons (e_E hD (by lk)) <| .cons (e_E hD (by lk)) <|
      .cons (e_E hD (by lk)) .nil)
  · exact table_of (o := true) li (.cons (e_E hD (by lk)) <| .cons (e_E hD (by lk)) .nil)
  · exact table_of (o := false) li (.cons (e_F hD (by lk)) .nil)
  · exact ⟨none, Or.inr ⟨rfl, absent_top lp⟩, fun _ => rfl, (fun m hm => by cases hm)⟩
  · exact ⟨true, by simp [startVi, startSettings, keys], rfl⟩
  · refine cameras_file hD h total each h0 true _ _ (fun n cam a1 a2 a3 a4 a5 a6 a7 => ⟨a1, a2, a3, a4, fun hn => (a5 hn).1, a6, a7⟩)
  · refine ⟨0, by norm_num, fun ha => ?_⟩
    obtain ⟨v, hv⟩ := Option.isSome_iff_exists.mp h.zero
    exact ha ⟨_, reach_top (by rw [camDoc_cam]; show (SMap.find 0 c.cams).map _ = _; rw [hv]; rfl)⟩
  · exact Or.inr ⟨rfl, absent_top lf⟩
  · exact ⟨false, _, _, by simp [startVi, startSettings, keys], by simp [startVi, startSettings, keys]; rfl, by simp [startVi, startSettings, keys]; rfl, Or.inl ⟨rfl, rfl⟩⟩
  · exact ⟨false, _, _, by simp [startVi, startSettings, keys], by simp [startVi, startSettings, keys]; rfl, by simp [startVi, startSettings, keys]; rfl, Or.inl ⟨rfl, rfl⟩⟩

/-- The results of a camera calibration that knows the parameters of the IMU are a configuration for `calib_vi_t`: it takes
over the cameras and their extrinsics, and holds them fixed. -/
theorem C128_chain (D : Dec) (hD : Reads D) (c : CamCalib) (total : Y) (each : List (ℤ × Y)) (h : CompleteCam c) (i : ImuNums) (hi : c.imu = some i) :
    ∃ doc b, saveCam c total each = .ok doc ∧ viCtor D doc = .ok b ∧ StartsVi c i b := by
  obtain ⟨f0, T0, h0⟩ := zero_ext h
  refine ⟨_, startVi c i T0, saveCam_eq h0, (C121_vi D _ (camDoc_sections c total each T0) _).mpr (vi_file hD h total each h0 hi), ?_⟩
  refine ⟨⟨_, (val_F _).2, rfl⟩, target_kept _, imu_kept i, cameras_kept h h0 _ _, fun e he => ?_, rfl, rfl, rfl, rfl, rfl⟩
  obtain ⟨a, _, rfl⟩ := List.mem_map.mp he
  exact ⟨rfl, rfl⟩

/-- Without the parameters of the IMU they are not. -/
theorem C128_noimu (D : Dec) (hD : Reads D) (c : CamCalib) (total : Y) (each : List (ℤ × Y)) (h : CompleteCam c) (hi : c.imu = none) (doc : Y)
    (hs : saveCam c total each = .ok doc) (b : BuiltVi) : viCtor D doc ≠ .ok b := by
  obtain ⟨f0, T0, h0⟩ := zero_ext h
  rw [saveCam_eq h0] at hs
  cases hs
  intro hb
  obtain ⟨v1, v2, v3, -, t1, -, -⟩ := ((C121_vi D _ (camDoc_sections c total each T0) b).mp hb).imu
  have li : lookup (camDoc c total each T0) "imu0".toList = none := by
    rw [camDoc_lit _ _ _ _ _ (by decide) (by decide), lookup_append, head_key c total _ (by decide), Option.none_or, hi]
    rfl
  unfold TableIs at t1
  cases t1 with
  | cons hd _ =>
    rcases hd.2 with ⟨s, hr, -⟩ | ⟨ho, -⟩
    · exact absent_top li ⟨_, hr⟩
    · cases ho

/-- Saving succeeds just if there is a camera 0; otherwise the file is left unfinished. -/
theorem C128_saves (c : CamCalib) (total : Y) (each : List (ℤ × Y)) (hk : c.exts.map Prod.fst = c.cams.map Prod.fst) :
    (∃ doc, saveCam c total each = .ok doc) ↔ (SMap.find 0 c.cams).isSome = true := by
  have he : (SMap.find 0 c.exts).isSome = true ↔ (SMap.find 0 c.cams).isSome = true := by rw [SMap.find_isSome, SMap.find_isSome, hk]
  rw [← he]
  constructor
  · rintro ⟨doc, h⟩
    unfold saveCam estimateNodes at h
    cases hc : SMap.find 0 c.exts with
    | none => rw [hc] at h; cases h
    | some e => rfl
  · intro h
    obtain ⟨⟨f, T⟩, hT⟩ := Option.isSome_iff_exists.mp h
    exact ⟨_, saveCam_eq hT⟩

/-- The solver and which parameters are fixed are not restored: calibrators that differ only there give the same one. -/
theorem C128_lost_refuted (D : Dec) (hD : Reads D) (c : CamCalib) (total : Y) (each : List (ℤ × Y)) (h : CompleteCam c) (s : Str) (p : ℤ → Bool) :
    ∃ doc doc' b, saveCam c total each = .ok doc ∧
      saveCam { c with solver := s, cams := c.cams.map (fun e => (e.1, p e.1, e.2.2)) } total each = .ok doc' ∧
      cameraCtor D doc = .ok b ∧ cameraCtor D doc' = .ok b := by
  obtain ⟨f0, T0, h0⟩ := zero_ext h
  have hkeys : (c.cams.map (fun e => (e.1, p e.1, e.2.2))).map Prod.fst = c.cams.map Prod.fst := by simp
  have h' : CompleteCam { c with solver := s, cams := c.cams.map (fun e => (e.1, p e.1, e.2.2)) } := by
    refine ⟨?_, ?_, ?_, ?_, ?_, h.ints⟩
    · have := h.cams_map
      unfold SMap.Sorted at this ⊢
      rw [List.pairwise_map]
      exact this
    · exact h.exts.trans hkeys.symm
    · intro e he
      obtain ⟨a, ha, rfl⟩ := List.mem_map.mp he
      exact h.index a ha
    · have := h.zero
      rw [SMap.find_isSome] at this ⊢
      rw [hkeys]
      exact this
    · intro e he
      obtain ⟨a, ha, rfl⟩ := List.mem_map.mp he
      exact h.models a ha
  refine ⟨_, _, newCamera c T0, saveCam_eq h0, saveCam_eq (c := { c with solver := s, cams := c.cams.map (fun e => (e.1, p e.1, e.2.2)) }) h0,
    (C121_camera D _ (camDoc_sections c total each T0) _).mpr (camera_file hD h total each h0), ?_⟩
  have := (C121_camera D _ (camDoc_sections _ total each T0) _).mpr (camera_file hD h' total each h0)
  rw [this]
  congr 1
  unfold newCamera
  congr 1
  simp only [List.map_map]
  rfl

/-! ### Motion capture -/

noncomputable def newMocap (c : MocapCalib) : BuiltMocap where
  settings := keys [("fix_intrinsics", .flag c.fixIntrinsics), ("fix_mocap_poses", .flag c.fixMocapPoses),
    ("fix_fiducial_pose", .flag c.fixFiducialPose), ("outlier_threshold", .real (val (fmtF c.outlierThreshold))),
    ("info_gain_threshold", .real (val (fmtF c.infoGainThreshold))),
    ("enable_loss_fn", .flag c.lossOn), ("loss_fn_type", .text c.lossType), ("loss_fn_param", .real (val (fmtF c.lossParam))),
    ("enable_shuffle_views", .flag c.shuffleViews), ("show_progress", .flag c.showProgress), ("max_iter", .int c.maxIter)]
  target := newTarget' c.target
  res := [c.cam.w, c.cam.h]
  proj := c.cam.proj
  dist := c.cam.dist
  k := c.cam.k.map (fun x : ℚ => (x : ℝ))
  d := c.cam.d.map (fun x : ℚ => (x : ℝ))
  calibrate := false
  loss := newLoss c.lossOn c.lossType (val (fmtF c.lossParam))

theorem read_std {D : Dec} (hD : Reads D) {w h : ℤ} (hw : IsInt w) (hh : IsInt h) :
    readStd D.int [] (.seq [.scalar (fmtLd w), .scalar (fmtLd h)]) = .ok [w, h] := by
  have e1 : asT D.int (.scalar (fmtLd w)) = .ok w := by
    simp only [asT, hD.int w hw.1 hw.2]
  have e2 : asT D.int (.scalar (fmtLd h)) = .ok h := by
    simp only [asT, hD.int h hh.1 hh.2]
  show ([Y.scalar (fmtLd w), .scalar (fmtLd h)].foldlM (fun acc n => asT D.int n >>= fun v => .ok (acc ++ [v])) []) = _
  rw [List.foldlM_cons, e1]
  show ([Y.scalar (fmtLd h)].foldlM (fun acc n => asT D.int n >>= fun v => .ok (acc ++ [v])) [w]) = _
  rw [List.foldlM_cons, e2]
  rfl

theorem lookup_skip {k key : Str} {v : Y} {m : List (Str × Y)} (h : k ≠ key) : lookup ((k, v) :: m) key = lookup m key := by
  rw [lookup_cons, if_neg h]

theorem lookup_here {k key : Str} {v : Y} {m : List (Str × Y)} (h : k = key) : lookup ((k, v) :: m) key = some v := by
  rw [lookup_cons, if_pos h]

theorem mocapDoc_sections (c : MocapCalib) (total poses : Y) : Sections (saveMocap c total poses) := by
  refine ⟨_, rfl, fun s y hs hf => ?_⟩
  have hl := lookup_first hf
  rcases hs with rfl | rfl | rfl | ⟨n, rfl⟩
  · cases hl; exact ⟨_, rfl⟩
  · cases hl; exact ⟨_, rfl⟩
  · cases hl
  · have hc : ∀ s ∈ ["settings".toList, "calib_target".toList, "total_reproj_error".toList, "T_mocap_camera".toList, "T_world_fiducial".toList, "mocap_poses".toList],
        s ≠ camName n := by
      intro s hs hk
      have : s.take 3 = "cam".toList := by rw [hk]; exact take_cam _
      clear hk hl hf
      revert this
      revert s
      decide
    have hl := (lookup_skip (hc "settings".toList (by decide))).symm.trans hl
    have hl := (lookup_skip (hc "calib_target".toList (by decide))).symm.trans hl
    have hl := (lookup_skip (hc "total_reproj_error".toList (by decide))).symm.trans hl
    have hl := (lookup_skip (hc "T_mocap_camera".toList (by decide))).symm.trans hl
    by_cases h0 : camKey 0 = camName n
    · have hl := (lookup_here h0).symm.trans hl
      cases hl; exact ⟨_, rfl⟩
    · have hl := (lookup_skip h0).symm.trans hl
      have hl := (lookup_skip (hc "T_world_fiducial".toList (by decide))).symm.trans hl
      have hl := (lookup_skip (hc "mocap_poses".toList (by decide))).symm.trans hl
      cases hl

theorem loss_two {t : List (Str × Ctor.Val)} {e k p : Str} {on : Bool} {ty : Str} {x : ℝ} (h1 : (e, .flag on) ∈ t) (h2 : (k, .text ty) ∈ t)
    (h3 : (p, .real x) ∈ t) (hl : MocapLossOk on ty) : LossIs t ["BLAKE-ZISSERMAN", "CAUCHY"] e k p (newLoss on ty x) := by
  refine ⟨on, ty, x, h1, h2, h3, ?_⟩
  cases on with
  | false => exact Or.inl ⟨rfl, rfl⟩
  | true =>
    right
    refine ⟨rfl, ?_, ?_, ?_, ?_⟩
    · rcases hl rfl with h | h
      · exact ⟨_, by simp, h⟩
      · exact ⟨_, by simp, h⟩
    · rintro rfl
      refine ⟨toInt x, rfl, ?_⟩
      unfold toInt
      by_cases hx : 0 ≤ x
      · exact Or.inl ⟨hx, if_pos hx⟩
      · exact Or.inr ⟨not_le.mp hx, if_neg hx⟩
    · rintro rfl
      rfl
    · rintro rfl
      rfl

theorem mocap_loss (c : MocapCalib) (hl : MocapLossOk c.lossOn c.lossType) :
    LossIs (newMocap c).settings ["BLAKE-ZISSERMAN", "CAUCHY"] "enable_loss_fn".toList "loss_fn_type".toList "loss_fn_param".toList (newMocap c).loss :=
  loss_two (by simp [newMocap, keys]) (by simp [newMocap, keys]) (by simp [newMocap, keys]) hl

theorem mocap_made (D : Dec) (hD : Reads D) (c : MocapCalib) (total poses : Y) (hc : CamOk c.cam) (hi : IsInt c.maxIter)
    (ht : IsInt c.target.tagRows ∧ IsInt c.target.tagCols) (hl : MocapLossOk c.lossOn c.lossType) :
    mocapCtor D (saveMocap c total poses) = .ok (newMocap c) := by
  obtain ⟨m1, m2, m3, m4, m5⟩ := hc
  refine (C121_mocap D _ (mocapDoc_sections c total poses) _).mpr ?_
  refine ⟨?_, target_table hD rfl ht.1 ht.2, ⟨_, reach_two rfl rfl, read_std hD m2 m3⟩, ⟨_, reach_two rfl rfl, rfl⟩, ⟨_, reach_two rfl rfl, rfl⟩, m1,
    Or.inl ⟨_, reach_two rfl rfl, read_vec hD _ m4⟩, Or.inl ⟨_, reach_two rfl rfl, read_vec hD _ m5⟩, ?_, mocap_loss c hl⟩
  · exact table_of (o := true) (m := _) (sec := "settings".toList) rfl (.cons (e_flag hD (by lk)) <| .cons (e_flag hD (by lk)) <| .cons (e_flag hD (by lk)) <| .cons (e_F hD (by lk)) <|
      .cons (e_F hD (by lk)) <| .cons (e_flag hD (by lk)) <| .cons (e_text (by lk)) <| .cons (e_F hD (by lk)) <| .cons (e_flag hD (by lk)) <|
      .cons (e_flag hD (by lk)) <| .cons (e_int hD hi (by lk)) .nil)
  · constructor
    · intro h; cases h
    · intro ha
      exact absurd ⟨_, reach_two rfl rfl⟩ ha

/-- Saving and loading of a calibration against motion capture. -/
theorem C129_reload (D : Dec) (hD : Reads D) (c : MocapCalib) (total poses : Y) (hc : CamOk c.cam) (hi : IsInt c.maxIter)
    (ht : IsInt c.target.tagRows ∧ IsInt c.target.tagCols) (hl : MocapLossOk c.lossOn c.lossType) :
    ∃ b, mocapCtor D (saveMocap c total poses) = .ok b ∧ ReloadedMocap c b :=
  ⟨newMocap c, mocap_made D hD c total poses hc hi ht hl,
    ⟨⟨_, _, _, (val_F _).2, (val_F _).2, (val_F _).2, rfl⟩, target_kept _, ⟨rfl, rfl, rfl, rfl, rfl, rfl⟩, mocap_loss c hl⟩⟩

end Yac.Save
