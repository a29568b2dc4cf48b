import Verif.Save.Lemmas

/-! # C127: the results of a visual-inertial calibration can be loaded again -/

namespace Yac.Save
open Yac.Config Yac.Text Yac.Fmt Yac.Ctor

/-! ### Names -/

theorem fmtLd_inj {i j : ℤ} (h : fmtLd i = fmtLd j) : i = j := by
  have hd : NoDig [] := by intro c hc; cases hc
  have a := parseInt_fmtLd i [] [] (by intro c hc; cases hc) hd
  have b := parseInt_fmtLd j [] [] (by intro c hc; cases hc) hd
  rw [h, b] at a
  injection a with a
  have h1 : decide (j < 0) = decide (i < 0) := congrArg (fun q => q.1) a
  have h2 : j.natAbs = i.natAbs := congrArg (fun q => q.2.1) a
  have h3 : (j < 0) ↔ (i < 0) := by
    have := congrArg (fun b => b = true) h1
    simpa using this
  omega

theorem fmtLd_nat (n : ℕ) : fmtLd (n : ℤ) = natText n := by
  unfold fmtLd
  rw [if_neg (by omega)]
  simp

theorem camKey_nat (n : ℕ) : camKey (n : ℤ) = camName n := by
  unfold camKey camName
  rw [fmtLd_nat]

theorem camKey_inj {i j : ℤ} (h : camKey i = camKey j) : i = j := fmtLd_inj (List.append_cancel_left h)

theorem extKey_nat (n : ℕ) : "T_cam0_cam".toList ++ fmtLd (n : ℤ) = extName n := by
  unfold extName camName
  rw [fmtLd_nat, ← List.append_assoc]
  rfl

theorem extName_inj {n m : ℕ} (h : extName n = extName m) : n = m := by
  have := List.append_cancel_left (List.append_cancel_left h)
  rw [← fmtLd_nat, ← fmtLd_nat] at this
  exact_mod_cast fmtLd_inj this

theorem take_cam (l : Str) : ("cam".toList ++ l).take 3 = "cam".toList := rfl

theorem take_ext (l : Str) : ("T_cam0_".toList ++ l).take 7 = "T_cam0_".toList := rfl

/-! ### The document -/

def headPart (c : ViCalib) (x : Extra) : List (Str × Y) := [("settings".toList, settingsNode c), ("total_reproj_error".toList, x.total)]

def statPart (x : Extra) : List (Str × Y) := x.each.map (fun e => (camKey e.1 ++ "_reproj_error".toList, e.2))

def midPart (c : ViCalib) (x : Extra) : List (Str × Y) := [("calib_target".toList, targetNode c), ("imu0".toList, imuNode c x),
  ("time_delay".toList, .scalar (fmtE 6 c.timeDelay))]

def camPart (c : ViCalib) : List (Str × Y) := c.cams.map (fun e => (camKey e.1, camNode e.2))

noncomputable def extPart (c : ViCalib) (T0 : M4) (N : ℕ) : List (Str × Y) :=
  (List.range (N - 1)).map (fun i => (extName (i + 1), poseNode (T0⁻¹ * (SMap.find ((i + 1 : ℕ) : ℤ) c.exts).getD 0)))

noncomputable def tailPart (c : ViCalib) (T0 T_WF : M4) : List (Str × Y) := [("T_imu0_cam0".toList, poseNode (c.T_BS⁻¹ * T0)), ("T_WF".toList, poseNode T_WF),
  ("imu_poses".toList, tableNode 9 (c.views.map poseCols)), ("speed_biases".toList, tableNode 11 (c.views.map sbCols))]

noncomputable def docOf (c : ViCalib) (x : Extra) (T0 T_WF : M4) (N : ℕ) : List (Str × Y) :=
  headPart c x ++ statPart x ++ midPart c x ++ camPart c ++ extPart c T0 N ++ tailPart c T0 T_WF

theorem stat_none (x : Extra) (k : Str) (h : k.take 3 ≠ "cam".toList ∨ '_' ∉ k) : lookup (statPart x) k = none := by
  refine lookup_missing (fun e he hk => ?_)
  obtain ⟨a, _, rfl⟩ := List.mem_map.mp he
  subst hk
  rcases h with h | h
  · exact h (by unfold camKey; rw [List.append_assoc]; exact take_cam _)
  · exact h (List.mem_append_right _ (by decide))

theorem cam_none (c : ViCalib) (k : Str) (h : k.take 3 ≠ "cam".toList) : lookup (camPart c) k = none := by
  refine lookup_missing (fun e he hk => ?_)
  obtain ⟨a, _, rfl⟩ := List.mem_map.mp he
  subst hk
  exact h (take_cam _)

theorem ext_none (c : ViCalib) (T0 : M4) (N : ℕ) (k : Str) (h : k.take 7 ≠ "T_cam0_".toList) : lookup (extPart c T0 N) k = none := by
  refine lookup_missing (fun e he hk => ?_)
  obtain ⟨a, _, rfl⟩ := List.mem_map.mp he
  subst hk
  exact h (take_ext _)

theorem doc_lit (c : ViCalib) (x : Extra) (T0 T_WF : M4) (N : ℕ) (k : Str) (h1 : k.take 3 ≠ "cam".toList) (h2 : k.take 7 ≠ "T_cam0_".toList) :
    lookup (docOf c x T0 T_WF N) k = lookup (headPart c x ++ midPart c x ++ tailPart c T0 T_WF) k := by
  unfold docOf
  simp only [lookup_append, stat_none x k (Or.inl h1), cam_none c k h1, ext_none c T0 N k h2, Option.or_none]

theorem lits_none (c : ViCalib) (x : Extra) (T0 T_WF : M4) (k : Str)
    (h : ∀ s ∈ ["settings".toList, "total_reproj_error".toList] ++ ["calib_target".toList, "imu0".toList, "time_delay".toList] ++
      ["T_imu0_cam0".toList, "T_WF".toList, "imu_poses".toList, "speed_biases".toList], s ≠ k) :
    lookup (headPart c x) k = none ∧ lookup (midPart c x) k = none ∧ lookup (tailPart c T0 T_WF) k = none := by
  have key : ∀ (m : List (Str × Y)) (ks : List Str), m.map Prod.fst = ks → (∀ s ∈ ks, s ≠ k) → lookup m k = none := by
    intro m ks hm hk
    exact lookup_missing (fun e he => hk _ (by rw [← hm]; exact List.mem_map_of_mem he))
  exact ⟨key _ _ rfl (fun s hs => h s (List.mem_append_left _ (List.mem_append_left _ hs))),
    key _ _ rfl (fun s hs => h s (List.mem_append_left _ (List.mem_append_right _ hs))),
    key _ _ rfl (fun s hs => h s (List.mem_append_right _ hs))⟩

theorem under_cam (n : ℕ) : '_' ∉ camName n := by
  unfold camName
  intro h
  rcases List.mem_append.mp h with h | h
  · exact absurd h (by decide)
  · exact absurd (natText_dig _ _ h) (by decide)

theorem lookup_camPart (c : ViCalib) (n : ℕ) : lookup (camPart c) (camName n) = (SMap.find (n : ℤ) c.cams).map camNode := by
  unfold camPart
  induction c.cams with
  | nil => rfl
  | cons e t ih =>
    rw [List.map_cons, lookup_cons, ih, ← camKey_nat]
    obtain ⟨i, cam⟩ := e
    by_cases h : i = n
    · subst h
      simp [SMap.find]
    · have : camKey i ≠ camKey (n : ℤ) := fun hk => h (camKey_inj hk)
      simp [SMap.find, h, this]

theorem doc_cam (c : ViCalib) (x : Extra) (T0 T_WF : M4) (N n : ℕ) :
    lookup (docOf c x T0 T_WF N) (camName n) = (SMap.find (n : ℤ) c.cams).map camNode := by
  obtain ⟨h1, h2, h3⟩ := lits_none c x T0 T_WF (camName n) (by
    intro s hs hk
    have : s.take 3 = "cam".toList := by rw [hk]; exact take_cam _
    clear hk
    revert this
    revert s
    decide)
  unfold docOf
  simp only [lookup_append, stat_none x _ (Or.inr (under_cam n)), h1, h2, h3, lookup_camPart,
    ext_none c T0 N (camName n) (by
      intro h
      have : (camName n).head? = some 'c' := rfl
      have h' := congrArg List.head? h
      cases hc : camName n with
      | nil => rw [hc] at this; cases this
      | cons a t =>
        rw [hc] at this h'
        simp at this h'
        rw [this] at h'
        exact absurd h' (by decide)), Option.or_none, Option.none_or]

theorem lookup_extPart (c : ViCalib) (T0 : M4) (N n : ℕ) : lookup (extPart c T0 N) (extName (n + 1)) =
    if n < N - 1 then some (poseNode (T0⁻¹ * (SMap.find ((n + 1 : ℕ) : ℤ) c.exts).getD 0)) else none := by
  unfold extPart
  have key : ∀ l : List ℕ, lookup (l.map (fun i => (extName (i + 1), poseNode (T0⁻¹ * (SMap.find ((i + 1 : ℕ) : ℤ) c.exts).getD 0)))) (extName (n + 1)) =
      if n ∈ l then some (poseNode (T0⁻¹ * (SMap.find ((n + 1 : ℕ) : ℤ) c.exts).getD 0)) else none := by
    intro l
    induction l with
    | nil => rfl
    | cons a t ih =>
      rw [List.map_cons, lookup_cons, ih]
      by_cases h : a = n
      · subst h
        simp
      · have h' : extName (a + 1) ≠ extName (n + 1) := fun hk => h (by have := extName_inj hk; omega)
        have h'' : ¬ n = a := fun e => h e.symm
        simp [h', h'']
  rw [key]
  simp

theorem doc_ext (c : ViCalib) (x : Extra) (T0 T_WF : M4) (N n : ℕ) (h : n < N - 1) :
    lookup (docOf c x T0 T_WF N) (extName (n + 1)) = some (poseNode (T0⁻¹ * (SMap.find ((n + 1 : ℕ) : ℤ) c.exts).getD 0)) := by
  have hc : (extName (n + 1)).take 3 ≠ "cam".toList := by
    have : (extName (n + 1)).take 3 = "T_c".toList := rfl
    rw [this]
    decide
  obtain ⟨h1, h2, h3⟩ := lits_none c x T0 T_WF (extName (n + 1)) (by
    intro s hs hk
    have : s.take 7 = "T_cam0_".toList := by rw [hk]; exact take_ext _
    clear hk
    revert this
    revert s
    decide)
  unfold docOf
  simp only [lookup_append, stat_none x _ (Or.inl hc), h1, h2, h3, cam_none c _ hc, lookup_extPart, if_pos h, Option.or_none, Option.none_or]

/-! ### Saving -/

theorem find_range {α : Type} {m : List (ℤ × α)} {N : ℕ} (h : m.map Prod.fst = (List.range N).map (fun i : ℕ => (i : ℤ))) (i : ℤ) :
    (SMap.find i m).isSome = true ↔ 0 ≤ i ∧ i < N := by
  rw [SMap.find_isSome, h]
  simp only [List.mem_map, List.mem_range]
  constructor
  · rintro ⟨a, ha, rfl⟩
    omega
  · intro hi
    exact ⟨i.toNat, by omega, by omega⟩

theorem find_some {α : Type} {m : List (ℤ × α)} {N : ℕ} (h : m.map Prod.fst = (List.range N).map (fun i : ℕ => (i : ℤ))) {i : ℕ} (hi : i < N) :
    ∃ v, SMap.find (i : ℤ) m = some v := Option.isSome_iff_exists.mp ((find_range h i).mpr ⟨by omega, by omega⟩)

theorem mapM_all {α β : Type} (f : α → Except Fault β) (g : α → β) (l : List α) (h : ∀ a ∈ l, f a = .ok (g a)) : l.mapM f = .ok (l.map g) := by
  rw [mapM_ok]
  induction l with
  | nil => exact .nil
  | cons a t ih => exact .cons (h a (by simp)) (ih (fun b hb => h b (by simp [hb])))

theorem save_eq (c : ViCalib) (x : Extra) {N : ℕ} {T_WF T0 : M4} (h : Complete c N T_WF) (h0 : SMap.find 0 c.exts = some T0) :
    saveVi c x = .ok (.map (docOf c x T0 T_WF N)) := by
  have hl : c.cams.length = N := by
    have := congrArg List.length h.cams
    simpa using this
  have e0 : extOf c 0 = .ok T0 := by unfold extOf; rw [h0]
  have em : (List.range (N - 1)).mapM (fun i => extNode c T0 (i + 1)) = .ok (extPart c T0 N) := by
    refine mapM_all _ _ _ (fun i hi => ?_)
    have hi' : i + 1 < N := by have := List.mem_range.mp hi; omega
    obtain ⟨v, hv⟩ := find_some h.exts hi'
    unfold extNode extOf
    rw [hv]
    show Except.ok _ = _
    rw [extKey_nat]
    rfl
  unfold saveVi
  rw [e0, hl]
  show ((List.range (N - 1)).mapM (fun i => extNode c T0 (i + 1)) >>= _) = _
  rw [em, h.fiducial]
  rfl

/-! ### Loading -/

theorem doc_sections (c : ViCalib) (x : Extra) (T0 T_WF : M4) (N : ℕ) : Sections (.map (docOf c x T0 T_WF N)) := by
  refine ⟨_, rfl, fun s y hs hf => ?_⟩
  have hl := lookup_first hf
  rcases hs with rfl | rfl | rfl | ⟨n, rfl⟩
  · rw [doc_lit _ _ _ _ _ _ (by decide) (by decide)] at hl
    cases hl
    exact ⟨_, rfl⟩
  · rw [doc_lit _ _ _ _ _ _ (by decide) (by decide)] at hl
    cases hl
    exact ⟨_, rfl⟩
  · rw [doc_lit _ _ _ _ _ _ (by decide) (by decide)] at hl
    cases hl
    exact ⟨_, rfl⟩
  · rw [doc_cam] at hl
    cases hc : SMap.find (n : ℤ) c.cams with
    | none => rw [hc] at hl; cases hl
    | some cam => rw [hc] at hl; cases hl; exact ⟨_, rfl⟩

/-- An entry of a table. -/
def Ent (D : Dec) (l : List (Str × Y)) (o : Bool) (d w : Str × Ctor.Val) : Prop :=
  w.1 = d.1 ∧ ((∃ s, lookup l d.1 = some (.scalar s) ∧ D.like d.2 s = some w.2) ∨ o = true ∧ lookup l d.1 = none ∧ w.2 = d.2)

variable {D : Dec} {l : List (Str × Y)} {o : Bool} {k : Str}

theorem e_flag (hD : Reads D) {b b' : Bool} (h : lookup l k = some (.scalar (boolText b'))) : Ent D l o (k, .flag b) (k, .flag b') :=
  ⟨rfl, Or.inl ⟨_, h, by simp [Dec.like, flag_text hD]⟩⟩

theorem e_int (hD : Reads D) {n n' : ℤ} (hn : IsInt n') (h : lookup l k = some (.scalar (fmtLd n'))) : Ent D l o (k, .int n) (k, .int n') :=
  ⟨rfl, Or.inl ⟨_, h, by simp [Dec.like, hD.int _ hn.1 hn.2]⟩⟩

theorem e_text {s s' : Str} (h : lookup l k = some (.scalar s')) : Ent D l o (k, .text s) (k, .text s') :=
  ⟨rfl, Or.inl ⟨_, h, rfl⟩⟩

theorem e_F (hD : Reads D) {x : ℝ} {x' : ℚ} (h : lookup l k = some (.scalar (fmtF x'))) : Ent D l o (k, .real x) (k, .real (val (fmtF x'))) :=
  ⟨rfl, Or.inl ⟨_, h, by simp [Dec.like, real_F hD]⟩⟩

theorem e_E (hD : Reads D) {x : ℝ} {x' : ℚ} (h : lookup l k = some (.scalar (fmtE 6 x'))) : Ent D l o (k, .real x) (k, .real (val (fmtE 6 x'))) :=
  ⟨rfl, Or.inl ⟨_, h, by simp [Dec.like, real_E hD]⟩⟩

theorem e_def {v : Ctor.Val} (h : lookup l k = none) : Ent D l true (k, v) (k, v) := ⟨rfl, Or.inr ⟨rfl, h, rfl⟩⟩

/-- The settings of the calibrator that is made. -/
noncomputable def newSettings (c : ViCalib) : List (Str × Ctor.Val) := keys [("verbose", .flag true),
  ("max_num_threads", .int c.maxNumThreads), ("max_iter", .int c.maxIter),
  ("enable_outlier_rejection", .flag c.outlierRejection), ("enable_marginalization", .flag c.marginalization),
  ("enable_vision_loss_fn", .flag c.visionLossOn), ("vision_loss_fn_type", .text c.visionLossType),
  ("vision_loss_fn_param", .real (val (fmtF c.visionLossParam))), ("enable_imu_loss_fn", .flag c.imuLossOn),
  ("imu_loss_fn_type", .text c.imuLossType), ("imu_loss_fn_param", .real (val (fmtF c.imuLossParam))),
  ("outlier_threshold", .real (val (fmtF c.outlierThreshold))),
  ("window_size", .int c.windowSize), ("estimate_time_delay", .flag true),
  ("time_delay_jac_step", .real (val (fmtE 6 c.timeDelayJacStep))), ("format_v2", .flag c.formatV2)]

noncomputable def newTarget (c : ViCalib) : List (Str × Ctor.Val) := keys [
  ("target_type", .text c.targetType), ("tag_rows", .int c.tagRows), ("tag_cols", .int c.tagCols),
  ("tag_size", .real (val (fmtF c.tagSize))), ("tag_spacing", .real (val (fmtF c.tagSpacing)))]

noncomputable def newImu1 (c : ViCalib) : List (Str × Ctor.Val) := keys [("rate", .real (val (fmtF c.rate))),
  ("sigma_g_c", .real (val (fmtE 6 c.sigma_g_c))), ("sigma_a_c", .real (val (fmtE 6 c.sigma_a_c))),
  ("sigma_gw_c", .real (val (fmtE 6 c.sigma_gw_c))), ("sigma_aw_c", .real (val (fmtE 6 c.sigma_aw_c)))]

noncomputable def newImu2 (c : ViCalib) : List (Str × Ctor.Val) := keys [
  ("sigma_bg", .real (val (fmtE 6 c.sigma_bg))), ("sigma_ba", .real (val (fmtE 6 c.sigma_ba)))]

noncomputable def newImu3 (c : ViCalib) : List (Str × Ctor.Val) := keys [("g", .real (val (fmtF c.g)))]

/-- The rows of the pose that is read. -/
noncomputable def newPose (M : M4) : List (List ℝ) := List.ofFn (fun i => List.ofFn (readPoseRows M i))

noncomputable def newExt (c : ViCalib) (T0 : M4) (i : ℤ) : List (List ℝ) :=
  if i = 0 then identity4 else newPose (T0⁻¹ * (SMap.find i c.exts).getD 0)

noncomputable def newCam (c : ViCalib) (T0 : M4) (e : ℤ × ViCam) : ℤ × Camera :=
  (e.1, ⟨[e.2.w, e.2.h], e.2.proj, e.2.dist, e.2.k.map (fun x : ℚ => (x : ℝ)), e.2.d.map (fun x : ℚ => (x : ℝ)), newExt c T0 e.1, true, true⟩)

noncomputable def newLoss (on : Bool) (type : Str) (x : ℝ) : Option Loss :=
  if on = false then none
  else if type = "BLAKE-ZISSERMAN".toList then some (.blakeZisserman (toInt x))
  else if type = "CAUCHY".toList then some (.cauchy x)
  else some (.huber x)

noncomputable def newVi (c : ViCalib) (T0 T_WF : M4) : BuiltVi where
  settings := newSettings c
  target := newTarget c
  imu := newImu1 c ++ newImu2 c ++ newImu3 c
  T_BS := (readPoseRows (c.T_BS⁻¹ * T0))⁻¹
  fixedDelay := false
  cams := c.cams.map (newCam c T0)
  fiducial := some (newPose T_WF)
  visionLoss := newLoss c.visionLossOn c.visionLossType (val (fmtF c.visionLossParam))
  imuLoss := newLoss c.imuLossOn c.imuLossType (val (fmtF c.imuLossParam))

theorem loss_new {t : List (Str × Ctor.Val)} {e k p : Str} {on : Bool} {ty : Str} {x : ℝ} (h1 : (e, .flag on) ∈ t) (h2 : (k, .text ty) ∈ t)
    (h3 : (p, .real x) ∈ t) (hl : LossOk on ty) : LossIs t ["BLAKE-ZISSERMAN", "CAUCHY", "HUBER"] e k p (newLoss on ty x) := by
  refine ⟨on, ty, x, h1, h2, h3, ?_⟩
  cases on with
  | false => exact Or.inl ⟨rfl, rfl⟩
  | true =>
    right
    refine ⟨rfl, ?_, ?_, ?_, ?_⟩
    · rcases hl rfl with h | h | h
      · exact ⟨_, by simp, h⟩
      · exact ⟨_, by simp, h⟩
      · exact ⟨_, by simp, h⟩
    · rintro rfl
      refine ⟨toInt x, rfl, ?_⟩
      unfold toInt
      by_cases hx : 0 ≤ x
      · exact Or.inl ⟨hx, if_pos hx⟩
      · exact Or.inr ⟨not_le.mp hx, if_neg hx⟩
    · rintro rfl
      rfl
    · rintro rfl
      rfl

theorem matOf_rows (N : Matrix (Fin 4) (Fin 4) ℝ) : matOf (List.ofFn (fun i => List.ofFn (N i))) = N := by
  ext i j
  fin_cases i <;> fin_cases j <;> rfl

theorem find_newCam (c : ViCalib) (T0 : M4) (i : ℤ) : SMap.find i (c.cams.map (newCam c T0)) =
    (SMap.find i c.cams).map (fun e => (newCam c T0 (i, e)).2) := by
  induction c.cams with
  | nil => rfl
  | cons e t ih =>
    obtain ⟨j, cam⟩ := e
    show (if j = i then _ else SMap.find i (t.map (newCam c T0))) = _
    rw [ih]
    by_cases h : j = i
    · subst h
      simp [SMap.find, newCam]
    · simp [SMap.find, h]

theorem sorted_of_range {α : Type} {m : List (ℤ × α)} {N : ℕ} (h : m.map Prod.fst = (List.range N).map (fun i : ℕ => (i : ℤ))) : SMap.Sorted m := by
  have : (m.map Prod.fst).Pairwise (· < ·) := by
    rw [h, List.pairwise_map]
    exact List.pairwise_lt_range.imp (fun h => by exact_mod_cast h)
  rwa [List.pairwise_map] at this

/-- Looks up a key in a literal list. -/
macro "lk" : tactic => `(tactic| (dsimp only; rfl))

theorem new_file {D : Dec} (hD : Reads D) (c : ViCalib) (x : Extra) {N : ℕ} {T_WF T0 : M4} (h : Complete c N T_WF)
    (h0 : SMap.find 0 c.exts = some T0) : ViFile D (.map (docOf c x T0 T_WF N)) (newVi c T0 T_WF) := by
  have ls : lookup (docOf c x T0 T_WF N) "settings".toList = some (settingsNode c) := by
    rw [doc_lit _ _ _ _ _ _ (by decide) (by decide)]; rfl
  have lt : lookup (docOf c x T0 T_WF N) "calib_target".toList = some (targetNode c) := by
    rw [doc_lit _ _ _ _ _ _ (by decide) (by decide)]; rfl
  have li : lookup (docOf c x T0 T_WF N) "imu0".toList = some (imuNode c x) := by
    rw [doc_lit _ _ _ _ _ _ (by decide) (by decide)]; rfl
  have lp : lookup (docOf c x T0 T_WF N) "T_imu0_cam0".toList = some (poseNode (c.T_BS⁻¹ * T0)) := by
    rw [doc_lit _ _ _ _ _ _ (by decide) (by decide)]; rfl
  have lf : lookup (docOf c x T0 T_WF N) "T_WF".toList = some (poseNode T_WF) := by
    rw [doc_lit _ _ _ _ _ _ (by decide) (by decide)]; rfl
  obtain ⟨i1, i2, i3, i4, i5⟩ := h.ints
  refine ⟨?_, ?_, ⟨newImu1 c, newImu2 c, newImu3 c, rfl, ?_, ?_, ?_⟩, ?_, ?_, ?_, ?_, ?_, ?_, ?_⟩
  · exact table_of (o := true) ls (.cons (e_def (by lk)) <| .cons (e_int hD i1 (by lk)) <| .cons (e_int hD i2 (by lk)) <| .cons (e_flag hD (by lk)) <|
      .cons (e_flag hD (by lk)) <| .cons (e_flag hD (by lk)) <| .cons (e_text (by lk)) <| .cons (e_F hD (by lk)) <| .cons (e_flag hD (by lk)) <|
      .cons (e_text (by lk)) <| .cons (e_F hD (by lk)) <| .cons (e_F hD (by lk)) <| .cons (e_int hD i3 (by lk)) <| .cons (e_def (by lk)) <|
      .cons (e_E hD (by lk)) <| .cons (e_flag hD (by lk)) .nil)
  · exact table_of (o := false) lt (.cons (e_text (by lk)) <| .cons (e_int hD i4 (by lk)) <| .cons (e_int hD i5 (by lk)) <| .cons (e_F hD (by lk)) <|
      .cons (e_F hD (by lk)) .nil)
  · exact table_of (o := false) li (.cons (e_F hD (by lk)) <| .cons (e_E hD (by lk)) <| .cons (e_E hD (by lk)) <| .cons (e_E hD (by lk)) <|
      .cons (e_E hD (by lk)) .nil)
  · exact table_of (o := true) li (.cons (e_E hD (by lk)) <| .cons (e_E hD (by lk)) .nil)
  · exact table_of (o := false) li (.cons (e_F hD (by lk)) .nil)
  · refine ⟨some (newPose (c.T_BS⁻¹ * T0)), Or.inl ⟨_, rfl, _, reach_top lp, read_pose hD _⟩, (fun hn => by cases hn), ?_⟩
    rintro m hm
    cases hm
    show _ = (matOf (newPose (c.T_BS⁻¹ * T0)))⁻¹
    unfold newPose
    rw [matOf_rows]
    rfl
  · exact ⟨true, by simp [newVi, newSettings, keys], rfl⟩
  · refine ⟨?_, fun n hn => ?_, fun i hi => ?_⟩
    · refine sorted_of_range (N := N) ?_
      rw [← h.cams]
      simp [newVi, newCam]
    · cases hc : SMap.find (n : ℤ) c.cams with
      | none =>
        left
        refine ⟨absent_top (by rw [doc_cam, hc]; rfl), ?_⟩
        show SMap.find (n : ℤ) (c.cams.map (newCam c T0)) = none
        rw [find_newCam, hc]
        rfl
      | some cam =>
        right
        have hlk : lookup (docOf c x T0 T_WF N) (camName n) = some (camNode cam) := by rw [doc_cam, hc]; rfl
        refine ⟨fun ha => ha ⟨_, reach_top hlk⟩, (newCam c T0 (n, cam)).2, ?_, ?_⟩
        · show SMap.find (n : ℤ) (c.cams.map (newCam c T0)) = _
          rw [find_newCam, hc]
          rfl
        have hm : ((n : ℤ), cam) ∈ c.cams := (SMap.find_eq_some (sorted_of_range h.cams)).mp hc
        obtain ⟨m1, m2, m3, m4, m5⟩ := h.models _ hm
        refine ⟨⟨⟨_, reach_two hlk rfl, read_ints hD m2 m3⟩, ⟨_, reach_two hlk rfl, rfl⟩, ⟨_, reach_two hlk rfl, rfl⟩, m1⟩,
          ⟨_, reach_two hlk rfl, read_vec hD _ m4⟩, ⟨_, reach_two hlk rfl, read_vec hD _ m5⟩, ?_, ?_, rfl, rfl⟩
        · intro hn0
          obtain ⟨p, rfl⟩ : ∃ p, n = p + 1 := ⟨n - 1, by omega⟩
          have hp : p < N - 1 := by
            have := ((find_range h.cams ((p + 1 : ℕ) : ℤ)).mp (by rw [hc]; rfl)).2
            omega
          refine ⟨_, reach_top (doc_ext c x T0 T_WF N p hp), ?_⟩
          rw [read_pose hD]
          show _ = Except.ok (newExt c T0 ((p + 1 : ℕ) : ℤ))
          unfold newExt
          rw [if_neg (by omega)]
          rfl
        · intro hn0
          subst hn0
          rfl
    · show SMap.find i (c.cams.map (newCam c T0)) = none
      rw [find_newCam]
      cases hc : SMap.find i c.cams with
      | none => rfl
      | some cam =>
        have hr := (find_range h.cams i).mp (by rw [hc]; rfl)
        exact absurd (show i = ((i.toNat : ℕ) : ℤ) by omega) (hi i.toNat (by have := h.few; omega))
  · refine ⟨0, by norm_num, fun ha => ?_⟩
    obtain ⟨v, hv⟩ := find_some h.cams (i := 0) (by have := h.some_camera; omega)
    exact ha ⟨_, reach_top (by rw [doc_cam, hv]; rfl)⟩
  · exact Or.inl ⟨_, rfl, _, reach_top lf, read_pose hD _⟩
  · exact loss_new (by simp [newVi, newSettings, keys]) (by simp [newVi, newSettings, keys]) (by simp [newVi, newSettings, keys]) h.vision
  · exact loss_new (by simp [newVi, newSettings, keys]) (by simp [newVi, newSettings, keys]) (by simp [newVi, newSettings, keys]) h.imu

/-- Saving and loading: a complete calibrator can be saved, the constructor accepts the file, and everything is as the
specification says. -/
theorem C127_reload (D : Dec) (hD : Reads D) (c : ViCalib) (x : Extra) (N : ℕ) (T_WF : M4) (h : Complete c N T_WF) :
    ∃ doc b, saveVi c x = .ok doc ∧ viCtor D doc = .ok b ∧ Reloaded c T_WF b := by
  obtain ⟨T0, h0⟩ := find_some h.exts (i := 0) (by have := h.some_camera; omega)
  have h0 : SMap.find 0 c.exts = some T0 := h0
  have hf := new_file hD c x h h0
  refine ⟨_, newVi c T0 T_WF, save_eq c x h h0, (C121_vi D _ (doc_sections c x T0 T_WF N) _).mpr hf, ?_⟩
  refine ⟨⟨_, _, _, _, (val_F _).2, (val_F _).2, (val_F _).2, (val_E _).2, rfl⟩, ⟨_, _, (val_F _).2, (val_F _).2, rfl⟩,
    ⟨_, _, _, _, _, _, _, _, (val_F _).2, (val_E _).2, (val_E _).2, (val_E _).2, (val_E _).2, (val_E _).2, (val_E _).2, (val_F _).2, rfl⟩,
    ⟨by simp [newVi, newCam], fun i cam hc => ⟨_, by
      show SMap.find i (c.cams.map (newCam c T0)) = _
      rw [find_newCam, hc]
      rfl, rfl, rfl, rfl, rfl, rfl⟩⟩,
    ⟨T0, h0, ⟨_, _, pose_near _, rfl⟩, fun i M hM => ?_⟩, ⟨_, _, pose_near _, rfl⟩, ⟨hf.vision_loss, hf.imu_loss⟩, rfl⟩
  have hr := (find_range h.exts i).mp (by rw [hM]; rfl)
  obtain ⟨cam, hc⟩ := Option.isSome_iff_exists.mp ((find_range h.cams i).mpr hr)
  refine ⟨(newCam c T0 (i, cam)).2, ?_, ?_, ?_⟩
  · show SMap.find i (c.cams.map (newCam c T0)) = _
    rw [find_newCam, hc]
    rfl
  · rintro rfl
    rfl
  · intro hi
    refine ⟨readPoseRows (T0⁻¹ * M), ?_⟩
    have : (newCam c T0 (i, cam)).2.ext = newPose (T0⁻¹ * M) := by
      show newExt c T0 i = _
      unfold newExt
      rw [if_neg hi, hM]
      rfl
    rw [this]
    exact pose_near _

end Yac.Save
