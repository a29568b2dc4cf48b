import Verif.Gimbal2.Spec
import Verif.Gimbal.InitProps
import Verif.Gimbal.ProblemProps
import Verif.Gimbal.FileProps

/-! # C135: the gimbal program for two fixed and two moving cameras -/

namespace Yac.Gimbal2
open Yac.Geom Yac.Gimbal Yac.Text Matrix

/-! ### Residuals -/

/-- The same chain with the body at the origin. -/
def Params.old (P : Params) : Gimbal.Params :=
  ⟨![0, 0, 0, 1, 0, 0, 0], P.gimbal, P.link0, P.link1, P.joint0, P.joint1, P.joint2, P.effector, P.cam, P.target⟩

theorem old_ok {P : Params} (h : P.Ok) : P.old.Ok := ⟨body_unit, h.gimbal, h.link0, h.link1, h.effector, h.cam, h.target⟩

theorem body_one : transform ![0, 0, 0, 1, 0, 0, 0] = 1 := by
  refine hom_ext (transform_rigid body_unit) ⟨1, 0, by simp, by simp, by ext i j; fin_cases i <;> fin_cases j <;> simp [tf]⟩ (fun x => ?_)
  rw [transform_hom, one_mulVec]
  congr 1
  exact place_here x

theorem cam_old (P : Params) : camPose P.old = movingPose P * transform P.cam := by
  unfold camPose movingPose Params.old
  simp only
  rw [body_one, Matrix.one_mul]

theorem world_old (P : Params) (x : Vec3 ℝ) : inWorld P.old x = inFirst P x := by
  unfold inWorld inFirst Params.old
  simp only
  exact place_here _

theorem point_old {P : Params} (h : P.Ok) (p : Vec3 ℝ) : pointInCam P p = Gimbal.pointInCam P.old p := by
  have e : ((transform P.target)⁻¹ * movingPose P * transform P.cam)⁻¹ = (camPose P.old)⁻¹ * transform P.target := by
    have ht := (transform_rigid h.target).inv
    have hc := (cam_rigid (old_ok h)).inv
    rw [Matrix.mul_assoc, ← cam_old]
    apply Matrix.inv_eq_right_inv
    calc (transform P.target)⁻¹ * camPose P.old * ((camPose P.old)⁻¹ * transform P.target)
        = (transform P.target)⁻¹ * (camPose P.old * (camPose P.old)⁻¹) * transform P.target := by simp only [Matrix.mul_assoc]
      _ = 1 := by rw [hc.2.2, Matrix.mul_one, ht.2.1]
  unfold pointInCam Gimbal.pointInCam
  simp only
  rw [e]
  rfl

theorem reproj_old {P : Params} (h : P.Ok) (proj : Fin 4 → ℝ) (z : ℝ × ℝ) (p : Vec3 ℝ) :
    reprojError proj z p P = Gimbal.reprojError proj z p P.old := by
  unfold reprojError Gimbal.reprojError
  rw [point_old h]

/-- **C135, residual.**  The residual of a corner is the difference between the measured pixel and the image of the corner: the
point `x` of the moving camera's frame that the chain puts, in the frame of the first fixed camera, where the target pose puts the
corner is unique, and the residual is finite exactly if it does not lie in the plane of the camera centre. -/
theorem C135_residual (P : Params) (h : P.Ok) (proj : Fin 4 → ℝ) (z : ℝ × ℝ) (p : Vec3 ℝ) :
    ∃ x, inFirst P x = place P.target p ∧ (∀ y, inFirst P y = place P.target p → y = x) ∧
      (x 2 = 0 → reprojError proj z p P = none) ∧
      (x 2 ≠ 0 → reprojError proj z p P = some (z - pinhole proj x)) := by
  obtain ⟨x, h1, h2, h3, h4⟩ := C123_residual P.old (old_ok h) proj z p
  rw [reproj_old h]
  refine ⟨x, by rw [← world_old]; exact h1, fun y hy => h2 y (by rw [world_old]; exact hy), h3, h4⟩

/-! ### Initial target pose -/

theorem exact_eq {t : Fin 7 → ℝ} (ht : IsUnit7 t) {v : View} (hx : v.Exact t) {T : Mat4 ℝ} (h : viewTarget v = some T) : T = transform t := by
  unfold viewTarget at h
  split_ifs at h
  obtain ⟨hT, hp⟩ := hx T h
  refine hom_ext hT (transform_rigid ht) (fun x => ?_)
  rw [transform_hom, ← hp x]
  obtain ⟨C, r, -, -, rfl⟩ := hT
  rw [tf_hom, (C32_point C r x 1).1]

/-- **C135, initial pose.**  If the pose estimated from every view of the first camera is exact and at least one view is used (twenty
corners), the pose of the target that the whole calibration relies on is the true one (away from the gimbal lock of its Euler
angles). -/
theorem C135_initial (t : Fin 7 → ℝ) (ht : IsUnit7 t) (hg : |2 * (t 5 * t 3 - t 4 * t 6)| < 1) (views : List View)
    (hx : ∀ v ∈ views, v.Exact t) (hu : ∃ v ∈ views, v.Used) :
    ∃ p, initTarget views = .ok p ∧ IsUnit7 p ∧ ∀ x, place p x = place t x := by
  have hall : ∀ T ∈ views.filterMap viewTarget, T = transform t := by
    intro T hT
    obtain ⟨v, hv, hvT⟩ := List.mem_filterMap.mp hT
    exact exact_eq ht (hx v hv) hvT
  have hne : views.filterMap viewTarget ≠ [] := by
    obtain ⟨v, hv, hc, hp⟩ := hu
    obtain ⟨S, hS⟩ := Option.ne_none_iff_exists'.mp hp
    have : S ∈ views.filterMap viewTarget := List.mem_filterMap.mpr ⟨v, hv, by
      unfold viewTarget; rw [if_neg (by omega), hS]⟩
    intro h0
    rw [h0] at this
    cases this
  -- one exact view of the other program
  obtain ⟨C, r, hC, hC', eT⟩ := transform_rigid ht
  have hself : ∀ x, tfPoint (transform t) x = place t x := fun x => hom_inj (by
    rw [← transform_hom, eT, tf_hom, (C32_point C r x 1).1])
  have hu0 : IsUnit7 here := by simp [IsUnit7, here]
  let e : Ext := ⟨here, here, here, here, here, here⟩
  have he : e.Ok := ⟨hu0, hu0, hu0, hu0, hu0⟩
  have h0 : ∀ x, turn 0 x = x := turn_zero
  let old : List Gimbal.View := (views.filterMap viewTarget).map (fun T => ⟨0, 0, 0, 20, some T⟩)
  have hold : old.filterMap (Gimbal.viewTarget e) = views.filterMap viewTarget := by
    show ((views.filterMap viewTarget).map _).filterMap _ = _
    rw [List.filterMap_map]
    conv_rhs => rw [← List.filterMap_some (l := views.filterMap viewTarget)]
    congr 1
    funext T
    have h0 : jointTf 0 = 1 := by
      refine hom_ext (joint_rigid 0) ⟨1, 0, by simp, by simp, by ext i j; fin_cases i <;> fin_cases j <;> simp [tf]⟩ (fun x => ?_)
      rw [joint_hom, turn_zero, one_mulVec]
    have hb : transform here = 1 := body_one
    have hb' : transform bodyPose = 1 := body_one
    show Gimbal.viewTarget e ⟨0, 0, 0, 20, some T⟩ = some T
    unfold Gimbal.viewTarget
    simp only [e, h0, hb, hb', Matrix.one_mul]
    rw [if_neg (by omega)]
  have hsame : Gimbal.initTarget e old = initTarget views := by
    unfold Gimbal.initTarget initTarget
    rw [hold]
  rw [← hsame]
  refine C123_initial e he t ht hg old ?_ ?_
  · intro v hv T hT
    obtain ⟨S, hS, rfl⟩ := List.mem_map.mp hv
    cases hT
    rw [hall _ hS]
    refine ⟨⟨C, r, hC, hC', eT⟩, fun x => ?_⟩
    rw [hself]
    show inWorld ⟨here, here, here, here, 0, 0, 0, here, here, t⟩ _ = _
    simp only [inWorld, place_here, h0]
  · obtain ⟨T, hT⟩ := List.exists_mem_of_ne_nil _ hne
    exact ⟨_, List.mem_map.mpr ⟨T, hT, rfl⟩, le_refl _, by simp⟩

/-- Without a view of the first camera with twenty corners the program reads outside an empty vector. -/
theorem C135_none_refuted (views : List View) (h : ∀ v ∈ views, ¬ v.Used) : initTarget views = .error .oob := by
  have : views.filterMap viewTarget = [] := by
    rw [List.filterMap_eq_nil_iff]
    intro v hv
    unfold viewTarget
    by_cases hc : v.corners < 20
    · rw [if_pos hc]
    · rw [if_neg hc]
      by_contra hp
      exact h v hv ⟨by omega, hp⟩
  unfold initTarget
  rw [this]
  rfl

/-! ### Configuration -/

/-- **C135, configuration.**  A well-formed file is read as written (with the models `pinhole` and `radtan4` for all cameras);
cameras 0 and 2 are the origins. -/
theorem C135_config (c : ConfText) (sizes : List (ℤ × ℤ)) (ok : c.Ok sizes) (rest : Str)
    (hm : ∀ k ∈ c.cams, k.projModel = "pinhole".toList ∧ k.distModel = "radtan4".toList) :
    loadConfig (some (c.text ++ rest)) = .ok (c.config sizes) := by
  have e : c.text ++ rest = kv 0 "num_cams".toList (natText c.cams.length) ++ (kv 0 "num_links".toList (natText c.links) ++
      '\n' :: (c.cams.flatMap CamText.text ++ (kv 0 "gimbal_ext".toList (vec c.gimbal) ++ (kv 0 "link0_ext".toList (vec c.link0) ++
      (kv 0 "link1_ext".toList (vec c.link1) ++ (kv 0 "end_ext".toList (vec c.effector) ++
      (kv 0 "cam0_cam1_ext".toList (vec c.cam01) ++ (kv 0 "cam2_cam3_ext".toList (vec c.cam23) ++ rest)))))))) := by
    simp only [ConfText.text, List.append_assoc, List.cons_append, List.nil_append]
  unfold loadConfig
  simp only
  rw [e, keyInt_kv 0 _ _ _ (by decide) (by decide) ok.few, okb']
  simp only
  rw [keyInt_kv 0 _ _ _ (by decide) (by decide) ok.links, okb']
  simp only
  have hs := fun r => skip_line [] r (by simp) (by norm_num)
  simp only [List.nil_append] at hs
  rw [hs, Int.toNat_natCast, loadCameras_text _ _ ok.cams, okb']
  simp only
  rw [keyReals_kv 7 0 (by norm_num) _ _ _ (by decide) ok.gimbal, okb']
  simp only
  rw [keyReals_kv 7 0 (by norm_num) _ _ _ (by decide) ok.link0, okb']
  simp only
  rw [keyReals_kv 7 0 (by norm_num) _ _ _ (by decide) ok.link1, okb']
  simp only
  rw [keyReals_kv 7 0 (by norm_num) _ _ _ (by decide) ok.effector, okb']
  simp only
  rw [keyReals_kv 7 0 (by norm_num) _ _ _ (by decide) ok.cam01, okb']
  simp only
  rw [keyReals_kv 7 0 (by norm_num) _ _ _ (by decide) ok.cam23, okb']
  unfold ConfText.config
  have hz : List.zipWith (fun (c : CamText) (s : ℤ × ℤ) =>
      { c.camera s with projModel := "pinhole".toList, distModel := "radtan4".toList }) c.cams sizes =
      List.zipWith CamText.camera c.cams sizes := by
    apply List.ext_getElem (by simp)
    intro i h1 h2
    rw [List.getElem_zipWith, List.getElem_zipWith]
    have hi : i < c.cams.length := by rw [List.length_zipWith] at h1; omega
    obtain ⟨k1, k2⟩ := hm _ (List.getElem_mem hi)
    simp only [CamText.camera]
    rw [k1, k2]
  rw [hz]

/-- **C135 is false for its own results.**  The file the program writes is not a configuration it can read: it has `cam0_ext` where
`cam0_cam1_ext` is expected. -/
theorem C135_results_refuted (cams : Fin 4 → CamText) (sizes : Fin 4 → ℤ × ℤ)
    (ok0 : ({ cams 0 with head := "cam0:".toList, indent := 2 } : CamText).Ok (sizes 0).1 (sizes 0).2)
    (ok1 : ({ cams 1 with head := "cam1:".toList, indent := 2 } : CamText).Ok (sizes 1).1 (sizes 1).2)
    (ok2 : ({ cams 2 with head := "cam2:".toList, indent := 2 } : CamText).Ok (sizes 2).1 (sizes 2).2)
    (ok3 : ({ cams 3 with head := "cam3:".toList, indent := 2 } : CamText).Ok (sizes 3).1 (sizes 3).2)
    (gimbal link0 link1 effector ext0 ext1 ext2 ext3 fiducial : List Str)
    (hg : VecOk 7 0 "gimbal_ext".toList gimbal) (h0 : VecOk 7 0 "link0_ext".toList link0) (h1 : VecOk 7 0 "link1_ext".toList link1)
    (he : VecOk 7 0 "end_ext".toList effector) (hc : VecOk 7 0 "cam0_ext".toList ext0) :
    loadConfig (some (resultsText cams gimbal link0 link1 effector ext0 ext1 ext2 ext3 fiducial)) = .error .fatal := by
  generalize hc0 : ({ cams 0 with head := "cam0:".toList, indent := 2 } : CamText) = c0 at ok0
  generalize hc1 : ({ cams 1 with head := "cam1:".toList, indent := 2 } : CamText) = c1 at ok1
  generalize hc2 : ({ cams 2 with head := "cam2:".toList, indent := 2 } : CamText) = c2 at ok2
  generalize hc3 : ({ cams 3 with head := "cam3:".toList, indent := 2 } : CamText) = c3 at ok3
  obtain ⟨tail, e⟩ : ∃ tail, resultsText cams gimbal link0 link1 effector ext0 ext1 ext2 ext3 fiducial =
      kv 0 "num_cams".toList (natText 4) ++ (kv 0 "num_links".toList (natText 2) ++
      '\n' :: ([c0, c1, c2, c3].flatMap CamText.text ++ (kv 0 "gimbal_ext".toList (vec gimbal) ++ (kv 0 "link0_ext".toList (vec link0) ++
        (kv 0 "link1_ext".toList (vec link1) ++ (kv 0 "end_ext".toList (vec effector) ++ (kv 0 "cam0_ext".toList (vec ext0) ++ tail))))))) := by
    refine ⟨kv 0 "cam1_ext".toList (vec ext1) ++ kv 0 "cam2_ext".toList (vec ext2) ++ kv 0 "cam3_ext".toList (vec ext3) ++
      kv 0 "fiducial_pose".toList (vec fiducial), ?_⟩
    unfold resultsText
    rw [hc0, hc1, hc2, hc3]
    simp only [List.append_assoc, List.cons_append, List.nil_append, List.flatMap_cons, List.flatMap_nil, List.append_nil]
  unfold loadConfig
  simp only
  rw [e, keyInt_kv 0 _ 4 _ (by decide) (by decide) (by norm_num), okb']
  simp only
  rw [keyInt_kv 0 _ 2 _ (by decide) (by decide) (by norm_num), okb']
  simp only
  have hs := fun r => skip_line [] r (by simp) (by norm_num)
  simp only [List.nil_append] at hs
  rw [hs, show ((4 : ℕ) : ℤ).toNat = [c0, c1, c2, c3].length from rfl,
    loadCameras_text [c0, c1, c2, c3] [sizes 0, sizes 1, sizes 2, sizes 3] (.cons ok0 (.cons ok1 (.cons ok2 (.cons ok3 .nil)))), okb']
  simp only
  rw [keyReals_kv 7 0 (by norm_num) _ _ _ (by decide) hg, okb']
  simp only
  rw [keyReals_kv 7 0 (by norm_num) _ _ _ (by decide) h0, okb']
  simp only
  rw [keyReals_kv 7 0 (by norm_num) _ _ _ (by decide) h1, okb']
  simp only
  rw [keyReals_kv 7 0 (by norm_num) _ _ _ (by decide) he, okb']
  simp only
  have hk := (C124_key "cam0_cam1_ext".toList 0 "cam0_ext".toList (vec ext0) tail (keyOk_spec (by decide)) (valOk_vec _ hc.2.1)
    hc.2.2 (by decide) 7).1.2.2.2
  rw [hk]; rfl

end Yac.Gimbal2
