import Verif.Save.CamProps
import Verif.Save.ViWitness

/-! # C128, C129: exact relative poses, what is lost, and concrete calibrators -/

namespace Yac.Save
open Yac.Config Yac.Text Yac.Fmt Yac.Ctor

theorem toReal_one : toReal 1 = 1 := by
  ext a k
  fin_cases a <;> fin_cases k <;> simp [toReal]

theorem matOf_identity : matOf identity4 = 1 := by
  ext a k
  fin_cases a <;> fin_cases k <;> simp [matOf, identity4]

/-- The pose of every camera with respect to every other survives exactly if the numbers that are printed are doubles. -/
theorem C128_relative (c : CamCalib) (cams : List (ℤ × Camera)) (hb : CamerasKept c cams) (i j : ℤ) (f0 fi fj : Bool) (T0 Ti Tj : M4)
    (h0 : SMap.find 0 c.exts = some (f0, T0)) (hi : SMap.find i c.exts = some (fi, Ti)) (hj : SMap.find j c.exts = some (fj, Tj))
    (d0 : T0.det ≠ 0) (di : Ti.det ≠ 0) (hdi : ∀ a k, Double ((T0⁻¹ * Ti) a k)) (hdj : ∀ a k, Double ((T0⁻¹ * Tj) a k)) :
    ∃ ci cj, SMap.find i cams = some ci ∧ SMap.find j cams = some cj ∧ (matOf ci.ext)⁻¹ * matOf cj.ext = toReal (Ti⁻¹ * Tj) := by
  obtain ⟨-, -, f, T, hT, hcams⟩ := hb
  rw [h0] at hT
  cases hT
  have u0 : IsUnit T0.det := isUnit_iff_ne_zero.mpr d0
  have ui : IsUnit Ti.det := isUnit_iff_ne_zero.mpr di
  have key : ∀ (n : ℤ) (fn : Bool) (Tn : M4), SMap.find n c.exts = some (fn, Tn) → (∀ a k, Double ((T0⁻¹ * Tn) a k)) →
      ∃ cn, SMap.find n cams = some cn ∧ matOf cn.ext = toReal (T0⁻¹ * Tn) := by
    intro n fn Tn hn hd
    obtain ⟨cn, hf, e0, e1⟩ := hcams n _ _ hn
    refine ⟨cn, hf, ?_⟩
    by_cases h : n = 0
    · subst h
      rw [h0] at hn
      cases hn
      rw [e0 rfl, matOf_identity, Matrix.nonsing_inv_mul _ u0, toReal_one]
    · obtain ⟨Q, hQ⟩ := e1 h
      exact (pose_exact hQ hd).2
  obtain ⟨ci, fi', ei⟩ := key i _ _ hi hdi
  obtain ⟨cj, fj', ej⟩ := key j _ _ hj hdj
  refine ⟨ci, cj, fi', fj', ?_⟩
  have hinv : (toReal (T0⁻¹ * Ti))⁻¹ = toReal (Ti⁻¹ * T0) := by
    refine Matrix.inv_eq_left_inv ?_
    rw [← toReal_mul, ← toReal_one]
    congr 1
    rw [Matrix.mul_assoc, ← Matrix.mul_assoc T0, Matrix.mul_nonsing_inv _ u0, Matrix.one_mul, Matrix.nonsing_inv_mul _ ui]
  rw [ei, ej, hinv, ← toReal_mul]
  congr 1
  rw [Matrix.mul_assoc, ← Matrix.mul_assoc T0, Matrix.mul_nonsing_inv _ u0, Matrix.one_mul]

/-- The results of a motion capture calibration: the estimated poses, which are the point of it, are not read back, nor are
the `fixed` flags. -/
theorem C129_lost_refuted (D : Dec) (hD : Reads D) (c : MocapCalib) (total poses total' poses' : Y) (hc : CamOk c.cam) (hi : IsInt c.maxIter)
    (ht : IsInt c.target.tagRows ∧ IsInt c.target.tagCols) (hl : MocapLossOk c.lossOn c.lossType) (T_MC T_WF : M4) (f1 f2 f3 : Bool) :
    ∃ b, mocapCtor D (saveMocap c total poses) = .ok b ∧
      mocapCtor D (saveMocap { c with T_MC := T_MC, T_WF := T_WF, camFixed := f1, extFixed := f2, fiducialFixed := f3 } total' poses') = .ok b :=
  ⟨newMocap c, mocap_made D hD c total poses hc hi ht hl,
    mocap_made D hD { c with T_MC := T_MC, T_WF := T_WF, camFixed := f1, extFixed := f2, fiducialFixed := f3 } total' poses' hc hi ht hl⟩

/-! ### Concrete calibrators -/

def aprilNums : TargetNums := ⟨"aprilgrid".toList, 6, 6, 0.088, 0.3⟩

def imu200 : ImuNums := ⟨200, 0.08, 0.004, 0.00004, 0.000002, 0.01, 0.01, 9.81⟩

/-- Cameras 0 and 2 (which `calib_vi_t` could not save), camera 2 1/8 m beside camera 0. -/
def stereo : CamCalib where
  verbose := true
  solver := "CERES-SOLVER".toList
  maxNumThreads := 4
  nbv := true
  shuffleViews := true
  nbvFilter := true
  outlierFilter := true
  earlyStopping := false
  marginalization := true
  lossOn := true
  lossType := "CAUCHY".toList
  lossParam := 1
  minNbvViews := 40
  outlierThreshold := 4
  infoGainThreshold := 0.2
  earlyStopThreshold := 30
  slidingWindowSize := 10
  formatV2 := false
  target := aprilNums
  cams := [(0, false, cam752), (2, false, cam752)]
  exts := [(0, true, !![1, 0, 0, 1; 0, 1, 0, 0; 0, 0, 1, 0; 0, 0, 0, 1]), (2, false, !![1, 0, 0, 9 / 8; 0, 1, 0, 0; 0, 0, 1, 0; 0, 0, 0, 1])]
  imu := some imu200

theorem stereo_complete : CompleteCam stereo where
  cams_map := by simp [SMap.Sorted, stereo]
  exts := rfl
  index := by
    intro e he
    simp only [stereo, List.mem_cons, List.not_mem_nil, or_false] at he
    rcases he with rfl | rfl <;> norm_num
  zero := rfl
  models := by
    intro e he
    simp only [stereo, List.mem_cons, List.not_mem_nil, or_false] at he
    rcases he with rfl | rfl <;> exact cam_ok
  ints := ⟨⟨by decide, by decide⟩, ⟨by decide, by decide⟩, ⟨by decide, by decide⟩, ⟨by decide, by decide⟩, ⟨by decide, by decide⟩, ⟨by decide, by decide⟩⟩

example : ∃ doc b, saveCam stereo (.map []) [] = .ok doc ∧ cameraCtor yaml doc = .ok b ∧ ReloadedCam stereo b :=
  C128_reload yaml yaml_reads stereo _ _ stereo_complete

example : ∃ doc b, saveCam stereo (.map []) [] = .ok doc ∧ viCtor yaml doc = .ok b ∧ StartsVi stereo imu200 b :=
  C128_chain yaml yaml_reads stereo _ _ stereo_complete _ rfl

example (b : BuiltVi) (doc : Y) (hs : saveCam { stereo with imu := none } (.map []) [] = .ok doc) : viCtor yaml doc ≠ .ok b :=
  C128_noimu yaml yaml_reads { stereo with imu := none } _ _
    ⟨stereo_complete.cams_map, stereo_complete.exts, stereo_complete.index, stereo_complete.zero, stereo_complete.models, stereo_complete.ints⟩ rfl doc hs b

/-- The 1/8 m between the cameras survives exactly. -/
example (cams : List (ℤ × Camera)) (hb : CamerasKept stereo cams) : ∃ c0 c2, SMap.find 0 cams = some c0 ∧ SMap.find 2 cams = some c2 ∧
    (matOf c0.ext)⁻¹ * matOf c2.ext = toReal !![1, 0, 0, 1 / 8; 0, 1, 0, 0; 0, 0, 1, 0; 0, 0, 0, 1] := by
  have hinv : (!![1, 0, 0, 1; 0, 1, 0, 0; 0, 0, 1, 0; 0, 0, 0, 1] : M4)⁻¹ = !![1, 0, 0, -1; 0, 1, 0, 0; 0, 0, 1, 0; 0, 0, 0, 1] := by
    refine Matrix.inv_eq_right_inv ?_
    ext i j
    fin_cases i <;> fin_cases j <;> simp [Matrix.mul_apply, Fin.sum_univ_four]
  have hm : (!![1, 0, 0, 1; 0, 1, 0, 0; 0, 0, 1, 0; 0, 0, 0, 1] : M4)⁻¹ * !![1, 0, 0, 9 / 8; 0, 1, 0, 0; 0, 0, 1, 0; 0, 0, 0, 1] =
      !![1, 0, 0, 1 / 8; 0, 1, 0, 0; 0, 0, 1, 0; 0, 0, 0, 1] := by
    rw [hinv]
    ext i j
    fin_cases i <;> fin_cases j <;> simp [Matrix.mul_apply, Fin.sum_univ_four] <;> norm_num
  have hone : (!![1, 0, 0, 1; 0, 1, 0, 0; 0, 0, 1, 0; 0, 0, 0, 1] : M4)⁻¹ * !![1, 0, 0, 1; 0, 1, 0, 0; 0, 0, 1, 0; 0, 0, 0, 1] = 1 :=
    Matrix.nonsing_inv_mul _ (by simp [Matrix.det_succ_row_zero, Fin.sum_univ_succ])
  have dbl : ∀ (M : M4), (∀ i j, M i j = 0 ∨ M i j = 1 ∨ M i j = 1 / 8) → ∀ i j, Double (M i j) := by
    intro M h i j
    rcases h i j with h | h | h <;> rw [h]
    · exact ⟨0, 0, by norm_num, by norm_num⟩
    · exact ⟨1, 0, by norm_num, by norm_num⟩
    · exact ⟨1, -3, by norm_num, by norm_num⟩
  have := C128_relative stereo cams hb 0 2 true true false _ _ _ rfl rfl rfl
    (by simp [Matrix.det_succ_row_zero, Fin.sum_univ_succ]) (by simp [Matrix.det_succ_row_zero, Fin.sum_univ_succ])
    (dbl _ (by rw [hone]; intro i j; fin_cases i <;> fin_cases j <;> simp))
    (dbl _ (by rw [hm]; intro i j; fin_cases i <;> fin_cases j <;> simp))
  rw [hm] at this
  exact this

def vicon : MocapCalib where
  fixIntrinsics := true
  fixMocapPoses := false
  fixFiducialPose := true
  outlierThreshold := 4
  infoGainThreshold := 0.2
  lossOn := true
  lossType := "BLAKE-ZISSERMAN".toList
  lossParam := 1
  shuffleViews := true
  showProgress := true
  maxIter := 50
  target := aprilNums
  cam := cam752
  camFixed := true
  T_MC := 1
  extFixed := false
  T_WF := 1
  fiducialFixed := true

example : ∃ b, mocapCtor yaml (saveMocap vicon (.map []) (.seq [])) = .ok b ∧ ReloadedMocap vicon b :=
  C129_reload yaml yaml_reads vicon _ _ cam_ok ⟨by decide, by decide⟩ ⟨⟨by decide, by decide⟩, ⟨by decide, by decide⟩⟩ (fun _ => Or.inl rfl)

end Yac.Save
