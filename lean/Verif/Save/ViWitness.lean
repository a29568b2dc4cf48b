import Verif.Save.ViTables

/-! # C127: a concrete calibrator, and one that cannot be saved -/

namespace Yac.Save
open Yac.Config Yac.Text Yac.Fmt Yac.Ctor

/-- Conversions of scalars. -/
noncomputable def yaml : Dec where
  flag s := if s = "true".toList then some true else if s = "false".toList then some false else none
  int s := match parseInt s with
    | some (neg, n, []) => some (if neg then -(n : ℤ) else n)
    | _ => none
  real s := (asDouble s).map (fun x : ℚ => (x : ℝ))

theorem yaml_reads : Reads yaml := by
  refine ⟨rfl, rfl, fun n _ _ => ?_, fun s q h => ?_⟩
  · have := parseInt_fmtLd n [] [] (by intro c hc; cases hc) (by intro c hc; cases hc)
    simp only [List.nil_append, List.append_nil] at this
    show (match parseInt (fmtLd n) with
      | some (neg, n, []) => some (if neg then -(n : ℤ) else n)
      | _ => none) = some n
    rw [this]
    simp only [decide_eq_true_eq]
    by_cases hn : n < 0
    · rw [if_pos hn]; congr 1; omega
    · rw [if_neg hn]; congr 1; omega
  · show (asDouble s).map _ = _
    rw [h]
    rfl

/-- A camera. -/
def cam752 : ViCam := ⟨752, 480, "pinhole".toList, "radtan4".toList, [458, 457, 367.5, 248.25], [-0.25, 0.125, 0, 0]⟩

/-- Two cameras 1/8 m apart; the IMU 1/2 m above. -/
def euroc : ViCalib where
  verbose := false
  maxNumThreads := 2
  maxIter := 30
  outlierRejection := true
  marginalization := true
  visionLossOn := true
  visionLossType := "CAUCHY".toList
  visionLossParam := 1
  imuLossOn := false
  imuLossType := "CAUCHY".toList
  imuLossParam := 1
  outlierThreshold := 4
  windowSize := 5
  imgScale := 1
  estimateTimeDelay := false
  timeDelayJacStep := 1 / 10 ^ 6
  formatV2 := false
  targetType := "aprilgrid".toList
  tagRows := 6
  tagCols := 6
  tagSize := 0.088
  tagSpacing := 0.3
  rate := 200
  sigma_a_c := 0.08
  sigma_g_c := 0.004
  sigma_aw_c := 0.00004
  sigma_gw_c := 0.000002
  sigma_ba := 0.01
  sigma_bg := 0.01
  g := 9.81
  timeDelay := 1 / 1000
  cams := [(0, cam752), (1, cam752)]
  exts := [(0, 1), (1, !![1, 0, 0, 1 / 8; 0, 1, 0, 0; 0, 0, 1, 0; 0, 0, 0, 1])]
  T_BS := !![1, 0, 0, 0; 0, 1, 0, 0; 0, 0, 1, 1 / 2; 0, 0, 0, 1]
  fiducial := some 1
  views := [⟨1403715275312143104, ![1, 2, 3], ![0, 0, 0, 1], fun _ => 0⟩, ⟨1403715275362142976, ![1, 2, 4], ![0, 0, 0, 1], fun _ => 1 / 2⟩]

theorem cam_ok : ModelsOk cam752.proj cam752.dist ∧ IsInt cam752.w ∧ IsInt cam752.h ∧ (∀ x ∈ cam752.k, Double x) ∧ ∀ x ∈ cam752.d, Double x := by
  refine ⟨⟨rfl, Or.inl rfl⟩, ⟨by decide, by decide⟩, ⟨by decide, by decide⟩, ?_, ?_⟩
  · intro x hx
    simp only [cam752, List.mem_cons, List.not_mem_nil, or_false] at hx
    rcases hx with rfl | rfl | rfl | rfl
    · exact ⟨458, 0, by norm_num, by norm_num⟩
    · exact ⟨457, 0, by norm_num, by norm_num⟩
    · exact ⟨735, -1, by norm_num, by norm_num⟩
    · exact ⟨993, -2, by norm_num, by norm_num⟩
  · intro x hx
    simp only [cam752, List.mem_cons, List.not_mem_nil, or_false] at hx
    rcases hx with rfl | rfl | rfl | rfl
    · exact ⟨-1, -2, by norm_num, by norm_num⟩
    · exact ⟨1, -3, by norm_num, by norm_num⟩
    · exact ⟨0, 0, by norm_num, by norm_num⟩
    · exact ⟨0, 0, by norm_num, by norm_num⟩

theorem euroc_complete : Complete euroc 2 1 where
  some_camera := by norm_num
  few := by norm_num
  cams := rfl
  exts := rfl
  models := by
    intro e he
    simp only [euroc, List.mem_cons, List.not_mem_nil, or_false] at he
    rcases he with rfl | rfl <;> exact cam_ok
  fiducial := rfl
  ints := ⟨⟨by decide, by decide⟩, ⟨by decide, by decide⟩, ⟨by decide, by decide⟩, ⟨by decide, by decide⟩, ⟨by decide, by decide⟩⟩
  vision := fun _ => Or.inr (Or.inl rfl)
  imu := (by intro h; cases h)

/-- What is printed besides. -/
def someExtra : Extra := ⟨.map [], [(0, .map []), (1, .map [])], .seq [], .seq []⟩

/-- The calibrator is saved and loaded. -/
example : ∃ doc b, saveVi euroc someExtra = .ok doc ∧ viCtor yaml doc = .ok b ∧ Reloaded euroc 1 b :=
  C127_reload yaml yaml_reads euroc someExtra 2 1 euroc_complete

theorem bs_inv : euroc.T_BS⁻¹ = !![1, 0, 0, 0; 0, 1, 0, 0; 0, 0, 1, -1 / 2; 0, 0, 0, 1] := by
  refine Matrix.inv_eq_right_inv ?_
  ext i j
  fin_cases i <;> fin_cases j <;> simp [euroc, Matrix.mul_apply, Fin.sum_univ_four] <;> norm_num

/-- The pose of camera 1 with respect to the IMU survives exactly. -/
example (b : BuiltVi) (hb : Reloaded euroc 1 b) : ∃ cam', SMap.find 1 b.cams = some cam' ∧ b.T_BS⁻¹ * matOf cam'.ext =
    toReal !![1, 0, 0, 1 / 8; 0, 1, 0, 0; 0, 0, 1, -1 / 2; 0, 0, 0, 1] := by
  have dbl : ∀ (M : M4), (∀ i j, M i j = 0 ∨ M i j = 1 ∨ M i j = 1 / 8 ∨ M i j = -1 / 2) → ∀ i j, Double (M i j) := by
    intro M h i j
    rcases h i j with h | h | h | h <;> rw [h]
    · exact ⟨0, 0, by norm_num, by norm_num⟩
    · exact ⟨1, 0, by norm_num, by norm_num⟩
    · exact ⟨1, -3, by norm_num, by norm_num⟩
    · exact ⟨-1, -1, by norm_num, by norm_num⟩
  obtain ⟨cam', h1, h2⟩ := C127_relative euroc 1 b hb 1 !![1, 0, 0, 1 / 8; 0, 1, 0, 0; 0, 0, 1, 0; 0, 0, 0, 1] 1 rfl rfl
    (by simp) (by simp [euroc, Matrix.det_succ_row_zero, Fin.sum_univ_succ])
    (dbl _ (by rw [bs_inv]; intro i j; fin_cases i <;> fin_cases j <;> simp))
    (dbl _ (by rw [inv_one, Matrix.one_mul]; intro i j; fin_cases i <;> fin_cases j <;> simp))
  refine ⟨cam', h1, h2.trans ?_⟩
  rw [bs_inv]
  congr 1
  ext i j
  fin_cases i <;> fin_cases j <;> simp [Matrix.mul_apply, Fin.sum_univ_four]

/-- The tables of its two views. -/
example (vals vals' : List (ℤ × List ℚ)) := C127_views yaml yaml_reads euroc someExtra 2 1 euroc_complete ⟨by decide, by decide⟩
  (by intro v hv; simp only [euroc, List.mem_cons, List.not_mem_nil, or_false] at hv; rcases hv with rfl | rfl <;> decide) vals vals'

/-- Cameras 0 and 2, which `add_camera` accepts: saving fails with the file half written. -/
theorem C127_gap_refuted (c : ViCalib) (x : Extra) (hc : c.cams.map Prod.fst = [0, 2]) (he : c.exts.map Prod.fst = [0, 2]) :
    saveVi c x = .error .exn := by
  have hl : c.cams.length = 2 := by
    have := congrArg List.length hc
    simpa using this
  have h0 : (SMap.find 0 c.exts).isSome = true := by rw [SMap.find_isSome, he]; simp
  have h1 : SMap.find 1 c.exts = none := by
    cases hf : SMap.find 1 c.exts with
    | none => rfl
    | some T =>
      have : (SMap.find 1 c.exts).isSome = true := by rw [hf]; rfl
      rw [SMap.find_isSome, he] at this
      simp at this
  obtain ⟨T, hT⟩ := Option.isSome_iff_exists.mp h0
  have e0 : extOf c 0 = .ok T := by unfold extOf; rw [hT]
  have e1 : extNode c T (0 + 1) = .error .exn := by
    unfold extNode extOf
    have : SMap.find ((0 + 1 : ℕ) : ℤ) c.exts = none := h1
    rw [this]
    rfl
  unfold saveVi
  rw [e0, hl]
  show ((List.range 1).mapM (fun i => extNode c T (i + 1)) >>= _) = _
  have : (List.range 1).mapM (fun i => extNode c T (i + 1)) = .error .exn := by
    show [0].mapM (fun i => extNode c T (i + 1)) = _
    rw [List.mapM_cons, e1]
    rfl
  rw [this]
  rfl

example : ({ euroc with cams := [(0, cam752), (2, cam752)], exts := [(0, 1), (2, 1)] } : ViCalib).cams.map Prod.fst = [0, 2] := rfl

/-- Saving before the target has a pose dereferences a null pointer after the extrinsics have been written. -/
theorem C127_early_refuted (c : ViCalib) (x : Extra) (T : M4) (cam : ViCam) (hc : c.cams = [(0, cam)]) (he : c.exts = [(0, T)]) (hf : c.fiducial = none) :
    saveVi c x = .error .oob := by
  unfold saveVi extOf
  rw [hc, he, hf]
  rfl

example : ({ euroc with cams := [(0, cam752)], exts := [(0, 1)], fiducial := none } : ViCalib).fiducial = none := rfl

/-- ... while cameras 0 and 1 are saved. -/
example : ∃ doc, saveVi euroc someExtra = .ok doc := (C127_saves euroc someExtra (sorted_of_range (N := 2) rfl) rfl).mpr ⟨⟨2, by norm_num, rfl⟩, rfl⟩

end Yac.Save
