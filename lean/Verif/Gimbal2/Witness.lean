import Verif.Gimbal2.ProblemProps
import Verif.Gimbal.JointProps

/-! Concrete cases that meet the hypotheses of the theorems about C135. -/

namespace Yac.Gimbal2.Witness
open Yac.Geom Yac.Gimbal Yac.Text Yac.Gimbal2

/-- The target, two metres ahead. -/
def ahead : Fin 7 → ℝ := ![0, 0, 2, 1, 0, 0, 0]

/-- All frames at the origin, all joints turned by one radian; the fixed cameras half a metre apart. -/
noncomputable def s0 : State := ⟨here, here, here, here, here, ![1 / 2, 0, 0, 1, 0, 0, 0], here, here, ahead, fun _ _ => 1⟩

theorem here_unit : IsUnit7 here := by simp [IsUnit7, here]
theorem ahead_unit : IsUnit7 ahead := by simp [IsUnit7, ahead]

theorem s0_ok : s0.Ok := state_ok here_unit here_unit here_unit here_unit here_unit (by simp [IsUnit7, s0]) here_unit here_unit ahead_unit

theorem place_ahead : place ahead 0 = ![0, 0, 2] := by
  funext i
  unfold place
  have : spin (ahead 3) (ahead 4) (ahead 5) (ahead 6) 0 = 0 := spin_one 0
  rw [this]
  fin_cases i <;> simp [ahead]

/-- The corner at the origin of the target is seen at the centre of the image: no pixel error. -/
theorem pixel : PixelSq ![1, 1, 0, 0, 0, 0, 0, 0] s0 7 here ((0, 0), 0) 0 := by
  obtain ⟨z, r, h1, -⟩ := demo_pixel
  have hz : z = (0, 0) := by
    have e : Cam.radtanUndistort ![1, 1, 0, 0, 0, 0, 0, 0] ![0, 0] = some ![0, 0] := by
      have h1 : Cam.unpixel ![1, 1, 0, 0, 0, 0, 0, 0] ![0, 0] = some ![0, 0] := by
        unfold Cam.unpixel
        rw [if_neg (by simp)]
        simp
      have h2 : Cam.dist ![1, 1, 0, 0, 0, 0, 0, 0] = ![0, 0, 0, 0] := by
        ext i; fin_cases i <;> rfl
      unfold Cam.radtanUndistort
      rw [h1, h2]
      show (Cam.radtan4Undistort ![0, 0, 0, 0] ![0, 0]).bind _ = _
      rw [Cam.radtan4_undistort_zero]
      simp
    unfold undistortKp at h1
    rw [e] at h1
    exact (Option.some.inj h1).symm
  refine ⟨z, ![0, 0, 2], h1, ?_, by simp, ?_⟩
  · show inFirst ⟨here, here, here, 1, 1, 1, here, here, ahead⟩ ![0, 0, 2] = place ahead 0
    rw [place_ahead]
    simp only [inFirst, place_here, turn_axis]
  · rw [hz]; simp [pinhole]

/-- C135 witness: two corners of camera 2 at timestamp 7. -/
example : ∃ rs, problem ![1, 1, 0, 0, 0, 0, 0, 0] ![1, 1, 0, 0, 0, 0, 0, 0] (fun t => ⟨t, [((0, 0), 0), ((0, 0), 0)]⟩) (fun t => ⟨t, []⟩) [7] = .ok rs ∧
    rs.length = 2 ∧ cost s0 rs = some 0 := by
  obtain ⟨rs, h1, h2, h3⟩ := C135_cost ![1, 1, 0, 0, 0, 0, 0, 0] ![1, 1, 0, 0, 0, 0, 0, 0] (fun t => ⟨t, [((0, 0), 0), ((0, 0), 0)]⟩) (fun t => ⟨t, []⟩) [7] s0
    s0_ok (fun _ _ => 0) (fun _ _ => 0) (fun _ _ _ => rfl) (fun _ _ _ => rfl)
    (by
      intro ts hts c hc
      obtain rfl : ts = 7 := by simpa using hts
      obtain rfl : c = ((0, 0), 0) := by simpa using hc
      exact pixel)
    (by intro ts _ c hc; simp at hc)
  exact ⟨rs, h1, by rw [h2]; simp, by rw [h3]; simp⟩

/-- C135 witness: the hypotheses of `C135_residual`. -/
example : (s0.params 7 here).Ok := ⟨here_unit, here_unit, here_unit, here_unit, here_unit, ahead_unit⟩

/-- C135 witness: a state the solver may reach. -/
example : Solved s0 { s0 with gimbal := ahead } := C135_free s0 ahead s0.effector s0.link0 s0.link1 s0.joints ⟨rfl, rfl⟩ ⟨rfl, rfl⟩

/-- C135 witness: three views, of which the second has too few corners. -/
example : ∃ p, initTarget [⟨24, some (transform ahead)⟩, ⟨19, none⟩, ⟨20, some (transform ahead)⟩] = .ok p ∧ IsUnit7 p ∧ ∀ x, place p x = place ahead x := by
  have hself : (⟨24, some (transform ahead)⟩ : View).Exact ahead := by
    intro T hT
    cases hT
    refine ⟨transform_rigid ahead_unit, fun x => hom_inj ?_⟩
    obtain ⟨C, r, -, -, eT⟩ := transform_rigid ahead_unit
    rw [← transform_hom, eT, tf_hom, (C32_point C r x 1).1]
  refine C135_initial ahead ahead_unit (by simp [ahead]) _ ?_ ⟨⟨24, some (transform ahead)⟩, by simp, (show 20 ≤ 24 by omega), by simp⟩
  intro v hv
  simp only [List.mem_cons, List.not_mem_nil, or_false] at hv
  rcases hv with rfl | rfl | rfl
  · exact hself
  · intro T hT; cases hT
  · exact hself

/-- C135 witness: no view with twenty corners. -/
example : ∀ v ∈ [(⟨19, some 1⟩ : View), ⟨30, none⟩], ¬ v.Used := by
  intro v hv
  simp only [List.mem_cons, List.not_mem_nil, or_false] at hv
  rcases hv with rfl | rfl
  · rintro ⟨h, -⟩; exact absurd h (by decide)
  · rintro ⟨-, h⟩; exact h rfl

/-- A camera with the models that are supported. -/
def cam : CamText := { demoCam with distModel := "radtan4".toList }

theorem cam_ok (h : Str) (h0 : '\n' ∉ h) (hl : h.length < 9045) : ({ cam with head := h, indent := 2 } : CamText).Ok 752 480 where
  head := ⟨h0, hl⟩
  indent := demoCam_ok.indent
  res := demoCam_ok.res
  size := demoCam_ok.size
  projModel := demoCam_ok.projModel
  distModel := (show NameOk "radtan4".toList from ⟨by decide, by decide⟩)
  proj := demoCam_ok.proj
  dist := demoCam_ok.dist

/-- A configuration with four cameras. -/
def conf : Gimbal2.ConfText := ⟨2, [cam, cam, cam, cam], demoExt, demoExt, demoExt, demoExt, demoExt, demoExt⟩

/-- C135 witness: the hypotheses of `C135_config`. -/
example : conf.Ok [(752, 480), (752, 480), (752, 480), (752, 480)] ∧
    ∀ k ∈ conf.cams, k.projModel = "pinhole".toList ∧ k.distModel = "radtan4".toList := by
  have h : cam.Ok 752 480 := cam_ok demoCam.head demoCam_ok.head.1 demoCam_ok.head.2
  refine ⟨⟨by decide, by decide, .cons h (.cons h (.cons h (.cons h .nil))), demoExt_ok _ (by decide), demoExt_ok _ (by decide),
    demoExt_ok _ (by decide), demoExt_ok _ (by decide), demoExt_ok _ (by decide), demoExt_ok _ (by decide)⟩, ?_⟩
  intro k hk
  have : k = cam := by simpa [conf] using hk
  rw [this]
  exact ⟨rfl, rfl⟩

/-- C135 witness: `C135_results_refuted`. -/
example : Gimbal2.loadConfig (some (Gimbal2.resultsText (fun _ => cam) demoExt demoExt demoExt demoExt demoExt demoExt demoExt demoExt demoExt)) =
    .error .fatal :=
  C135_results_refuted (fun _ => cam) (fun _ => (752, 480)) (cam_ok _ (by decide) (by decide)) (cam_ok _ (by decide) (by decide))
    (cam_ok _ (by decide) (by decide)) (cam_ok _ (by decide) (by decide)) _ _ _ _ _ _ _ _ _ (demoExt_ok _ (by decide))
    (demoExt_ok _ (by decide)) (demoExt_ok _ (by decide)) (demoExt_ok _ (by decide)) (demoExt_ok _ (by decide))

/-- C135 witness: with 'q' at the second of three timestamps the third one need not be complete. -/
example : shown (fun t => decide (t = 2)) [1, 2, 3] = [1, 2] ∧
    finish ⟨[1, 2], [0, 1, 2, 3], fun c => if c = 1 then [1, 2] else [], fun _ => [2, 1]⟩ [3, 2, 1] [1, 2, 3] (fun t => decide (t = 2)) = .ok () := by
  refine ⟨by decide, ?_⟩
  rw [(C135_saved _ _ _ (by decide) (by simp) (by norm_num) _).1]
  intro t ht
  have : t = 1 ∨ t = 2 := by simpa [shown] using ht
  rcases this with rfl | rfl <;> refine ⟨by decide, by decide, by decide⟩

end Yac.Gimbal2.Witness
