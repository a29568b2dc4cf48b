import Verif.Setup.InspectProps

/-!
# C100: two cameras that see a board of one tag
-/

namespace Yac.Setup.InspectWitness

open Yac.AprilGrid (Grid Meas Row)
open Yac.Calib
open Yac.Geom (Mat4 Vec3 tfInv tfPoint)

/-- One corner (0, 0) of the board seen at pixel (2, 3). -/
noncomputable def board (ts : Int) (x y : ℝ) : Grid ℝ :=
  ⟨true, ts, 1, 1, 1, 0, true, 1, [⟨1, x, y, 0, 0, 0⟩, AprilGrid.zeroRow, AprilGrid.zeroRow, AprilGrid.zeroRow]⟩

/-- All transforms are the identity, the camera projects the corner at the origin to (2, 3). -/
noncomputable def env : InspEnv Unit where
  estimate _ _ _ := some 1
  tf _ := 1
  project _ _ q := some (q 0 + 2, q 1 + 3)

noncomputable def cal : Cal ℝ Unit :=
  { (Cal.new 1 1 1 : Cal ℝ Unit) with
    params := [(0, ⟨(), false⟩), (1, ⟨(), false⟩)], exts := [(0, ⟨(), true⟩), (1, ⟨(), false⟩)] }

noncomputable def valid (x y : ℝ) : List (Int × List (Grid ℝ)) := [(0, [board 5 2 3]), (1, [board 5 2 3, board 6 x y])]

noncomputable def cams (x y : ℝ) : List (CamData Unit) := [⟨0, (), (), [board 5 2 3]⟩, ⟨1, (), (), [board 5 2 3, board 6 x y]⟩]

theorem cams_ok (x y : ℝ) : Cams cal (valid x y) (cams x y) := by
  refine .cons ⟨rfl, ⟨false, rfl⟩, ⟨true, rfl⟩, rfl⟩ (.cons ⟨rfl, ⟨false, rfl⟩, ⟨false, rfl⟩, rfl⟩ .nil)

theorem board_meas (ts : Int) (x y : ℝ) : gridMeas (board ts x y) = [((0, 0), (x, y))] := by
  unfold gridMeas
  have : List.range ((board ts x y).tagRows * (board ts x y).tagCols * 4) = [0, 1, 2, 3] := rfl
  rw [this]
  simp [rowMeas, board, AprilGrid.zeroRow]

theorem board_reads (ts : Int) (x y : ℝ) : ∃ m, AprilGrid.getMeasurements (board ts x y) Meas.empty = .ok m := by
  exact ⟨_, rfl⟩

theorem rigid_one : Calib.Rigid (1 : Mat4 ℝ) := by
  refine ⟨1, 0, by simp, ?_⟩
  ext i j
  fin_cases i <;> fin_cases j <;> simp [Geom.tf, Matrix.one_apply]

theorem inv_one : tfInv (1 : Mat4 ℝ) = 1 := by
  have := (Calib.Rigid.inv_inv rigid_one).2.1
  rwa [Matrix.one_mul] at this

theorem corner_zero (ts : Int) (x y : ℝ) : corner3 (board ts x y) 0 0 = 0 := by
  ext i
  fin_cases i <;> simp [corner3, board, AprilGrid.Spec.boardPoint]

theorem sees (cam : Int) : env.project cam () (tfPoint 1 0) = some (2, 3) := by
  simp [env, tfPoint]

theorem pose5 (x y : ℝ) : poseAt env (cams x y) 5 = some 1 := by
  simp [poseAt, cams, estimates, board, env]

theorem pose6 (x y : ℝ) : poseAt env (cams x y) 6 = some 1 := by
  simp [poseAt, cams, estimates, board, env]

/-- `C100_exact` applies: exact images of two cameras at two times. -/
example : inspect env cal (valid 2 3) = .ok 0 := by
  refine C100_exact env cal _ _ (by simp [cal]) rfl (cams_ok 2 3) (fun _ => 1) (fun _ _ => rigid_one) ?_ ?_
  · intro c hc g hg hd
    have hb : ∃ ts, g = board ts 2 3 := by
      simp only [cams, List.mem_cons, List.not_mem_nil, or_false] at hc
      rcases hc with rfl | rfl
      · simp only [List.mem_cons, List.not_mem_nil, or_false] at hg
        exact ⟨5, hg⟩
      · simp only [List.mem_cons, List.not_mem_nil, or_false] at hg
        rcases hg with rfl | rfl
        · exact ⟨5, rfl⟩
        · exact ⟨6, rfl⟩
    obtain ⟨ts, rfl⟩ := hb
    have h1 : tfInv (env.tf c.e) * 1 = (1 : Mat4 ℝ) := by
      show tfInv (1 : Mat4 ℝ) * 1 = 1
      rw [inv_one, Matrix.mul_one]
    refine ⟨board_reads ts 2 3, ?_, ?_⟩
    · rw [h1]; rfl
    · intro m hm
      rw [board_meas, List.mem_singleton] at hm
      subst hm
      rw [h1]
      show env.project c.cam () (tfPoint 1 (corner3 (board ts 2 3) 0 0)) = _
      rw [corner_zero, sees]
  · exact ⟨⟨0, (), (), [board 5 2 3]⟩, by simp [cams], board 5 2 3, by simp, rfl, by rw [board_meas]; simp⟩

theorem errors_of (x y : ℝ) (c : CamData Unit) (ts : Int) :
    imageErrors env c 1 (board ts x y) = [Real.sqrt ((x - 2) ^ 2 + (y - 3) ^ 2)] := by
  unfold imageErrors
  have h1 : tfInv (env.tf c.e) * 1 = (1 : Mat4 ℝ) := by
    show tfInv (1 : Mat4 ℝ) * 1 = 1
    rw [inv_one, Matrix.mul_one]
  rw [board_meas, h1]
  have e : env.project c.cam c.p (tfPoint 1 (corner3 (board ts x y) 0 0)) = some (2, 3) := by
    rw [corner_zero]; exact sees c.cam
  simp [e]

/-- `C100_value` applies: one of three measurements is off by (3, 4) and so by 5 pixels; the root mean
square of 0, 0, 5. -/
theorem off : inspect env cal (valid 5 7) = .ok (Real.sqrt (25 / 3)) := by
  have hall : allErrors env (cams 5 7) = [0, 0, 5] := by
    have e1 : allErrors env (cams 5 7) =
        imageErrors env ⟨0, (), (), [board 5 2 3]⟩ ((poseAt env (cams 5 7) 5).getD 0) (board 5 2 3) ++
        (imageErrors env ⟨1, (), (), [board 5 2 3, board 6 5 7]⟩ ((poseAt env (cams 5 7) 5).getD 0) (board 5 2 3) ++
         imageErrors env ⟨1, (), (), [board 5 2 3, board 6 5 7]⟩ ((poseAt env (cams 5 7) 6).getD 0) (board 6 5 7)) := by
      simp [allErrors, cams, board]
    rw [e1, pose5, pose6]
    simp only [Option.getD_some]
    rw [errors_of, errors_of, errors_of]
    have h0 : Real.sqrt (((2 : ℝ) - 2) ^ 2 + (3 - 3) ^ 2) = 0 := by norm_num
    have h5 : Real.sqrt (((5 : ℝ) - 2) ^ 2 + (7 - 3) ^ 2) = 5 := by
      rw [show ((5 : ℝ) - 2) ^ 2 + (7 - 3) ^ 2 = 5 ^ 2 by norm_num]
      exact Real.sqrt_sq (by norm_num)
    rw [h0, h5]
    rfl
  refine (C100_value env cal _ _ (by simp [cal]) rfl (cams_ok 5 7) _).mpr ⟨?_, ?_, Real.sqrt_nonneg _, ?_⟩
  · intro c hc g hg hd
    simp only [cams, List.mem_cons, List.not_mem_nil, or_false] at hc
    rcases hc with rfl | rfl
    · simp only [List.mem_cons, List.not_mem_nil, or_false] at hg
      subst hg
      exact ⟨by show (poseAt env (cams 5 7) 5).isSome = true; rw [pose5]; rfl, board_reads _ _ _⟩
    · simp only [List.mem_cons, List.not_mem_nil, or_false] at hg
      rcases hg with rfl | rfl
      · exact ⟨by show (poseAt env (cams 5 7) 5).isSome = true; rw [pose5]; rfl, board_reads _ _ _⟩
      · exact ⟨by show (poseAt env (cams 5 7) 6).isSome = true; rw [pose6]; rfl, board_reads _ _ _⟩
  · rw [hall]; simp
  · rw [hall, Real.sq_sqrt (by norm_num)]
    norm_num

/-- `C100_missing_refuted` applies: camera 1 took no validation images. -/
example : ∃ err, inspect env cal [(0, [board 5 2 3])] = .error err :=
  C100_missing_refuted env cal _ rfl 1 (by decide) rfl

/-- `C100_uninit_refuted` applies: the pose of the board at time 6 cannot be estimated. -/
example : ∃ err, inspect { env with estimate := fun _ _ g => if g.timestamp = 6 then none else some 1 } cal
    (valid 2 3) = .error err := by
  refine C100_uninit_refuted _ cal _ (cams 2 3) (by simp [cal]) rfl (cams_ok 2 3)
    ⟨1, (), (), [board 5 2 3, board 6 2 3]⟩ (by simp [cams]) (board 6 2 3) (by simp) rfl ?_
  simp [poseAt, cams, estimates, board]

end Yac.Setup.InspectWitness
