import Verif.Gimbal.JointProps
import Verif.Gimbal.ReportProps
import Verif.Gimbal.ProblemProps

/-! More about the gimbal program: lines without a value, and the corrected keypoints. -/

namespace Yac.Gimbal
open Yac.Text

/-- C124: a line without a colon stops the program. -/
theorem C124_no_value (key t rest : List Char) (h1 : '\n' ∉ t) (h2 : nul ∉ t) (h3 : ':' ∉ t) (hl : t.length + 1 ≤ 1023) :
    keyValue key (t ++ '\n' :: rest) = .error .fatal := by
  unfold keyValue
  rw [getLine_line _ t rest h1 h2 hl]
  have : tokens ':' (t ++ ['\n']) = [t ++ ['\n']] := by
    unfold tokens
    rw [getAll_last _ _ _ (by simp)]
    · simp
    · simp [h3]
  simp only [this]

/-- C124 witness. -/
example : '\n' ∉ "num_poses".toList ∧ nul ∉ "num_poses".toList ∧ ':' ∉ "num_poses".toList ∧ "num_poses".toList.length + 1 ≤ 1023 := by
  decide

/-- C125: the keypoint used in the residuals is the keypoint corrected for distortion, each coordinate in its place. -/
theorem C125_undistort (k : Cam.Params) (z w : ℝ × ℝ) :
    undistortKp k z = some w ↔ Cam.radtanUndistort k ![z.1, z.2] = some ![w.1, w.2] := by
  unfold undistortKp
  cases h : Cam.radtanUndistort k ![z.1, z.2] with
  | none => simp
  | some u =>
    simp only [Option.map_some, Option.some.injEq, Prod.ext_iff]
    constructor
    · rintro ⟨h1, h2⟩
      funext i
      fin_cases i
      · exact h1
      · exact h2
    · intro h
      exact ⟨congrFun h 0, congrFun h 1⟩

end Yac.Gimbal
