import Verif.Report.Model
import Verif.Par.Props
import Verif.Bar.Model
import Verif.Tool.EurocModel
import Verif.GridFile.Model
import Verif.Pnp.Model
import Verif.Loss.Model
import Verif.Calib.GetModel
import Verif.Shape.Model
import Verif.Draw.Model

/-! # Error paths and defaults of C136, C137, C139-C144, C146, C149, and the value of the cost -/

namespace Yac

section Report
open Report Text

/-- **C136, corners that cannot be projected.**  The row of a corner for which nothing could be computed shows -1 for both coordinates of the
projected point and of the residual. -/
theorem C136_behind (cam ts : ℤ) (a : Bool) (tag corner : ℤ) (z : ℚ × ℚ) :
    errRow cam ts a ⟨tag, corner, z, false, none⟩ =
      "    ".toList ++ fmtLd cam ++ ", ".toList ++ fmtLd ts ++ ", ".toList ++ flagText a ++ ",".toList ++ fmtLd tag ++ ", ".toList ++ fmtLd corner ++
      ", ".toList ++ fmtF z.1 ++ ", ".toList ++ fmtF z.2 ++ ", ".toList ++ fmtF (-1) ++ ", ".toList ++ fmtF (-1) ++ ", ".toList ++ fmtF (-1) ++
      ", ".toList ++ fmtF (-1) := rfl

end Report

/-- **C137, scores that were never written** count as zero in the scan. -/
theorem C137_unscored {K V : Type} [Field K] (teams : List (List (Int × List V))) (cam : Int) (i : ℕ) :
    Par.readScore (Par.St.init teams : Par.St K V).table cam i = 0 := rfl

/-- **C139, the opening.**  After the first update nothing is opened again, whatever the update did, until the bar is reset. -/
theorem C139_opened (b b' : Bar.Bar) (t : List Char) (h : Bar.update b = .ok (b', t)) : Bar.opening b' = [] ∧ Bar.opening b'.reset ≠ [] := by
  have hc : b'.called = true := by
    unfold Bar.update at h
    dsimp only at h
    split_ifs at h
    · cases h; rfl
    · cases h; rfl
  constructor
  · unfold Bar.opening
    rw [if_pos hc]
  · unfold Bar.opening Bar.Bar.reset
    dsimp only
    cases b'.showBar <;> simp

/-- **C140, no results.**  If there are no earlier results and none can be written, the second half does not start. -/
theorem C140_nothing (D : Ctor.Dec) (c : Save.CamCalib) (total : Config.Y) (each : List (ℤ × Config.Y)) :
    Tool.Euroc.main D false none c total each = .error .fatal := rfl

section GridFile
open GridFile

/-- **C141, an empty file** is read as a grid without corners: the number 0 is returned and everything is cleared. -/
theorem C141_empty (g : AprilGrid.Grid ℚ) : loadText g [] = .ok (0, { AprilGrid.clear g with init := true }) := rfl

/-- **C141, null pointers.**  A file of the second format that ends after a colon makes the reader use a null pointer. -/
theorem C141_null (g : AprilGrid.Grid ℚ) : loadv2Text g ":".toList = .error .oob ∧ loadv2Text g "timestamp:".toList = .error .oob := by
  have h1 : parseLine "timestamp" ":".toList = .error .oob := by decide
  have h2 : parseLine "timestamp" "timestamp:".toList = .error .oob := by decide
  constructor
  · unfold loadv2Text; rw [h1]; rfl
  · unfold loadv2Text; rw [h2]; rfl

/-- **C141, words for numbers** are read as zero. -/
theorem C141_words : atoi "four".toList = 0 ∧ atol " -".toList = 0 ∧ atoi "".toList = 0 := by decide

end GridFile

section Pnp
open Geom Cam

/-- **C142, unequal numbers** of keypoints and object points end the program. -/
theorem C142_unequal (cv : Pnp.Cv) (kind : Pnp.Kind) (res : Fin 2 → ℤ) (k : Params) (kps : List (ℝ × ℝ)) (objs : List (ℝ × ℝ × ℝ))
    (h : kps.length ≠ objs.length) : Pnp.solvepnp cv kind res k kps objs = .error .fatal := by
  unfold Pnp.solvepnp
  rw [if_pos h]

end Pnp

/-- **C143, the cost** without loss functions is half the sum of the squares of all entries of all residuals, for both solvers. -/
theorem C143_cost_value (tiny : ℝ) (rs : List (List ℝ)) :
    Loss.yacCost (rs.map fun r => ⟨none, r⟩) = (rs.flatten.map fun x => x ^ 2).sum / 2 ∧
    Loss.ceresCost tiny (rs.map fun r => ⟨none, r⟩) = (rs.flatten.map fun x => x ^ 2).sum / 2 := by
  have key : ∀ rs : List (List ℝ), (rs.map fun r => 1 / 2 * Loss.sqNorm r).sum = (rs.flatten.map fun x => x ^ 2).sum / 2 := by
    intro rs
    induction rs with
    | nil => simp
    | cons r rs ih =>
      rw [List.map_cons, List.sum_cons, ih, List.flatten_cons, List.map_append, List.sum_append]
      have : Loss.sqNorm r = (r.map fun x => x ^ 2).sum := by
        unfold Loss.sqNorm
        congr 1
        exact List.map_congr_left (fun x _ => (sq x).symm)
      rw [this]
      ring
  constructor
  · unfold Loss.yacCost
    rw [List.map_map]
    exact key rs
  · unfold Loss.ceresCost
    rw [List.map_map]
    exact key rs

/-- **C143, negative degrees of freedom** are taken for enormous ones. -/
theorem C143_negative (n : ℤ) (h : -2 ^ 63 ≤ n) (hn : n < 0) : (Loss.asSize n : ℤ) = n + 2 ^ 64 := by
  unfold Loss.asSize
  rw [Int.toNat_of_nonneg (Int.emod_nonneg _ (by norm_num))]
  omega

/-- **C144, unknown cameras.**  Asking for the extrinsics of a camera that was not added throws. -/
theorem C144_unknown {K V : Type} (s : Calib.Cal K V) (cam : Int) (h : SMap.find cam s.exts = none) : Calib.getCameraExtrinsics s cam = .error .exn := by
  unfold Calib.getCameraExtrinsics
  rw [h]

/-- **C146, the names** of the parameter classes are those the solvers and the covariance code look for. -/
theorem C146_names (np nd : ℕ) : [Shape.pose, Shape.extrinsics, Shape.fiducial, Shape.corner, Shape.feature, Shape.camera np nd, Shape.speedBias,
    Shape.timeDelay].map Shape.PShape.type =
    ["pose_t", "extrinsics_t", "fiducial_t", "fiducial_corner_t", "feature_t", "camera_params_t", "sb_params_t", "time_delay_t"] := rfl

/-- **C149, missing points.**  A grid with more ids than points reads behind the points. -/
theorem C149_labels_short {K : Type} (radius : Int) : ∀ (ids : List Int) (pts : List (K × K)), pts.length < ids.length →
    Draw.labels radius ids pts = .error .oob
  | [], pts, h => by simp at h
  | _ :: _, [], _ => rfl
  | t :: ts, p :: ps, h => by
    have := C149_labels_short radius ts ps (by simpa using h)
    unfold Draw.labels
    rw [this]

end Yac
