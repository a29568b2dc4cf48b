import Verif.Save.CamWitness

/-! C128, C129: the saved files say which poses were fixed. -/

namespace Yac.Save
open Yac.Config Yac.Text Yac.Ctor

/-- The text of the entry `fixed` of a node. -/
def fixedOf : Y → Option (List Char)
  | .map es => match lookup es "fixed".toList with
    | some (.scalar t) => some t
    | _ => none
  | _ => none

/-- C128: the extrinsics of a camera are saved with the flag that says whether they were fixed. -/
theorem C128_fixed {c : CamCalib} {total : Y} {each : List (ℤ × Y)} {f g : Bool} {T0 T : M4}
    (h0 : SMap.find 0 c.exts = some (f, T0)) (n : ℕ) (hn : n ≠ 0) (h : SMap.find (n : ℤ) c.exts = some (g, T)) :
    ∃ es v, saveCam c total each = .ok (.map es) ∧ lookup es (extName n) = some v ∧ fixedOf v = some (boolText g) := by
  refine ⟨_, poseNode' g (T0⁻¹ * T), saveCam_eq h0, ?_, ?_⟩
  · rw [camDoc_ext, if_neg hn, h]; rfl
  · rfl

/-- C128 witness: camera 2 of a rig is not fixed. -/
example : ∃ T0 T, SMap.find 0 stereo.exts = some (true, T0) ∧ SMap.find ((2 : ℕ) : ℤ) stereo.exts = some (false, T) := ⟨_, _, rfl, rfl⟩

/-- C129: so are the two poses of a motion capture calibration. -/
theorem C129_fixed (c : MocapCalib) (total poses : Y) :
    ∃ es v w, saveMocap c total poses = .map es ∧ lookup es "T_mocap_camera".toList = some v ∧
      lookup es "T_world_fiducial".toList = some w ∧ fixedOf v = some (boolText c.extFixed) ∧
      fixedOf w = some (boolText c.fiducialFixed) :=
  ⟨_, _, _, rfl, rfl, rfl, rfl, rfl⟩

end Yac.Save
