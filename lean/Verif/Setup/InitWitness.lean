import Verif.Setup.InitExt
import Verif.Calib.CameraWitness

/-!
# C99: two cameras and three frames; user-fixed extrinsics are overwritten
-/

namespace Yac.Setup.InitWitness

open Yac.AprilGrid (Grid)
open Yac.Calib Yac.Calib.Witness
open Yac.Geom (Mat4)

/-- Parameters are rational numbers: the x coordinate of a transform.  A grid's pose is the x
coordinate of its first corner; the solver adds 1/10 to intrinsics for each measurement, and leaves
extrinsics where they start. -/
def ienv : InitEnv ℚ ℚ where
  estimate g _ := match g.data with
    | [] => none
    | r :: _ => some (fun i j => if i = j then 1 else if i = 0 ∧ j = 3 then r.kx else 0)
  tf v := fun i j => if i = j then 1 else if i = 0 ∧ j = 3 then v else 0
  ofTf T := T 0 3
  optIntr prob i := ((prob.intr i).map CamP.val).getD 0 + (prob.obs.filter (fun o => o.cam = i)).length / 10
  optExt prob i := ((prob.ext i).map CamP.val).getD 0

/-- Cameras 0 and 1; the extrinsics of camera 1 are 5 and fixed, its intrinsics are fixed. -/
def c1 : Cal ℚ ℚ := val (Cal.new 1 1 (1 / 4)) (addCamera (Cal.new 1 1 (1 / 4)) 0 10 20 false false)
def c2 : Cal ℚ ℚ := val (Cal.new 1 1 (1 / 4)) (addCamera c1 1 11 5 true true)
def c3 : Cal ℚ ℚ := addCameraData (addCameraData c2 0 [grid 5 2, grid 9 3]) 1 [grid 9 (-4), grid 12 1]

def done : Cal ℚ ℚ := val c3 (initialise ienv 10 false c3)

theorem cams : Cameras c3 := by
  constructor
  · decide +kernel
  · intro i p h
    have hm := SMap.mem_of_find h
    have : (i, p) ∈ [((0 : Int), (⟨10, false⟩ : CamP ℚ)), (1, ⟨11, true⟩)] := by
      have e : c3.params = [((0 : Int), (⟨10, false⟩ : CamP ℚ)), (1, ⟨11, true⟩)] := by decide +kernel
      rwa [e] at hm
    simp only [List.mem_cons, List.not_mem_nil, or_false, Prod.mk.injEq] at this
    rcases this with ⟨rfl, _⟩ | ⟨rfl, _⟩
    · exact ⟨⟨20, true⟩, by decide +kernel⟩
    · exact ⟨⟨5, true⟩, by decide +kernel⟩

theorem runs : initialise ienv 10 false c3 = .ok done := val_eq (by decide +kernel)

/-- **C99 refuted.**  Extrinsics of camera 1 that the user fixed at 5 come out of the initialisation
changed, and not fixed. -/
theorem C99_fixed_extrinsics_refuted :
    ∃ (env : InitEnv ℚ ℚ) (s s' : Cal ℚ ℚ), Cameras s ∧ initialise env 10 false s = .ok s' ∧
      SMap.find 1 s.exts = some ⟨5, true⟩ ∧ SMap.find 1 s'.exts = some ⟨7, false⟩ := by
  refine ⟨ienv, c3, done, cams, runs, ?_, ?_⟩ <;> decide +kernel

/-- Intrinsics: camera 0 moved, camera 1 is fixed; camera 0 is the origin. -/
example : SMap.find 0 done.params = some ⟨108 / 10, false⟩ ∧ SMap.find 1 done.params = some ⟨11, true⟩ ∧
    SMap.find 0 done.exts = some ⟨0, true⟩ := by
  refine ⟨?_, ?_, ?_⟩ <;> decide +kernel

/-- `C99_frames` applies: all three frames are used. -/
example : ∃ out, calibInitialize ienv c3.rows c3.cols c3.params c3.exts c3.data = .ok out ∧
    SMap.find (-1) c3.params = none ∧
    c3.data.map Prod.fst = [5, 9, 12] :=
  ⟨_, val_eq (d := ([], [])) (by decide +kernel), by decide +kernel, by decide +kernel⟩

/-- `C99_independent` applies. -/
example : ∃ s', initIntrinsics ienv c3 = .ok s' ∧ SMap.find 0 s'.params = some ⟨104 / 10, false⟩ :=
  ⟨_, val_eq (d := c3) (by decide +kernel), by decide +kernel⟩

/-- `C99_bad_frame_refuted` applies to a pose estimator that fails on some grids. -/
example : ({ ienv with estimate := fun g p => if g.timestamp = 9 then none else ienv.estimate g p } :
    InitEnv ℚ ℚ).estimate (grid 9 3) 10 = none ∧ (grid 9 3).detected = true ∧ 0 < (grid 9 3).nbDetections := by
  refine ⟨?_, ?_, ?_⟩ <;> decide +kernel

/-- Camera 2 that shares no frame with camera 0, only with camera 1: the initialisation fails. -/
example : good (initialise ienv 10 false (addCameraData (addCameraData
    (val c3 (addCamera c3 2 12 0 false false)) 1 [grid 20 1]) 2 [grid 20 4])) = false := by
  decide +kernel

end Yac.Setup.InitWitness
