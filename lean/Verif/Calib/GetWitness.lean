import Verif.Calib.GetProps
import Verif.Calib.CameraWitness

/-! Cases that meet the hypotheses of the theorems in `GetProps.lean`. -/

namespace Yac.Calib.Witness
open Yac.AprilGrid (Grid)
open Yac.Calib

theorem getReach : Reach env s2 :=
  .addCamera 1 11 21 false false
    (.addCamera 0 10 20 false false (.new 1 1 _) (val_eq (by decide +kernel))) (val_eq (by decide +kernel))

/-- C144 witness: `C144_data`: two calls for camera 0 and one for camera 1; the grid handed over again replaces the first, and
the later time comes last. -/
example : s2.data = [] ∧ s2.timestamps = [] ∧
    getCameraData (addCamerasData s2 [(0, [grid 9 3, grid 5 2]), (1, [grid 5 7]), (0, [grid 9 4])]) 0 = [grid 5 2, grid 9 4] ∧
    getCameraData (addCamerasData s2 [(0, [grid 9 3, grid 5 2]), (1, [grid 5 7]), (0, [grid 9 4])]) 1 = [grid 5 7] ∧
    latest (handed [(0, [grid 9 3, grid 5 2]), (1, [grid 5 7]), (0, [grid 9 4])]) 0 9 = some (grid 9 4) := by decide +kernel

/-- C144 witness: `C144_view_refuted`. -/
example : Reach env s2 ∧ s2.timestamps = [] ∧ Detections s2.rows s2.cols [((0 : Int), grid 5 2)] ∧
    SMap.find 5 s2.views = none ∧ (val (s0, false) (addView env s2 [(0, grid 5 2)])).2 = true ∧
    getCameraData (val (s0, false) (addView env s2 [(0, grid 5 2)])).1 0 = [] :=
  ⟨getReach, by decide +kernel, det1 5 2, none_of (by decide +kernel), by decide +kernel, by decide +kernel⟩

/-- The time of the last view, if there is one. -/
def getLastTs (s : Cal ℚ ℤ) : Option Int := (val none (getLastView s)).map View.ts

/-- C144 witness: `C144_last_added` and `C144_last_removed`: the last of two views, and the first once it is gone. -/
example : Reach env s4 ∧ Detections s4.rows s4.cols [((0 : Int), grid 9 3), ((1 : Int), grid 9 5)] ∧
    SMap.find 9 s4.views = none ∧ (val (s0, false) (addView env s4 [(0, grid 9 3), (1, grid 9 5)])).2 = true ∧
    good (removeView s5 9) = true ∧ getLastTs s5 = some 9 ∧ getLastTs (val s0 (removeView s5 9)) = some 5 ∧ getLastTs s4 = some 5 :=
  ⟨reach4, det2 9 3 5, none_of (by decide +kernel), by decide +kernel, by decide +kernel, by decide +kernel, by decide +kernel,
    by decide +kernel⟩

/-- C144 witness: no view, no last view. -/
example : good (getLastView s3) = false := by decide +kernel

/-- C144 witness: the parameters and extrinsics of both cameras, and of one that was never added. -/
example : val 0 (getCameraParams s2 0) = 10 ∧ val 0 (getCameraParams s2 1) = 11 ∧ val 0 (getCameraExtrinsics s2 1) = 21 ∧
    good (getCameraParams s2 2) = false := by decide +kernel

end Yac.Calib.Witness
