import Verif.Calib.CameraProps

/-!
Concrete calibrators that meet the hypotheses of the theorems in `CameraProps.lean`: two
cameras, a 1 x 1 target, two views of which the second is seen by both cameras.
-/

namespace Yac.Calib.Witness

open Yac.AprilGrid (Grid Op MadeBy)
open Yac.Calib

/-- The value of a computation that succeeds. -/
def val {α : Type} (d : α) : Except Fault α → α
  | .ok a => a
  | .error _ => d

/-- Whether a computation succeeds. -/
def good {α : Type} : Except Fault α → Bool
  | .ok _ => true
  | .error _ => false

theorem val_eq {α : Type} {d : α} {x : Except Fault α} (h : good x = true) : x = .ok (val d x) := by
  cases x with
  | ok a => rfl
  | error e => simp [good] at h

/-- Corner `k` of the only tag, seen at `(z, -z)`. -/
def ops (z : ℚ) : List (Op ℚ) := [.add 0 0 (z, -z), .add 0 2 (z + 1, 4)]

def grid (ts : Int) (z : ℚ) : Grid ℚ := val AprilGrid.default (AprilGrid.run (AprilGrid.new ts 1 1 1 0) (ops z))

theorem grid_made (ts : Int) (z : ℚ) : MadeBy 1 1 (ops z) (grid ts z) := by
  refine ⟨by simp [ops, AprilGrid.Spec.OpValid, AprilGrid.Spec.Valid], ts, 1, 0, val_eq ?_⟩
  rfl

/-- Every pose estimate is 7; information is minus the number of views; the solver sets all
parameters to 99. -/
def env : Env ℚ ℤ where
  estimate _ _ := some 7
  compose a b := a + b
  invert a := -a
  solve _ _ := 99
  info s := some (-(nbViews s : ℚ), 0)
  simGrid _ ts T _ := grid ts T

/-- `env` in which the information cannot be computed. -/
def envBad : Env ℚ ℤ := { env with info := fun _ => none }

def s0 : Cal ℚ ℤ := Cal.new 1 1 (1 / 4)
def s1 : Cal ℚ ℤ := val s0 (addCamera s0 0 10 20 false false)
def s2 : Cal ℚ ℤ := val s0 (addCamera s1 1 11 21 false false)
def s3 : Cal ℚ ℤ := addCameraData s2 0 [grid 5 2, grid 9 3]
def s4 : Cal ℚ ℤ := (val (s0, false) (addView env s3 [(0, grid 5 2)])).1
def s5 : Cal ℚ ℤ := (val (s0, false) (addView env s4 [(0, grid 9 3), (1, grid 9 5)])).1

theorem det1 (ts : Int) (z : ℚ) : Detections 1 1 [((0 : Int), grid ts z)] :=
  ⟨by simp [SMap.Sorted], by
    intro cg h
    simp only [List.mem_singleton] at h
    subst h
    exact ⟨_, grid_made ts z⟩⟩

theorem det2 (ts : Int) (z z' : ℚ) : Detections 1 1 [((0 : Int), grid ts z), ((1 : Int), grid ts z')] :=
  ⟨by simp [SMap.Sorted], by
    intro cg h
    simp only [List.mem_cons, List.not_mem_nil, or_false] at h
    rcases h with h | h <;> subst h
    · exact ⟨_, grid_made ts z⟩
    · exact ⟨_, grid_made ts z'⟩⟩

theorem addView_eq {env : Env ℚ ℤ} {s : Cal ℚ ℤ} {gs : List (Int × Grid ℚ)}
    (h : good (addView env s gs) = true) :
    addView env s gs = .ok ((val (s0, false) (addView env s gs)).1, (val (s0, false) (addView env s gs)).2) :=
  val_eq h

theorem addNbvView_eq {env : Env ℚ ℤ} {s : Cal ℚ ℤ} {gs : List (Int × Grid ℚ)}
    (h : good (addNbvView env s gs) = true) :
    addNbvView env s gs =
      .ok ((val (s0, false) (addNbvView env s gs)).1, (val (s0, false) (addNbvView env s gs)).2) :=
  val_eq h

theorem stamp1 (ts : Int) (z : ℚ) : viewStamp [((0 : Int), grid ts z)] = some ts := rfl
theorem stamp2 (ts : Int) (z z' : ℚ) :
    viewStamp [((0 : Int), grid ts z), ((1 : Int), grid ts z')] = some ts := rfl

theorem fresh {s : Cal ℚ ℤ} {gs : List (Int × Grid ℚ)} {t : Int} (h : viewStamp gs = some t)
    (hv : SMap.find t s.views = none) :
    ∀ ts, viewStamp gs = some ts → SMap.find ts s.views = none := by
  intro ts h'
  rw [h] at h'
  simp only [Option.some.injEq] at h'
  rw [← h']; exact hv

theorem reach3 (env : Env ℚ ℤ) : Reach env s3 :=
  .addCameraData _ _ (.addCamera 1 11 21 false false
    (.addCamera 0 10 20 false false (.new 1 1 _) (val_eq (by decide +kernel))) (val_eq (by decide +kernel)))

theorem none_of {α : Type} {o : Option α} (h : o.isNone = true) : o = none := by
  cases o <;> simp_all

theorem reach4 : Reach env s4 :=
  .addView [(0, grid 5 2)] (reach3 env) (det1 5 2) (fresh (stamp1 5 2) (none_of (by decide +kernel)))
    (addView_eq (by decide +kernel))

theorem reach5 : Reach env s5 :=
  .addView [(0, grid 9 3), (1, grid 9 5)] reach4 (det2 9 3 5)
    (fresh (stamp2 9 3 5) (none_of (by decide +kernel))) (addView_eq (by decide +kernel))

/-- C53 witness: the state of `C53_consistent_partial`, `C53_remove_view`,
`C53_remove_all_views` with two views, two poses, six residuals; the second view's pose is
20 + 7 (camera 0 is not beaten by camera 1, which saw as many corners). -/
example : Reach env s5 ∧ s5.viewTs = [5, 9] ∧ s5.poses.map (fun p => (p.1, p.2.val)) = [(5, 27), (9, 27)] ∧
    (problemResiduals s5).length = 6 ∧ problemParams s5 =
      [.cam 0, .ext 0, .cam 1, .ext 1, .pose 0, .pose 3] := by
  refine ⟨reach5, ?_⟩
  decide +kernel

/-- C53 witness: the hypotheses of `C53_add_view`, `C53_add_view_ok` and `C72_initial_pose`. -/
example : Reach env s4 ∧ Detections s4.rows s4.cols [((0 : Int), grid 9 3), ((1 : Int), grid 9 5)] ∧
    SMap.find 9 s4.views = none ∧ (∀ cg ∈ [((0 : Int), grid 9 3), ((1 : Int), grid 9 5)],
      (SMap.find cg.1 s4.params).isSome = true) ∧
    good (addView env s4 [(0, grid 9 3), (1, grid 9 5)]) = true :=
  ⟨reach4, det2 9 3 5, none_of (by decide +kernel), by decide +kernel, by decide +kernel⟩

/-- C53 witness: the second `add_view` with the timestamp of a present view succeeds
(`C53_duplicate_refuted` is not empty). -/
example : (SMap.find 9 s5.views).isSome = true ∧ good (addView env s5 [(0, grid 9 3)]) = true ∧
    (val (s0, false) (addView env s5 [(0, grid 9 3)])).1.viewTs = [5, 9, 9] := by decide +kernel

/-- C53 witness: marginalisation succeeds on `s5`; afterwards `remove_all_views` is fatal. -/
def s6 : Cal ℚ ℤ := val s0 (marginalize s5)

theorem reach6 : Reach env s6 := .marginalize reach5 (val_eq (by decide +kernel))

example : good (marginalize s5) = true ∧ s6.marg.isSome = true ∧ s6.viewTs = [9] ∧
    good (removeAllViews s6) = false ∧ good (removeAllViews s5) = true := by decide +kernel

/-- C52 witness: a view is accepted (gain 1/2 * (0 + 2) = 1 against 1/4) and a view is
rejected. -/
example : Reach env s4 ∧ Detections s4.rows s4.cols [((0 : Int), grid 9 3), ((1 : Int), grid 9 5)] ∧
    (∀ ts, viewStamp [((0 : Int), grid 9 3), ((1 : Int), grid 9 5)] = some ts → SMap.find ts s4.views = none) ∧
    (val (s0, false) (addNbvView env s4 [(0, grid 9 3), (1, grid 9 5)])).2 = true ∧
    good (addNbvView envBad s4 [(0, grid 9 3), (1, grid 9 5)]) = true ∧
    (val (s0, true) (addNbvView envBad s4 [(0, grid 9 3), (1, grid 9 5)])).2 = false :=
  ⟨reach4, det2 9 3 5, fresh (stamp2 9 3 5) (none_of (by decide +kernel)), by decide +kernel,
    by decide +kernel, by decide +kernel⟩

/-- C52 witness: a rejected call with a present timestamp (`C52_present_view_refuted`):
the view was there before and is gone afterwards. -/
example : (SMap.find 9 s5.views).isSome = true ∧
    good (addNbvView envBad s5 [(0, grid 9 3)]) = true ∧
    (val (s0, true) (addNbvView envBad s5 [(0, grid 9 3)])).2 = false ∧
    (SMap.find 9 (val (s0, true) (addNbvView envBad s5 [(0, grid 9 3)])).1.views).isSome = false := by
  decide +kernel

/-- Corner 2 cannot be evaluated; the residual of corner 0 is its x coordinate minus 10. -/
def resid (r : Reproj ℚ) : Option (ℚ × ℚ) := if r.corner = 2 then none else some (r.z.1 - 10, 0)

def v9 : View ℚ := (SMap.find 9 s5.views).getD ⟨0, [], 0, []⟩

/-- C51 witness: residuals -7 and -5 exceed the threshold 1 in magnitude and stay
(`C51_magnitude_refuted`). -/
example : SMap.find 9 s5.views = some v9 ∧ (v9.all.map resid) = [some (-7, 0), none, some (-5, 0), none] ∧
    (val (v9, s5.solver, 77) (View.filter resid (camIdxs s5) (1, 1) v9 s5.solver)).2.2 = 0 := by
  refine ⟨?_, ?_⟩
  · have : (SMap.find 9 s5.views).isSome = true := by decide +kernel
    unfold v9
    cases h : SMap.find 9 s5.views with
    | none => rw [h] at this; simp at this
    | some v => rfl
  · decide +kernel

/-- The residuals of camera 0 are 5, those of camera 1 are 8. -/
def resid2 (r : Reproj ℚ) : Option (ℚ × ℚ) := some (if r.cam = 0 then (5, 0) else (8, 0))

/-- C51 witness: with thresholds 6 for camera 0 and 1 for camera 1 all four corners go,
although those of camera 0 are within their threshold (`C51_per_camera_refuted`); with
threshold 6 for both, two go (`C51_filter_partial`, `C51_thresholds`, `C51_filter_all`). -/
example : (val (v9, s5.solver, 77) (View.filterAll resid2 (camIdxs s5) [(0, 6, 1), (1, 1, 1)] v9 s5.solver)).2.2 = 4 ∧
    (val (v9, s5.solver, 77) (View.filter resid2 (camIdxs s5) (6, 1) v9 s5.solver)).2.2 = 2 ∧
    (val (s0, 77) (filterAllViews resid2 (fun _ => (6, 1)) s5)).2 = 2 := by decide +kernel

theorem simOK : SimOK env 1 1 := fun _ ts T _ => ⟨⟨_, grid_made ts T⟩, rfl⟩

def nbv : Cal ℚ ℤ × Option (NbvResult ℚ) := val (s0, none) (findNbv env s5 [(0, [1, 2]), (1, [3])])

/-- C54/C71 witness: two cameras with three candidates. -/
example : good (findNbv env s5 [(0, [1, 2]), (1, [3])]) = true ∧ s5.timestamps.getLast? = some 9 ∧
    SMap.find 10 s5.views = none ∧ SimOK env s5.rows s5.cols ∧
    nbv.2 = some ⟨0, 0, 0, -3, -2, 1 / 2⟩ :=
  ⟨by decide +kernel, by decide +kernel, none_of (by decide +kernel), simOK, by decide +kernel⟩

/-- C71 is false for the recorded detections: `find_nbv` files the first simulated view
under the timestamp after the last. -/
theorem C71_recorded_data_refuted : Reach env s5 ∧ SimOK env s5.rows s5.cols ∧
    (SMap.find 10 s5.data).isSome = false ∧ (SMap.find 10 nbv.1.data).isSome = true :=
  ⟨reach5, simOK, by decide +kernel, by decide +kernel⟩

/-- C54 witness: scores, all positive: candidate 0 of camera 0 is reported although its score
is the largest (`C54_nonnegative_refuted`); with negative ones the minimum
(`C54_find_nbv_fast_partial`). -/
example : val none (findNbvFast env (fun T => (9 - T : ℚ)) s5 [(0, [1, 2]), (1, [3])]) =
      some ⟨-2, 0, 0, 0, -2, -1⟩ ∧
    val none (findNbvFast env (fun T => (-T : ℚ)) s5 [(0, [1, 2]), (1, [3])]) =
      some ⟨0, 1, 0, -3, -2, 1 / 2⟩ := by decide +kernel

/-- C73 witness: the last of two grids with one timestamp stays. -/
example : ((SMap.find 5 (addCameraData s4 0 [grid 5 1, grid 5 8]).data).bind (SMap.find 0)) =
    some (grid 5 8) := by decide +kernel

/-- C73 witness, several cameras. -/
example : SMap.Sorted [((0 : Int), [grid 5 1]), (1, [grid 5 8])] ∧
    ((SMap.find 5 (addCamerasData s4 [(0, [grid 5 1]), (1, [grid 5 8])]).data).bind (SMap.find 1)) =
    some (grid 5 8) := ⟨by simp [SMap.Sorted], by decide +kernel⟩

/-- C55 witness: camera 1's older image keeps the calibrator from being ready; images that
arrive in order; a late image is processed together with a newer one. -/
example : addMeasurement [(0, 5), (1, 4)] 5 0 = ([(0, 5), (1, 4)], false) ∧
    addMeasurement [(0, 5), (1, 4)] 5 1 = ([(0, 5), (1, 5)], true) ∧
    addMeasurement [(0, 5), (1, 4)] 3 1 = ([(0, 5), (1, 3)], true) := by decide +kernel

end Yac.Calib.Witness
