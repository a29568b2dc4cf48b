import Verif.Calib.OutlierProps
import Verif.Calib.CameraWitness

/-!
Concrete calibrations for C80: `Witness.s3` (two cameras, camera 0 saw the target at 5 and
at 9) with the views 5 and 9.
-/

namespace Yac.Calib.Witness

open Yac.Calib
open Yac.AprilGrid (Grid)

/-- `env`; the short solves set all parameters to 98, the last one to 97; corner 2 has
residual 5, corner 0 residual 0, and the threshold is 1. -/
def lenv : LoopEnv ℚ ℤ where
  toEnv := env
  few _ _ := 98
  final _ _ := 97
  resid _ r := some (if r.corner = 2 then 5 else 0, 0)
  thresh _ := (1, 1)
  moved a b := (a - b, b)

/-- The information does not depend on the views. -/
def lenvFlat : LoopEnv ℚ ℤ := { lenv with info := fun _ => some (0, 0) }

/-- The information cannot be computed. -/
def lenvBad : LoopEnv ℚ ℤ := { lenv with info := fun _ => none }

/-- A pose needs two corners. -/
def lenvTwo : LoopEnv ℚ ℤ :=
  { lenv with estimate := fun g _ => if g.nbDetections < 2 then none else some 7 }

def t0 : Sess ℚ ℤ := ⟨s3, [], true, [], []⟩
def t1 (L : LoopEnv ℚ ℤ) : Sess ℚ ℤ :=
  { t0 with cal := (val (s0, false) (addView L.toEnv s3 ((SMap.find 9 s3.data).getD []))).1 }
def t2 (L : LoopEnv ℚ ℤ) : Sess ℚ ℤ :=
  { t0 with cal := (val (s0, false)
      (addView L.toEnv (t1 L).cal ((SMap.find 5 (t1 L).cal.data).getD []))).1 }

theorem loaded3 : Loaded s3 :=
  .addCameraData _ _ (.addCamera 1 11 21 false false
    (.addCamera 0 10 20 false false (.new 1 1 _) (val_eq (by decide +kernel))) (val_eq (by decide +kernel)))
    (by
      intro g hg
      simp only [List.mem_cons, List.not_mem_nil, or_false] at hg
      rcases hg with rfl | rfl
      · exact ⟨_, grid_made 5 2⟩
      · exact ⟨_, grid_made 9 3⟩)

theorem ran2 (L : LoopEnv ℚ ℤ)
    (g1 : good (addView L.toEnv s3 ((SMap.find 9 s3.data).getD [])) = true)
    (g2 : good (addView L.toEnv (t1 L).cal ((SMap.find 5 (t1 L).cal.data).getD [])) = true)
    (h1 : (SMap.find 9 s3.views).isNone = true) (h2 : (SMap.find 5 (t1 L).cal.views).isNone = true) :
    Ran L (t2 L) :=
  .addFrame (s := t1 L) 5 (.addFrame (s := t0) 9 (.loaded loaded3) (none_of h1) (addView_eq g1))
    (none_of h2) (addView_eq g2)

theorem ranA : Ran lenv (t2 lenv) :=
  ran2 lenv (by decide +kernel) (by decide +kernel) (by decide +kernel) (by decide +kernel)
theorem ranFlat : Ran lenvFlat (t2 lenvFlat) :=
  ran2 lenvFlat (by decide +kernel) (by decide +kernel) (by decide +kernel) (by decide +kernel)
theorem ranBad : Ran lenvBad (t2 lenvBad) :=
  ran2 lenvBad (by decide +kernel) (by decide +kernel) (by decide +kernel) (by decide +kernel)
theorem ranTwo : Ran lenvTwo (t2 lenvTwo) :=
  ran2 lenvTwo (by decide +kernel) (by decide +kernel) (by decide +kernel) (by decide +kernel)

/-- C80 witness (`C80_sound`, `C80_remove_outliers`, `C80_frame_partial`): all views are
visited, latest first, one outlier is removed from each, both are kept, and the
parameters are what they were. -/
example : (∀ a, (lenv.info a).isSome = true) ∧ Ran lenv (t2 lenv) ∧
    toVisit (t2 lenv) true = [9, 5] ∧
    good (removeOutliers lenv (t2 lenv) true) = true ∧
    (val (t0, 0) (removeOutliers lenv (t2 lenv) true)).2 = 2 ∧
    (val (t0, 0) (removeOutliers lenv (t2 lenv) true)).1.cal.removedOutliers = 2 ∧
    (problemResiduals (t2 lenv).cal).length = 4 ∧
    (problemResiduals (val (t0, 0) (removeOutliers lenv (t2 lenv) true)).1.cal).length = 2 ∧
    (val (t0, 0) (removeOutliers lenv (t2 lenv) true)).1.cal.params = (t2 lenv).cal.params ∧
    (val (t0, 0) (removeOutliers lenv (t2 lenv) true)).1.cal.infoK = -2 :=
  ⟨fun _ => rfl, ranA, by decide +kernel, by decide +kernel, by decide +kernel, by decide +kernel,
    by decide +kernel, by decide +kernel, by decide +kernel, by decide +kernel⟩

/-- C80 witness: views without information are dropped, and their outliers are not counted. -/
example : Ran lenvFlat (t2 lenvFlat) ∧
    (val (t0, 7) (removeOutliers lenvFlat (t2 lenvFlat) true)).2 = 0 ∧
    nbViews (val (t0, 0) (removeOutliers lenvFlat (t2 lenvFlat) true)).1.cal = 0 :=
  ⟨ranFlat, by decide +kernel, by decide +kernel⟩

/-- C80 witness (`C80_last_refuted`): view 5 was added after view 9 and holds an outlier, and
the call that follows filters view 9. -/
example : Ran lenv (t2 lenv) ∧ (t2 lenv).cal.viewTs = [9, 5] ∧
    good (removeOutliers lenv (t2 lenv) false) = true ∧
    ((SMap.find 5 (val (t0, 7) (removeOutliers lenv (t2 lenv) false)).1.cal.views).map
      (fun v => (v.camKeys 0).length)) = some 2 ∧
    ((SMap.find 9 (val (t0, 7) (removeOutliers lenv (t2 lenv) false)).1.cal.views).map
      (fun v => (v.camKeys 0).length)) = some 1 ∧
    (val (t0, 7) (removeOutliers lenv (t2 lenv) false)).1.filtered = [9] :=
  ⟨ranA, by decide +kernel, by decide +kernel, by decide +kernel, by decide +kernel,
    by decide +kernel⟩

/-- C80 witness (`C80_again_refuted`): a second call does nothing. -/
example : (val (t0, 7) (removeOutliers lenv
      (val (t0, 7) (removeOutliers lenv (t2 lenv) false)).1 false)).2 = 0 ∧
    ((val (t0, 7) (removeOutliers lenv (t2 lenv) false)).1.cal.views.getLast?.map Prod.fst) = some 9 := by
  decide +kernel

/-- C80 is false when the information cannot be computed: the parameters keep the values of
the trial solve, and the outliers removed on the way are not counted. -/
theorem C80_estimates_refuted : Ran lenvBad (t2 lenvBad) ∧
    (SMap.find 0 (t2 lenvBad).cal.params).map CamP.val = some 10 ∧
    ((SMap.find 0 (val (t0, 7) (removeOutliers lenvBad (t2 lenvBad) true)).1.cal.params).map
      CamP.val) = some 98 ∧
    (problemResiduals (t2 lenvBad).cal).length = 4 ∧
    (problemResiduals (val (t0, 7) (removeOutliers lenvBad (t2 lenvBad) true)).1.cal).length = 2 ∧
    (val (t0, 7) (removeOutliers lenvBad (t2 lenvBad) true)).2 = 0 :=
  ⟨ranBad, by decide +kernel, by decide +kernel, by decide +kernel, by decide +kernel,
    by decide +kernel⟩

/-- Whether a computation ends in a fatal error. -/
def fatal {α : Type} : Except Fault α → Bool
  | .error .fatal => true
  | _ => false

/-- C80 is false when too few corners are left to estimate a pose: a calibration whose views
could all be added dies while an outlier is removed. -/
theorem C80_abort_refuted : Ran lenvTwo (t2 lenvTwo) ∧ nbViews (t2 lenvTwo).cal = 2 ∧
    fatal (removeOutliers lenvTwo (t2 lenvTwo) true) = true :=
  ⟨ranTwo, by decide +kernel, by decide +kernel⟩

/-- All corners of camera 0 are outliers. -/
def lenvAll : LoopEnv ℚ ℤ := { lenv with resid := fun _ _ => some (5, 0) }

theorem ranAll : Ran lenvAll (t2 lenvAll) :=
  ran2 lenvAll (by decide +kernel) (by decide +kernel) (by decide +kernel) (by decide +kernel)

/-- C80 is false for the views that are kept: a view whose information is worth keeping but
which consists of outliers is neither kept nor counted as dropped (`Visits` with 0 dropped
views). -/
theorem C80_vanish_refuted : Ran lenvAll (t2 lenvAll) ∧ nbViews (t2 lenvAll).cal = 2 ∧
    ((val ((t2 lenvAll).cal, 7, 7) ([9, 5].foldlM (outlierStep lenvAll) ((t2 lenvAll).cal, 0, 0))).2 = (0, 4)) ∧
    nbViews (val ((t2 lenvAll).cal, 7, 7)
      ([9, 5].foldlM (outlierStep lenvAll) ((t2 lenvAll).cal, 0, 0))).1 = 0 :=
  ⟨ranAll, by decide +kernel, by decide +kernel, by decide +kernel⟩

end Yac.Calib.Witness
