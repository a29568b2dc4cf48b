import Verif.Calib.BatchProps
import Verif.Calib.OutlierWitness
import Verif.Calib.LoopMore

/-!
Concrete calibrations for C81 and C82: one camera and frames 1 to 5; frame 3 has two corners,
the others one.
-/

namespace Yac.Calib.Witness

open Yac.Calib
open Yac.AprilGrid (Grid Op MadeBy)

def ops1 (z : ℚ) : List (Op ℚ) := [.add 0 0 (z, -z)]

def grid1 (ts : Int) (z : ℚ) : Grid ℚ :=
  val AprilGrid.default (AprilGrid.run (AprilGrid.new ts 1 1 1 0) (ops1 z))

theorem grid1_made (ts : Int) (z : ℚ) : MadeBy 1 1 (ops1 z) (grid1 ts z) := by
  refine ⟨by simp [ops1, AprilGrid.Spec.OpValid, AprilGrid.Spec.Valid], ts, 1, 0, val_eq ?_⟩
  rfl

def q : Cal ℚ ℤ := addCameraData s1 0 [grid1 1 1, grid1 2 2, grid 3 3, grid1 4 4, grid1 5 5]

theorem loadedQ : Loaded q :=
  .addCameraData _ _ (.addCamera 0 10 20 false false (.new 1 1 _) (val_eq (by decide +kernel))) (by
    intro g hg
    simp only [List.mem_cons, List.not_mem_nil, or_false] at hg
    rcases hg with rfl | rfl | rfl | rfl | rfl
    · exact ⟨_, grid1_made 1 1⟩
    · exact ⟨_, grid1_made 2 2⟩
    · exact ⟨_, grid_made 3 3⟩
    · exact ⟨_, grid1_made 4 4⟩
    · exact ⟨_, grid1_made 5 5⟩)

/-- The estimated pose is the timestamp. -/
def menv : LoopEnv ℚ ℤ := { lenv with estimate := fun g _ => some g.timestamp }

/-- ... except that frame 1 has none. -/
def menv1 : LoopEnv ℚ ℤ :=
  { lenv with estimate := fun g _ => if g.timestamp = 1 then none else some g.timestamp }

/-- ... except that there are none at all. -/
def menv0 : LoopEnv ℚ ℤ := { lenv with estimate := fun _ _ => none }

def opts : Opts := ⟨false, 2, true, 2, true, 0⟩

/-- C81 witness (`C81_order_partial`, `C81_ends_refuted`): frames 1 and 5 are left out, frame
3 with its two corners comes first. -/
example : Loaded q ∧ nbvStamps menv q = .ok [3, 2, 4] := ⟨loadedQ, by decide +kernel⟩

/-- C81 is false for the order: the counts of corners are those of all frames, the poses
those of the frames that have one.  Without a pose for frame 1, frame 4 with one corner is
tried before frame 3 with two. -/
theorem C81_tags_refuted : Loaded q ∧ nbvStamps menv1 q = .ok [4, 3] ∧
    ((SMap.find 4 q.data).map frameTags, (SMap.find 3 q.data).map frameTags) = (some 1, some 2) :=
  ⟨loadedQ, by decide +kernel, by decide +kernel⟩

/-- C81 witness (`C81_empty_refuted`): no poses. -/
example : Loaded q ∧ posed menv0 q q.data = [] ∧
    (∀ tg ∈ q.data, ∃ o, framePose menv0 q tg.2 = .ok o) := by
  refine ⟨loadedQ, by decide +kernel, ?_⟩
  have : ∀ tg ∈ q.data, framePose menv0 q tg.2 = .ok none := by decide +kernel
  exact fun tg h => ⟨_, this tg h⟩

/-- C81 witness (`C81_history`, `C81_window`): all three frames are accepted, and two views
are left. -/
example : Loaded q ∧ good (solveNbv menv opts id ⟨q, [], true, [], []⟩) = true ∧
    (val t0 (solveNbv menv opts id ⟨q, [], true, [], []⟩)).stamps = [3, 2, 4] ∧
    ((val t0 (solveNbv menv opts id ⟨q, [], true, [], []⟩)).hist.map (fun x => (x.1, x.2.accepted))) =
      [(2, true), (3, true), (4, true)] ∧
    nbViews (val t0 (solveNbv menv opts id ⟨q, [], true, [], []⟩)).cal = 2 :=
  ⟨loadedQ, by decide +kernel, by decide +kernel, by decide +kernel, by decide +kernel⟩

/-- C81 witness (`C81_filter`, `C81_track`): a first frame is accepted, and outliers are removed as soon
as there is one view. -/
example : good (nbvStep menv { opts with nbvFilter := true, minViews := 1 } ⟨q, [], true, [], []⟩ 0 3) = true ∧
    (val (t0, 0) (nbvStep menv { opts with nbvFilter := true, minViews := 1 } ⟨q, [], true, [], []⟩ 0 3)).1.filterAll
      = false ∧
    (val (t0, 0) (nbvStep menv { opts with nbvFilter := true, minViews := 2 } ⟨q, [], true, [], []⟩ 0 3)).1.filterAll
      = true :=
  ⟨by decide +kernel, by decide +kernel, by decide +kernel⟩

/-- C81 witness (`C81_pose`): camera 0 gives no pose for frame 1; frame 3 has one, moved by the
extrinsics. -/
example : framePose menv1 q [(0, grid1 1 1)] = .ok none ∧ framePose menv1 q [(0, grid1 1 1), (0, grid 3 3)] =
    .ok (some 23) := ⟨by decide +kernel, by decide +kernel⟩

/-- The information is that of one view, however many there are. -/
def menvOne : LoopEnv ℚ ℤ := { menv with info := fun s => some (if nbViews s = 0 then 0 else -1, 0) }

/-- C81 witness: the second view is rejected, and the loop stops (`staleAfter` is 1 > 0). -/
example : Loaded q ∧
    (val t0 (solveNbv menvOne opts id ⟨q, [], true, [], []⟩)).stamps = [3, 2] ∧
    ((val t0 (solveNbv menvOne opts id ⟨q, [], true, [], []⟩)).hist.map (fun x => (x.1, x.2.accepted))) =
      [(2, false), (3, true)] ∧
    (val t0 (solveNbv menvOne opts id ⟨q, [], true, [], []⟩)).cal.infoK = -1 ∧
    staleAfter 0 [true, false] = 1 :=
  ⟨loadedQ, by decide +kernel, by decide +kernel, by decide +kernel, by decide +kernel⟩

/-- C81 is false for the number of removed outliers: two were removed and counted, and the
last step of the calibration sets the count to what it removes itself. -/
theorem C81_removed_refuted :
    Ran lenv (val (t0, 0) (removeOutliers lenv (t2 lenv) true)).1 ∧
    (val (t0, 0) (removeOutliers lenv (t2 lenv) true)).1.cal.removedOutliers = 2 ∧
    (val t0 (nbvFinish lenv (val (t0, 0) (removeOutliers lenv (t2 lenv) true)).1)).cal.removedOutliers = 0 :=
  ⟨.removeOutliers (s := t2 lenv) (n := (val (t0, 0) (removeOutliers lenv (t2 lenv) true)).2) true ranA
      (val_eq (by decide +kernel)),
    by decide +kernel, by decide +kernel⟩

/-- C82 witness (`C82_batch`, `C82_batch_ok`, `C82_twice_refuted`). -/
example : Loaded q ∧ good (solveBatch menv q) = true ∧
    (val s0 (solveBatch menv q)).views.map Prod.fst = [1, 2, 3, 4, 5] ∧
    (problemResiduals (val s0 (solveBatch menv q))).length = 6 ∧
    good (solveBatch menv (val s0 (solveBatch menv q))) = true ∧
    (∀ tg ∈ q.data, ∀ cg ∈ tg.2, (SMap.find cg.1 q.params).isSome = true) ∧ seen q = [1, 2, 3, 4, 5] :=
  ⟨loadedQ, by decide +kernel, by decide +kernel, by decide +kernel, by decide +kernel,
    by decide +kernel, by decide +kernel⟩

/-- C82 witness (`C82_incremental`): window 3, the last two frames are left. -/
example : Loaded q ∧ good (solveInc menv { opts with window := 3 } q) = true ∧
    (val s0 (solveInc menv { opts with window := 3 } q)).views.map Prod.fst = [4, 5] ∧
    (SMap.find 0 (val s0 (solveInc menv { opts with window := 3 } q)).params).map CamP.val = some 99 :=
  ⟨loadedQ, by decide +kernel, by decide +kernel, by decide +kernel⟩

/-- C82 witness (`C82_unsolved_refuted`): window 10. -/
example : Loaded q ∧ ((seen q).length : Int) < 10 ∧
    good (solveInc menv { opts with window := 10 } q) = true ∧
    (SMap.find 0 (val s0 (solveInc menv { opts with window := 10 } q)).params).map CamP.val = some 10 :=
  ⟨loadedQ, by decide +kernel, by decide +kernel, by decide +kernel⟩

/-- A calibrator whose camera and extrinsics are fixed. -/
def qf : Cal ℚ ℤ := addCameraData (val s0 (addCamera s0 0 10 20 true true)) 0 [grid 1 1, grid 2 2]

/-- C82 is false when all cameras are fixed: there is nothing a view could be marginalised
onto, and incremental calibration is aborted at the first full window. -/
theorem C82_fixed_refuted : Loaded qf ∧ fatal (solveInc menv { opts with window := 1 } qf) = true := by
  refine ⟨.addCameraData _ _ (.addCamera 0 10 20 true true (.new 1 1 _) (val_eq (by decide +kernel))) ?_,
    by decide +kernel⟩
  intro g hg
  simp only [List.mem_cons, List.not_mem_nil, or_false] at hg
  rcases hg with rfl | rfl
  · exact ⟨_, grid_made 1 1⟩
  · exact ⟨_, grid_made 2 2⟩

end Yac.Calib.Witness
