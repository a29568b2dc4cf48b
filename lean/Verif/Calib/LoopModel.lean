import Verif.Calib.CameraModel
import Mathlib.Data.Prod.Lex

/-!
# Model of the calibration loops of `calib_camera_t`

yac/lib/calib_camera.cpp:1434-1851: the order in which views are tried, outlier removal,
next-best-view, incremental and batch calibration.  Printing is left out.

Numerical parts are arbitrary functions (`LoopEnv`), as in `ViewModel.lean`.
-/

namespace Yac.Calib

open Yac.AprilGrid (Grid)
open Yac.Solver (CBook)

variable {K V : Type} [Field K] [LinearOrder K]

/-- The numerical parts the loops use in addition to `Env`.  `Env.solve` is
`solver->solve()`. -/
structure LoopEnv (K V : Type) extends Env K V where
  /-- `solver->solve(5)`. -/
  few : Cal K V → Par → V
  /-- the closing `solver->solve(50, true, 1)` or `solver->solve(max_iter, verbose, 1)`. -/
  final : Cal K V → Par → V
  /-- `get_residual` of a measurement at the current estimates. -/
  resid : Cal K V → Reproj K → Option (K × K)
  /-- `outlier_threshold * stddev(...)` of the residuals of a camera. -/
  thresh : List (K × K) → K × K
  /-- rotation angle and distance between two poses, calib_camera.cpp:1478-1482. -/
  moved : V → V → K × K

/-- `solver->solve(5)`. -/
def solveFew (L : LoopEnv K V) (s : Cal K V) : Cal K V := solve { L.toEnv with solve := L.few } s

/-- The closing `solver->solve`. -/
def solveFinal (L : LoopEnv K V) (s : Cal K V) : Cal K V :=
  solve { L.toEnv with solve := L.final } s

/-- What `_track_estimates` records for a timestamp, calib_camera.cpp:1686-1693.
`errs` are the residuals whose norms are recorded. -/
structure Track (K V : Type) where
  params : List (Int × V)
  exts : List (Int × Option V)
  info : K
  entropy : K
  errs : List (K × K)
  accepted : Bool
  deriving DecidableEq, Repr

/-- The calibrator with the fields that only the loops use: `filtered_timestamps`,
`filter_all`, `calib_timestamps` and the histories, calib_camera.hpp:95-180. -/
structure Sess (K V : Type) where
  cal : Cal K V
  filtered : List Int
  filterAll : Bool
  stamps : List Int
  hist : List (Int × Track K V)

/-- The settings the loops read, calib_camera.hpp:104-125. -/
structure Opts where
  nbvFilter : Bool
  minViews : Int
  marginalize : Bool
  window : Int
  early : Bool
  stale : Int

/-! ## Outlier removal -/

/-- The views `_remove_outliers` visits, calib_camera.cpp:1585-1599: all, latest first, or
the view with the largest timestamp unless it was visited before.  `calib_views.rbegin()`
of an empty map is undefined. -/
def outlierStamps (s : Sess K V) (all : Bool) : Except Fault (Sess K V × List Int) :=
  if all then .ok (s, (s.cal.views.map Prod.fst).reverse)
  else match s.cal.views.getLast? with
    | none => .error .oob
    | some (last, _) =>
      if last ∈ s.filtered then .ok (s, [])
      else .ok ({ s with filtered := setInsert last s.filtered }, [last])

/-- The thresholds, calib_camera.cpp:1609-1616. -/
def camThresholds (L : LoopEnv K V) (s : Cal K V) : List (Int × (K × K)) :=
  (camIdxs s).map (fun c => (c, L.thresh (residualsOf (L.resid s) s c)))

/-- `_restore_estimates` after `add_view`, calib_camera.cpp:1647-1648 and 1656, 1665. -/
def readd (L : LoopEnv K V) (s : Cal K V) (grids : List (Int × Grid K)) (removed : Nat) :
    Except Fault (Cal K V) :=
  addView L.toEnv s grids >>= fun o =>
    .ok (restoreEstimates { o.1 with removedOutliers := o.1.removedOutliers + (removed : Int) })

/-- The end of one iteration, calib_camera.cpp:1642-1665: `s` is the state with the view
removed and solved, `old` and `new` its grids before and after filtering, `removed` the
number of corners removed, `before` the information with the filtered view.  The counters
are the numbers of views and of outliers removed. -/
def settleView (L : LoopEnv K V) (s : Cal K V) (old new : List (Int × Grid K)) (removed : Nat)
    (before : K) (cnt : Nat × Nat) : Except Fault (Cal K V × Nat × Nat) :=
  match L.info s with
  | none => readd L s old 0 >>= fun s => .ok (s, cnt)
  | some (after, _) =>
    if (1 / 2) * (after - before) > s.threshold then
      readd L s new removed >>= fun s => .ok (s, cnt.1, cnt.2 + removed)
    else .ok (restoreEstimates s, cnt.1 + 1, cnt.2)

/-- One iteration of `_remove_outliers`, calib_camera.cpp:1608-1666.  `calib_views[ts]` of a
missing view is a null pointer. -/
def outlierStep (L : LoopEnv K V) (acc : Cal K V × Nat × Nat) (ts : Int) :
    Except Fault (Cal K V × Nat × Nat) :=
  match SMap.find ts acc.1.views with
  | none => .error .oob
  | some v =>
    View.filterAll (L.resid acc.1) (camIdxs acc.1) (camThresholds L acc.1) v acc.1.solver >>=
      fun f =>
    let s := solveFew L { cacheEstimates acc.1 with
      views := SMap.set ts f.1 acc.1.views, solver := f.2.1 }
    match L.info s with
    | none => .ok (s, acc.2)
    | some (before, _) =>
      removeView s ts >>= fun s =>
        settleView L (solveFew L s) v.grids f.1.grids f.2.2 before acc.2

/-- `_calc_info(&info_k, &entropy_k)`, calib_camera.cpp:1676: nothing is written if it
fails. -/
def refreshInfo (L : LoopEnv K V) (s : Cal K V) : Cal K V :=
  match L.info s with
  | none => s
  | some (i, e) => { s with infoK := i, entropyK := e }

/-- `_remove_outliers`, calib_camera.cpp:1583-1681: the number of outliers removed. -/
def removeOutliers (L : LoopEnv K V) (s : Sess K V) (all : Bool) :
    Except Fault (Sess K V × Nat) :=
  outlierStamps s all >>= fun st =>
  st.2.foldlM (outlierStep L) (st.1.cal, 0, 0) >>= fun out =>
  .ok ({ st.1 with cal := if st.2 = [] then out.1 else refreshInfo L out.1 }, out.2.2)

/-! ## The order of the views -/

/-- The first grid of a frame whose pose can be estimated, calib_camera.cpp:1441-1458, with
the pose of the target in camera 0.  A camera without parameters is a null pointer. -/
def framePose (L : LoopEnv K V) (s : Cal K V) : List (Int × Grid K) → Except Fault (Option V)
  | [] => .ok none
  | (c, g) :: l =>
    match SMap.find c s.params with
    | none => .error .oob
    | some p =>
      match L.estimate g p.val with
      | none => framePose L s l
      | some T =>
        match SMap.find c s.exts with
        | none => .error .exn
        | some e => .ok (some (L.compose e.val T))

/-- `num_tags` of a frame, calib_camera.cpp:1461-1464. -/
def frameTags (grids : List (Int × Grid K)) : Int :=
  grids.foldl (fun n cg => n + cg.2.nbDetections) 0

/-- One frame of the first loop of `_calculate_motion`, calib_camera.cpp:1440-1465.  The
accumulator holds `timestamps` with the poses, and `tags_detected`. -/
def motionFrame (L : LoopEnv K V) (s : Cal K V) (acc : List (Int × V) × List Int)
    (tg : Int × List (Int × Grid K)) : Except Fault (List (Int × V) × List Int) :=
  framePose L s tg.2 >>= fun o =>
    .ok (match o with
      | none => acc.1
      | some T => acc.1 ++ [(tg.1, T)], acc.2 ++ [frameTags tg.2])

/-- One iteration of the second loop of `_calculate_motion`, calib_camera.cpp:1469-1484. -/
def motionPair (L : LoopEnv K V) (poses : List (Int × V)) (tags : List Int)
    (m : List ((Int ×ₗ K ×ₗ K) × Int)) (k : Nat) : Except Fault (List ((Int ×ₗ K ×ₗ K) × Int)) :=
  match tags[k]?, poses[k - 1]?, poses[k]? with
  | some n, some p, some q =>
    .ok (SMap.set (toLex (-n, toLex (L.moved p.2 q.2))) q.1 m)
  | _, _, _ => .error .oob

/-- `_calculate_motion`, calib_camera.cpp:1434-1487.  `timestamps.size() - 1` wraps for an
empty vector, and the loop reads beyond its end.  Angles that are not a number are not
represented. -/
def calculateMotion (L : LoopEnv K V) (s : Cal K V) :
    Except Fault (List ((Int ×ₗ K ×ₗ K) × Int)) :=
  s.data.foldlM (motionFrame L s) (([] : List (Int × V)), ([] : List Int)) >>= fun pt =>
  if pt.1 = [] then .error .oob
  else (List.range' 1 (pt.1.length - 2)).foldlM (motionPair L pt.1 pt.2) []

/-- The timestamps `_solve_nbv` tries, calib_camera.cpp:1781-1792: those of
`_calculate_motion` at which something was detected. -/
def nbvStamps (L : LoopEnv K V) (s : Cal K V) : Except Fault (List Int) :=
  calculateMotion L s >>= fun m =>
  let l := (m.map Prod.snd).filter (fun ts =>
    ((SMap.find ts s.data).getD []).any (fun cg => cg.2.detected))
  if l = [] then .error .fatal else .ok l

/-! ## The loops -/

/-- `_track_estimates`, calib_camera.cpp:1683-1695. -/
def trackEstimates (L : LoopEnv K V) (s : Sess K V) (ts : Int) (accepted : Bool) : Sess K V :=
  { s with
    stamps := s.stamps ++ [ts],
    hist := SMap.set ts
      ⟨s.cal.params.map (fun ip => (ip.1, ip.2.val)),
        s.cal.params.map (fun ip => (ip.1, (SMap.find ip.1 s.cal.exts).map CamP.val)),
        s.cal.infoK, s.cal.entropyK,
        s.cal.views.flatMap (fun tv => tv.2.residuals (L.resid s.cal)), accepted⟩ s.hist }

/-- Outlier removal inside the next-best-view loop, calib_camera.cpp:1810-1813. -/
def nbvFilterStep (L : LoopEnv K V) (o : Opts) (s : Sess K V) : Except Fault (Sess K V) :=
  if o.nbvFilter = true ∧ (nbViews s.cal : Int) ≥ o.minViews then
    removeOutliers L s s.filterAll >>= fun r => .ok { r.1 with filterAll := false }
  else .ok s

/-- Marginalisation inside the next-best-view loop, calib_camera.cpp:1816-1818. -/
def nbvMargStep (o : Opts) (s : Sess K V) : Except Fault (Sess K V) :=
  if o.marginalize = true ∧ (nbViews s.cal : Int) > o.window then
    marginalize s.cal >>= fun c => .ok { s with cal := c }
  else .ok s

/-- One iteration of the loop of `_solve_nbv`, calib_camera.cpp:1806-1828, with the stale
counter. -/
def nbvStep (L : LoopEnv K V) (o : Opts) (s : Sess K V) (stale : Int) (ts : Int) :
    Except Fault (Sess K V × Int) :=
  addNbvView L.toEnv s.cal ((SMap.find ts s.cal.data).getD []) >>= fun r =>
  if r.2 = true then
    nbvFilterStep L o { s with cal := r.1 } >>= fun s =>
    nbvMargStep o s >>= fun s =>
    .ok (trackEstimates L s ts true, 0)
  else .ok (trackEstimates L { s with cal := r.1 } ts false, stale + 1)

/-- The loop of `_solve_nbv`, calib_camera.cpp:1805-1838, with the early stop 1831-1833. -/
def nbvLoop (L : LoopEnv K V) (o : Opts) : List Int → Sess K V → Int →
    Except Fault (Sess K V × Int)
  | [], s, stale => .ok (s, stale)
  | ts :: l, s, stale =>
    nbvStep L o s stale ts >>= fun r =>
      if o.early = true ∧ r.2 > o.stale then .ok r else nbvLoop L o l r.1 r.2

/-- The end of `_solve_nbv`, calib_camera.cpp:1849-1851. -/
def nbvFinish (L : LoopEnv K V) (s : Sess K V) : Except Fault (Sess K V) :=
  filterAllViews (L.resid s.cal) L.thresh s.cal >>= fun r =>
    .ok { s with cal := solveFinal L { r.1 with removedOutliers := (r.2 : Int) } }

/-- `_solve_nbv`, calib_camera.cpp:1766-1852.  `order` stands for `std::shuffle`
(1799-1801), or is the identity. -/
def solveNbv (L : LoopEnv K V) (o : Opts) (order : List Int → List Int) (s : Sess K V) :
    Except Fault (Sess K V) :=
  nbvStamps L s.cal >>= fun l =>
  nbvLoop L o (order l) s 0 >>= fun r => nbvFinish L r.1

/-- `_solve_batch`, calib_camera.cpp:1729-1734. -/
def solveBatch (L : LoopEnv K V) (s : Cal K V) : Except Fault (Cal K V) :=
  s.timestamps.foldlM (fun (s : Cal K V) ts =>
    addView L.toEnv s ((SMap.find ts s.data).getD []) >>= fun r => .ok r.1) s >>= fun s =>
  .ok (solveFinal L s)

/-- The body of the loop of `_solve_inc`, calib_camera.cpp:1740-1750. -/
def incStep (L : LoopEnv K V) (o : Opts) (s : Cal K V) (ts : Int) : Except Fault (Cal K V) :=
  addView L.toEnv s ((SMap.find ts s.data).getD []) >>= fun r =>
  if r.2 = false then .ok r.1
  else if (nbViews r.1 : Int) ≥ o.window then marginalize (solve L.toEnv r.1)
  else .ok r.1

/-- `_solve_inc`, calib_camera.cpp:1736-1764. -/
def solveInc (L : LoopEnv K V) (o : Opts) (s : Cal K V) : Except Fault (Cal K V) :=
  s.timestamps.foldlM (incStep L o) s

end Yac.Calib
