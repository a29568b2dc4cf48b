import Verif.Containers.SMap
import Verif.AprilGrid.Model
import Verif.Solver.Book
import Mathlib.Algebra.Field.Defs
import Mathlib.Algebra.Field.Basic

/-!
# Model of `calib_mocap_t`: the views and the loops of the mocap calibration

yac/lib/calib_mocap.{hpp,cpp}.

Parameters are identified by their role (`camera`, `fiducial_pose`,
`mocap_camera_extrinsics`) or by the timestamp of the mocap pose (`mocap_poses` is a
`std::map`, whose nodes do not move); residuals carry a number that is fresh at creation.
Numerical parts that are not modelled are arbitrary functions (`Env`).  `std::map` is an
ascending association list (`SMap`).  The solver is a `ceres_solver_t` (`Solver.CBook`,
calib_mocap.cpp:208).  A dangling or null pointer handed to the solver is `oob`; `FATAL` is
`fatal`; a variable read before it is written is `uninit`.

The assertions at calib_mocap.cpp:511-513 name variables that do not exist, so the file only
compiles with `NDEBUG`; they are not represented.  Printing is left out.
-/

namespace Yac.Mocap

open Yac.AprilGrid (Grid Meas)
open Yac.Solver (CBook)

/-- The parameters of the problem: `camera`, `fiducial_pose`, `mocap_camera_extrinsics` and
`mocap_poses[ts]`, calib_mocap.hpp:111-116. -/
inductive Par where
  | cam
  | fid
  | ext
  | pose (ts : Int)
  deriving DecidableEq, Repr

/-- `mocap_residual_t`, calib_residuals.cpp:825-865: creation number, timestamp of the mocap
pose, corner and measured image point (the board point is a function of the corner). -/
structure Res (K : Type) where
  id : Nat
  ts : Int
  tag : Int
  corner : Int
  z : K × K
  deriving DecidableEq, Repr

/-- `param_blocks`, calib_residuals.cpp:845-848. -/
def Res.blocks {K : Type} (r : Res K) : List Par := [.fid, .pose r.ts, .ext, .cam]

/-- `mocap_view_t`, calib_mocap.hpp:15-46. -/
structure View (K : Type) where
  ts : Int
  grid : Grid K
  resFns : List (Res K)
  deriving DecidableEq, Repr

/-- The parameter vectors: eight intrinsics, and poses as seven numbers. -/
structure Est (K : Type) where
  cam : Fin 8 → K
  fid : Fin 7 → K
  ext : Fin 7 → K
  poses : List (Int × (Fin 7 → K))

/-- `calib_mocap_t`, calib_mocap.hpp:77-116: the fields the calls below read or write;
`next` is the number of residuals created so far. -/
structure Cal (K : Type) where
  fixCam : Bool
  fixPoses : Bool
  fixFid : Bool
  gainMin : K
  infoK : K
  entropyK : K
  grids : List (Int × Grid K)
  viewTs : List Int
  views : List (Int × View K)
  solver : CBook Par (Res K)
  cache : Est K
  est : Est K
  next : Nat

/-- The numerical parts that are not modelled. -/
structure Env (K : Type) where
  /-- `get_residual` of a measurement at given estimates (`none`: it fails). -/
  resid : Est K → Res K → Option (K × K)
  /-- `outlier_threshold * stddev(residuals)`. -/
  thresh : List (K × K) → K × K
  /-- the parameters after `solver->solve(30)`. -/
  few : Cal K → Est K
  /-- the parameters after `solver->solve(max_iter, true, 0)`. -/
  full : Cal K → Est K
  /-- `_calc_info`, calib_mocap.cpp:445-466 (`none`: it fails): information and entropy. -/
  info : Cal K → Option (K × K)

variable {K : Type} [Field K] [LinearOrder K]

/-! ## Construction -/

/-- `_add_mocap_pose`, calib_mocap.cpp:399-404.  A second pose for a timestamp would free the
vector registered with the solver. -/
def addPose (s : Cal K) (ts : Int) (T : Fin 7 → K) : Except Fault (Cal K) :=
  if (SMap.find ts s.est.poses).isSome then .error .oob
  else .ok { s with est := { s.est with poses := SMap.set ts T s.est.poses },
                    solver := s.solver.addParam (.pose ts) }

/-- The loop calib_mocap.cpp:267-269; `T_WM[k]` may not exist. -/
def addPoses (s : Cal K) : List (Grid K) → List (Fin 7 → K) → Except Fault (Cal K)
  | [], _ => .ok s
  | _ :: _, [] => .error .oob
  | g :: gs, T :: Ts => addPose s g.timestamp T >>= fun s => addPoses s gs Ts

/-- One iteration of the loop calib_mocap.cpp:272-285: `estimate` stands for
`aprilgrid_t::estimate` with the intrinsics, and for the composition with the pose of the
target and the mocap pose; the result of the last grid that can be estimated is kept. -/
def estimateStep (estimate : (Fin 8 → K) → (Fin 7 → K) → (Fin 7 → K) → Grid K → Option (Fin 7 → K))
    (acc : Cal K × Option (Fin 7 → K)) (g : Grid K) : Cal K × Option (Fin 7 → K) :=
  match estimate acc.1.est.cam acc.1.est.fid
      ((SMap.find g.timestamp acc.1.est.poses).getD (fun _ => 0)) g with
  | none => acc
  | some T => ({ acc.1 with grids := SMap.set g.timestamp g acc.1.grids }, some T)

/-- The end of the constructor, calib_mocap.cpp:249-288, from camera parameters, the pose of
the target, the grids between the mocap samples and the interpolated poses: registers the
parameters, keeps the grids that can be estimated and initialises the extrinsics.  Without
any such grid `T_MC0` is read uninitialised. -/
def create (fixCam fixPoses fixFid : Bool) (gainMin : K)
    (estimate : (Fin 8 → K) → (Fin 7 → K) → (Fin 7 → K) → Grid K → Option (Fin 7 → K))
    (cam : Fin 8 → K) (fid : Fin 7 → K) (grids : List (Grid K)) (poses : List (Fin 7 → K)) :
    Except Fault (Cal K) :=
  let e : Est K := ⟨cam, fid, fun _ => 0, []⟩
  addPoses ⟨fixCam, fixPoses, fixFid, gainMin, 0, 0, [], [], [],
    ((CBook.empty : CBook Par (Res K)).addParam .cam).addParam .fid, e, e, 0⟩ grids poses >>= fun s =>
  let r := grids.foldl (estimateStep estimate) (s, none)
  match r.2 with
  | none => .error .uninit
  | some T => .ok { r.1 with est := { r.1.est with ext := T },
                             solver := r.1.solver.addParam .ext }

/-! ## Views -/

/-- One measurement of the loop in the constructor of `mocap_view_t`, calib_mocap.cpp:32-52.
Accumulator: residuals, solver, next number. -/
def addRes (ts : Int) (acc : List (Res K) × CBook Par (Res K) × Nat)
    (m : (Int × Int) × (K × K)) : Except Fault (List (Res K) × CBook Par (Res K) × Nat) :=
  let r : Res K := ⟨acc.2.2, ts, m.1.1, m.1.2, m.2⟩
  acc.2.1.addResidual Res.blocks r >>= fun b => .ok (acc.1 ++ [r], b, acc.2.2 + 1)

/-- Constructor of `mocap_view_t`, calib_mocap.cpp:7-53. -/
def View.new (g : Grid K) (solver : CBook Par (Res K)) (next : Nat) :
    Except Fault (View K × CBook Par (Res K) × Nat) :=
  if g.detected = false then .ok (⟨g.timestamp, g, []⟩, solver, next)
  else
    AprilGrid.getMeasurements g Meas.empty >>= fun m =>
    ((m.tagIds.zip m.corners).zip m.keypoints).foldlM (addRes g.timestamp) ([], solver, next) >>=
      fun out => .ok (⟨g.timestamp, g, out.1⟩, out.2.1, out.2.2)

/-- The condition in `filter_view`, calib_mocap.cpp:95. -/
def isOutlier (resid : Res K → Option (K × K)) (th : K × K) (r : Res K) : Bool :=
  match resid r with
  | some e => decide (e.1 > th.1) || decide (e.2 > th.2)
  | none => false

/-- The loop of `filter_view`, calib_mocap.cpp:90-120: the residuals that stay, the grid, the
solver and the number of residuals removed. -/
def filterRes (resid : Res K → Option (K × K)) (th : K × K) :
    List (Res K) → Grid K → CBook Par (Res K) →
      Except Fault (List (Res K) × Grid K × CBook Par (Res K) × Nat)
  | [], g, b => .ok ([], g, b, 0)
  | r :: rs, g, b =>
    if isOutlier resid th r then
      AprilGrid.remove g r.tag r.corner >>= fun g' =>
      AprilGrid.has g' r.tag r.corner >>= fun still =>
      if still then .error .fatal
      else if g.nbDetections = g'.nbDetections then .error .fatal
      else
        b.removeResidual Res.blocks r >>= fun b =>
        filterRes resid th rs g' b >>= fun o => .ok (o.1, o.2.1, o.2.2.1, o.2.2.2 + 1)
    else
      filterRes resid th rs g b >>= fun o => .ok (r :: o.1, o.2.1, o.2.2.1, o.2.2.2)

/-- `filter_view`, calib_mocap.cpp:83-123. -/
def View.filter (resid : Res K → Option (K × K)) (th : K × K) (v : View K)
    (b : CBook Par (Res K)) : Except Fault (View K × CBook Par (Res K) × Nat) :=
  filterRes resid th v.resFns v.grid b >>= fun o =>
    .ok ({ v with resFns := o.1, grid := o.2.1 }, o.2.2.1, o.2.2.2)

/-- `get_residuals`, calib_mocap.cpp:57-68 and 302-312: the residuals of all views that can
be evaluated, timestamps ascending. -/
def residuals (env : Env K) (s : Cal K) : List (K × K) :=
  (s.views.flatMap (fun tv => tv.2.resFns)).filterMap (env.resid s.est)

/-- `get_num_views`, calib_mocap.cpp:290. -/
def numViews (s : Cal K) : Nat := s.views.length

/-! ## The calls -/

/-- `_add_view`, calib_mocap.cpp:411-422.  `mocap_poses[ts]` of a missing pose is an empty
vector that is not registered.  A view that is replaced frees its residuals, which stay
registered with the solver. -/
def addView (s : Cal K) (g : Grid K) : Except Fault (Cal K) :=
  if (SMap.find g.timestamp s.est.poses).isNone then .error .oob
  else
    View.new g s.solver s.next >>= fun o =>
      .ok { s with viewTs := s.viewTs ++ [g.timestamp],
                   views := SMap.set g.timestamp o.1 s.views, solver := o.2.1, next := o.2.2 }

/-- `_remove_view`, calib_mocap.cpp:424-443. -/
def removeView (s : Cal K) (ts : Int) : Except Fault (Cal K) :=
  (if (SMap.find ts s.est.poses).isSome then
    (if s.solver.hasParam (.pose ts) then s.solver.removeParam Res.blocks (.pose ts)
      else .ok s.solver) >>= fun b =>
    .ok { s with solver := b, est := { s.est with poses := SMap.erase ts s.est.poses } }
  else .ok s) >>= fun s =>
  if (SMap.find ts s.views).isSome then
    if ts ∈ s.viewTs then
      .ok { s with views := SMap.erase ts s.views, viewTs := s.viewTs.erase ts }
    else .error .oob
  else .ok s

/-- `_cache_estimates`, calib_mocap.cpp:468-473 and 129-140. -/
def cacheEstimates (s : Cal K) : Cal K := { s with cache := s.est }

/-- One pose of `restore`, calib_mocap.cpp:154-158; a missing pose is an empty vector. -/
def restorePose (m : List (Int × (Fin 7 → K))) (tp : Int × (Fin 7 → K)) :
    Except Fault (List (Int × (Fin 7 → K))) :=
  if (SMap.find tp.1 m).isSome then .ok (SMap.set tp.1 tp.2 m) else .error .oob

/-- `_restore_estimates`, calib_mocap.cpp:475-477 and 142-163: seven of the eight camera
parameters are written. -/
def restoreEstimates (s : Cal K) : Except Fault (Cal K) :=
  s.cache.poses.foldlM restorePose s.est.poses >>= fun ps =>
    .ok { s with est := ⟨fun i => if i.val < 7 then s.cache.cam i else s.est.cam i,
      s.cache.fid, s.cache.ext, ps⟩ }

/-- The estimates after the optimiser has run with outcome `o`: only parameters that are
registered and not fixed change (`SetParameterBlockConstant`, solver.cpp:991-994). -/
def optimised (s : Cal K) (o : Est K) : Est K :=
  ⟨if s.fixCam = true ∨ s.solver.hasParam .cam = false then s.est.cam else o.cam,
   if s.fixFid = true ∨ s.solver.hasParam .fid = false then s.est.fid else o.fid,
   if s.solver.hasParam .ext = false then s.est.ext else o.ext,
   s.est.poses.map (fun tp => (tp.1,
     if s.fixPoses = true ∨ s.solver.hasParam (.pose tp.1) = false then tp.2
     else (SMap.find tp.1 o.poses).getD tp.2))⟩

/-- Some residual registered with the solver has been freed. -/
def dangling (s : Cal K) : Bool :=
  s.solver.base.resFns.any (fun r => !(s.views.any (fun tv => decide (r ∈ tv.2.resFns))))

/-- `solver->solve(...)`: the residuals registered are evaluated. -/
def solveWith (f : Cal K → Est K) (s : Cal K) : Except Fault (Cal K) :=
  if dangling s then .error .oob else .ok { s with est := optimised s (f s) }

/-- One view of the loop in `_filter_all_views`, calib_mocap.cpp:504-506. -/
def filterStep (resid : Res K → Option (K × K)) (th : K × K) (acc : Cal K × Nat)
    (tv : Int × View K) : Except Fault (Cal K × Nat) :=
  tv.2.filter resid th acc.1.solver >>= fun o =>
    .ok ({ acc.1 with views := SMap.set tv.1 o.1 acc.1.views, solver := o.2.1 }, acc.2 + o.2.2)

/-- `_filter_all_views`, calib_mocap.cpp:499-508. -/
def filterAllViews (env : Env K) (s : Cal K) : Except Fault (Cal K × Nat) :=
  s.views.foldlM (filterStep (env.resid s.est) (env.thresh (residuals env s))) (s, 0)

/-- `_filter_last_view`, calib_mocap.cpp:491-497 (not called by the library). -/
def filterLastView (env : Env K) (s : Cal K) : Except Fault (Cal K × Nat) :=
  match s.viewTs.getLast? with
  | none => .error .oob
  | some ts =>
    match SMap.find ts s.views with
    | none => .error .oob
    | some v => filterStep (env.resid s.est) (env.thresh (residuals env s)) (s, 0) (ts, v)

/-- `solve`, calib_mocap.cpp:510-537. -/
def solve (env : Env K) (s : Cal K) : Except Fault (Cal K) :=
  s.grids.foldlM (fun (s : Cal K) tg => addView s tg.2) s >>= fun s =>
  solveWith env.full s >>= fun s =>
  filterAllViews env s >>= fun r =>
  solveWith env.full r.1

/-- The end of one iteration of `solve_nbv`, calib_mocap.cpp:568-590. -/
def judge (env : Env K) (s : Cal K) (ts : Int) : Except Fault (Cal K) :=
  if numViews s < 5 then .ok s
  else match env.info s with
    | none => restoreEstimates s
    | some i =>
      if (1 / 2) * (s.infoK - i.1) < s.gainMin then
        restoreEstimates s >>= fun s => removeView s ts
      else .ok { s with infoK := i.1, entropyK := i.2 }

/-- One iteration of the loop of `solve_nbv`, calib_mocap.cpp:558-594.  `calib_grids[ts]` of
a missing timestamp would be a default grid. -/
def nbvStep (env : Env K) (s : Cal K) (ts : Int) : Except Fault (Cal K) :=
  addView s ((SMap.find ts s.grids).getD AprilGrid.default) >>= fun s =>
  filterAllViews env s >>= fun r =>
  solveWith env.few (cacheEstimates r.1) >>= fun s => judge env s ts

/-- The timestamps `solve_nbv` tries, calib_mocap.cpp:541-546. -/
def nbvStamps (s : Cal K) : List Int :=
  (s.grids.filter (fun tg => tg.2.detected)).map Prod.fst

/-- `solve_nbv`, calib_mocap.cpp:539-601; `order` stands for `std::shuffle` (551-554), or is
the identity. -/
def solveNbv (env : Env K) (order : List Int → List Int) (s : Cal K) : Except Fault (Cal K) :=
  if nbvStamps s = [] then .error .fatal
  else
    (order (nbvStamps s)).foldlM (nbvStep env) s >>= fun s => solveWith env.full s

end Yac.Mocap
