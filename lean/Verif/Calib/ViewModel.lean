import Verif.Containers.SMap
import Verif.AprilGrid.Model
import Verif.AprilGrid.Spec
import Verif.Solver.Book

/-!
# Model of `calib_view_t` and of the state of `calib_camera_t`

yac/lib/calib_camera.{hpp,cpp}.

Objects that live on the heap and are compared by address (poses, residuals) carry a number
that is fresh at creation.  Camera intrinsics and extrinsics are identified by their camera
index (the code never replaces them after `add_camera`; calling `add_camera` twice with one
index leaves a dangling pointer in the solver and is the outcome `oob`).

Parameter vectors are values of an arbitrary type `V`.  What is numerical and not part of
this model is a parameter of it (`Env`): the pose estimate of a grid, the outcome of the
solver, the information of the current problem, the residual of a measurement, the
simulated grid of a candidate pose.  Theorems hold for every such environment.

`std::map` is an ascending association list (`SMap`); a failed `at` is `exn`; a null or
dangling dereference is `oob`; `FATAL` and a failed `assert` are `fatal`.
The solver is the default `ceres_solver_t` (`Solver.CBook`).
-/

namespace Yac.Calib

open Yac.AprilGrid (Grid Meas)
open Yac.Solver (CBook)

/-- The parameters a camera calibration registers with the solver: `camera_params_t`,
`extrinsics_t` (by camera index) and `pose_t` (by creation number). -/
inductive Par where
  | cam (i : Int)
  | ext (i : Int)
  | pose (k : Nat)
  deriving DecidableEq, Repr

/-- `reproj_residual_t`, calib_residuals.hpp and calib_residuals.cpp: creation number,
camera, pose object, corner and measured image point. -/
structure Reproj (K : Type) where
  id : Nat
  cam : Int
  pose : Nat
  tag : Int
  corner : Int
  z : K × K
  deriving DecidableEq, Repr

/-- A residual held by the solver: a reprojection error or a `marg_residual_t`. -/
inductive Res (K : Type) where
  | reproj (r : Reproj K)
  | marg (id : Nat) (remain : List Par)
  deriving DecidableEq, Repr

/-- `param_blocks`: `reproj_residual_t` registers extrinsics, pose and intrinsics;
`marg_residual_t` the parameters that remain (calib_residuals.cpp:1905-1918). -/
def Res.blocks {K : Type} : Res K → List Par
  | .reproj r => [.ext r.cam, .pose r.pose, .cam r.cam]
  | .marg _ ps => ps

/-- `calib_view_t`, calib_camera.hpp: `ts`, `grids`, `T_C0F` and `res_fns`. -/
structure View (K : Type) where
  ts : Int
  grids : List (Int × Grid K)
  pose : Nat
  resFns : List (Int × List (Reproj K))
  deriving DecidableEq, Repr

/-- `camera_params_t` / `extrinsics_t`: the parameter vector and the `fixed` flag. -/
structure CamP (V : Type) where
  val : V
  fixed : Bool
  deriving DecidableEq, Repr

/-- `pose_t`: creation number and parameter vector (the calibrator only creates poses that
are not fixed). -/
structure PoseObj (V : Type) where
  id : Nat
  val : V
  deriving DecidableEq, Repr

/-- The state of `calib_camera_t`, calib_camera.hpp:95-180, that the calls below read or
write.  `rows` and `cols` are the dimensions of `calib_target` (they determine the table of
`corners`); `next` is the number of objects created so far. -/
structure Cal (K V : Type) where
  rows : Nat
  cols : Nat
  params : List (Int × CamP V)
  exts : List (Int × CamP V)
  poses : List (Int × PoseObj V)
  views : List (Int × View K)
  viewTs : List Int
  data : List (Int × List (Int × Grid K))
  timestamps : List Int
  solver : CBook Par (Res K)
  marg : Option (Res K)
  posesTmp : List (Int × V)
  paramsTmp : List (Int × V)
  extsTmp : List (Int × V)
  infoK : K
  entropyK : K
  threshold : K
  removedOutliers : Int
  next : Nat

/-- The numerical parts that are not modelled, as arbitrary functions. -/
structure Env (K V : Type) where
  /-- `aprilgrid_t::estimate` with the intrinsics of the camera (`none`: it fails). -/
  estimate : Grid K → V → Option V
  /-- `T_C0Ci * T_CiF` as a parameter vector. -/
  compose : V → V → V
  /-- `tf_inv` of a candidate pose as a parameter vector. -/
  invert : V → V
  /-- value of a registered parameter after `solver->solve`. -/
  solve : Cal K V → Par → V
  /-- `_calc_info` (`none`: it fails): information and entropy. -/
  info : Cal K V → Option (K × K)
  /-- `nbv_target_grid` for intrinsics, timestamp, candidate pose and extrinsics. -/
  simGrid : V → Int → V → V → Grid K

variable {K V : Type} [Field K] [LinearOrder K]

/-- A new calibrator, calib_camera.cpp:545-563 and the initialisers in the header. -/
def Cal.new (rows cols : Nat) (threshold : K) : Cal K V :=
  ⟨rows, cols, [], [], [], [], [], [], [], CBook.empty, none, [], [], [], 0, 0, threshold, 0, 0⟩

/-- `add_camera`, calib_camera.cpp:846-880 (intrinsics, extrinsics, registration with the
solver; models that are not supported are fatal before anything is registered and not
represented).  Extrinsics of camera 0 are always fixed. -/
def addCamera (s : Cal K V) (i : Int) (p e : V) (fixP fixE : Bool) : Except Fault (Cal K V) :=
  if (SMap.find i s.params).isSome then .error .oob
  else .ok { s with
    params := SMap.set i ⟨p, fixP⟩ s.params,
    exts := SMap.set i ⟨e, decide (i = 0) || fixE⟩ s.exts,
    solver := (s.solver.addParam (.cam i)).addParam (.ext i) }

/-- `fiducial_corners_t::get_corner`, calib_params.cpp:268-277: fatal unless the corner
exists on the target. -/
def hasCorner (rows cols : Nat) (tag corner : Int) : Bool :=
  decide (0 ≤ tag ∧ tag < rows * cols ∧ 0 ≤ corner ∧ corner < 4)

/-- One measurement of the loop in the constructor of `calib_view_t`,
calib_camera.cpp:186-203.  Accumulator: residuals of this camera, solver, next number. -/
def addReproj (rows cols : Nat) (cam : Int) (pose : Nat)
    (acc : List (Reproj K) × CBook Par (Res K) × Nat) (m : (Int × Int) × (K × K)) :
    Except Fault (List (Reproj K) × CBook Par (Res K) × Nat) :=
  if hasCorner rows cols m.1.1 m.1.2 then do
    let r : Reproj K := ⟨acc.2.2, cam, pose, m.1.1, m.1.2, m.2⟩
    let b ← acc.2.1.addResidual Res.blocks (.reproj r)
    pure (acc.1 ++ [r], b, acc.2.2 + 1)
  else .error .fatal

/-- One camera of the loop in the constructor of `calib_view_t`, calib_camera.cpp:165-204:
cameras that are not calibrated or saw nothing are skipped.  `exts` are the calibrator's
extrinsics, looked up with `at`. -/
def addCamGrid (rows cols : Nat) (params exts : List (Int × CamP V)) (pose : Nat)
    (acc : List (Int × List (Reproj K)) × CBook Par (Res K) × Nat) (cg : Int × Grid K) :
    Except Fault (List (Int × List (Reproj K)) × CBook Par (Res K) × Nat) :=
  if (SMap.find cg.1 params).isNone then .ok acc
  else if cg.2.detected = false then .ok acc
  else do
    let m ← AprilGrid.getMeasurements cg.2 Meas.empty
    let ms := (m.tagIds.zip m.corners).zip m.keypoints
    if ms = [] then pure acc
    else if (SMap.find cg.1 exts).isNone then .error .exn
    else do
      let out ← ms.foldlM (addReproj rows cols cg.1 pose)
        ((SMap.find cg.1 acc.1).getD [], acc.2.1, acc.2.2)
      pure (SMap.set cg.1 out.1 acc.1, out.2.1, out.2.2)

/-- Constructor of `calib_view_t`, calib_camera.cpp:159-206. -/
def View.new (rows cols : Nat) (params exts : List (Int × CamP V)) (ts : Int)
    (grids : List (Int × Grid K)) (pose : Nat) (solver : CBook Par (Res K)) (next : Nat) :
    Except Fault (View K × CBook Par (Res K) × Nat) := do
  let out ← grids.foldlM (addCamGrid rows cols params exts pose) ([], solver, next)
  pure (⟨ts, grids, pose, out.1⟩, out.2.1, out.2.2)

/-- All residuals of a view, cameras ascending. -/
def View.all (v : View K) : List (Reproj K) := v.resFns.flatMap (·.2)

/-- `nb_detections`, calib_camera.cpp:208-214. -/
def View.nbDetections (v : View K) : Int := v.grids.foldl (fun n cg => n + cg.2.nbDetections) 0

/-- `get_residuals()`, calib_camera.cpp:224-237: the residuals that can be evaluated.
`resid` is `get_residual` at the current parameters. -/
def View.residuals (resid : Reproj K → Option (K × K)) (v : View K) : List (K × K) :=
  v.all.filterMap resid

/-- `get_residuals(cam_idx)`, calib_camera.cpp:239-256. -/
def View.residualsOf (resid : Reproj K → Option (K × K)) (cam : Int) (v : View K) :
    List (K × K) :=
  (v.resFns.filter (fun cr => cr.1 = cam)).flatMap (fun cr => cr.2.filterMap resid)

/-- The condition in `filter_view`, calib_camera.cpp:305. -/
def isOutlier (resid : Reproj K → Option (K × K)) (th : K × K) (r : Reproj K) : Bool :=
  match resid r with
  | some e => decide (e.1 > th.1) || decide (e.2 > th.2)
  | none => false

/-- The `while` loop of `filter_view` over the residuals of one camera,
calib_camera.cpp:301-332: the residuals that stay, the grid, the solver and the number of
residuals removed. -/
def filterCam (resid : Reproj K → Option (K × K)) (th : K × K) :
    List (Reproj K) → Grid K → CBook Par (Res K) →
      Except Fault (List (Reproj K) × Grid K × CBook Par (Res K) × Nat)
  | [], g, b => .ok ([], g, b, 0)
  | r :: rs, g, b =>
    if isOutlier resid th r then do
      let g' ← AprilGrid.remove g r.tag r.corner
      let still ← AprilGrid.has g' r.tag r.corner
      if still then .error .fatal
      else if g.nbDetections = g'.nbDetections then .error .fatal
      else do
        let b ← b.removeResidual Res.blocks (.reproj r)
        let (rs, g, b, n) ← filterCam resid th rs g' b
        pure (rs, g, b, n + 1)
    else do
      let (rs, g, b, n) ← filterCam resid th rs g b
      pure (r :: rs, g, b, n)

/-- One camera of the loop in `filter_view`, calib_camera.cpp:298-334.  `res_fns[cam_idx]`
and `grids[cam_idx]` create missing entries; the grid entry is only touched when there is
an outlier. -/
def filterStep (resid : Reproj K → Option (K × K)) (th : K × K)
    (acc : View K × CBook Par (Res K) × Nat) (cam : Int) :
    Except Fault (View K × CBook Par (Res K) × Nat) := do
  let v := acc.1
  let rs := (SMap.find cam v.resFns).getD []
  let g := (SMap.find cam v.grids).getD AprilGrid.default
  let (rs', g', b', n) ← filterCam resid th rs g acc.2.1
  pure ({ v with resFns := SMap.set cam rs' v.resFns,
                 grids := if n = 0 then v.grids else SMap.set cam g' v.grids },
        b', acc.2.2 + n)

/-- `filter_view(threshold)`, calib_camera.cpp:292-335, over the camera indices of
`cam_params` (`get_camera_indices`, 215-221). -/
def View.filter (resid : Reproj K → Option (K × K)) (cams : List Int) (th : K × K)
    (v : View K) (b : CBook Par (Res K)) : Except Fault (View K × CBook Par (Res K) × Nat) :=
  cams.foldlM (filterStep resid th) (v, b, 0)

/-- `filter_view(thresholds)`, calib_camera.cpp:337-345: every camera's threshold is applied
to the whole view. -/
def View.filterAll (resid : Reproj K → Option (K × K)) (cams : List Int)
    (ths : List (Int × (K × K))) (v : View K) (b : CBook Par (Res K)) :
    Except Fault (View K × CBook Par (Res K) × Nat) :=
  ths.foldlM (fun acc ct => do
    let (v, b, n) ← View.filter resid cams ct.2 acc.1 acc.2.1
    pure (v, b, acc.2.2 + n)) (v, b, 0)

end Yac.Calib
