import Verif.Calib.ViewModel

/-!
# Model of the calls of `calib_camera_t` that change the calibration problem

yac/lib/calib_camera.cpp.  See `ViewModel.lean` for the conventions.
-/

namespace Yac.Calib

open Yac.AprilGrid (Grid)
open Yac.Solver (CBook insSet)

variable {K V : Type} [Field K] [LinearOrder K]

/-- `get_camera_indices`, calib_camera.cpp:721-727 (and 216-222 for a view). -/
def camIdxs (s : Cal K V) : List Int := s.params.map Prod.fst

/-- `nb_views`, calib_camera.cpp:705. -/
def nbViews (s : Cal K V) : Nat := s.views.length

/-- `get_residuals`, calib_camera.cpp:774-786: all evaluable residuals of one camera, over
the views in ascending order. -/
def residualsOf (resid : Reproj K → Option (K × K)) (s : Cal K V) (cam : Int) : List (K × K) :=
  s.views.flatMap (fun tv => tv.2.residualsOf resid cam)

/-- One step of the search for the grid with the most detections, calib_camera.cpp:982-988. -/
def bestGrid (exts : List (Int × CamP V)) (best : Int × Grid K) (cg : Int × Grid K) :
    Int × Grid K :=
  if cg.2.nbDetections > best.2.nbDetections ∧ (SMap.find cg.1 exts).isSome then cg else best

/-- `add_pose`, calib_camera.cpp:970-1005. -/
def addPose (env : Env K V) (s : Cal K V) (ts : Int) (grids : List (Int × Grid K)) :
    Except Fault (Cal K V) :=
  if (SMap.find ts s.poses).isSome then .error .fatal
  else
    let best := grids.foldl (bestGrid s.exts) (0, AprilGrid.default)
    match SMap.find best.1 s.params with
    | none => .error .oob
    | some p =>
      match env.estimate best.2 p.val with
      | none => .error .fatal
      | some T_CiF =>
        match SMap.find best.1 s.exts with
        | none => .error .exn
        | some e => .ok { s with
            poses := SMap.set ts ⟨s.next, env.compose e.val T_CiF⟩ s.poses,
            solver := s.solver.addParam (.pose s.next),
            next := s.next + 1 }

/-- The timestamp `add_view` uses, calib_camera.cpp:1008-1020: that of the first detected
grid. -/
def viewStamp (grids : List (Int × Grid K)) : Option Int :=
  (grids.find? (fun cg => cg.2.detected)).map (fun cg => cg.2.timestamp)

/-- The calibration data entry, calib_camera.cpp:1023-1029. -/
def ensureData (s : Cal K V) (ts : Int) (grids : List (Int × Grid K)) : Cal K V :=
  if (SMap.find ts s.data).isSome then s
  else { s with data := SMap.set ts (grids.filter (fun cg => cg.2.detected)) s.data }

/-- The pose, calib_camera.cpp:1032-1034. -/
def ensurePose (env : Env K V) (s : Cal K V) (ts : Int) (grids : List (Int × Grid K)) :
    Except Fault (Cal K V) :=
  if (SMap.find ts s.poses).isSome then .ok s else addPose env s ts grids

/-- Registration of the pose, calib_camera.cpp:1035-1037. -/
def ensureParam (s : Cal K V) (p : PoseObj V) : Cal K V :=
  if s.solver.hasParam (.pose p.id) then s
  else { s with solver := s.solver.addParam (.pose p.id) }

/-- The view itself, calib_camera.cpp:1040-1049. -/
def attachView (s : Cal K V) (ts : Int) (grids : List (Int × Grid K)) (p : PoseObj V) :
    Except Fault (Cal K V × Bool) :=
  View.new s.rows s.cols s.params s.exts ts grids p.id s.solver s.next >>= fun out =>
    .ok ({ s with viewTs := s.viewTs ++ [ts], views := SMap.set ts out.1 s.views,
                  solver := out.2.1, next := out.2.2 }, true)

/-- `add_view`, calib_camera.cpp:1007-1052. -/
def addView (env : Env K V) (s : Cal K V) (grids : List (Int × Grid K)) :
    Except Fault (Cal K V × Bool) :=
  match viewStamp grids with
  | none => .ok (s, false)
  | some ts =>
    ensurePose env (ensureData s ts grids) ts grids >>= fun s =>
      match SMap.find ts s.poses with
      | none => .error .oob
      | some p => attachView (ensureParam s p) ts grids p

/-- `if (solver->has_param(pose)) solver->remove_param(pose)`, calib_camera.cpp:1095-1097. -/
def dropParam (b : CBook Par (Res K)) (k : Nat) : Except Fault (CBook Par (Res K)) :=
  if b.hasParam (.pose k) then b.removeParam Res.blocks (.pose k) else .ok b

/-- First half of `remove_view`, calib_camera.cpp:1092-1099. -/
def removePose (s : Cal K V) (ts : Int) : Except Fault (Cal K V) :=
  match SMap.find ts s.poses with
  | none => .ok s
  | some p => dropParam s.solver p.id >>= fun b =>
    .ok { s with solver := b, poses := SMap.erase ts s.poses }

/-- Second half of `remove_view`, calib_camera.cpp:1102-1111.  The destructor of the view
leaves the solver alone. -/
def dropView (s : Cal K V) (ts : Int) : Except Fault (Cal K V) :=
  if (SMap.find ts s.views).isSome then
    if ts ∈ s.viewTs then
      .ok { s with views := SMap.erase ts s.views, viewTs := s.viewTs.erase ts }
    else .error .oob
  else .ok s

/-- `remove_view`, calib_camera.cpp:1091-1112. -/
def removeView (s : Cal K V) (ts : Int) : Except Fault (Cal K V) :=
  removePose s ts >>= fun s => dropView s ts

/-- The assertions of `remove_all_views`, calib_camera.cpp:1123-1131. -/
def checkEmpty (s : Cal K V) : Except Fault (Cal K V) :=
  if s.views.length ≠ 0 then .error .fatal
  else if s.solver.numResiduals ≠ 0 then .error .fatal
  else .ok { s with removedOutliers := 0 }

/-- `remove_all_views`, calib_camera.cpp:1114-1132. -/
def removeAllViews (s : Cal K V) : Except Fault (Cal K V) :=
  (s.views.map Prod.fst).foldlM removeView s >>= checkEmpty

/-- The `fixed` flag of a parameter. -/
def isFixed (s : Cal K V) : Par → Bool
  | .cam i => ((SMap.find i s.params).map CamP.fixed).getD false
  | .ext i => ((SMap.find i s.exts).map CamP.fixed).getD false
  | .pose _ => false

/-- The parameters of the residuals handed to a `marg_residual_t`, in the order first seen,
calib_residuals.cpp:1845-1874. -/
def seenParams (rs : List (Res K)) : List Par :=
  (rs.flatMap Res.blocks).foldl (fun l p => insSet p l) []

/-- The parameters that remain, calib_residuals.cpp:1885-1907: poses, extrinsics,
intrinsics, without fixed ones. -/
def remainParams (s : Cal K V) (flagged : Par → Bool) (rs : List (Res K)) : List Par :=
  let l := (seenParams rs).filter (fun p => !flagged p && !isFixed s p)
  l.filter (fun p => match p with | .pose _ => true | _ => false) ++
  l.filter (fun p => match p with | .ext _ => true | _ => false) ++
  l.filter (fun p => match p with | .cam _ => true | _ => false)

/-- Removal of the previous marginalisation residual, calib_camera.cpp:1145-1153. -/
def dropMarg (s : Cal K V) : Except Fault (CBook Par (Res K)) :=
  match s.marg with
  | none => .ok s.solver
  | some old => s.solver.removeResidual Res.blocks old

/-- The residuals handed to the new `marg_residual_t`: the previous one, then the view's,
calib_camera.cpp:1147 and 352-356. -/
def margInput (s : Cal K V) (v : View K) : List (Res K) := s.marg.toList ++ v.all.map Res.reproj

/-- The poses whose `marginalize` flag is set, calib_camera.cpp:1138 and 349. -/
def isFlagged (p : PoseObj V) (v : View K) (q : Par) : Bool :=
  decide (q = .pose p.id) || decide (q = .pose v.pose)

/-- `marginalize`, calib_camera.cpp:1134-1162, with `calib_view_t::marginalize`, 347-378,
inlined: the oldest view's residuals (and the previous marginalisation residual) become a
new `marg_residual_t`; flagged parameters leave the solver.  `assert(m > 0 && r > 0)`
(calib_residuals.cpp:1998) is `fatal`. -/
def marginalize (s : Cal K V) : Except Fault (Cal K V) :=
  match s.views with
  | [] => .error .oob
  | (ts, v) :: _ =>
    match SMap.find ts s.poses with
    | none => .error .oob
    | some p =>
      dropMarg s >>= fun b =>
      let margPs := (seenParams (margInput s v)).filter (isFlagged p v)
      let remain := remainParams s (isFlagged p v) (margInput s v)
      if margPs = [] ∨ remain = [] then .error .fatal
      else
        margPs.foldlM (CBook.removeParam Res.blocks) b >>= fun b =>
        b.addResidual Res.blocks (.marg s.next remain) >>= fun b =>
        removeView { s with
          solver := b, marg := some (.marg s.next remain), next := s.next + 1,
          views := SMap.set ts { v with resFns := [] } s.views } ts

/-- `solver->solve`: the registered parameters take arbitrary new values; nothing else
changes (solver.cpp:1186-1230 hands `ceres::Solve` the problem; constant blocks are a
special case of "arbitrary"). -/
def solve (env : Env K V) (s : Cal K V) : Cal K V :=
  { s with
    params := s.params.map (fun ip => (ip.1, { ip.2 with
      val := if s.solver.hasParam (.cam ip.1) then env.solve s (.cam ip.1) else ip.2.val })),
    exts := s.exts.map (fun ip => (ip.1, { ip.2 with
      val := if s.solver.hasParam (.ext ip.1) then env.solve s (.ext ip.1) else ip.2.val })),
    poses := s.poses.map (fun tp => (tp.1, { tp.2 with
      val := if s.solver.hasParam (.pose tp.2.id) then env.solve s (.pose tp.2.id)
        else tp.2.val })) }

/-- `_cache_estimates`, calib_camera.cpp:1509-1521. -/
def cacheEstimates (s : Cal K V) : Cal K V :=
  { s with
    posesTmp := s.poses.map (fun tp => (tp.1, tp.2.val)),
    paramsTmp := s.params.map (fun ip => (ip.1, ip.2.val)),
    extsTmp := s.params.filterMap (fun ip =>
      (SMap.find ip.1 s.exts).map (fun e => (ip.1, e.val))) }

/-- `_restore_estimates`, calib_camera.cpp:1523-1547. -/
def restoreEstimates (s : Cal K V) : Cal K V :=
  { s with
    poses := s.poses.map (fun tp => (tp.1, { tp.2 with
      val := (SMap.find tp.1 s.posesTmp).getD tp.2.val })),
    params := s.params.map (fun ip => (ip.1, { ip.2 with
      val := (SMap.find ip.1 s.paramsTmp).getD ip.2.val })),
    exts := s.exts.map (fun ip => (ip.1, { ip.2 with
      val := if (SMap.find ip.1 s.params).isSome then (SMap.find ip.1 s.extsTmp).getD ip.2.val
        else ip.2.val })),
    posesTmp := [], paramsTmp := [], extsTmp := [] }

/-- Rejection of a view, calib_camera.cpp:1070-1072 and 1078-1080. -/
def rejectView (s : Cal K V) (ts : Int) : Except Fault (Cal K V × Bool) :=
  removeView (restoreEstimates s) ts >>= fun s => .ok (s, false)

/-- The decision of `add_nbv_view` after the solve, calib_camera.cpp:1066-1088. -/
def judgeView (env : Env K V) (s : Cal K V) (ts : Int) : Except Fault (Cal K V × Bool) :=
  match env.info s with
  | none => rejectView s ts
  | some (info, entropy) =>
    if (1 / 2) * (s.infoK - info) < s.threshold then rejectView s ts
    else .ok ({ s with infoK := info, entropyK := entropy }, true)

/-- `add_nbv_view`, calib_camera.cpp:1054-1089. -/
def addNbvView (env : Env K V) (s : Cal K V) (grids : List (Int × Grid K)) :
    Except Fault (Cal K V × Bool) :=
  addView env s grids >>= fun out =>
    if out.2 = false then .ok (out.1, false)
    else
      let s := solve env (cacheEstimates out.1)
      match s.viewTs.getLast? with
      | none => .error .oob
      | some ts => judgeView env s ts

/-- The best candidate so far in `find_nbv`: camera, index, information. -/
structure Best (K : Type) where
  cam : Int
  idx : Nat
  info : K
  deriving DecidableEq, Repr

/-- Update of the best candidate, calib_camera.cpp:1226-1231 and 1296-1301. -/
def Best.update (b : Best K) (cam : Int) (i : Nat) (info : Option K) : Best K :=
  match info with
  | some v => if v < b.info then ⟨cam, i, v⟩ else b
  | none => b

/-- The candidate's pose, calib_camera.cpp:1201-1206. -/
def nbvPose (env : Env K V) (s : Cal K V) (ts : Int) (T : V) : Cal K V :=
  if (SMap.find ts s.poses).isSome then s
  else { s with poses := SMap.set ts ⟨s.next, env.invert T⟩ s.poses,
                solver := s.solver.addParam (.pose s.next), next := s.next + 1 }

/-- One camera of the loop below. -/
def simStep (env : Env K V) (exts : List (Int × CamP V)) (ts : Int) (T : V)
    (gs : List (Int × Grid K)) (ip : Int × CamP V) : Except Fault (List (Int × Grid K)) :=
  match SMap.find ip.1 exts with
  | none => .error .oob
  | some e => .ok (gs ++ [(ip.1, env.simGrid ip.2.val ts T e.val)])

/-- The simulated grids of a candidate, calib_camera.cpp:1209-1217. -/
def nbvGrids (env : Env K V) (s : Cal K V) (ts : Int) (T : V) :
    Except Fault (List (Int × Grid K)) :=
  s.params.foldlM (simStep env s.exts ts T) []

/-- One candidate of the loops in `find_nbv`, calib_camera.cpp:1199-1236. -/
def evalNbv (env : Env K V) (ts : Int) (cam : Int) (acc : Cal K V × Best K) (iT : Nat × V) :
    Except Fault (Cal K V × Best K) :=
  nbvGrids env (nbvPose env acc.1 ts iT.2) ts iT.2 >>= fun grids =>
  addView env (nbvPose env acc.1 ts iT.2) grids >>= fun out =>
  removeView out.1 ts >>= fun s =>
  .ok (s, acc.2.update cam iT.1 ((env.info out.1).map Prod.fst))

/-- The return value and the outputs of `find_nbv`. -/
structure NbvResult (K : Type) where
  code : Int
  cam : Int
  idx : Nat
  nbvInfo : K
  info : K
  gain : K
  deriving DecidableEq, Repr

/-- Lines 1241-1248 of `find_nbv` (1304-1312 of `find_nbv_fast`). -/
def nbvResult (threshold info : K) (b : Best K) : NbvResult K :=
  let gain := (1 / 2) * (info - b.info)
  ⟨if gain < threshold then -2 else 0, b.cam, b.idx, b.info, info, gain⟩

/-- `find_nbv`, calib_camera.cpp:1164-1249.  `none`: it returns -1 (the outputs other than
`info` are not written). -/
def findNbv (env : Env K V) (s : Cal K V) (cands : List (Int × List V)) :
    Except Fault (Cal K V × Option (NbvResult K)) :=
  if cands = [] then .error .fatal
  else if nbViews s = 0 then .error .fatal
  else match env.info s with
    | none => .ok (s, none)
    | some (info, _) =>
      match s.timestamps.getLast? with
      | none => .error .oob
      | some last =>
        cands.foldlM (fun acc cp =>
          (((List.range cp.2.length).zip cp.2).foldlM (evalNbv env (last + 1) cp.1) acc))
          (s, (⟨0, 0, 0⟩ : Best K)) >>= fun out =>
        .ok (out.1, some (nbvResult s.threshold info out.2))

/-- The scan of `find_nbv_fast` over its score table, calib_camera.cpp:1290-1303 (the
scores themselves come from `nbv_evaluator_t`, 2418-2700, here an arbitrary function of the
candidate). -/
def scanScores (scores : List (Int × List K)) : Best K :=
  scores.foldl (fun b cp =>
    ((List.range cp.2.length).zip cp.2).foldl (fun b iv => b.update cp.1 iv.1 (some iv.2)) b)
    ⟨0, 0, 0⟩

/-- `find_nbv_fast`, calib_camera.cpp:1251-1313.  The first loop reads
`nbv_poses.at(0) ... at(n-1)`, which throws when the camera indices are not `0..n-1`. -/
def findNbvFast (env : Env K V) (score : V → K) (s : Cal K V) (cands : List (Int × List V)) :
    Except Fault (Option (NbvResult K)) :=
  if cands = [] then .error .fatal
  else if nbViews s = 0 then .error .fatal
  else match env.info s with
    | none => .ok none
    | some (info, _) =>
      if (List.range cands.length).all (fun i => (SMap.find (i : Int) cands).isSome) then
        .ok (some (nbvResult s.threshold info
          (scanScores (cands.map (fun cp => (cp.1, cp.2.map score))))))
      else .error .exn

/-- `add_measurement`, calib_camera.cpp:926-938 (and calib_vi.cpp:803-817): the image buffer
maps camera index to the timestamp of its image; the result is whether the images are
handed to the detector. -/
def addMeasurement (buf : List (Int × Int)) (ts cam : Int) : List (Int × Int) × Bool :=
  let buf := SMap.set cam ts buf
  (buf, buf.all (fun ct => !decide (ts > ct.2)))

/-- One grid of the loop in `add_camera_data`, calib_camera.cpp:797-800. -/
def addGrid (cam : Int) (s : Cal K V) (g : Grid K) : Cal K V :=
  { s with timestamps := setInsert g.timestamp s.timestamps,
           data := SMap.set g.timestamp
             (SMap.set cam g ((SMap.find g.timestamp s.data).getD [])) s.data }

/-- `add_camera_data(cam_idx, grids)`, calib_camera.cpp:793-816, without `init_intrinsics`
(which overwrites the focal lengths of the camera by the median of `focal_init`). -/
def addCameraData (s : Cal K V) (cam : Int) (grids : List (Grid K)) : Cal K V :=
  grids.foldl (addGrid cam) s

/-- `add_camera_data(grids)` for several cameras, calib_camera.cpp:832-837. -/
def addCamerasData (s : Cal K V) (grids : List (Int × List (Grid K))) : Cal K V :=
  grids.foldl (fun s cg => addCameraData s cg.1 cg.2) s

/-- `_filter_all_views`, calib_camera.cpp:1489-1507; `thresh` is `outlier_threshold *
stddev` of the residuals of a camera. -/
def filterAllViews (resid : Reproj K → Option (K × K)) (thresh : List (K × K) → K × K)
    (s : Cal K V) : Except Fault (Cal K V × Nat) := do
  let ths := (camIdxs s).map (fun c => (c, thresh (residualsOf resid s c)))
  let (vs, b, n) ← s.views.foldlM (fun acc tv => do
    let (v, b, n) ← View.filterAll resid (camIdxs s) ths tv.2 acc.2.1
    pure (acc.1 ++ [(tv.1, v)], b, acc.2.2 + n)) (([] : List (Int × View K)), s.solver, 0)
  pure ({ s with views := vs, solver := b }, n)

end Yac.Calib
