import Verif.Calib.CameraModel
import Verif.Calib.CamchainModel

/-!
# Model of the initialisation in `calib_camera_t::solve`

`calib_initialize`, `_initialize_intrinsics`, `_initialize_extrinsics`
(yac/lib/calib_camera.cpp:444-543, 1320-1432).

The solver is a parameter: an arbitrary function of the problem it is handed, i.e. of the
observations, the initial poses and the parameters they depend on.  What is assumed of it is that a
parameter that is fixed, or that no residual depends on, keeps its value.  The solver, the poses and
the views created by `calib_initialize` are local to it.
-/

namespace Yac.Setup

open Yac.AprilGrid (Grid Meas)
open Yac.Calib
open Yac.Geom (Mat4)

variable {K V : Type} [Field K] [LinearOrder K]

/-- One measurement handed to the solver: `reproj_residual_t` for a camera, a frame, a corner of the
target and an image point. -/
structure Obs (K : Type) where
  cam : Int
  ts : Int
  tag : Int
  corner : Int
  z : K × K
  deriving DecidableEq, Repr

/-- What the solver is handed: the measurements, the initial poses, and for the cameras concerned
intrinsics and extrinsics with their `fixed` flags. -/
structure InitProb (K V : Type) where
  obs : List (Obs K)
  poses : List (Int × V)
  intr : Int → Option (CamP V)
  ext : Int → Option (CamP V)

/-- The parts that are not modelled, as arbitrary functions. -/
structure InitEnv (K V : Type) where
  /-- `grid.estimate` with the intrinsics of a camera (`none`: it fails). -/
  estimate : Grid K → V → Option (Mat4 K)
  /-- `tf()` of a parameter vector. -/
  tf : V → Mat4 K
  /-- The parameter vector of a transform (`pose_t` constructor, `set_tf`). -/
  ofTf : Mat4 K → V
  /-- The intrinsics and extrinsics of a camera after `solver->solve`. -/
  optIntr : InitProb K V → Int → V
  optExt : InitProb K V → Int → V

/-- One step of the search for the grid with the most detections, calib_camera.cpp:484-498. -/
def initBest (params exts : List (Int × CamP V)) (best : Int × Grid K) (cg : Int × Grid K) :
    Int × Grid K :=
  if (SMap.find cg.1 params).isNone then best
  else if (SMap.find cg.1 exts).isNone then best
  else if cg.2.detected = false then best
  else if cg.2.nbDetections > best.2.nbDetections then cg else best

/-- The measurements of one camera in the constructor of `calib_view_t`, calib_camera.cpp:172-204:
cameras that are not calibrated or saw nothing are skipped. -/
def camObs (rows cols : Nat) (params exts : List (Int × CamP V)) (ts : Int) (cg : Int × Grid K) :
    Except Fault (List (Obs K)) :=
  if (SMap.find cg.1 params).isNone then .ok []
  else if cg.2.detected = false then .ok []
  else
    AprilGrid.getMeasurements cg.2 Meas.empty >>= fun m =>
    let ms := (m.tagIds.zip m.corners).zip m.keypoints
    if ms = [] then .ok []
    else if (SMap.find cg.1 exts).isNone then .error .exn
    else if ms.all (fun x => hasCorner rows cols x.1.1 x.1.2) = false then .error .fatal
    else .ok (ms.map (fun x => ⟨cg.1, ts, x.1.1, x.1.2, x.2⟩))

/-- The measurements of a frame, calib_camera.cpp:171-205. -/
def frameObs (rows cols : Nat) (params exts : List (Int × CamP V)) (ts : Int)
    (grids : List (Int × Grid K)) : Except Fault (List (Obs K)) :=
  grids.foldlM (fun acc cg => camObs rows cols params exts ts cg >>= fun l => .ok (acc ++ l)) []

/-- The pose and the view of a frame whose grid with the most detections is `best`,
calib_camera.cpp:499-526.  `-1` marks "no grid". -/
def initPose (env : InitEnv K V) (rows cols : Nat) (params exts : List (Int × CamP V))
    (acc : List (Int × V) × List (Obs K)) (frame : Int × List (Int × Grid K)) (best : Int × Grid K) :
    Except Fault (List (Int × V) × List (Obs K)) :=
  if best.1 = -1 then .ok acc
  else
    match SMap.find best.1 params with
    | none => .error .oob
    | some p =>
      match env.estimate best.2 p.val with
      | none => .error .fatal
      | some T_CiF =>
        match SMap.find best.1 exts with
        | none => .error .exn
        | some e =>
          frameObs rows cols params exts frame.1 frame.2 >>= fun obs =>
            .ok (acc.1 ++ [(frame.1, env.ofTf (env.tf e.val * T_CiF))], acc.2 ++ obs)

/-- One frame of the loop in `calib_initialize`, calib_camera.cpp:480-526. -/
def initFrame (env : InitEnv K V) (rows cols : Nat) (params exts : List (Int × CamP V))
    (acc : List (Int × V) × List (Obs K)) (frame : Int × List (Int × Grid K)) :
    Except Fault (List (Int × V) × List (Obs K)) :=
  initPose env rows cols params exts acc frame
    (frame.2.foldl (initBest params exts) (-1, AprilGrid.default))

/-- The problem handed to the solver. -/
def initProb (params exts : List (Int × CamP V)) (built : List (Int × V) × List (Obs K)) :
    InitProb K V :=
  ⟨built.2, built.1,
   fun i => if built.2.any (fun o => o.cam = i) then SMap.find i params else none,
   fun i => if built.2.any (fun o => o.cam = i) then SMap.find i exts else none⟩

/-- `calib_initialize`, calib_camera.cpp:444-543: the camera parameters and extrinsics after the
solve. -/
def calibInitialize (env : InitEnv K V) (rows cols : Nat) (params exts : List (Int × CamP V))
    (data : List (Int × List (Int × Grid K))) :
    Except Fault (List (Int × CamP V) × List (Int × CamP V)) :=
  data.foldlM (initFrame env rows cols params exts) ([], []) >>= fun built =>
    let prob := initProb params exts built
    let moved (i : Int) (p : CamP V) : Bool := !p.fixed && built.2.any (fun o => o.cam = i)
    .ok (params.map (fun ip => (ip.1, if moved ip.1 ip.2 then ⟨env.optIntr prob ip.1, ip.2.fixed⟩ else ip.2)),
         exts.map (fun ip => (ip.1, if moved ip.1 ip.2 then ⟨env.optExt prob ip.1, ip.2.fixed⟩ else ip.2)))

/-- `extract`, calib_camera.cpp:1322-1333. -/
def extract (i : Int) (data : List (Int × List (Int × Grid K))) : List (Int × List (Int × Grid K)) :=
  data.filterMap (fun tg => (SMap.find i tg.2).map (fun g => (tg.1, [(i, g)])))

/-- `cam_exts[i]->fixed = b`. -/
def setFixed (i : Int) (b : Bool) (exts : List (Int × CamP V)) : List (Int × CamP V) :=
  exts.map (fun ip => (ip.1, if ip.1 = i then ⟨ip.2.val, b⟩ else ip.2))

/-- One camera of `_initialize_intrinsics`, calib_camera.cpp:1337-1369. -/
def initIntrStep (env : InitEnv K V) (s : Cal K V) (i : Int) : Except Fault (Cal K V) :=
  if (SMap.find i s.exts).isNone then .error .oob
  else
    let fixedExts := setFixed i true s.exts
    calibInitialize env s.rows s.cols s.params fixedExts (extract i s.data) >>= fun out =>
      .ok { s with params := out.1, exts := if i = 0 then out.2 else setFixed i false out.2 }

/-- `_initialize_intrinsics`, calib_camera.cpp:1320-1371. -/
def initIntrinsics (env : InitEnv K V) (s : Cal K V) : Except Fault (Cal K V) :=
  (camIdxs s).foldlM (initIntrStep env) s

/-- What the constructor of `camchain_t` reads of a frame; `cam_params.at` throws for a grid of a
camera that is not calibrated, if the frame has two grids. -/
def chainGrids (env : InitEnv K V) (params : List (Int × CamP V)) (grids : List (Int × Grid K)) :
    List (Int × ChainGrid K) :=
  grids.map (fun cg => (cg.1, ⟨cg.2.detected, cg.2.nbDetections,
    (SMap.find cg.1 params).bind (fun p => env.estimate cg.2 p.val)⟩))

/-- `cam_params.at(cam)` for all grids of a frame with at least two usable ones,
calib_camera.cpp:15-33. -/
def chainKnown (params : List (Int × CamP V)) (frame : List (Int × ChainGrid K)) : Bool :=
  let usable := getGrids frame
  decide (usable.length < 2) || usable.all (fun cg => (SMap.find cg.1 params).isSome)

/-- One camera of the loop in `_initialize_extrinsics`, calib_camera.cpp:1384-1394. -/
def initExtStep (env : InitEnv K V) (chain : Camchain K) (fuel : Nat) (s : Cal K V) (i : Int) :
    Except Fault (Cal K V) :=
  if s.timestamps.all (fun t => ((SMap.find t s.data).bind (fun gs => SMap.find i gs)).isNone) then
    .error .fatal
  else
    chain.find fuel 0 i >>= fun r =>
      match r with
      | (0, some T) => .ok { s with exts := s.exts.map (fun ip =>
          (ip.1, if ip.1 = i then ⟨env.ofTf T, ip.2.fixed⟩ else ip.2)) }
      | _ => .error .fatal

/-- `_initialize_extrinsics`, calib_camera.cpp:1373-1432; `fuel` bounds the search in
`camchain_t::find`. -/
def initExtrinsics (env : InitEnv K V) (fuel : Nat) (s : Cal K V) : Except Fault (Cal K V) :=
  if s.params.length = 1 then .ok s
  else
    let frames := s.data.map (fun tg => chainGrids env s.params tg.2)
    if frames.all (chainKnown s.params) = false then .error .exn
    else
      Camchain.build frames {} >>= fun chain =>
      (camIdxs s).foldlM (initExtStep env chain fuel) s >>= fun s =>
      calibInitialize env s.rows s.cols s.params s.exts s.data >>= fun out =>
        .ok { s with params := out.1, exts := out.2 }

/-- The initialisation in `solve`, calib_camera.cpp:1954-1962. -/
def initialise (env : InitEnv K V) (fuel : Nat) (skip : Bool) (s : Cal K V) : Except Fault (Cal K V) :=
  if skip then .ok s
  else initIntrinsics env s >>= fun s => initExtrinsics env fuel s

end Yac.Setup
