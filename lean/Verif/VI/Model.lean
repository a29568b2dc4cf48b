import Verif.Containers.SMap
import Verif.AprilGrid.Model
import Verif.Solver.Book
import Verif.Stream.ImuModel

/-!
# Model of `calib_vi_t` and `calib_vi_view_t` (yac/lib/calib_vi.{hpp,cpp})

Objects compared by address (poses, speed-and-bias blocks, residuals) carry a number that is
fresh at creation; the pose and the speed-and-bias block of one view share a number.
`ceres::Problem` is `Solver.Problem`, by its documented contract (see `Solver/Book.lean`).
`std::deque` is a list; `push_back` does not invalidate references to elements.

The numerical parts are arbitrary functions (`VEnv`).  Values of parameters that the solver
changes are not tracked: no decision of the modelled calls depends on them.  The mutex is
held for the whole of every call, so calls are atomic.  `FATAL` and failed `assert`s are
`fatal`.
-/

namespace Yac.VI

open Yac.AprilGrid (Grid)
open Yac.Solver (Problem insSet)

/-- The parameters of the problem. -/
inductive Par where
  | cam (i : Int)
  | ext (i : Int)
  | imuExt
  | delay
  | fiducial
  | pose (k : Nat)
  | sb (k : Nat)
  deriving DecidableEq, Repr

/-- `fiducial_residual_t`: creation number, camera, view, corner and measured point. -/
structure Fid (K : Type) where
  id : Nat
  cam : Int
  view : Nat
  tag : Int
  corner : Int
  z : K × K
  deriving DecidableEq, Repr

/-- `imu_residual_t` between the views `i` and `j`. -/
structure ImuRes where
  id : Nat
  i : Nat
  j : Nat
  deriving DecidableEq, Repr

/-- A residual of the problem. -/
inductive Res (K : Type) where
  | fid (r : Fid K)
  | imu (r : ImuRes)
  | marg (id : Nat) (remain : List Par)
  deriving DecidableEq, Repr

/-- `param_blocks`: calib_residuals.cpp:545-549 (fiducial), 1023-1027 (IMU), 1905-1912
(marginalisation). -/
def Res.blocks {K : Type} : Res K → List Par
  | .fid r => [.fiducial, .pose r.view, .imuExt, .ext r.cam, .cam r.cam]
  | .imu r => [.pose r.i, .sb r.i, .pose r.j, .sb r.j, .delay]
  | .marg _ ps => ps

/-- `calib_vi_view_t`, calib_vi.hpp:14-45. -/
structure View (K : Type) where
  num : Nat
  ts : Int
  grids : List (Int × Grid K)
  fids : List (Fid K)
  imu : Option ImuRes
  deriving DecidableEq, Repr

/-- The `fixed` flags of a camera's intrinsics and extrinsics. -/
structure CamFlags where
  fixPar : Bool
  fixExt : Bool
  deriving DecidableEq, Repr

/-- The state of `calib_vi_t`, calib_vi.hpp:80-145.  `marg` is `marg_residual` with
`marg_residual_id`. -/
structure St (K D : Type) where
  imuStarted : Bool
  visionStarted : Bool
  initialized : Bool
  running : Bool
  enableMarg : Bool
  windowSize : Int
  cams : List (Int × CamFlags)
  imuExtFixed : Bool
  delayFixed : Bool
  fiducial : Bool
  gridBuf : List (Int × Grid K)
  imu : Stream.Imu D
  views : List (View K)
  prob : Problem Par (Res K)
  marg : Option (Nat × Res K)
  counter : Nat
  next : Nat

/-- The numerical parts that are not modelled. -/
structure VEnv (K D : Type) where
  /-- `aprilgrid_t::estimate` succeeds. -/
  estimate : Grid K → Bool
  /-- The measurements a view takes from a grid: `sample(20, ...)` in live mode,
  `get_measurements` otherwise. -/
  meas : Bool → Grid K → Except Fault (List ((Int × Int) × (K × K)))

variable {K D : Type} [DecidableEq K]

/-! ### `ceres::Problem` -/

/-- `AddParameterBlock`. -/
def addParam (p : Problem Par (Res K)) (q : Par) : Problem Par (Res K) :=
  { p with pblocks := insSet q p.pblocks }

/-- `AddResidualBlock`: the id and the new problem. -/
def addResidual (p : Problem Par (Res K)) (r : Res K) : Except Fault (Nat × Problem Par (Res K)) :=
  if (r.blocks).Nodup then
    .ok (p.next, ⟨r.blocks.foldl (fun l q => insSet q l) p.pblocks,
      p.rblocks ++ [(p.next, r)], p.next + 1⟩)
  else .error .fatal

/-- `RemoveResidualBlock`. -/
def removeResidual (p : Problem Par (Res K)) (id : Nat) : Except Fault (Problem Par (Res K)) :=
  if id ∈ p.rblocks.map Prod.fst then
    .ok { p with rblocks := p.rblocks.filter (fun b => decide (b.1 ≠ id)) }
  else .error .fatal

/-- `if (HasParameterBlock(q)) RemoveParameterBlock(q)`. -/
def dropParam (p : Problem Par (Res K)) (q : Par) : Problem Par (Res K) :=
  if q ∈ p.pblocks then
    { p with pblocks := p.pblocks.erase q,
             rblocks := p.rblocks.filter (fun b => decide (q ∉ b.2.blocks)) }
  else p

/-! ### Construction -/

/-- `calib_vi_t(calib_target)` followed by `add_imu`, calib_vi.cpp:260-283 and 399-429: the
extrinsics and the time delay are registered. -/
def St.new (enableMarg : Bool) (windowSize : Int) (imuExtFixed delayFixed : Bool) : St K D :=
  ⟨false, false, false, false, enableMarg, windowSize, [], imuExtFixed, delayFixed, false, [], {},
    [], addParam (addParam ⟨[], [], 0⟩ .imuExt) .delay, none, 0, 0⟩

/-- `add_camera`, calib_vi.cpp:431-470.  Intrinsics are registered when they are fixed
(otherwise with the first residual).  Adding a camera twice leaves dangling pointers in the
problem (`oob`). -/
def addCamera (s : St K D) (i : Int) (fixPar fixExt : Bool) : Except Fault (St K D) :=
  if (SMap.find i s.cams).isSome then .error .oob
  else .ok { s with
    cams := SMap.set i ⟨fixPar, fixExt⟩ s.cams,
    prob := addParam (if fixPar then addParam s.prob (.cam i) else s.prob) (.ext i) }

/-! ### Views -/

/-- One measurement in the constructor of `calib_vi_view_t`, calib_vi.cpp:51-80. -/
def addFid (cam : Int) (num : Nat) (acc : List (Fid K) × Problem Par (Res K) × Nat)
    (m : (Int × Int) × (K × K)) : Except Fault (List (Fid K) × Problem Par (Res K) × Nat) :=
  addResidual acc.2.1 (.fid ⟨acc.2.2, cam, num, m.1.1, m.1.2, m.2⟩) >>= fun out =>
  .ok (acc.1 ++ [⟨acc.2.2, cam, num, m.1.1, m.1.2, m.2⟩], out.2, acc.2.2 + 1)

/-- One grid in the constructor of `calib_vi_view_t`, calib_vi.cpp:37-81.  A camera that is
not known has null pointers for geometry and parameters. -/
def addGridRes (env : VEnv K D) (live : Bool) (cams : List (Int × CamFlags)) (num : Nat)
    (acc : List (Fid K) × Problem Par (Res K) × Nat) (cg : Int × Grid K) :
    Except Fault (List (Fid K) × Problem Par (Res K) × Nat) :=
  env.meas live cg.2 >>= fun ms =>
    if ms ≠ [] ∧ (SMap.find cg.1 cams).isNone then .error .oob
    else ms.foldlM (addFid cg.1 num) acc

/-- Constructor of `calib_vi_view_t`, calib_vi.cpp:7-82. -/
def newView (env : VEnv K D) (s : St K D) (ts : Int) (grids : List (Int × Grid K)) :
    Except Fault (St K D) :=
  grids.foldlM (addGridRes env s.enableMarg s.cams s.next)
    ([], addParam (addParam s.prob (.pose s.next)) (.sb s.next), s.next + 1) >>= fun out =>
  .ok { s with views := s.views ++ [⟨s.next, ts, grids, out.1, none⟩], prob := out.2.1,
               next := out.2.2 }

/-- Destructor of `calib_vi_view_t`, calib_vi.cpp:84-92. -/
def destroyView (p : Problem Par (Res K)) (v : View K) : Problem Par (Res K) :=
  dropParam (dropParam p (.pose v.num)) (.sb v.num)

/-- The first grid that was detected. -/
def firstDetected (grids : List (Int × Grid K)) : Option (Int × Grid K) :=
  grids.find? (fun cg => cg.2.detected)

/-- `initialize`, calib_vi.cpp:638-728 (the poses are in `VI/InitModel.lean`). -/
def initVI (env : VEnv K D) (s : St K D) (grids : List (Int × Grid K)) : Except Fault (St K D) :=
  match SMap.find 0 grids with
  | none => .error .exn
  | some g =>
    if g.detected = false then .error .fatal
    else if (SMap.find 0 s.cams).isNone then .error .exn
    else if env.estimate g = false then .error .fatal
    else
      newView env { s with prob := if s.fiducial then s.prob else addParam s.prob .fiducial,
                           fiducial := true } g.timestamp grids >>= fun s =>
      .ok { s with initialized := true }

/-- Attaching the IMU factor: `form_imu_residual`, calib_vi.cpp:191-234, called on the second
to last view with the last one. -/
def linkViews (s : St K D) : Except Fault (St K D) :=
  match s.views.reverse with
  | vk :: vj :: older =>
    addResidual s.prob (.imu ⟨s.next, vj.num, vk.num⟩) >>= fun out =>
    .ok { s with views := older.reverse ++ [{ vj with imu := some ⟨s.next, vj.num, vk.num⟩ }, vk],
                 prob := out.2, next := s.next + 1 }
  | _ => .error .oob

/-- `if (enable_marginalization) imu_buf.trim(ts)`, calib_vi.cpp:804-806. -/
def trimImu (s : St K D) (ts : Int) : Except Fault (St K D) :=
  if s.enableMarg then s.imu.trim ts >>= fun b => .ok { s with imu := b } else .ok s

/-- `add_view`, calib_vi.cpp:730-809.  The pose estimate uses the first detected grid; an
unknown camera makes `cam_geoms.at` throw. -/
def addView (env : VEnv K D) (s : St K D) (grids : List (Int × Grid K)) : Except Fault (St K D) :=
  if s.initialized = false then .ok s
  else match firstDetected grids with
    | none => .ok s
    | some cg =>
      if (SMap.find cg.1 s.cams).isNone then .error .exn
      else if env.estimate cg.2 = false then .error .fatal
      else if s.views = [] then .error .oob
      else
        newView env { s with counter := s.counter + 1 } cg.2.timestamp grids >>= fun s =>
        if s.imu.size < 5 then .error .fatal
        else linkViews s >>= fun s => trimImu s cg.2.timestamp

/-! ### Marginalisation -/

/-- The `fixed` flag of a parameter. -/
def isFixed (s : St K D) : Par → Bool
  | .cam i => ((SMap.find i s.cams).map CamFlags.fixPar).getD false
  | .ext i => ((SMap.find i s.cams).map CamFlags.fixExt).getD false
  | .imuExt => s.imuExtFixed
  | .delay => s.delayFixed
  | _ => false

/-- The parameters of the residuals handed to a `marg_residual_t`, in the order first seen,
calib_residuals.cpp:1845-1874. -/
def seenParams (rs : List (Res K)) : List Par :=
  (rs.flatMap Res.blocks).foldl (fun l p => insSet p l) []

def isPose : Par → Bool | .pose _ => true | _ => false
def isSb : Par → Bool | .sb _ => true | _ => false
def isFid : Par → Bool | .fiducial => true | _ => false
def isExt : Par → Bool | .ext _ => true | .imuExt => true | _ => false
def isCam : Par → Bool | .cam _ => true | _ => false

/-- The parameters that remain, calib_residuals.cpp:1862-1912: by type, without fixed ones.
A time delay has none of the types and is dropped. -/
def remainParams (s : St K D) (flagged : Par → Bool) (rs : List (Res K)) : List Par :=
  let l := (seenParams rs).filter (fun p => !flagged p && !isFixed s p)
  l.filter isPose ++ l.filter isSb ++ l.filter isFid ++ l.filter isExt ++ l.filter isCam

/-- Removal of the previous marginalisation residual, calib_vi.cpp:1076-1090. -/
def dropMarg (s : St K D) : Except Fault (Problem Par (Res K)) :=
  match s.marg with
  | none => .ok s.prob
  | some m => removeResidual s.prob m.1

/-- The residuals handed to the new `marg_residual_t`: the previous one, the IMU factor, the
fiducial residuals; calib_vi.cpp:1083 and 243-248.  A null IMU factor is fatal. -/
def margInput (s : St K D) (v : View K) : Except Fault (List (Res K)) :=
  match v.imu with
  | none => .error .fatal
  | some r => .ok ((s.marg.map Prod.snd).toList ++ [Res.imu r] ++ v.fids.map Res.fid)

/-- The parameters whose `marginalize` flag is set, calib_vi.cpp:1071-1073 and 238-240. -/
def isFlagged (v : View K) (q : Par) : Bool := decide (q = .pose v.num) || decide (q = .sb v.num)

/-- `marginalize`, calib_vi.cpp:1069-1098, with `calib_vi_view_t::marginalize`, 236-256, and
`marg_residual_t::marginalize(problem)`, calib_residuals.cpp:2128-2150, inlined.
`assert(m > 0 && r > 0)` (calib_residuals.cpp:2002) is `fatal`. -/
def marginalize (s : St K D) : Except Fault (St K D) :=
  match s.views with
  | [] => .error .oob
  | v :: rest =>
    dropMarg s >>= fun p =>
    margInput s v >>= fun rs =>
    let margPs := (seenParams rs).filter (isFlagged v)
    let remain := remainParams s (isFlagged v) rs
    if margPs = [] ∨ remain = [] then .error .fatal
    else
      addResidual (margPs.foldl dropParam p) (.marg s.next remain) >>= fun out =>
      .ok { s with prob := destroyView out.2 v, marg := some (out.1, .marg s.next remain),
                   next := s.next + 1, views := rest }

/-! ### Measurements -/

/-- `(size_t) window_size`. -/
def windowCast (w : Int) : Int := w % 2 ^ 64

/-- The tail of `add_measurement`, calib_vi.cpp:923-963: solve, then marginalise the oldest
view, if there are too many. -/
def slide (s : St K D) : Except Fault (St K D) :=
  if s.enableMarg = true ∧ (s.views.length : Int) > windowCast s.windowSize then
    marginalize s >>= fun s => .ok { s with running := true }
  else .ok s

/-- `add_measurement(cam_idx, grid)`, calib_vi.cpp:870-880. -/
def addGrid (s : St K D) (cam : Int) (g : Grid K) : St K D :=
  if s.imuStarted = false then s
  else { s with gridBuf := SMap.set cam g s.gridBuf, visionStarted := true }

/-- Processing of a full set of grids, calib_vi.cpp:902-968. -/
def process (env : VEnv K D) (s : St K D) (grids : List (Int × Grid K)) :
    Except Fault (St K D × Bool) :=
  if s.initialized = false ∧ s.imu.size > 2 ∧ (firstDetected grids).isSome then
    initVI env s grids >>= fun s => .ok (s, false)
  else
    addView env s grids >>= fun s => slide s >>= fun s => .ok (s, true)

/-- `add_measurement(imu_ts, a_m, w_m)`, calib_vi.cpp:882-968. -/
def addImu (env : VEnv K D) (s : St K D) (ts : Int) (a w : D) : Except Fault (St K D × Bool) :=
  let s := { s with imu := s.imu.add ts a w, imuStarted := true }
  if s.gridBuf.length ≠ s.cams.length then .ok (s, false)
  else process env { s with gridBuf := [] } s.gridBuf

/-- `reset`, calib_vi.cpp:1100-1113.  The fiducial, the marginalisation residual and the
settings stay. -/
def reset (s : St K D) : St K D :=
  { s with imuStarted := false, visionStarted := false, initialized := false, gridBuf := [],
           imu := s.imu.clear, prob := s.views.foldl destroyView s.prob, views := [] }

end Yac.VI
