import Verif.Marg.Model

/-!
# Sizes of parameters and residuals

yac/lib/calib_params.cpp (constructors) and yac/lib/calib_residuals.cpp (constructors, what `eval` and `Evaluate` read and
write).  Only sizes are modelled here, not the values.
-/

namespace Yac.Shape

/-- `param_t`, calib_params.hpp:11-43: the type, `local_size`, `global_size` and the length of the vector `param`. -/
structure PShape where
  type : String
  localSize : Nat
  globalSize : Nat
  len : Nat
  deriving DecidableEq, Repr

/-- `param_t::param_t`, calib_params.cpp:7-19: the vector gets the length `global_size`. -/
def mkParam (type : String) (loc glob : Nat) : PShape := ⟨type, loc, glob, glob⟩

/-- `pose_t::pose_t`, calib_params.cpp:44-63. -/
def pose : PShape := mkParam "pose_t" 6 7
/-- `extrinsics_t::extrinsics_t`, calib_params.cpp:281-289. -/
def extrinsics : PShape := { pose with type := "extrinsics_t" }
/-- `fiducial_t::fiducial_t`, calib_params.cpp:163-167 (`FIDUCIAL_PARAMS_SIZE` is 2). -/
def fiducial : PShape := { mkParam "fiducial_t" 2 2 with len := 2 }
/-- `fiducial_corner_t::fiducial_corner_t`, calib_params.cpp:227-235. -/
def corner : PShape := { mkParam "fiducial_corner_t" 3 3 with len := 3 }
/-- `feature_t::feature_t`, calib_params.cpp:301-304. -/
def feature : PShape := { mkParam "feature_t" 3 3 with len := 3 }
/-- `camera_params_t::camera_params_t`, calib_params.cpp:407-425, for projection and distortion vectors of lengths `np` and
`nd`. -/
def camera (np nd : Nat) : PShape := { mkParam "camera_params_t" (np + nd) (np + nd) with len := np + nd }
/-- `sb_params_t::sb_params_t`, calib_params.cpp:468-482. -/
def speedBias : PShape := mkParam "sb_params_t" 9 9
/-- `time_delay_t::time_delay_t`, calib_params.cpp:492-495. -/
def timeDelay : PShape := mkParam "time_delay_t" 1 1

/-- The classes of residuals. -/
inductive Kind where
  | prior | posePrior | reproj | fiducial | mocap | imu
  deriving DecidableEq, Repr

/-- A residual object, calib_residuals.hpp:14-50: `residuals`, `param_blocks`, `jacobian_blocks`, `min_jacobian_blocks`, and
what was declared to `ceres::CostFunction`. -/
structure Res where
  kind : Kind
  resLen : Nat
  blocks : List PShape
  jacs : List (Nat × Nat)
  minJacs : List (Nat × Nat)
  numRes : Nat
  declared : List Nat
  deriving DecidableEq, Repr

/-- `prior_t::prior_t`, calib_residuals.cpp:248-261. -/
def mkPrior (p : PShape) : Res :=
  ⟨.prior, p.globalSize, [p], [(p.globalSize, p.globalSize)], [(p.localSize, p.localSize)], p.globalSize, [p.globalSize]⟩

/-- `pose_prior_t::pose_prior_t`, calib_residuals.cpp:293-306. -/
def mkPosePrior (p : PShape) : Res := ⟨.posePrior, p.localSize, [p], [(7, 7)], [(6, 6)], 6, [7]⟩

/-- `reproj_residual_t::reproj_residual_t`, calib_residuals.cpp:353-384. -/
def mkReproj (ext poseF cam : PShape) : Res :=
  ⟨.reproj, 2, [ext, poseF, cam], [(2, 7), (2, 7), (2, 8)], [(2, 6), (2, 6), (2, 8)], 2, [7, 7, 8]⟩

/-- `fiducial_residual_t::fiducial_residual_t`, calib_residuals.cpp:525-569. -/
def mkFiducial (fid poseS imuExt camExt cam : PShape) : Res :=
  ⟨.fiducial, 2, [fid, poseS, imuExt, camExt, cam],
    [(2, fid.globalSize), (2, poseS.globalSize), (2, imuExt.globalSize), (2, camExt.globalSize), (2, cam.globalSize)],
    [(2, fid.localSize), (2, poseS.localSize), (2, imuExt.localSize), (2, camExt.localSize), (2, cam.localSize)],
    2, [fid.globalSize, 7, 7, 7, cam.globalSize]⟩

/-- `mocap_residual_t::mocap_residual_t`, calib_residuals.cpp:824-866. -/
def mkMocap (poseF poseM ext cam : PShape) : Res :=
  ⟨.mocap, 2, [poseF, poseM, ext, cam], [(2, 7), (2, 7), (2, 7), (2, 8)], [(2, 6), (2, 6), (2, 6), (2, 8)], 2,
    [7, 7, 7, 8]⟩

/-- `imu_residual_t::imu_residual_t`, calib_residuals.cpp:1003-1047 (the assertions on the noise are not modelled here). -/
def mkImu (pi si pj sj td : PShape) : Res :=
  ⟨.imu, 15, [pi, si, pj, sj, td],
    [(15, pi.globalSize), (15, si.globalSize), (15, pj.globalSize), (15, sj.globalSize), (15, td.globalSize)],
    [(15, pi.localSize), (15, si.localSize), (15, pj.localSize), (15, sj.localSize), (15, td.localSize)],
    15, [7, 9, 7, 9, 1]⟩

/-- How many numbers `EvaluateWithMinimalJacobians` reads from each parameter: calib_residuals.cpp:270 (`prior_t`), 313,
438-440, 625-634 (`FIDUCIAL_PARAMS_SIZE` is 2), 903-907, 1528-1547. -/
def reads (R : Res) : List Nat :=
  match R.kind with
  | .prior => [R.numRes]
  | .posePrior => [7]
  | .reproj => [7, 7, 8]
  | .fiducial => [2, 7, 7, 7, 8]
  | .mocap => [7, 7, 7, 8]
  | .imu => [7, 9, 7, 9, 1]

/-- How many residuals it writes: calib_residuals.cpp:271, 326, 455, 660-661, 923, 1645. -/
def resWrite (R : Res) : Nat :=
  match R.kind with
  | .prior => R.numRes
  | .posePrior => 6
  | .reproj | .fiducial | .mocap => 2
  | .imu => 15

/-- The shapes of the Jacobians it writes (row-major): calib_residuals.cpp:277, 337, 479, 498, 509, 699, 747, 768, 789, 802,
944, 960, 975, 989, 1657, 1678, 1701, 1721, 1775. -/
def jacWrites (R : Res) : List (Nat × Nat) :=
  match R.kind with
  | .prior => R.blocks.take 1 |>.map fun p => (R.numRes, p.globalSize)
  | .posePrior => [(6, 7)]
  | .reproj => [(2, 7), (2, 7), (2, 8)]
  | .fiducial => [(2, 2), (2, 7), (2, 7), (2, 7), (2, 8)]
  | .mocap => [(2, 7), (2, 7), (2, 7), (2, 8)]
  | .imu => [(15, 7), (15, 9), (15, 7), (15, 9), (15, 1)]

/-- The shapes of the minimal Jacobians it writes: calib_residuals.cpp:283, 342, 483, 502, 515, 702, 752, 773, 793, 806, 948,
964, 979, 993, 1668, 1688, 1712, 1732, 1784. -/
def minWrites (R : Res) : List (Nat × Nat) :=
  match R.kind with
  | .prior => R.blocks.take 1 |>.map fun p => (R.numRes, p.globalSize)
  | .posePrior => [(6, 6)]
  | .reproj => [(2, 6), (2, 6), (2, 8)]
  | .fiducial => [(2, 2), (2, 6), (2, 6), (2, 6), (2, 8)]
  | .mocap => [(2, 6), (2, 6), (2, 6), (2, 8)]
  | .imu => [(15, 6), (15, 9), (15, 6), (15, 9), (15, 1)]

/-- Accesses to buffers that hold `have` numbers: one buffer per access. -/
def within : List Nat → List Nat → Bool
  | [], _ => true
  | _ :: _, [] => false
  | n :: ns, h :: hs => decide (n ≤ h) && within ns hs

/-- `rows * cols` numbers. -/
def area (x : Nat × Nat) : Nat := x.1 * x.2

/-- `calib_residual_t::eval`, calib_residuals.cpp:27-88: the buffers of the object; `jacobian_blocks[i]` and
`min_jacobian_blocks[i]` must exist for every parameter. -/
def eval (R : Res) : Except Fault Unit :=
  if R.jacs.length < R.blocks.length ∨ R.minJacs.length < R.blocks.length then .error .oob
  else if within (reads R) (R.blocks.map (·.len)) && decide (resWrite R ≤ R.resLen) &&
      within ((jacWrites R).map area) (R.jacs.map area) && within ((minWrites R).map area) (R.minJacs.map area) then .ok ()
  else .error .oob

/-- `eval_residuals`, calib_residuals.cpp:90-135: no Jacobians. -/
def evalResiduals (R : Res) : Except Fault Unit :=
  if within (reads R) (R.blocks.map (·.len)) && decide (resWrite R ≤ R.resLen) then .ok () else .error .oob

/-- `ceres_solver_t::add_residual`, solver.cpp:1012-1036: `ceres::Problem::AddResidualBlock` checks (`CHECK`, which aborts)
that as many sizes were declared as there are parameters, and that each parameter block was added with that size
(`add_param`, solver.cpp:988, adds it with `global_size`). -/
def addResidual (R : Res) : Except Fault Unit :=
  if R.declared.length = R.blocks.length ∧ R.declared = R.blocks.map (·.globalSize) then .ok () else .error .fatal

/-- `Evaluate` when called by Ceres for the Jacobians, calib_residuals.cpp:21-25: the buffers are those Ceres allocates from
the declared sizes, and `min_jacs` is null; the two priors dereference it without a check (calib_residuals.cpp:282 and
341). -/
def ceresEvaluate (R : Res) : Except Fault Unit :=
  if R.kind = .prior ∨ R.kind = .posePrior then .error .oob
  else if within (reads R) (R.blocks.map (·.len)) && decide (resWrite R ≤ R.numRes) &&
      within ((jacWrites R).map area) (R.declared.map fun n => R.numRes * n) then .ok ()
  else .error .oob

end Yac.Shape

namespace Yac.Shape
open Yac.Marg (PInfo margParams remainParams)

/-- `param_t::set_param`, calib_params.cpp:21-25: `param_(i)` outside the vector is an Eigen assertion. -/
def setParam (v w : List ℚ) : Except Fault (List ℚ) :=
  if w.length < v.length then .error .fatal else .ok (w.take v.length)

variable {P : Type} [DecidableEq P]

/-- The sizes in a `marg_residual_t`, calib_residuals.hpp:380-400 and 14-50; `added`: the `param_blocks` of the residuals in
`res_blocks_`. -/
structure MargObj (P : Type) where
  added : List (List P) := []
  m : Nat := 0
  r : Nat := 0
  margPs : List P := []
  remain : List P := []
  index : List (P × Nat) := []
  blocks : List P := []
  declared : List Nat := []
  numRes : Nat := 0
  resLen : Nat := 0
  jacs : List (Nat × Nat) := []
  minJacs : List (Nat × Nat) := []

/-- `add`, calib_residuals.cpp:1821-1827. -/
def MargObj.add (o : MargObj P) (ps : List P) : MargObj P := { o with added := o.added ++ [ps] }

/-- `add_remain_param`, calib_residuals.cpp:1829-1833. -/
def MargObj.addRemain (info : P → PInfo) (o : MargObj P) (p : P) : MargObj P :=
  { o with blocks := o.blocks ++ [p], remain := o.remain ++ [p], declared := o.declared ++ [(info p).gsize] }

/-- One turn of the loops over the columns, calib_residuals.cpp:1881-1885 and 1894-1900: `insert` keeps an entry that is
already there.  The state is the index and `H_idx`. -/
def place (info : P → PInfo) (s : List (P × Nat) × Nat) (p : P) : List (P × Nat) × Nat :=
  (if p ∈ s.1.map Prod.fst then s.1 else s.1 ++ [(p, s.2)], s.2 + (info p).base.size)

/-- The sizes `form_hessian` computes, calib_residuals.cpp:1834-1926, on an object in any state: `m_`, `r_`,
`marg_param_ptrs_`, `remain_param_ptrs_`, `param_index_` and the Jacobian buffers are not reset. -/
def MargObj.form (info : P → PInfo) (o : MargObj P) : MargObj P :=
  let ps := o.added.flatten
  let mp := o.margPs ++ margParams info ps
  let rp := remainParams info ps
  let r := o.r + (rp.map fun p => (info p).base.size).sum
  { o with
    m := o.m + (mp.map fun p => (info p).base.size).sum
    r := r
    margPs := mp
    remain := o.remain ++ rp
    index := ((mp ++ rp).foldl (place info) (o.index, 0)).1
    blocks := rp
    declared := rp.map fun p => (info p).gsize
    numRes := r
    resLen := r
    jacs := o.jacs ++ rp.map fun p => (r, (info p).gsize)
    minJacs := o.minJacs ++ rp.map fun p => (r, (info p).base.size) }

/-- The side length of `H` and `b` in `form_hessian`, calib_residuals.cpp:1928-1930. -/
def MargObj.hessSize (o : MargObj P) : Nat := o.m + o.r

/-- What `EvaluateWithMinimalJacobians` reads and writes, calib_residuals.cpp:2170-2194 and 2207-2245: `params[i]`, `jacs[i]` and
`min_jacs[i]` for every entry of `remain_param_ptrs_`, with `r0_.rows()` rows (`r_`, from `schurs_complement`); the arrays have one
entry for each of `param_blocks`. -/
def MargObj.eval (info : P → PInfo) (o : MargObj P) : Except Fault Unit :=
  if o.jacs.length < o.blocks.length ∨ o.minJacs.length < o.blocks.length then .error .oob
  else if within (o.remain.map fun p => (info p).gsize) (o.blocks.map fun p => (info p).gsize) &&
      decide (o.r ≤ o.resLen) &&
      within (o.remain.map fun p => o.r * (info p).gsize) ((o.jacs.take o.blocks.length).map area) &&
      within (o.remain.map fun p => o.r * (info p).base.size) ((o.minJacs.take o.blocks.length).map area) then .ok ()
  else .error .oob

end Yac.Shape
