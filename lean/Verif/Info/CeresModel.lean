import Verif.Solver.Model
import Mathlib.Analysis.SpecialFunctions.Log.Base
import Mathlib.LinearAlgebra.Matrix.Determinant.Basic
import Mathlib.Analysis.Real.Pi.Bounds

/-!
# Model of the covariance and the information of a calibration

`ceres_solver_t::estimate_covariance`, `estimate_log_det_covar` (yac/lib/solver.cpp:1089-1182),
`calib_camera_t::_calc_info` (calib_camera.cpp:1549-1581) and `calib_mocap_t::_calc_info`
(calib_mocap.cpp:445-466).  Exact real arithmetic.  `ceres::Covariance` is a parameter.
-/

namespace Yac.Info
open Yac.Solver

variable {P : Type} [DecidableEq P]

/-- A parameter block, calib_params.hpp:14-20. -/
structure Blk where
  fixed : Bool
  size : Nat
  globalSize : Nat
  deriving DecidableEq, Repr

/-- `ceres::Covariance`: `Compute` for pairs of blocks (`none`: it fails), then the covariance of a
pair (`none`: `GetCovarianceBlock...` fails), in the tangent space or in the space of the parameters. -/
structure CeresCov (P : Type) where
  compute : List (P × P) → Bool
  tangent : P → P → Option (Mat ℝ)
  ambient : P → P → Option (Mat ℝ)

/-- `param_indices` and `covar_size`, solver.cpp:1092-1102.  Reading an index that was never written
gives 0 (`std::map::operator[]`). -/
def covIndices (blk : P → Blk) (params : List P) : (P → Nat) × Nat :=
  params.foldl (fun s p => if (blk p).fixed then s
    else (fun q => if q = p then s.2 else s.1 q, s.2 + (blk p).size)) (fun _ => 0, 0)

/-- The pairs `i ≤ j`, solver.cpp:1104-1110 and 1123-1124, with `i ≠ j`. -/
def pairsLe : List P → List (P × P × Bool)
  | [] => []
  | p :: l => (p, p, false) :: l.map (fun q => (p, q, true)) ++ pairsLe l

/-- The block of a pair, solver.cpp:1134-1149.  `oob`: `GetCovarianceBlock` writes global sizes into a
buffer of local sizes. -/
def covBlock (blk : P → Blk) (c : CeresCov P) (p q : P) : Except Fault (Option (Mat ℝ)) :=
  if (blk p).size = 6 ∨ (blk q).size = 6 then .ok (c.tangent p q)
  else if (blk p).globalSize * (blk q).globalSize > (blk p).size * (blk q).size then .error .oob
  else .ok (c.ambient p q)

/-- One pair of the second loop, solver.cpp:1125-1158.  `oob`: a block that does not fit into `covar`
(Eigen assertion). -/
def covPair (blk : P → Blk) (c : CeresCov P) (idx : P → Nat) (n : Nat) (M : Option (Mat ℝ))
    (x : P × P × Bool) : Except Fault (Option (Mat ℝ)) :=
  match M with
  | none => .ok none
  | some M =>
    covBlock blk c x.1 x.2.1 >>= fun o =>
    match o with
    | none => .ok none
    | some B =>
      let i := idx x.1
      let j := idx x.2.1
      let si := (blk x.1).size
      let sj := (blk x.2.1).size
      if i + si > n ∨ j + sj > n then .error .oob
      else
        let M := setBlock M i j si sj B
        .ok (some (if x.2.2 then setBlock M j i sj si (fun a b => B b a) else M))

/-- `ceres_solver_t::estimate_covariance`, solver.cpp:1089-1168: size and entries of `covar`; `none`:
the return value is -1. -/
def ceresCovariance (blk : P → Blk) (c : CeresCov P) (params : List P) :
    Except Fault (Option (Nat × Mat ℝ)) :=
  let ix := covIndices blk params
  if c.compute ((pairsLe params).map (fun x => (x.1, x.2.1))) = false then .ok none
  else
    (pairsLe params).foldlM (covPair blk c ix.1 ix.2) (some (fun _ _ => 0)) >>= fun M =>
    .ok (M.map (fun M => (ix.2, M)))

/-- The upper left corner of a matrix. -/
def corner (n : Nat) (M : Mat ℝ) : Matrix (Fin n) (Fin n) ℝ := fun a b => M a b

open Classical in
/-- `std::log` of a number that may be negative (`none`: NaN) or zero (`⊥`: -infinity). -/
noncomputable def cLog (x : ℝ) : Option (WithBot ℝ) :=
  if x < 0 then none else if x = 0 then some ⊥ else some (Real.log x)

/-- `ceres_solver_t::estimate_log_det_covar`, solver.cpp:1170-1182; outer `none`: -1 is returned. -/
noncomputable def ceresLogDet (blk : P → Blk) (c : CeresCov P) (params : List P) :
    Except Fault (Option (Option (WithBot ℝ))) :=
  ceresCovariance blk c params >>= fun o =>
    .ok (o.map (fun M => cLog (corner M.1 M.2).det))

/-- `info` and `entropy` from the logarithm of the determinant, calib_camera.cpp:1569-1578 and
calib_mocap.cpp:456-463, for parameters of size `n` (`none`: NaN). -/
noncomputable def infoOf (n : Nat) : Option (WithBot ℝ) → Option (WithBot ℝ × WithBot ℝ)
  | none => none
  | some ⊥ => some (⊥, ⊥)
  | some (some l) => some (((l / Real.log 2 : ℝ) : WithBot ℝ),
      ((0.5 * Real.log ((2 * Real.pi * Real.exp 1) ^ n * Real.exp l) : ℝ) : WithBot ℝ))

/-- The end of `_calc_info`. -/
noncomputable def calcInfoOf (blk : P → Blk) (c : CeresCov P) (params : List P) (n : Nat) :
    Except Fault (Option (WithBot ℝ × WithBot ℝ)) :=
  ceresLogDet blk c params >>= fun o => .ok (o.bind (infoOf n))

/-- The parameters of `_calc_info`, calib_camera.cpp:1551-1564. -/
def infoParams (blk : P → Blk) (cams exts : List P) : List P :=
  cams.filter (fun p => !(blk p).fixed) ++ exts.filter (fun p => !(blk p).fixed)

/-- `calib_camera_t::_calc_info`, calib_camera.cpp:1549-1581: information and entropy; `none`: -1. -/
noncomputable def calcInfo (blk : P → Blk) (c : CeresCov P) (cams exts : List P) :
    Except Fault (Option (WithBot ℝ × WithBot ℝ)) :=
  calcInfoOf blk c (infoParams blk cams exts) (((infoParams blk cams exts).map (fun p => (blk p).size)).sum)

/-- `calib_mocap_t::_calc_info`, calib_mocap.cpp:445-466, for the extrinsics `e`. -/
noncomputable def mocapInfo (blk : P → Blk) (c : CeresCov P) (e : P) :
    Except Fault (Option (WithBot ℝ × WithBot ℝ)) :=
  calcInfoOf blk c [e] 6

end Yac.Info
