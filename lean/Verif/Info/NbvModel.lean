import Verif.Solver.CovModel
import Mathlib.Analysis.SpecialFunctions.Log.Base

/-!
# Model of `nbv_evaluator_t` (yac/lib/calib_camera.cpp:2417-2704)

Exact real arithmetic; `Eigen::SelfAdjointEigenSolver` and `Eigen::JacobiSVD` are parameters.  The
residual blocks come evaluated (`Res`): those of the calibration (`fs`, in the iteration order of
the `unordered_set`) and those of the simulated candidate view (`new`), which is
`calib_camera.cpp:2596-2645`.
-/

namespace Yac.Info
open Matrix Yac.Marg Yac.Solver

variable {P : Type} [DecidableEq P]

/-- The fields of `nbv_evaluator_t`, calib_camera.hpp:292-309, as far as `eval` reads them.
`size` is `H_k.rows()`. -/
structure Evaluator (P : Type) where
  order : List (P × Nat)
  poses : List P
  remain : Nat
  size : Nat
  H : Mat ℝ

/-- `remain_size`, calib_camera.cpp:2424-2436: all cameras, and the extrinsics that are not
fixed. -/
def remainSize (info : P → ParamInfo) (cams exts : List P) : Nat :=
  totalSize info cams + totalSize info (exts.filter (fun p => !(info p).fixed))

/-- `form_param_order`, calib_camera.cpp:2460-2511: the columns (cameras, extrinsics, poses). -/
def nbvOrder (info : P → ParamInfo) (blocks : List (List P)) : List (P × Nat) :=
  assign info 0 ((track info blocks).cam ++ (track info blocks).ext ++ (track info blocks).pose)

/-- The loops that add `JᵀJ` of every residual, calib_camera.cpp:2522-2553 and 2650-2693, for the
columns `c`. -/
noncomputable def gram (info : P → ParamInfo) (c : P → Nat) (fs : List (Res ℝ P)) : Mat ℝ :=
  (fs.foldl (fun (Hb : Mat ℝ × (Nat → ℝ)) f =>
    hessBlocks info c f.size f.r Hb.1 Hb.2 f.blocks) (fun _ _ => 0, fun _ => 0)).1

/-- The constructor, calib_camera.cpp:2419-2458, with `form_hessian`, 2513-2555, for `views`
calibration views.  `oob`: a block does not fit into `H` (Eigen assertion). -/
noncomputable def create (info : P → ParamInfo) (cams exts : List P) (views : Nat)
    (fs : List (Res ℝ P)) : Except Fault (Evaluator P) :=
  let blocks := fs.map (fun f => f.blocks.map Prod.fst)
  let order := nbvOrder info blocks
  let remain := remainSize info cams exts
  let size := remain + views * 6 + 6
  if covFits info order size fs = false then .error .oob
  else .ok ⟨order, (track info blocks).pose, remain, size, gram info (col order) fs⟩

/-- `idx_i`, calib_camera.cpp:2662-2667: a parameter without a column is given the six columns
after the last pose.  `none`: `pose_ptrs.back()` of an empty vector. -/
def nbvCol (E : Evaluator P) (p : P) : Option Nat :=
  if p ∈ E.order.map Prod.fst then some (col E.order p)
  else E.poses.getLast?.map (fun q => col E.order q + 6)

/-- All blocks of the candidate view can be added to `H_kp1`. -/
def nbvFits (info : P → ParamInfo) (E : Evaluator P) (new : List (Res ℝ P)) : Bool :=
  new.all (fun f => f.blocks.all (fun b => (info b.1).fixed ||
    match nbvCol E b.1 with
    | none => false
    | some c => decide (c + (info b.1).size ≤ E.size)))

/-- The singular values `Eigen::JacobiSVD` returns for a square matrix. -/
abbrev Svd := (n : Nat) → Matrix (Fin n) (Fin n) ℝ → (Fin n → ℝ)

/-- `H_covar`, calib_camera.cpp:2558-2580. -/
noncomputable def schurInfo (eig : EigSolver) (H : Mat ℝ) (r m : Nat) : Matrix (Fin r) (Fin r) ℝ :=
  block H 0 0 r r -
    block H 0 r r m * pseudoInv eig (symmetrise (block H r r m m)) * block H r 0 m r

open Classical in
/-- `estimate_log_det_covar`, calib_camera.cpp:2557-2588.  `divZero`: a singular value is zero and
the result is `+inf`. -/
noncomputable def logDetCovar (eig : EigSolver) (svd : Svd) (H : Mat ℝ) (r size : Nat) :
    Except Fault ℝ :=
  let s := svd r (schurInfo eig H r (size - r))
  if ∃ i, s i = 0 then .error .divZero
  else .ok (-1 * (∑ i, Real.log (s i)) / Real.log 2)

/-- `eval`, calib_camera.cpp:2590-2704. -/
noncomputable def eval (eig : EigSolver) (svd : Svd) (info : P → ParamInfo) (E : Evaluator P)
    (new : List (Res ℝ P)) : Except Fault ℝ :=
  if nbvFits info E new = false then .error .oob
  else
    let Hkp1 := gram info (fun p => (nbvCol E p).getD 0) new
    logDetCovar eig svd (fun a b => E.H a b + Hkp1 a b) E.remain E.size

end Yac.Info
