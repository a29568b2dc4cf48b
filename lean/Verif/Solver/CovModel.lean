import Verif.Marg.Model
import Mathlib.LinearAlgebra.Matrix.NonsingularInverse

/-!
# Model of `solver_t::estimate_covariance` (yac/lib/solver.cpp:505-685)

Exact real arithmetic; `Eigen::SelfAdjointEigenSolver` is a parameter.  The residual blocks come
evaluated (`Res`), so a residual whose evaluation fails is simply not in the list.
-/

namespace Yac.Solver
open Matrix Yac.Marg

variable {P : Type} [DecidableEq P]

/-- "Make sure param block is not fixed" and "Check if parameter's uncertainty is to be
estimated", solver.cpp:537-547: both are `continue`, so a requested parameter is tracked like a
fixed one. -/
def skipAsked (info : P → ParamInfo) (params : List P) : P → ParamInfo :=
  fun p => if p ∈ params then { info p with fixed := true } else info p

/-- The parameters to be marginalised in the order of `param_groups`, solver.cpp:522-575. -/
def covMarg (info : P → ParamInfo) (params : List P) (blocks : List (List P)) : List P :=
  let t := track (skipAsked info params) blocks
  t.pose ++ t.sb ++ t.cam ++ t.ext ++ t.fid

/-- The parameters that remain, solver.cpp:588-591. -/
def covKeep (info : P → ParamInfo) (params : List P) : List P :=
  params.filter (fun p => !(info p).fixed)

/-- `m` and `r`, solver.cpp:584 and 594. -/
def totalSize (info : P → ParamInfo) (l : List P) : Nat := (l.map (fun p => (info p).size)).sum

/-- `param_order`, solver.cpp:576-595.  `insert` does not overwrite an existing entry: `col`
takes the first one. -/
def covOrder (info : P → ParamInfo) (params : List P) (blocks : List (List P)) : List (P × Nat) :=
  assign info 0 (covMarg info params blocks ++ covKeep info params)

/-- All blocks written into `H` lie within its `n` rows and columns, solver.cpp:601-631. -/
def covFits (info : P → ParamInfo) (order : List (P × Nat)) (n : Nat) (fs : List (Res ℝ P)) : Bool :=
  fs.all (fun f => f.blocks.all (fun b =>
    (info b.1).fixed || decide (col order b.1 + (info b.1).size ≤ n)))

/-- `H`, solver.cpp:597-631. -/
noncomputable def covHess (info : P → ParamInfo) (order : List (P × Nat)) (fs : List (Res ℝ P)) : Mat ℝ :=
  (fs.foldl (fun (Hb : Mat ℝ × (Nat → ℝ)) f =>
    hessBlocks info (col order) f.size f.r Hb.1 Hb.2 f.blocks) (fun _ _ => 0, fun _ => 0)).1

/-- A square matrix as a function of two indices. -/
noncomputable def entries {r : Nat} (C : Matrix (Fin r) (Fin r) ℝ) : Mat ℝ :=
  fun a b => if h : a < r ∧ b < r then C ⟨a, h.1⟩ ⟨b, h.2⟩ else 0

open Classical in
/-- "Marginalize" and "Convert", solver.cpp:633-684, for the matrix `H` with `m` columns to
marginalise followed by `r` that remain.  `none`: the return value is -1.  `fatal`: nothing is
left to marginalise, the eigen solver is given an empty matrix (Eigen assertion).  `divZero`:
`H_marg` is singular and `calib_covar` is filled with infinities or NaN. -/
noncomputable def margCovariance (eig : EigSolver) (H : Mat ℝ) (m r : Nat) :
    Except Fault (Option (Nat × Mat ℝ)) :=
  let Hmm := symmetrise (block H 0 0 m m)
  let Hinv := pseudoInv eig Hmm
  let Hmarg := block H m m r r - block H m 0 r m * Hinv * block H 0 m m r
  if m = 0 then .error .fatal
  else if |∑ i, ∑ j, (Hmm * Hinv - 1) i j| > 1e-4 then .ok none
  else if Hmarg.det = 0 then .error .divZero
  else .ok (some (r, entries Hmarg⁻¹))

/-- `estimate_covariance`, solver.cpp:505-685.  `oob`: a block does not fit into `H` (Eigen
assertion). -/
noncomputable def estimateCovariance (eig : EigSolver) (info : P → ParamInfo) (fs : List (Res ℝ P))
    (params : List P) : Except Fault (Option (Nat × Mat ℝ)) :=
  let blocks := fs.map (fun f => f.blocks.map Prod.fst)
  let m := totalSize info (covMarg info params blocks)
  let r := totalSize info (covKeep info params)
  let order := covOrder info params blocks
  if covFits info order (m + r) fs = false then .error .oob
  else margCovariance eig (covHess info order fs) m r

end Yac.Solver
