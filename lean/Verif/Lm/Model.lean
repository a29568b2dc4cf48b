import Verif.Sparse.Solve
import Verif.Solver.Model

/-!
# Model of the Levenberg-Marquardt solver with its linear algebra, yac/lib/solver.cpp:145-165, 297-474, 800-962

`Solver/Model.lean` has the loop with an arbitrary cost and an arbitrary linear solver.  Here the cost, the failures of
the evaluation, the normal equations, the damping, the conversion to a sparse matrix and the QR factorisation are those
of the code.  Exact real arithmetic.
-/

namespace Yac.Lm
open Matrix
open Yac.Solver (Mat Res ParamInfo Vals formHessian update cacheParams restoreParams)
open Yac.Sparse (Spqr Pattern ofDense toDense patternOf cached backSolve ext macheps)
open Yac.Marg (block)

variable {P V : Type} [DecidableEq P]

/-- `calib_residual_t` as the solver sees it: `param_blocks`, `num_residuals()`, the values at given parameters (`none`:
`EvaluateWithMinimalJacobians` returns false) and the minimal Jacobians.  Simplification: a Jacobian belongs to the
parameter and not to the position in `param_blocks` (no residual of the code lists a parameter twice). -/
structure RFn (P V : Type) where
  blocks : List P
  size : ℕ
  eval : Vals P V → Option (ℕ → ℝ)
  jac : Vals P V → P → Mat ℝ

/-- The result of `res_fn->eval()`: `residuals` and `min_jacobian_blocks`, calib_residuals.cpp:27-80. -/
def RFn.result (g : RFn P V) (σ : Vals P V) (r : ℕ → ℝ) : Res ℝ P := ⟨g.size, r, g.blocks.map (fun p => (p, g.jac σ p))⟩

/-- Body of the loop "Evaluate residuals", solver.cpp:304-310: `FATAL` if one cannot be evaluated. -/
def evalOne (σ : Vals P V) (g : RFn P V) : Except Fault (Res ℝ P) :=
  match g.eval σ with
  | none => .error .fatal
  | some r => .ok (g.result σ r)

/-- The loop "Evaluate residuals", solver.cpp:301-311. -/
def evalAll (fns : List (RFn P V)) (σ : Vals P V) : Except Fault (List (Res ℝ P)) := fns.mapM (evalOne σ)

/-- Body of the loop of `_calculate_cost`, solver.cpp:378-383: a residual that cannot be evaluated is left out. -/
noncomputable def costStep (σ : Vals P V) (c : ℝ) (g : RFn P V) : ℝ :=
  match g.eval σ with
  | none => c
  | some r => c + 1 / 2 * ∑ k ∈ Finset.range g.size, r k * r k

/-- `_calculate_cost`, solver.cpp:376-386. -/
noncomputable def cost (fns : List (RFn P V)) (σ : Vals P V) : ℝ := fns.foldl (costStep σ) 0

/-- `H + lambda_k * I(H.rows())`, solver.cpp:847. -/
noncomputable def damp (H : Mat ℝ) (lam : ℝ) : Mat ℝ := fun a b => H a b + lam * (if a = b then 1 else 0)

/-- "Solve with SPQR", solver.cpp:849-896, for a matrix with `n` rows and columns and the symbolic factorisation of the
iteration before: the pattern that is remembered and `dx`.  `oob`: the entries are not where the symbolic factorisation
expects them. -/
noncomputable def spqrSolve (qr : Spqr) (junk : ℕ → ℝ × ℕ) (cache : Option Pattern) (H : Mat ℝ) (b : ℕ → ℝ) (n : ℕ) :
    Except Fault (Pattern × (ℕ → ℝ)) :=
  ofDense junk macheps H n n >>= fun M => toDense M >>= fun D =>
  if cached cache (patternOf D n n) = patternOf D n n then
    .ok (patternOf D n n, ext (backSolve (qr macheps n n (block D 0 0 n n))
      ((qr macheps n n (block D 0 0 n n)).Qᵀ *ᵥ fun i => b i)))
  else .error .oob

/-- The solver: `params`, the parameters' fields and `plus`, `res_fns`. -/
structure Setup (P V : Type) where
  params : List P
  info : P → ParamInfo
  plus : P → V → List ℝ → V
  fns : List (RFn P V)

/-- The variables of `_solve_lm`: the parameters, `cost_km1`, `lambda_k`, `QR->QRsym`. -/
structure St (P V : Type) where
  vals : Vals P V
  cost : ℝ
  lam : ℝ
  sym : Option Pattern

open Classical in
/-- One iteration of `_solve_lm`, solver.cpp:836-933. -/
noncomputable def step (qr : Spqr) (junk : ℕ → ℝ × ℕ) (pb : Setup P V) (s : St P V) : Except Fault (St P V) :=
  evalAll pb.fns s.vals >>= fun fs =>
  formHessian pb.info fs >>= fun h =>
  spqrSolve qr junk s.sym (damp h.2.2.1 s.lam) h.2.2.2 h.2.1 >>= fun pd =>
  let σ' := update pb.info pb.plus h.1 pd.2 s.vals
  if cost pb.fns σ' - s.cost < 0 then .ok ⟨σ', cost pb.fns σ', s.lam / 10, some pd.1⟩
  else .ok ⟨restoreParams (cacheParams pb.params s.vals) σ', s.cost, s.lam * 10, some pd.1⟩

/-- `n` iterations. -/
noncomputable def loop (qr : Spqr) (junk : ℕ → ℝ × ℕ) (pb : Setup P V) : ℕ → St P V → Except Fault (St P V)
  | 0, s => .ok s
  | n + 1, s => step qr junk pb s >>= loop qr junk pb n

/-- `_solve_lm`, solver.cpp:800-949, starting with `lambda`. -/
noncomputable def solveLM (qr : Spqr) (junk : ℕ → ℝ × ℕ) (pb : Setup P V) (lambda : ℝ) (maxIter : ℕ) (σ : Vals P V) :
    Except Fault (Vals P V) :=
  loop qr junk pb (maxIter - 1) ⟨σ, cost pb.fns σ, lambda, none⟩ >>= fun s => .ok s.vals

end Yac.Lm
