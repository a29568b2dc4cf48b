import Verif.Marg.Model

/-! A marginalisation residual as one of the residuals of the next marginalisation. -/

namespace Yac.Marg
open Matrix Yac.Solver

variable {P : Type} [DecidableEq P]

/-- The minimal Jacobian of one parameter block as filled into `min_jacs[i]`, calib_residuals.cpp:1955-1961 and
2213-2226; entries outside the block do not exist. -/
noncomputable def blockOf (info : P → PInfo) (M : MargRes P) (p : P) : Except Fault (P × Mat ℝ) :=
  minJac info M p >>= fun J =>
  .ok (p, fun k a => if h : k < M.r ∧ a < (info p).base.size then J ⟨k, h.1⟩ ⟨a, h.2⟩ else 0)

/-- The evaluation of a `marg_residual_t` inside `form_hessian` of the next one, calib_residuals.cpp:1932-1961 and
2197-2245: its residuals and the minimal Jacobians of its parameter blocks at the values `x`. -/
noncomputable def asRes (info : P → PInfo) (M : MargRes P) (x : P → Nat → ℝ) : Except Fault (Res ℝ P) :=
  evaluate info M x >>= fun e =>
  M.remain.mapM (blockOf info M) >>= fun bs =>
  .ok ⟨M.r, fun k => if h : k < M.r then e ⟨k, h⟩ else 0, bs⟩

/-- The next marginalisation with the residual of the previous one, calib_vi.cpp:1083-1093 with 236-248: the previous
residual comes first, then those of the oldest view. -/
noncomputable def marginalizeNext (eig : EigSolver) (info : P → PInfo) (x : P → Nat → ℝ) (M : MargRes P) (gs : List (Res ℝ P)) :
    Except Fault (MargRes P × List P) :=
  asRes info M x >>= fun R => marginalize eig info x (R :: gs)

end Yac.Marg
