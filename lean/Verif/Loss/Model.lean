import Verif.Ctor.Model
import Verif.Cam.Model
import Verif.Calib.LoopModel
import Verif.Setup.InitModel

/-!
# Loss functions: how they are chosen, what they weigh, who uses them; and `calib_camera_t::solve`

yac/lib/calib_loss.cpp, calib_camera.cpp:1937-1978, solver.cpp:376-386 and 1000-1020.  Numbers are exact reals;
boost's quantile of the chi-squared distribution is a parameter.
-/

namespace Yac.Loss
open Yac.Cam Yac.Ctor Yac.Calib Yac.Config

/-- `boost::math::quantile(chi_squared_distribution<>(df), p)` for positive `df`. -/
abbrev Quantile := ℕ → ℝ → ℝ

/-- An `int` passed as a `size_t`. -/
def asSize (n : ℤ) : ℕ := (n % 2 ^ 64).toNat

/-- The constructor of `BlakeZissermanLoss`, calib_loss.cpp:40-45: the number `eps`.  Boost throws for zero degrees of
freedom. -/
noncomputable def blakeEps (chi : Quantile) (df : ℕ) (p w : ℝ) : Except Fault ℝ :=
  if df = 0 then .error .exn
  else .ok ((1 - w) / w * Real.exp (-(chi df p)))

/-- A loss function that has been constructed. -/
inductive Built where
  | blake (eps : ℝ)
  | cauchy (a : ℝ)
  | huber (a : ℝ)

/-- The constructors with their default arguments, calib_loss.hpp:85, calib_loss.cpp:8-10 and 24-26. -/
noncomputable def build (chi : Quantile) : Ctor.Loss → Except Fault Built
  | .blakeZisserman n => blakeEps chi (asSize n) (999 / 1000) (1 / 10) >>= fun e => .ok (.blake e)
  | .cauchy a => .ok (.cauchy a)
  | .huber a => .ok (.huber a)

/-- `Evaluate`. -/
noncomputable def eval (tiny : ℝ) : Built → ℝ → Rho
  | .blake eps => blakeZisserman tiny eps
  | .cauchy a => cauchy tiny a
  | .huber a => huber tiny a

/-- A residual as the problem holds it: its loss function and its value. -/
structure Block where
  loss : Option Built
  value : List ℝ

/-- The square of the length of a residual. -/
def sqNorm (r : List ℝ) : ℝ := (r.map fun x => x * x).sum

/-- The cost Ceres minimises for the blocks added by solver.cpp:1019. -/
noncomputable def ceresCost (tiny : ℝ) (bs : List Block) : ℝ :=
  (bs.map fun b => match b.loss with
    | none => 1 / 2 * sqNorm b.value
    | some l => 1 / 2 * (eval tiny l (sqNorm b.value)).r0).sum

/-- `_calculate_cost` of the other solver, solver.cpp:376-386: the residuals come from `eval` (calib_residuals.cpp:15-70),
where the part that applies the loss function is commented out. -/
noncomputable def yacCost (bs : List Block) : ℝ := (bs.map fun b => 1 / 2 * sqNorm b.value).sum

/-! ## The calibrator -/

/-- The fields of `calib_camera_t` that `solve` itself uses, calib_camera.hpp:95-180. -/
structure Calibrator (K V : Type) where
  sess : Sess K V
  lossOn : Bool
  lossType : Str
  lossParam : ℝ
  loss : Option Built
  nbv : Bool
  solver : Str
  algorithm : Str

variable {K V : Type}

/-- "Setup Loss function", calib_camera.cpp:1943-1952. -/
noncomputable def setupLoss (chi : Quantile) (c : Calibrator K V) : Except Fault (Calibrator K V) :=
  if c.lossOn = true ∧ c.loss.isNone then
    if c.lossType = "BLAKE-ZISSERMAN".toList then
      build chi (.blakeZisserman (toInt c.lossParam)) >>= fun l => .ok { c with loss := some l }
    else if c.lossType = "CAUCHY".toList then
      build chi (.cauchy c.lossParam) >>= fun l => .ok { c with loss := some l }
    else .error .fatal
  else .ok c

/-- The choice of the algorithm before the next best views, calib_camera.cpp:1965-1968. -/
def setAlgorithm (c : Calibrator K V) : Calibrator K V :=
  if c.solver = "YAC-SOLVER".toList then { c with algorithm := "GAUSS-NEWTON".toList } else c

variable [Field K] [LinearOrder K]

/-- `calib_camera_t::solve`, calib_camera.cpp:1937-1978.  `L` is what the loops need, which depends on the loss
function and on the algorithm. -/
noncomputable def solve (chi : Quantile) (I : Setup.InitEnv K V) (L : Option Built → Str → LoopEnv K V) (o : Opts)
    (order : List Int → List Int) (fuel : Nat) (skip : Bool) (c : Calibrator K V) : Except Fault (Calibrator K V) :=
  setupLoss chi c >>= fun c =>
  Setup.initialise I fuel skip c.sess.cal >>= fun cal =>
  let c := { c with sess := { c.sess with cal := cal } }
  if c.nbv then
    let c := setAlgorithm c
    solveNbv (L c.loss c.algorithm) o order c.sess >>= fun s => .ok { c with sess := s }
  else
    solveBatch (L c.loss c.algorithm) c.sess.cal >>= fun cal => .ok { c with sess := { c.sess with cal := cal } }

end Yac.Loss
