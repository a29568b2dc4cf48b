import Verif.Geom.Pose
import Verif.Misc.Model
import Verif.Imu.Model
import Verif.Ctraj.Model

/-! Numerical Jacobians: `calib_residual_t::get_numerical_jacobian` and `check_jacs`,
yac/lib/calib_residuals.cpp:135-244, and the time delay Jacobian of `imu_residual_t`,
calib_residuals.cpp:1776.  Exact real arithmetic. -/

namespace Yac.NumJac
open Yac.Geom

/-- `Evaluate`: what is in the array of residuals after the call, given what was in it before; `X` holds the
parameters, `ι` numbers the residuals. -/
abbrev Evaluate (X ι : Type) := X → (ι → ℝ) → Except Fault (ι → ℝ)

/-- `param_t::perturb` of the parameter block. -/
abbrev Perturb (X : Type) := ℤ → ℝ → X → Except Fault X

/-- The variables of the loop, calib_residuals.cpp:155-157. -/
structure St (X ι : Type) where
  x : X
  rf : ι → ℝ
  rb : ι → ℝ
  J : ι → ℕ → ℝ

/-- One turn of the loop, calib_residuals.cpp:158-170. -/
noncomputable def numStep {X ι : Type} (eval : Evaluate X ι) (perturb : Perturb X) (step : ℝ) (s : St X ι) (i : ℕ) :
    Except Fault (St X ι) :=
  perturb i step s.x >>= fun x1 =>
  eval x1 s.rf >>= fun rf =>
  perturb i (-step) x1 >>= fun x2 =>
  perturb i (-step) x2 >>= fun x3 =>
  eval x3 s.rb >>= fun rb =>
  perturb i step x3 >>= fun x4 =>
  .ok ⟨x4, rf, rb, fun r c => if c = i then (rf r - rb r) / (2 * step) else s.J r c⟩

/-- `get_numerical_jacobian`, calib_residuals.cpp:135-185: the matrix and the parameters afterwards. -/
noncomputable def numJac {X ι : Type} (eval : Evaluate X ι) (perturb : Perturb X) (localSize : ℕ) (step : ℝ) (x : X) :
    Except Fault ((ι → ℕ → ℝ) × X) :=
  (List.range localSize).foldlM (numStep eval perturb step) ⟨x, fun _ => 0, fun _ => 0, fun _ _ => 0⟩ >>= fun s =>
  .ok (s.J, s.x)

/-- One turn of the loop of `check_jacs`, calib_residuals.cpp:223-228. -/
noncomputable def checkStep {X ι : Type} (eval : Evaluate X ι) (perturb : Perturb X) (step : ℝ) (r : ι → ℝ)
    (s : St X ι) (i : ℕ) : Except Fault (St X ι) :=
  perturb i step s.x >>= fun x1 =>
  eval x1 s.rf >>= fun rf =>
  perturb i (-step) x1 >>= fun x2 =>
  .ok ⟨x2, rf, s.rb, fun a c => if c = i then (rf a - r a) / step else s.J a c⟩

/-- `check_jacs`, calib_residuals.cpp:187-244.  `evalJ x` are the residuals and the minimal Jacobian of the block
that `EvaluateWithMinimalJacobians` writes. -/
noncomputable def checkJacs {X : Type} (eval : Evaluate X ℕ) (evalJ : X → Except Fault ((ℕ → ℝ) × (ℕ → ℕ → ℝ)))
    (perturb : Perturb X) (rSize localSize : ℕ) (step tol : ℝ) (x : X) : Except Fault (Bool × X) :=
  evalJ x >>= fun e =>
  (List.range localSize).foldlM (checkStep eval perturb step e.1) ⟨x, fun _ => 0, fun _ => 0, fun _ _ => 0⟩ >>= fun s =>
  .ok (Misc.checkJacobian ⟨rSize, localSize, s.J⟩ ⟨rSize, localSize, e.2⟩ tol == 0, s.x)

/-- `sec2ts`, core.cpp:1530. -/
noncomputable def sec2ts (s : ℝ) : ℤ := Ctraj.truncZ (s * 1000000000)

/-- The parameters an `imu_residual_t` is registered with. -/
structure Imu5 where
  x0 : Fin 7 → ℝ
  sb0 : Imu.SB
  x1 : Fin 7 → ℝ
  sb1 : Imu.SB

/-- `Evaluate` of the IMU residual at the registered parameters, as a function of the time delay block. -/
noncomputable def imuEval (llt : Imu.Mat15 → Imu.Mat15) (p : Imu.Params) (d : Stream.Imu (Vec3 ℝ)) (t0 t1 : ℤ) (a : Imu5) :
    Evaluate (Fin 1 → ℝ) (Fin 5 × Fin 3) := fun td _ =>
  Imu.evaluate llt p d t0 t1 (sec2ts (td 0)) a.x0 a.x1 a.sb0 a.sb1 >>= fun e => .ok e.weighted

/-- `J4`, calib_residuals.cpp:1775-1776: `get_numerical_jacobian` perturbs and evaluates the registered parameter
blocks, not the arrays passed to `EvaluateWithMinimalJacobians`. -/
noncomputable def delayJac (llt : Imu.Mat15 → Imu.Mat15) (p : Imu.Params) (d : Stream.Imu (Vec3 ℝ)) (t0 t1 : ℤ) (a : Imu5)
    (step : ℝ) (td : Fin 1 → ℝ) : Except Fault ((Fin 5 × Fin 3 → ℝ) × (Fin 1 → ℝ)) :=
  numJac (imuEval llt p d t0 t1 a) (fun i h q => paramPerturb q i h) 1 step td >>= fun r => .ok (fun k => r.1 k 0, r.2)

end Yac.NumJac
