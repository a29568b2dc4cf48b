import Verif.Residual.Model
import Verif.Stream.ImuModel

/-!
# Model of the poses set up by `calib_vi_t` (yac/lib/calib_vi.cpp) and of `fiducial_t`
(yac/lib/calib_params.cpp), with `FIDUCIAL_PARAMS_SIZE` = 2

Exact real arithmetic.  `inverse()` of Eigen is the matrix inverse.  The relative pose found
by `aprilgrid_t::estimate` is an argument.
-/

namespace Yac.VI
open Matrix Yac.Geom

/-! ### `fiducial_t` -/

/-- `fiducial_t`, calib_params.hpp: the parameters handed to the solver and the transform. -/
structure Fiducial where
  param : Fin 2 → ℝ
  T_WF : Mat4 ℝ

/-- Constructor, calib_params.cpp:155-160. -/
noncomputable def Fiducial.new (T : Mat4 ℝ) : Fiducial :=
  ⟨![quat2euler (tfQuatOf T) 0, quat2euler (tfQuatOf T) 1], T⟩

/-- `update`, calib_params.cpp:193-207. -/
noncomputable def Fiducial.update (f : Fiducial) : Fiducial :=
  ⟨f.param, tf (euler321 (f.param 0) (f.param 1) (quat2euler (tfQuatOf f.T_WF) 2))
    (tfTrans f.T_WF)⟩

/-- `plus`, calib_params.cpp:177-180. -/
noncomputable def Fiducial.plus (f : Fiducial) (dx : Fin 2 → ℝ) : Fiducial :=
  Fiducial.update { f with param := paramPlus f.param dx }

/-- `minus`, calib_params.cpp:182-185. -/
noncomputable def Fiducial.minus (f : Fiducial) (dx : Fin 2 → ℝ) : Fiducial :=
  Fiducial.update { f with param := paramMinus f.param dx }

/-- `perturb`, calib_params.cpp:187-190. -/
noncomputable def Fiducial.perturb (f : Fiducial) (i : ℤ) (h : ℝ) : Except Fault Fiducial :=
  paramPerturb f.param i h >>= fun p => .ok (Fiducial.update { f with param := p })

/-- `estimate`, calib_params.cpp:211-231: the updated object and the result. -/
noncomputable def Fiducial.estimate (f : Fiducial) : Fiducial × Mat4 ℝ :=
  (f.update, tf (euler321 (f.update.param 0) (f.update.param 1)
    (quat2euler (tfQuatOf f.update.T_WF) 2)) (tfTrans f.update.T_WF))

/-! ### Initial attitude -/

/-- The sum over the first `n` accelerations, core.hpp:1817-1820; the sum of the angular
velocities is not used. -/
noncomputable def sumAcc (b : Stream.Imu (Vec3 ℝ)) : Nat → Except Fault (Vec3 ℝ)
  | 0 => .ok 0
  | n + 1 => sumAcc b n >>= fun s => Stream.at? b.gyr n >>= fun _ =>
      Stream.at? b.acc n >>= fun a => .ok (s + a)

/-- `imu_data_t::initial_attitude`, core.hpp:1812-1837; `none` is the default limit -1.  With
no samples the mean is not a number (`divZero`). -/
noncomputable def initialAttitude (b : Stream.Imu (Vec3 ℝ)) (limit : Option Nat) :
    Except Fault (Mat3 ℝ) :=
  let n := limit.getD b.ts.length
  sumAcc b n >>= fun s =>
  if n = 0 then .error .divZero
  else .ok (vecs2rot ((1 / (n : ℝ)) • s) (-![0, 0, -9.81]))

/-! ### `initialize` and `estimate_sensor_pose` -/

/-- `initialize`, first call, calib_vi.cpp:655-676: sensor pose and fiducial. -/
noncomputable def initFresh (C_WS : Mat3 ℝ) (T_BC0 T_BS T_C0F : Mat4 ℝ) : Mat4 ℝ × Fiducial :=
  let T_WS := tf C_WS 0
  let T_SC0 := T_BS⁻¹ * T_BC0
  let T_WF := T_WS * T_SC0 * T_C0F
  let offset := -tfTrans T_WF
  (tf C_WS offset, Fiducial.new (tf (tfRot T_WF) 0))

/-- `initialize` when a fiducial exists, calib_vi.cpp:681-684. -/
noncomputable def initAgain (f : Fiducial) (T_BS T_C0F : Mat4 ℝ) : Mat4 ℝ × Fiducial :=
  let T_C0S := T_BS
  (f.estimate.2 * T_C0F⁻¹ * T_C0S, f.estimate.1)

/-- `estimate_sensor_pose`, calib_vi.cpp:592-636; `obs` lists for every grid, in the order of
the cameras, whether it was detected, the camera extrinsics and the relative pose found (`none`:
the estimation failed). -/
noncomputable def estimateSensorPose (f : Fiducial) (T_BS : Mat4 ℝ)
    (obs : List (Bool × Mat4 ℝ × Option (Mat4 ℝ))) : Except Fault (Mat4 ℝ) :=
  match obs.find? (fun o => o.1) with
  | none => .error .fatal
  | some (_, _, none) => .error .fatal
  | some (_, T_BCi, some T_CiF) =>
    let T_CiS := T_BCi⁻¹ * T_BS
    .ok (f.estimate.2 * T_CiF⁻¹ * T_CiS)

end Yac.VI
