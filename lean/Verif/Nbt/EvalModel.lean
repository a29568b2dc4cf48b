import Verif.Nbt.SimProps
import Verif.VI.QueryModel
import Verif.VI.Recover
import Verif.VI.LoadModel

/-!
# Model of `nbt_eval`, yac/lib/calib_nbt.cpp:613-719

The simulations, the timeline and the calibrator are the models of C78, C11 and C45; the numerical
part of `solve` and `ceres::Covariance` are the arbitrary function `cov`, of the calibrator and the
parameter blocks that are held constant.
-/

namespace Yac.Nbt

open Yac.Geom (Mat4 Vec3)
open Yac.VI (St VEnv Ev Par addParam)

/-- `nbt_data_t`, calib_nbt.hpp: the parts `nbt_eval` reads.  The `fixed` flags of the cameras are
functions of the camera index. -/
structure Data where
  imu : ImuParams
  imuExtFixed : Bool
  delayFixed : Bool
  rig : Rig
  fixPar : ℤ → Bool
  fixExt : ℤ → Bool
  rate : ℝ
  target : Nbv.Target
  T_WF : Mat4 ℝ

section
variable {K D : Type} [DecidableEq K]

/-- One pass of the loop over cameras, calib_nbt.cpp:668-679. -/
def setupCamera {V W : Type} (exts : List (ℤ × V)) (fixPar fixExt : ℤ → Bool) (s : St K D) (c : ℤ × W) :
    Except Fault (St K D) :=
  atKey exts c.1 >>= fun _ => VI.addCamera s c.1 (fixPar c.1) (fixExt c.1)

/-- The calibrator before it is given measurements, calib_nbt.cpp:657-687. -/
def setup {V W : Type} (exts : List (ℤ × V)) (params : List (ℤ × W)) (fixPar fixExt : ℤ → Bool)
    (imuExtFixed delayFixed : Bool) : Except Fault (St K D) :=
  params.foldlM (setupCamera exts fixPar fixExt) (St.new false 5 imuExtFixed delayFixed) >>= fun s =>
  .ok { s with fiducial := true, prob := addParam s.prob .fiducial }

/-- The parameter blocks that are held constant, calib_vi.cpp:418-428, 450-469, before `solve`. -/
def constant (s : St K D) (q : Par) : Bool := VI.isFixed s q

/-- The event handed to the calibrator, calib_nbt.cpp:696-709. -/
def asEv (ts : ℤ) : Event → Ev ℝ (Vec3 ℝ)
  | .imu a w => .imu ts a w
  | .grid c g => .grid c g

/-- The events of one timestamp, calib_nbt.cpp:689-711. -/
noncomputable def replayAt (env : VEnv ℝ (Vec3 ℝ)) (tl : Timeline.T Event) (s : St ℝ (Vec3 ℝ)) (ts : ℤ) :
    Except Fault (St ℝ (Vec3 ℝ)) :=
  (Timeline.getEvents tl ts).foldlM (fun s e => VI.feed env s (asEv ts e)) s

/-- The loop over the timeline, calib_nbt.cpp:689-711. -/
noncomputable def replay (env : VEnv ℝ (Vec3 ℝ)) (tl : Timeline.T Event) (s : St ℝ (Vec3 ℝ)) :
    Except Fault (St ℝ (Vec3 ℝ)) :=
  tl.timestamps.foldlM (replayAt env tl) s

/-- The result, calib_nbt.cpp:713-722; `none` is -1. -/
noncomputable def finish (cov : St ℝ (Vec3 ℝ) → (Par → Bool) → VI.Recover.Cov) (res : VI.Fid ℝ → ℝ × ℝ)
    (H : Matrix (Fin 6) (Fin 6) ℝ) (s : St ℝ (Vec3 ℝ)) : Except Fault (Option (Matrix (Fin 6) (Fin 6) ℝ)) :=
  VI.solve false 3 res (constant s) s >>= fun o =>
  .ok ((VI.Recover.recoverInfo (cov o.1 o.2.1)).map fun M => H + M)

/-- `nbt_eval`, calib_nbt.cpp:613-722; the last two arguments of the simulations are the loop bound
and the noise. -/
noncomputable def nbtEval (fuel : ℕ) (noise : ℕ → Vec3 ℝ) (env : VEnv ℝ (Vec3 ℝ))
    (cov : St ℝ (Vec3 ℝ) → (Par → Bool) → VI.Recover.Cov) (res : VI.Fid ℝ → ℝ × ℝ) (tr : Traj) (n : Data)
    (H : Matrix (Fin 6) (Fin 6) ℝ) : Except Fault (Option (Matrix (Fin 6) (Fin 6) ℝ)) :=
  let te := tr.ts_start + secToTs tr.T
  simulateImu fuel tr.ts_start te tr n.imu noise ⟨[], [], [], [], []⟩ >>= fun imu =>
  simulateCameras fuel tr.ts_start te tr n.target n.rig n.rate n.T_WF ([], []) >>= fun cams =>
  createTimeline cams.1 imu.time imu.accel imu.gyro Timeline.empty >>= fun tl =>
  setup n.rig.exts n.rig.params n.fixPar n.fixExt n.imuExtFixed n.delayFixed >>= fun s =>
  replay env tl s >>= fun s => finish cov res H s

end
end Yac.Nbt
