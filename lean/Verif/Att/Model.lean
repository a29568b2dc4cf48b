import Verif.Geom.QuatOfRot
import Verif.Basic

/-! The attitude from accelerometer samples at rest: `imu_init_attitude`,
yac/lib/util/core.cpp:1488-1513.  Numbers are exact reals. -/

namespace Yac.Att
open Yac.Geom Matrix

/-- core.cpp:1493-1498: the loop that adds up the first samples; the angular velocities are read
too, their sum is not used. -/
def sumLoop (w a : List (Vec3 ℝ)) : List Nat → Vec3 ℝ → Except Fault (Vec3 ℝ)
  | [], s => .ok s
  | i :: is, s =>
    match w[i]? with
    | none => .error .oob
    | some _ => match a[i]? with
      | none => .error .oob
      | some x => sumLoop w a is (s + x)

/-- `imu_init_attitude`, core.cpp:1488-1513; without samples the mean is not a number. -/
noncomputable def imuInitAttitude (w a : List (Vec3 ℝ)) (n : Nat) : Except Fault (Mat3 ℝ) :=
  match sumLoop w a (List.range n) 0 with
  | .error e => .error e
  | .ok s =>
    if n = 0 then .error .divZero
    else
      let mean : Vec3 ℝ := fun i => s i / n
      let gravity : Vec3 ℝ := ![0, 0, -(981 / 100)]
      let C := vecs2rot mean (-gravity)
      let rpy := quat2euler (rotToQuat C)
      .ok (euler321 (rpy 0) (rpy 1) 0)

end Yac.Att
