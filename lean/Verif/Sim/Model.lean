import Verif.Nbt.Sim

/-!
# Model of the simulated data sets, yac/lib/calib_sim.cpp

`create_3d_features`, `create_3d_features_perimeter` (9-76), the constructors of `vio_sim_data_t`
(78-265) and `calib_sim_data_t` (374-561), which are the same text, and `add_noise`
(util/core.cpp:1471-1486), `randf` (821-824).

Exact real arithmetic.  `rand() / RAND_MAX` is an arbitrary stream of numbers `u 0, u 1, …`; the normal
noise of the simulated IMU is an arbitrary stream of vectors.  The loops over time have a fuel argument: a
loop that has not stopped when the fuel is used up is the fault `diverge`.  Writing files (`save`) is not
modelled.
-/

namespace Yac.Sim
open Matrix Yac.Geom Yac.Nbt

/-- `randf(ub, lb)`, core.cpp:821-824, for `u` the random number. -/
def randf (u ub lb : ℝ) : ℝ := lb + u * (ub - lb)

/-- `create_3d_features`, calib_sim.cpp:9-21, reading the stream from position `k`. -/
def features3d (u : ℕ → ℝ) (k : ℕ) (xb yb zb : ℝ × ℝ) (n : ℕ) : List (Vec3 ℝ) :=
  (List.range n).map fun i =>
    ![randf (u (k + 3 * i)) xb.1 xb.2, randf (u (k + 3 * i + 1)) yb.1 yb.2, randf (u (k + 3 * i + 2)) zb.1 zb.2]

/-- `create_3d_features_perimeter`, calib_sim.cpp:23-76; `nb / 4.0` is truncated. -/
def perimeter (u : ℕ → ℝ) (o d : Vec3 ℝ) (nb : ℕ) : List (Vec3 ℝ) :=
  let n := nb / 4
  let zb := (o 2 - d 2, o 2 + d 2)
  features3d u 0 (o 0 - d 0, o 0 + d 0) (o 1 + d 1, o 1 + d 1) zb n ++
  features3d u (3 * n) (o 0 + d 0, o 0 + d 0) (o 1 - d 1, o 1 + d 1) zb n ++
  features3d u (6 * n) (o 0 - d 0, o 0 + d 0) (o 1 - d 1, o 1 - d 1) zb n ++
  features3d u (9 * n) (o 0 - d 0, o 0 - d 0) (o 1 - d 1, o 1 + d 1) zb n

/-- Three random numbers in `[-n, n]`, core.cpp:1472 and 1478. -/
def noise3 (u : ℕ → ℝ) (k : ℕ) (n : ℝ) : Vec3 ℝ :=
  ![randf (u k) (-n) n, randf (u (k + 1)) (-n) n, randf (u (k + 2)) (-n) n]

/-- `add_noise` of a rotation, core.cpp:1471-1475. -/
noncomputable def noisyRot (u : ℕ → ℝ) (k : ℕ) (C : Mat3 ℝ) (n : ℝ) : Mat3 ℝ :=
  let e := quat2euler (rotToQuat C)
  let d := noise3 u k n
  euler321 (e 0 + Num.deg2rad (d 0)) (e 1 + Num.deg2rad (d 1)) (e 2 + Num.deg2rad (d 2))

/-- `add_noise` of a pose, core.cpp:1477-1486: the position first. -/
noncomputable def noisyPose (u : ℕ → ℝ) (k : ℕ) (T : Mat4 ℝ) (pn rn : ℝ) : Mat4 ℝ :=
  tf (noisyRot u (k + 3) (tfRot T) rn) (tfTrans T + noise3 u k pn)

/-- The resolution of the simulated camera, calib_sim.cpp:93. -/
def res : Fin 2 → ℤ := ![640, 480]

/-- The parameters of the simulated camera, calib_sim.cpp:94-109. -/
noncomputable def camParams : Cam.Params :=
  ![Cam.pinholeFocal 640 90, Cam.pinholeFocal 480 90, 640 / 2, 480 / 2, 1 / 100, 1 / 1000, 1 / 10000, 1 / 10000]

/-- Body of the loop over the features, calib_sim.cpp:150-161: the index, `frame_obs`, `frame_kps`. -/
noncomputable def seeStep (T_CW : Mat4 ℝ) (s : ℕ × List ℕ × List Cam.Vec2) (p : Vec3 ℝ) :
    ℕ × List ℕ × List Cam.Vec2 :=
  let r := Cam.radtanProject res camParams (tfPoint T_CW p)
  if r.code = 0 then (s.1 + 1, s.2.1 ++ [s.1], s.2.2 ++ [r.zhat.getD ![0, 0]]) else (s.1 + 1, s.2.1, s.2.2)

/-- One camera frame: what is pushed into `cam_ts`, `cam_pos_gnd`, `cam_rot_gnd`, `cam_poses_gnd`,
`cam_poses` (with `cam_pos`, `cam_rot` its parts), `observations`, `keypoints`. -/
structure CamFrame where
  ts : ℤ
  pos : Vec3 ℝ
  rot : Quat ℝ
  pose : Mat4 ℝ
  noisy : Mat4 ℝ
  obs : List ℕ
  kps : List Cam.Vec2

/-- One IMU sample: what is pushed into `imu_ts`, `imu_acc`, `imu_gyr`, `imu_pos`, `imu_poses`, `imu_rot`,
`imu_vel`. -/
structure ImuSample where
  ts : ℤ
  acc : Vec3 ℝ
  gyr : Vec3 ℝ
  pos : Vec3 ℝ
  pose : Mat4 ℝ
  rot : Quat ℝ
  vel : Vec3 ℝ

/-- `sim_event_t`, calib_sim.hpp:16-37 (the sensor index is 0). -/
inductive SimEvent where
  | cam (ts : ℤ) (kps : List Cam.Vec2) (obs : List ℕ)
  | imu (ts : ℤ) (acc gyr : Vec3 ℝ)

/-- `while (t <= t_end) { body; t += dt; theta += w * dt; yaw += w * dt; }`, calib_sim.cpp:121-170 and
200-248. -/
noncomputable def circleLoop {S : Type} (te dt w : ℝ) (body : ℝ → ℝ → ℝ → S → Except Fault S) :
    ℕ → ℝ → ℝ → ℝ → S → Except Fault S
  | 0, _, _, _, _ => .error .diverge
  | n + 1, t, theta, yaw, s =>
    open Classical in
    if t ≤ te then body t theta yaw s >>= fun s => circleLoop te dt w body n (t + dt) (theta + w * dt) (yaw + w * dt) s
    else .ok s

/-- The data of a simulation. -/
structure World where
  features : List (Vec3 ℝ)
  cam : List CamFrame
  imu : List ImuSample
  timeline : List (ℤ × SimEvent)

/-- Body of the camera loop, calib_sim.cpp:122-164; six random numbers are drawn. -/
noncomputable def camStep (r : ℝ) (u : ℕ → ℝ) (t theta yaw : ℝ) (s : ℕ × World) : Except Fault (ℕ × World) :=
  let r_WC : Vec3 ℝ := ![r * Real.cos theta, r * Real.sin theta, 0]
  let C_WC := euler321 (Num.deg2rad (-90)) 0 yaw
  let T_WC := tf C_WC r_WC
  Nbv.inverse T_WC >>= fun T_CW =>
    let f := s.2.features.foldl (seeStep T_CW) (0, [], [])
    let ts := secToTs t
    .ok (s.1 + 6, { s.2 with
      cam := s.2.cam ++ [⟨ts, r_WC, rotToQuat C_WC, T_WC, noisyPose u s.1 T_WC (1 / 10) 1, f.2.1, f.2.2⟩]
      timeline := Timeline.mmInsert ts (.cam ts f.2.2 f.2.1) s.2.timeline })

/-- Body of the IMU loop, calib_sim.cpp:201-243. -/
noncomputable def imuStep (r w : ℝ) (noise : ℕ → Vec3 ℝ) (t theta yaw : ℝ) (s : SimImu × ℕ × World) :
    Except Fault (SimImu × ℕ × World) :=
  let T := tf (euler321 0 0 (Num.wrapPi yaw)) ![r * Real.cos theta, r * Real.sin theta, 0]
  let ts := secToTs t
  s.1.measure noise s.2.1 ts T ![0, 0, w] ![-r * (w * w) * Real.cos theta, -r * (w * w) * Real.sin theta, 0] >>= fun m =>
    .ok (m.1, m.2.1, { s.2.2 with
      imu := s.2.2.imu ++ [⟨ts, m.2.2.acc, m.2.2.gyr, tfTrans T, T, tfQuatOf T,
        ![-r * w * Real.sin theta, r * w * Real.cos theta, 0]⟩]
      timeline := Timeline.mmInsert ts (.imu ts m.2.2.acc m.2.2.gyr) s.2.2.timeline })

/-- `sim_imu_t` as set up in calib_sim.cpp:184-198. -/
noncomputable def simImu : SimImu :=
  ⟨400, 3600, 3600, 0.005, 0.025, 0.00001, 0.001, 9.81, false, 0, 0, 0⟩

/-- The constructor, calib_sim.cpp:78-249 and 374-545: speed 0.3, camera rate 30, IMU rate 400.
`divZero`: a circle of radius 0. -/
noncomputable def simulate (fuel : ℕ) (r : ℝ) (u : ℕ → ℝ) (noise : ℕ → Vec3 ℝ) : Except Fault World :=
  let dist := 2 * Real.pi * r
  let taken := dist / (3 / 10)
  open Classical in
  if taken = 0 then .error .divZero
  else
    let f := 1 / taken
    let w := -2 * Real.pi * f
    let features := perimeter u 0 ![5, 5, 5] 100
    circleLoop taken (1 / 30) w (camStep r u) fuel 0 (Num.deg2rad 180) 0 (300, ⟨features, [], [], []⟩) >>= fun a =>
    circleLoop taken (1 / 400) w (imuStep r w noise) fuel 0 (Num.deg2rad 180) (Num.deg2rad 90) (simImu, 0, a.2) >>= fun b =>
    .ok b.2.2

end Yac.Sim
