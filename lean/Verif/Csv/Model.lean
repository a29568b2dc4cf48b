import Verif.Fmt.Model

/-!
# Model of the writers of CSV files

util/data.cpp:412-449 (`vec2csv`, `ts2csv`), 477-523 (`save_data`, `save_features`), 549-565 (`save_extrinsics`),
calib_sim.cpp:267-368 and 563-664 (`vio_sim_data_t::save`, `calib_sim_data_t::save`, the same text), calib_nbt.cpp:315-380
(`lissajous_traj_t::save`).  A file is the list of its characters; numbers are rationals (finite doubles), printed as in
`Fmt/Model.lean`.  `opened` says whether the files could be opened for writing; writes succeed.
-/

namespace Yac.Csv
open Yac.Num Yac.Text Yac.Fmt Yac.Geom Matrix

/-- `std::ofstream << double` at the default precision. -/
def g6 (x : ℚ) : List Char := fmtG 6 x

/-- `%" PRIu64 "` of a signed 64 bit number. -/
def fmtU64 (n : ℤ) : List Char := natText (n % 2 ^ 64).toNat

/-- `vec2csv`, util/data.cpp:412-432; `none` is the return value -1. -/
def vec2csv (opened : Bool) (data : List (Vec3 ℚ)) : Option (List Char) :=
  if opened then some (data.flatMap fun v => g6 (v 0) ++ ',' :: (g6 (v 1) ++ ',' :: (g6 (v 2) ++ ['\n']))) else none

/-- `ts2csv`, util/data.cpp:434-449. -/
def ts2csv (opened : Bool) (data : List ℤ) : Option (List Char) :=
  if opened then some (data.flatMap fun t => fmtLd t ++ ['\n']) else none

/-- A loop over the indices of `ts` that reads `ys[i]` too. -/
def zipRows {α : Type} (row : ℤ → α → List Char) : List ℤ → List α → Except Fault (List Char)
  | [], _ => .ok []
  | _ :: _, [] => .error .oob
  | t :: ts, y :: ys => zipRows row ts ys >>= fun r => .ok (row t y ++ r)

/-- One row of `save_data`, util/data.cpp:487-490. -/
def dataRow (t : ℤ) (y : Vec3 ℚ) : List Char :=
  fmtLd t ++ ',' :: (g6 (y 0) ++ ',' :: (g6 (y 1) ++ ',' :: (g6 (y 2) ++ ['\n'])))

/-- `save_data` with vectors, util/data.cpp:477-494; it exits if the file cannot be opened. -/
def saveVecs (opened : Bool) (ts : List ℤ) (y : List (Vec3 ℚ)) : Except Fault (List Char) :=
  if opened then zipRows dataRow ts y else .error .fatal

/-- One row of `save_data`, util/data.cpp:506-510. -/
def quatRow (t : ℤ) (q : Quat ℚ) : List Char :=
  fmtLd t ++ ',' :: (g6 q.w ++ ',' :: (g6 q.x ++ ',' :: (g6 q.y ++ ',' :: (g6 q.z ++ ['\n']))))

/-- `save_data` with quaternions, util/data.cpp:496-514. -/
def saveQuats (opened : Bool) (ts : List ℤ) (y : List (Quat ℚ)) : Except Fault (List Char) :=
  if opened then zipRows quatRow ts y else .error .fatal

/-- Three numbers and a newline, `"%f,%f,%f\n"`. -/
def f3 (v : Vec3 ℚ) : List Char := fmtF (v 0) ++ ',' :: (fmtF (v 1) ++ ',' :: (fmtF (v 2) ++ ['\n']))

/-- `save_features`, util/data.cpp:516-523, and calib_sim.cpp:289-292; a file that could not be opened is not noticed. -/
def saveFeatures (opened : Bool) (features : List (Vec3 ℚ)) : Except Fault (List Char) :=
  if opened then .ok (features.flatMap f3) else .error .oob

/-- The header of `save_extrinsics`, util/data.cpp:551. -/
def extHeader : List Char := "#rx,ry,rz,qx,qy,qz,qw\n".toList

/-- `save_extrinsics`, util/data.cpp:549-565; `quatOf` is `tf_quat`. -/
def saveExtrinsics (quatOf : Mat4 ℚ → Quat ℚ) (opened : Bool) (T : Mat4 ℚ) : Except Fault (List Char) :=
  if opened then
    .ok (extHeader ++ (fmtF (tfTrans T 0) ++ ',' :: (fmtF (tfTrans T 1) ++ ',' :: (fmtF (tfTrans T 2) ++ ',' :: (fmtF (quatOf T).x ++ ',' ::
      (fmtF (quatOf T).y ++ ',' :: (fmtF (quatOf T).z ++ ',' :: (fmtF (quatOf T).w ++ ['\n']))))))))
  else .error .oob

/-! ### Simulated data, calib_sim.cpp:267-368 -/

/-- The inner loop over the observations, calib_sim.cpp:300-308 (`%zu`, then a comma, or a newline after the last). -/
def obsText : List ℕ → List Char
  | [] => []
  | [o] => natText o ++ ['\n']
  | o :: o' :: t => natText o ++ ',' :: obsText (o' :: t)

/-- One frame, calib_sim.cpp:296-308. -/
def obsRow (t : ℤ) (obs : List ℕ) : List Char := fmtU64 t ++ ',' :: (natText obs.length ++ ',' :: obsText obs)

/-- The inner loop over the keypoints, calib_sim.cpp:318-326. -/
def kpText : List (ℚ × ℚ) → List Char
  | [] => []
  | [p] => fmtF p.1 ++ ',' :: (fmtF p.2 ++ ['\n'])
  | p :: p' :: t => fmtF p.1 ++ ',' :: (fmtF p.2 ++ ',' :: kpText (p' :: t))

/-- One frame, calib_sim.cpp:314-326. -/
def kpRow (t : ℤ) (kps : List (ℚ × ℚ)) : List Char := fmtU64 t ++ ',' :: (natText kps.length ++ ',' :: kpText kps)

/-- An IMU sample, calib_sim.cpp:340-346. -/
def imuRow (t : ℤ) (a : Vec3 ℚ) (w : Vec3 ℚ) : List Char :=
  fmtU64 t ++ ',' :: (fmtF (a 0) ++ ',' :: (fmtF (a 1) ++ ',' :: (fmtF (a 2) ++ ',' :: f3 w)))

/-- A pose of the IMU, calib_sim.cpp:351-357. -/
def imuPoseRow (t : ℤ) (q : Quat ℚ) (r : Vec3 ℚ) : List Char :=
  fmtU64 t ++ ',' :: (fmtF q.w ++ ',' :: (fmtF q.x ++ ',' :: (fmtF q.y ++ ',' :: (fmtF q.z ++ ',' :: f3 r))))

/-- A velocity of the IMU, calib_sim.cpp:362-366. -/
def imuVelRow (t : ℤ) (v : Vec3 ℚ) : List Char := fmtU64 t ++ ',' :: f3 v

/-- What is saved of the simulated data, calib_sim.hpp:49-70: per frame and per sample. -/
structure SimData where
  features : List (Vec3 ℚ)
  camTs : List ℤ
  observations : List (List ℕ)
  keypoints : List (List (ℚ × ℚ))
  camRot : List (Quat ℚ)
  camPos : List (Vec3 ℚ)
  imuTs : List ℤ
  imuAcc : List (Vec3 ℚ)
  imuGyr : List (Vec3 ℚ)
  imuRot : List (Quat ℚ)
  imuPos : List (Vec3 ℚ)
  imuVel : List (Vec3 ℚ)

/-- The files in the directory. -/
structure SimFiles where
  features : List Char
  observations : List Char
  keypoints : List Char
  camPose : List Char
  imu : List Char
  imuPose : List Char
  imuVel : List Char

/-- A loop over the indices of `ts` that reads `as[i]` and `bs[i]`. -/
def zipRows2 {α β : Type} (row : ℤ → α → β → List Char) : List ℤ → List α → List β → Except Fault (List Char)
  | [], _, _ => .ok []
  | t :: ts, a :: as, b :: bs => zipRows2 row ts as bs >>= fun r => .ok (row t a b ++ r)
  | _ :: _, _, _ => .error .oob

/-- The poses of the camera, calib_sim.cpp:331-336. -/
def camPoses : List ℤ → List (Quat ℚ) → List (Vec3 ℚ) → Except Fault (List (Mat4 ℚ))
  | [], _, _ => .ok []
  | _ :: ts, q :: qs, r :: rs => camPoses ts qs rs >>= fun ps => .ok (tfQuat q r :: ps)
  | _ :: _, _, _ => .error .oob

/-- `vio_sim_data_t::save`, calib_sim.cpp:267-368, and `calib_sim_data_t::save`, 563-664; `quatOf` is `tf_quat`.  That the files
could be opened is not checked. -/
def simSave (quatOf : Mat4 ℚ → Quat ℚ) (opened : Bool) (d : SimData) : Except Fault SimFiles :=
  if opened then
    zipRows obsRow d.camTs d.observations >>= fun obs =>
    zipRows kpRow d.camTs d.keypoints >>= fun kps =>
    camPoses d.camTs d.camRot d.camPos >>= fun ps =>
    savePoses quatOf d.camTs ps >>= fun poses =>
    zipRows2 imuRow d.imuTs d.imuAcc d.imuGyr >>= fun imu =>
    zipRows2 imuPoseRow d.imuTs d.imuRot d.imuPos >>= fun imuPose =>
    zipRows imuVelRow d.imuTs d.imuVel >>= fun imuVel =>
    .ok ⟨d.features.flatMap f3, obs, kps, poses, imu, imuPose, imuVel⟩
  else .error .oob

/-! ### Lissajous trajectories, calib_nbt.cpp:315-380 -/

/-- What the trajectory is at a time: rotation, position, orientation, and velocity, acceleration and angular velocity in the
world (calib_nbt.cpp:339-346). -/
structure At where
  C : Matrix (Fin 3) (Fin 3) ℚ
  r : Vec3 ℚ
  q : Quat ℚ
  v : Vec3 ℚ
  a : Vec3 ℚ
  w : Vec3 ℚ

/-- `linspace<timestamp_t>`, util/core.hpp:279-298, for at least two points: sums in double precision, truncated. -/
def linspaceTs (start stop : ℤ) (num : ℕ) : List ℤ :=
  (List.range (num - 1)).map (fun i : ℕ =>
    truncQ (f64 (f64 (start : ℚ) + f64 (f64 (f64 ((stop - start : ℤ) : ℚ) / ((num - 1 : ℕ) : ℚ)) * (i : ℚ))))) ++ [stop]

/-- The header, calib_nbt.cpp:324-329. -/
def lissajousHeader : List Char :=
  ("#ts,".toList ++ "r_WS_W_x,r_WS_W_y,r_WS_W_z,".toList ++ "q_WS_W_x,q_WS_W_y,q_WS_W_z,q_WS_W_w,".toList ++
    "v_WS_W_x,v_WS_W_y,v_WS_W_z,".toList ++ "a_WS_S_x,a_WS_S_y,a_WS_S_z,".toList ++ "w_WS_S_x,w_WS_S_y,w_WS_S_z\n".toList)

/-- One row, calib_nbt.cpp:349-376; gravity is 10 m/s². -/
def lissajousRow (t : ℤ) (s : At) : List Char :=
  let w := s.Cᵀ *ᵥ s.w
  let a := s.Cᵀ *ᵥ (s.a + ![0, 0, 10])
  fmtLd t ++ ',' :: (g6 (s.r 0) ++ ',' :: (g6 (s.r 1) ++ ',' :: (g6 (s.r 2) ++ ',' :: (g6 s.q.x ++ ',' :: (g6 s.q.y ++ ',' :: (g6 s.q.z ++ ',' ::
    (g6 s.q.w ++ ',' :: (g6 (s.v 0) ++ ',' :: (g6 (s.v 1) ++ ',' :: (g6 (s.v 2) ++ ',' :: (g6 (a 0) ++ ',' :: (g6 (a 1) ++ ',' :: (g6 (a 2) ++ ',' ::
      (g6 (w 0) ++ ',' :: (g6 (w 1) ++ ',' :: (g6 (w 2) ++ ['\n']))))))))))))))))

/-- `lissajous_traj_t::save`, calib_nbt.cpp:315-380, for a trajectory from `start` to `stop`. -/
def lissajousSave (opened : Bool) (start stop : ℤ) (traj : ℤ → At) : Option (List Char) :=
  if opened then some (lissajousHeader ++ (linspaceTs start stop 1000).flatMap (fun t => lissajousRow t (traj t))) else none

end Yac.Csv
