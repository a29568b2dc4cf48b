import Verif.Gimbal.ProblemModel

/-! The gimbal calibration program for two fixed and two moving cameras, yac/demo/calib_gimbal2.cpp.  Functions that are
word for word those of yac/demo/calib_gimbal.cpp are shared with the model of that program: `ROTZ`, `quat2rot`, `transform`,
`transform_vector`, `gimbal_joint_transform` (lines 13-31, 36-63, 97-120, 143-149) and the text parsing (lines 154-380).
`ceres::Solve` is not modelled. -/

namespace Yac.Gimbal2
open Yac.Geom Yac.Gimbal Matrix

/-- `transform_init`, calib_gimbal2.cpp:68-77. -/
def initial : Fin 7 → ℝ := ![0, 0, 0, 1, 0, 0, 0]

/-- The parameter blocks of a reprojection error, calib_gimbal2.cpp:703-711. -/
structure Params where
  gimbal : Fin 7 → ℝ
  link0 : Fin 7 → ℝ
  link1 : Fin 7 → ℝ
  joint0 : ℝ
  joint1 : ℝ
  joint2 : ℝ
  effector : Fin 7 → ℝ
  cam : Fin 7 → ℝ
  target : Fin 7 → ℝ

/-- `T_C0C2`, calib_gimbal2.cpp:725, 873. -/
noncomputable def movingPose (P : Params) : Mat4 ℝ :=
  transform P.gimbal * jointTf P.joint0 * transform P.link0 * jointTf P.joint1 * transform P.link1 * jointTf P.joint2 *
    transform P.effector

/-- `p_Ci`, calib_gimbal2.cpp:713-727; `inverse ()` of a 4x4 matrix is the inverse matrix (the modelled value is zero if
there is none, Eigen's is not finite). -/
noncomputable def pointInCam (P : Params) (p : Vec3 ℝ) : Vec3 ℝ :=
  let T := ((transform P.target)⁻¹ * movingPose P * transform P.cam)⁻¹
  let h := T *ᵥ ![p 0, p 1, p 2, 1]
  ![h 0, h 1, h 2]

open Classical in
/-- `GimbalReprojError::operator ()`, calib_gimbal2.cpp:703-743; `none`: the division by the depth is not finite. -/
noncomputable def reprojError (proj : Fin 4 → ℝ) (z : ℝ × ℝ) (p : Vec3 ℝ) (P : Params) : Option (ℝ × ℝ) :=
  let x := pointInCam P p
  if x 2 = 0 then none
  else
    let u := proj 0 * (x 0 / x 2) + proj 2
    let v := proj 1 * (x 1 / x 2) + proj 3
    some (z.1 - u, z.2 - v)

/-! ## Initial target pose -/

/-- One timestamp as `init_fiducial_pose` sees it: number of corners of the target detected by camera 0 and what `solvepnp`
returns for them (`none`: non-zero return value). -/
structure View where
  corners : Nat
  pnp : Option (Mat4 ℝ)

/-- `T_C0F` of one timestamp, calib_gimbal2.cpp:613-633; `none`: `continue`. -/
def viewTarget (v : View) : Option (Mat4 ℝ) := if v.corners < 20 then none else v.pnp

/-- `init_fiducial_pose`, calib_gimbal2.cpp:604-667. -/
noncomputable def initTarget (views : List View) : Except Fault (Fin 7 → ℝ) := do
  let Ts := views.filterMap viewTarget
  let rs := Ts.map tfTrans
  let as := Ts.map (fun T => quat2euler (tfQuatOf T))
  let x ← Num.median (rs.map fun r => r 0)
  let y ← Num.median (rs.map fun r => r 1)
  let z ← Num.median (rs.map fun r => r 2)
  let rr ← Num.median (as.map fun a => a 0)
  let rp ← Num.median (as.map fun a => a 1)
  let ry ← Num.median (as.map fun a => a 2)
  let q := rotToQuat (euler321 rr rp ry)
  pure (transformVector (tfQuat q ![x, y, z]))

/-! ## Configuration -/

/-- What `load_config` sets. -/
structure Config where
  numCams : ℤ
  numLinks : ℤ
  cams : List Camera
  gimbal : List ℚ
  link0 : List ℚ
  link1 : List ℚ
  effector : List ℚ
  cam0 : List ℚ
  cam1 : List ℚ
  cam2 : List ℚ
  cam3 : List ℚ
deriving DecidableEq

/-- `load_config`, calib_gimbal2.cpp:425-472; the sections of the cameras (lines 438-458) are read as in
calib_gimbal.cpp:405-425.  `none`: the file cannot be opened. -/
def loadConfig (file : Option Str) : Except Fault Config :=
  match file with
  | none => .error .fatal
  | some f =>
    keyInt "num_cams".toList f >>= fun a =>
    keyInt "num_links".toList a.2 >>= fun b =>
    loadCameras a.1.toNat (skip b.2) >>= fun c =>
    keyReals 7 "gimbal_ext".toList c.2 >>= fun e0 =>
    keyReals 7 "link0_ext".toList e0.2 >>= fun e1 =>
    keyReals 7 "link1_ext".toList e1.2 >>= fun e2 =>
    keyReals 7 "end_ext".toList e2.2 >>= fun e3 =>
    keyReals 7 "cam0_cam1_ext".toList e3.2 >>= fun e4 =>
    keyReals 7 "cam2_cam3_ext".toList e4.2 >>= fun e5 =>
    .ok ⟨a.1, b.1, c.1, e0.1, e1.1, e2.1, e3.1, [0, 0, 0, 1, 0, 0, 0], e4.1, [0, 0, 0, 1, 0, 0, 0], e5.1⟩

/-! ## The problem -/

/-- The parameter blocks, calib_gimbal2.cpp:1004-1012, 1050-1055. -/
inductive Block where
  | gimbal | link0 | link1 | effector | cam0 | cam1 | cam2 | cam3 | target
  | joint (i : Fin 3) (ts : ℤ)
deriving DecidableEq

/-- A reprojection error of the problem, calib_gimbal2.cpp:1063-1079. -/
structure Res where
  proj : Fin 4 → ℝ
  z : Option (ℝ × ℝ)
  p : Vec3 ℝ
  joints : ℤ
  cam : Block

/-- The pose of the camera of a residual, calib_gimbal2.cpp:1039-1046. -/
def camBlock (camIdx : Nat) : Except Fault Block :=
  if camIdx = 2 then .ok .cam2 else if camIdx = 3 then .ok .cam3 else .error .fatal

/-- `add_grid`, calib_gimbal2.cpp:1021-1090, with `fix_joints` and `enable_joint_errors` false (calib_gimbal2.cpp:981-982):
the residual blocks added.  `k`: projection and distortion parameters of the camera. -/
noncomputable def addGrid (k : Cam.Params) (camIdx : Nat) (g : Grid) : Except Fault (List Res) :=
  camBlock camIdx >>= fun cam =>
  .ok (g.corners.map fun c => ⟨![k 0, k 1, k 2, k 3], undistortKp k c.1, c.2, g.ts, cam⟩)

/-- The residual blocks of the problem, calib_gimbal2.cpp:1112-1115, for the shuffled timestamps; a timestamp without a grid
gets the empty one (`std::map::operator []`). -/
noncomputable def problem (k2 k3 : Cam.Params) (grids2 grids3 : ℤ → Grid) : List ℤ → Except Fault (List Res)
  | [] => .ok []
  | ts :: rest => addGrid k2 2 (grids2 ts) >>= fun a => addGrid k3 3 (grids3 ts) >>= fun b =>
      problem k2 k3 grids2 grids3 rest >>= fun c => .ok (a ++ b ++ c)

/-- The values of the parameter blocks. -/
structure State where
  gimbal : Fin 7 → ℝ
  link0 : Fin 7 → ℝ
  link1 : Fin 7 → ℝ
  effector : Fin 7 → ℝ
  cam0 : Fin 7 → ℝ
  cam1 : Fin 7 → ℝ
  cam2 : Fin 7 → ℝ
  cam3 : Fin 7 → ℝ
  target : Fin 7 → ℝ
  joints : ℤ → Fin 3 → ℝ

/-- The parameters of a reprojection error, calib_gimbal2.cpp:1067-1076. -/
def State.params (s : State) (ts : ℤ) (cam : Fin 7 → ℝ) : Params :=
  ⟨s.gimbal, s.link0, s.link1, s.joints ts 0, s.joints ts 1, s.joints ts 2, s.effector, cam, s.target⟩

/-- The value of a pose block. -/
def State.value (s : State) : Block → Option (Fin 7 → ℝ)
  | .gimbal => some s.gimbal
  | .link0 => some s.link0
  | .link1 => some s.link1
  | .effector => some s.effector
  | .cam0 => some s.cam0
  | .cam1 => some s.cam1
  | .cam2 => some s.cam2
  | .cam3 => some s.cam3
  | .target => some s.target
  | .joint _ _ => none

/-- The squared norm of a residual block; `none`: not finite. -/
noncomputable def Res.sq (s : State) (r : Res) : Option ℝ := do
  let z ← r.z
  let c ← s.value r.cam
  let e ← reprojError r.proj z r.p (s.params r.joints c)
  some (e.1 ^ 2 + e.2 ^ 2)

/-- Twice the cost `ceres` minimises (no loss function, calib_gimbal2.cpp:1078). -/
noncomputable def cost (s : State) : List Res → Option ℝ
  | [] => some 0
  | r :: rs => do
    let a ← r.sq s
    let b ← cost s rs
    some (a + b)

/-- `SetParameterBlockConstant`, calib_gimbal2.cpp:1013-1018. -/
def isConstant : Block → Bool
  | .cam0 | .cam1 | .cam2 | .cam3 | .target => true
  | _ => false

/-- The components of a pose block that its manifold keeps, calib_gimbal2.cpp:999-1012: `SubsetManifold {3, {0, 1}}` for the
links. -/
def keeps : Block → List (Fin 7)
  | .link0 | .link1 => [0, 1]
  | _ => []

/-! ## After the optimisation -/

/-- The maps `inspect_calib` looks up: joint angles, cameras, and grids and images by camera. -/
structure Loaded where
  joints : List ℤ
  cams : List Nat
  grids : Fin 4 → List ℤ
  images : Fin 4 → List ℤ

/-- The lookups for one camera, calib_gimbal2.cpp:878-900. -/
def lookCam (d : Loaded) (ts : ℤ) (c : Fin 4) : Except Fault Unit :=
  if c.1 ∉ d.cams then .error .exn
  else if ts ∉ d.grids c then .error .exn
  else if ts ∉ d.images c then .error .exn
  else .ok ()

/-- The loop of `inspect_calib`, calib_gimbal2.cpp:865-914: `.at (ts)` throws if the key is missing; `quit`: 'q' is pressed
while this timestamp is shown.  Drawing and showing are not modelled. -/
def inspect (d : Loaded) (quit : ℤ → Bool) : List ℤ → Except Fault Unit
  | [] => .ok ()
  | ts :: rest =>
    if ts ∉ d.joints then .error .exn
    else
      lookCam d ts 0 >>= fun _ => lookCam d ts 1 >>= fun _ => lookCam d ts 2 >>= fun _ => lookCam d ts 3 >>= fun _ =>
      if quit ts then .ok () else inspect d quit rest

/-- `init_fiducial_pose` (calib_gimbal2.cpp:618) and the construction of the problem (lines 1113-1114) look up the grids of
cameras 0, 2 and 3 with `[ts]`: missing ones are inserted. -/
def inserted (d : Loaded) (timestamps : List ℤ) : Loaded :=
  { d with grids := fun c => if c = 1 then d.grids c else d.grids c ++ timestamps }

/-- The end of `main`, calib_gimbal2.cpp:1092-1146, for a shuffled list of timestamps: whether `save_results` is reached.
The training and test timestamps (lines 1097-1105) are computed as in calib_gimbal.cpp:1136-1144 and not used. -/
def finish (d : Loaded) (timestamps shuffled : List ℤ) (quit : ℤ → Bool) : Except Fault Unit :=
  splitData shuffled >>= fun _ => inspect (inserted d timestamps) quit shuffled

end Yac.Gimbal2
