import Verif.Gimbal.Model
import Verif.Gimbal.TextModel
import Verif.Cam.Model
import Verif.Num.Float

/-! The optimisation problem of the gimbal calibration program and what happens after it,
yac/demo/calib_gimbal.cpp:883-963, 1033-1165.  `ceres::Solve` itself is not modelled. -/

namespace Yac.Gimbal
open Yac.Geom Yac.Num Matrix

/-- `const int N = timestamps.size () * 0.8`, calib_gimbal.cpp:1136, in double precision. -/
def trainCount (n : Nat) : Nat := (truncQ (f64 ((n : ℚ) * f64 (4 / 5)))).toNat

/-- The training and test timestamps, calib_gimbal.cpp:1137-1144; `ts` is the shuffled list, calib_gimbal.cpp:1131-1134. -/
def splitData (ts : List ℤ) : Except Fault (List ℤ × List ℤ) :=
  let N := trainCount ts.length
  if ts.length < N + 1 then .error .oob
  else .ok (ts.take N, ts.drop (N + 1))

/-- The parameter blocks, calib_gimbal.cpp:1042-1051, 1089-1094. -/
inductive Block where
  | pose | gimbal | link0 | link1 | effector | cam0 | cam1 | target
  | joint (i : Fin 3) (ts : ℤ)
deriving DecidableEq

/-- A residual block, calib_gimbal.cpp:1102-1125; `none` in `cam`: a null pointer. -/
inductive Res where
  | reproj (proj : Fin 4 → ℝ) (z : Option (ℝ × ℝ)) (p : Vec3 ℝ) (joints : ℤ) (cam : Option Block)
  | joint (measured covar : ℝ) (i : Fin 3) (ts : ℤ)

/-- A grid: timestamp and its corners (pixel and point of the target), as `get_measurements` delivers them. -/
structure Grid where
  ts : ℤ
  corners : List ((ℝ × ℝ) × Vec3 ℝ)

/-- `pinhole_radtan4_undistort` of a keypoint, calib_gimbal.cpp:1069-1073; `none`: not finite. -/
noncomputable def undistortKp (k : Cam.Params) (z : ℝ × ℝ) : Option (ℝ × ℝ) :=
  (Cam.radtanUndistort k ![z.1, z.2]).map fun u => (u 0, u 1)

/-- The camera pose of a residual, calib_gimbal.cpp:1077-1082. -/
def camBlock (camIdx : Nat) : Option Block := if camIdx = 0 then some .cam0 else if camIdx = 1 then some .cam1 else none

/-- `add_grid`, calib_gimbal.cpp:1059-1128, with `fix_joints` false and `enable_joint_errors` true
(calib_gimbal.cpp:1020-1021): the residual blocks added.  `k`: projection and distortion parameters of the camera;
`meas`: the joint angles by timestamp. -/
noncomputable def addGrid (k : Cam.Params) (meas : ℤ → Fin 3 → ℝ) (camIdx : Nat) (g : Grid) : List Res :=
  let proj : Fin 4 → ℝ := ![k 0, k 1, k 2, k 3]
  g.corners.flatMap fun c =>
    [.reproj proj (undistortKp k c.1) c.2 g.ts (camBlock camIdx),
     .joint (meas g.ts 0) (1 / 100) 0 g.ts, .joint (meas g.ts 1) (1 / 100) 1 g.ts, .joint (meas g.ts 2) (1 / 100) 2 g.ts]

/-- The residual blocks of the problem, calib_gimbal.cpp:1145-1148; a timestamp without a grid gets the empty one
(`std::map::operator []`). -/
noncomputable def problem (k0 k1 : Cam.Params) (meas : ℤ → Fin 3 → ℝ) (grids0 grids1 : ℤ → Grid) (train : List ℤ) : List Res :=
  train.flatMap fun ts => addGrid k0 meas 0 (grids0 ts) ++ addGrid k1 meas 1 (grids1 ts)

/-- The values of the parameter blocks. -/
structure State where
  pose : Fin 7 → ℝ
  gimbal : Fin 7 → ℝ
  link0 : Fin 7 → ℝ
  link1 : Fin 7 → ℝ
  effector : Fin 7 → ℝ
  cam0 : Fin 7 → ℝ
  cam1 : Fin 7 → ℝ
  target : Fin 7 → ℝ
  joints : ℤ → Fin 3 → ℝ

/-- The parameters of a reprojection error, calib_gimbal.cpp:1103-1113. -/
def State.params (s : State) (ts : ℤ) (cam : Fin 7 → ℝ) : Params :=
  ⟨s.pose, s.gimbal, s.link0, s.link1, s.joints ts 0, s.joints ts 1, s.joints ts 2, s.effector, cam, s.target⟩

/-- The squared norm of a residual block; `none`: not finite, or the null pointer. -/
noncomputable def Res.sq (s : State) : Res → Option ℝ
  | .reproj proj z p ts cam => do
    let z ← z
    let c ← match cam with
      | some .cam0 => some s.cam0
      | some .cam1 => some s.cam1
      | _ => none
    let r ← reprojError proj z p (s.params ts c)
    some (r.1 ^ 2 + r.2 ^ 2)
  | .joint measured covar i ts => some (jointError measured covar (s.joints ts i) ^ 2)

/-- Twice the cost `ceres` minimises (no loss functions, calib_gimbal.cpp:1114, 1121-1123). -/
noncomputable def cost (s : State) : List Res → Option ℝ
  | [] => some 0
  | r :: rs => do
    let a ← r.sq s
    let b ← cost s rs
    some (a + b)

/-- `SetParameterBlockConstant`, calib_gimbal.cpp:1053-1056. -/
def isConstant : Block → Bool
  | .pose | .cam0 | .cam1 | .gimbal => true
  | _ => false

/-- The components of a pose block that its manifold keeps, calib_gimbal.cpp:1037-1051:
`SubsetManifold {3, {0, 1}}` for the links. -/
def keeps : Block → List (Fin 7)
  | .link0 | .link1 => [0, 1]
  | _ => []

/-- The maps `inspect_calib` looks up. -/
structure Loaded where
  joints : List ℤ
  grids0 : List ℤ
  images0 : List ℤ
  cams : List Nat

/-- The lookups of `inspect_calib`, calib_gimbal.cpp:930-956: `.at (ts)` throws if the key is missing.  Drawing and
showing are not modelled. -/
def inspect (d : Loaded) : List ℤ → Except Fault Unit
  | [] => .ok ()
  | ts :: rest =>
    if ts ∉ d.joints then .error .exn
    else if ts ∉ d.grids0 then .error .exn
    else if 0 ∉ d.cams then .error .exn
    else if ts ∉ d.images0 then .error .exn
    else inspect d rest

/-- `init_fiducial_pose` looks up `cam0_grids [ts]` of every timestamp, calib_gimbal.cpp:577: missing grids are
inserted. -/
def afterInit (d : Loaded) (timestamps : List ℤ) : Loaded := { d with grids0 := d.grids0 ++ timestamps }

/-- The end of `main`, calib_gimbal.cpp:1131-1164, for a shuffled list of timestamps: whether `save_results` is
reached. -/
def finish (d : Loaded) (timestamps shuffled : List ℤ) : Except Fault Unit :=
  splitData shuffled >>= fun s => inspect (afterInit d timestamps) s.2

end Yac.Gimbal
