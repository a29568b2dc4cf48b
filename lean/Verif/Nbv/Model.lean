import Verif.AprilGrid.Model
import Verif.Cam.Model
import Verif.Misc.Model
import Verif.Num.Model
import Mathlib.LinearAlgebra.Matrix.NonsingularInverse
import Mathlib.Analysis.SpecialFunctions.Log.Basic

/-!
# Model of the next-best-view helpers, yac/lib/calib_nbv.cpp

Exact real arithmetic.  Eigen's `inverse()` of a singular pose and a quotient by zero (both fill
the result with infinities or NaN) are the fault `divZero`.  Drawing into the image is left out.
-/

namespace Yac.Nbv
open Matrix Yac.Geom Yac.Cam

/-- `calib_target_t`, calib_data.hpp:28: the four numbers used here. -/
structure Target where
  rows : Nat
  cols : Nat
  size : ℝ
  spacing : ℝ

/-- The two camera geometries, cv.hpp:431-640. -/
inductive Lens where
  | radtan
  | equi

/-- A camera: its geometry object and its `camera_params_t` (resolution and parameter vector). -/
structure Camera where
  lens : Lens
  res : Fin 2 → ℤ
  params : Params

/-- `camera_geometry_t::project`, the virtual call (cv.hpp:431-640). -/
noncomputable def Camera.project (cam : Camera) (p : Vec3 ℝ) : ProjRes :=
  match cam.lens with
  | .radtan => radtanProject cam.res cam.params p
  | .equi => equiProject cam.res cam.params p

/-- `T.inverse()`. -/
noncomputable def inverse (T : Mat4 ℝ) : Except Fault (Mat4 ℝ) :=
  open Classical in if T.det = 0 then .error .divZero else .ok T⁻¹

/-- An object point as a vector. -/
def vec (p : ℝ × ℝ × ℝ) : Vec3 ℝ := ![p.1, p.2.1, p.2.2]

/-- The nested loops over tags and corners, calib_nbv.cpp:26-27 and 295-296. -/
def corners (n : Nat) : List (Nat × Nat) :=
  (List.range n).flatMap fun t => (List.range 4).map fun c => (t, c)

/-- An empty grid of the target, calib_nbv.cpp:19 and 291. -/
noncomputable def emptyGrid (ts : ℤ) (tg : Target) : AprilGrid.Grid ℝ :=
  AprilGrid.new ts tg.rows tg.cols tg.size tg.spacing

/-- The loop of `check_fully_observable`, calib_nbv.cpp:26-37. -/
noncomputable def allSeen (cam : Camera) (g : AprilGrid.Grid ℝ) (T_CF : Mat4 ℝ) :
    List (Nat × Nat) → Except Fault Bool
  | [] => .ok true
  | tc :: l => (AprilGrid.objectPoint g tc.1 tc.2) >>= fun p =>
      if (cam.project (tfPoint T_CF (vec p))).code ≠ 0 then .ok false else allSeen cam g T_CF l

/-- `check_fully_observable`, calib_nbv.cpp:11-39. -/
noncomputable def checkFullyObservable (tg : Target) (cam : Camera) (T_FC : Mat4 ℝ) : Except Fault Bool :=
  inverse T_FC >>= fun T_CF => allSeen cam (emptyGrid 0 tg) T_CF (corners (tg.rows * tg.cols))

/-- Loop body of `nbv_target_grid`, calib_nbv.cpp:297-303; `z_hat` starts at the origin. -/
noncomputable def addSeen (cam : Camera) (T_CF : Mat4 ℝ) (g : AprilGrid.Grid ℝ) (tc : Nat × Nat) :
    Except Fault (AprilGrid.Grid ℝ) :=
  AprilGrid.objectPoint g tc.1 tc.2 >>= fun p =>
    let r := cam.project (tfPoint T_CF (vec p))
    let z := r.zhat.getD ![0, 0]
    if r.code = 0 then AprilGrid.add g tc.1 tc.2 (z 0, z 1) else .ok g

/-- `nbv_target_grid`, calib_nbv.cpp:279-308. -/
noncomputable def targetGrid (tg : Target) (cam : Camera) (ts : ℤ) (T_FC : Mat4 ℝ) :
    Except Fault (AprilGrid.Grid ℝ) :=
  inverse T_FC >>= fun T_CF => (corners (tg.rows * tg.cols)).foldlM (addSeen cam T_CF) (emptyGrid ts tg)

/-- Loop of `nbv_reached`, calib_nbv.cpp:58-69. -/
noncomputable def viewErrors (target : AprilGrid.Grid ℝ) (ms : List (ℤ × ℤ × (ℝ × ℝ))) :
    Except Fault (List ℝ) :=
  ms.foldlM (fun (errs : List ℝ) (m : ℤ × ℤ × (ℝ × ℝ)) =>
    AprilGrid.has target m.1 m.2.1 >>= fun h =>
      if h = false then .ok errs else
        AprilGrid.keypoint target m.1 m.2.1 >>= fun z =>
          .ok (errs ++ [Real.sqrt ((z.1 - m.2.2.1) ^ 2 + (z.2 - m.2.2.2) ^ 2)])) []

/-- `nbv_reached`, calib_nbv.cpp:41-78: the result and the errors written.  The four vectors of
`get_measurements` are walked together.  A NaN mean compares false with the threshold. -/
noncomputable def reached (target grid : AprilGrid.Grid ℝ) (threshold : ℝ) (errs0 : List ℝ) :
    Except Fault (Bool × List ℝ) :=
  if grid.detected = false then .ok (false, errs0) else
    AprilGrid.getMeasurements grid AprilGrid.Meas.empty >>= fun m =>
      viewErrors target (m.tagIds.zip (m.corners.zip m.keypoints)) >>= fun errs =>
        match Num.mean errs with
        | none => .ok (true, errs)
        | some e => open Classical in if e > threshold then .ok (false, errs) else .ok (true, errs)

/-- Target width, calib_nbv.cpp:92-94. -/
noncomputable def Target.width (tg : Target) : ℝ :=
  tg.cols * tg.size + (tg.cols - 1) * tg.spacing * tg.size

/-- Target height, calib_nbv.cpp:93-95. -/
noncomputable def Target.height (tg : Target) : ℝ :=
  tg.rows * tg.size + (tg.rows - 1) * tg.spacing * tg.size

/-- One attempt, calib_nbv.cpp:101-117: the origin pose and whether the whole target is seen from
it. -/
noncomputable def tryScale (tg : Target) (cam : Camera) (scale : ℝ) : Except Fault (Mat4 ℝ × Bool) :=
  let den := ((cam.res 0 : ℝ) / 2) * scale
  open Classical in
  if den = 0 then .error .divZero else
    let r : Vec3 ℝ := ![tg.width / 2, tg.height / 2, cam.params 0 * (tg.width / 2) / den]
    let C := euler321 (Num.deg2rad (-180)) (Num.deg2rad 0) (Num.deg2rad 0)
    checkFullyObservable tg cam (tf C r) >>= fun ok => .ok (tf 1 r, ok)

/-- The `goto` loop of `calib_target_origin`, calib_nbv.cpp:98-126, with `retry` attempts left
(`retry = 0` is never entered: the code starts at 5 and stops when the decrement gives 0). -/
noncomputable def originLoop (tg : Target) (cam : Camera) : Nat → ℝ → Except Fault (ℤ × Mat4 ℝ)
  | 0, _ => .error .diverge
  | retry + 1, scale => tryScale tg cam scale >>= fun a =>
      if a.2 = false then
        if retry = 0 then .ok (-1, a.1) else originLoop tg cam retry (scale - 1 / 10)
      else .ok (0, a.1)

/-- `calib_target_origin`, calib_nbv.cpp:80-129: the return code and `T_FO`. -/
noncomputable def targetOrigin (tg : Target) (cam : Camera) (scale : ℝ) : Except Fault (ℤ × Mat4 ℝ) :=
  originLoop tg cam 5 scale

/-- `lookat` with the default up axis, core.hpp:788-790. -/
noncomputable def look (pos target : Vec3 ℝ) : Except Fault (Mat4 ℝ) :=
  match Misc.lookat pos target ![0, -1, 0] with
  | none => .error .divZero
  | some T => .ok T

/-- Camera positions of `calib_init_poses`, calib_nbv.cpp:141-166. -/
noncomputable def initPositions (r : Vec3 ℝ) : List (Vec3 ℝ) :=
  let w := r 0 * 2
  let h := r 1 * 2
  let centre : Vec3 ℝ := ![w / 2, h / 2, 0]
  let w0 := -(w / 2) * (12 / 10)
  let w1 := (w / 2) * (12 / 10)
  let h0 := -(h / 2) * (12 / 10)
  let h1 := (h / 2) * (12 / 10)
  [![w0, h1, r 2] + centre, ![w0, h0, r 2] + centre, ![w1, h0, r 2] + centre, ![w1, h1, r 2] + centre]

/-- The point looked at, calib_nbv.cpp:140-143 and 191-194. -/
noncomputable def lookCentre (r : Vec3 ℝ) : Vec3 ℝ := ![r 0 * 2 / 2, r 1 * 2 / 2, 0]

/-- `calib_init_poses`, calib_nbv.cpp:131-177: the return code and the poses.  The pose in front
of the centre (155-158) is pushed and then discarded by `poses.clear()` (170). -/
noncomputable def initPoses (tg : Target) (cam : Camera) (poses : List (Mat4 ℝ)) :
    Except Fault (ℤ × List (Mat4 ℝ)) :=
  targetOrigin tg cam (5 / 10) >>= fun o =>
    if o.1 ≠ 0 then .ok (-1, poses) else
      let r := tfTrans o.2
      look ![lookCentre r 0, lookCentre r 1, r 2] (lookCentre r) >>= fun _ =>
        (initPositions r).mapM (fun p => look p (lookCentre r)) >>= fun ps => .ok (0, ps)

/-- Camera positions of `calib_nbv_poses`, calib_nbv.cpp:196-219. -/
noncomputable def nbvPositions (r : Vec3 ℝ) (nx ny nz : ℤ) : List (Vec3 ℝ) :=
  let w := r 0 * 2
  let h := r 1 * 2
  let xs := Num.linspace (-(w / 2) * (16 / 10)) ((w / 2) * (16 / 10)) nx
  let ys := Num.linspace (-(h / 2) * (16 / 10)) ((h / 2) * (16 / 10)) ny
  let zs := Num.linspace (r 2) (r 2 * (15 / 10)) nz
  xs.flatMap fun x => ys.flatMap fun y => zs.map fun z => ![x, y, z] + lookCentre r

/-- `calib_nbv_poses` for one camera, calib_nbv.cpp:179-239. -/
noncomputable def nbvPoses (tg : Target) (cam : Camera) (poses : List (Mat4 ℝ)) (nx ny nz : ℤ) :
    Except Fault (ℤ × List (Mat4 ℝ)) :=
  targetOrigin tg cam (8 / 10) >>= fun o =>
    if o.1 ≠ 0 then .ok (-1, poses) else
      let r := tfTrans o.2
      (nbvPositions r nx ny nz).mapM (fun p => look p (lookCentre r)) >>= fun ps => .ok (0, ps)

/-- Loop of `calib_nbv_poses` over the cameras, calib_nbv.cpp:249-277.  `cams` lists the cameras in
the order of the map; `exts` are the extrinsics `T_C0Ci`.  An entry of the result is created by
the first pose pushed. -/
noncomputable def nbvPosesAll (tg : Target) (exts : List (ℤ × Mat4 ℝ)) (nx ny nz : ℤ) :
    List (ℤ × Camera) → List (ℤ × List (Mat4 ℝ)) → Except Fault (ℤ × List (ℤ × List (Mat4 ℝ)))
  | [], out => .ok (0, out)
  | (i, cam) :: cams, out =>
    match SMap.find i exts with
    | none => .error .exn
    | some T_C0Ci => inverse T_C0Ci >>= fun T_CiC0 =>
        nbvPoses tg cam [] nx ny nz >>= fun r =>
          if r.1 ≠ 0 then .ok (-1, out) else
            let out := if r.2.isEmpty then out else SMap.set i (r.2.map fun T => T * T_CiC0) out
            nbvPosesAll tg exts nx ny nz cams out

/-- `shannon_entropy`, calib_nbv.cpp:5-9. -/
noncomputable def shannonEntropy {n : Nat} (covar : Matrix (Fin n) (Fin n) ℝ) : ℝ :=
  (1 / 2) * Real.log ((2 * Real.pi * Real.exp 1) ^ n * covar.det)

/-- The points returned by `nbv_draw`, calib_nbv.cpp:310-368 (`none`: not written by `project`). -/
noncomputable def draw (tg : Target) (cam : Camera) (T_FC : Mat4 ℝ) : Except Fault (List (Option Vec2)) :=
  inverse T_FC >>= fun T_CF =>
    .ok ([![0, 0, 0], ![tg.width, 0, 0], ![tg.width, tg.height, 0], ![0, tg.height, 0]].map
      fun p => (cam.project (tfPoint T_CF p)).zhat)

end Yac.Nbv
