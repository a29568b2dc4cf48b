import Verif.VI.Model
import Verif.Num.Model
import Mathlib.Data.Real.Basic

/-!
# Model of the queries and of `solve()` of `calib_vi_t` (yac/lib/calib_vi.cpp)

`res f` is what `fiducial_residual_t::get_residual` (calib_residuals.cpp:571-594) leaves in `r`
for the present parameter values; when the projection fails it is whatever the camera model
wrote, and the code goes on with it.  `ev r` is what `calib_residual_t::eval_residuals`
(calib_residuals.cpp:88-133) leaves in `residuals`; `none` is a failed evaluation.  Numbers are
reals; a NaN standard deviation is `none`, and comparing with it is false.

The ids in `fiducial_residual_ids` are those `AddResidualBlock` returned for the residuals of
`fiducial_residuals`; here the id of a residual is looked up in the problem.
-/

namespace Yac.VI

open Yac.AprilGrid (Grid)
open Yac.Solver (Problem insSet)

variable {K D : Type} [DecidableEq K]

/-! ### Reprojection errors -/

/-- `fiducial_residual_t::get_reproj_error`, calib_residuals.cpp:596-604. -/
noncomputable def reprojError (res : Fid K → ℝ × ℝ) (f : Fid K) : ℝ :=
  Real.sqrt ((res f).1 ^ 2 + (res f).2 ^ 2)

/-- `calib_vi_view_t::get_reproj_errors(cam_idx)`, calib_vi.cpp:106-124. -/
noncomputable def View.errors (res : Fid K → ℝ × ℝ) (v : View K) (cam : Int) : List ℝ :=
  (v.fids.filter (fun f => decide (f.cam = cam))).map (reprojError res)

/-- `calib_vi_t::get_reproj_errors`, calib_vi.cpp:582-590: by camera, in the order of the
views. -/
noncomputable def reprojErrors (res : Fid K → ℝ × ℝ) (s : St K D) : List (Int × List ℝ) :=
  if s.views = [] then []
  else s.cams.map (fun c => (c.1, s.views.flatMap (fun v => v.errors res c.1)))

/-! ### Outliers -/

/-- The threshold of `filter_view`, calib_vi.cpp:144-153. -/
noncomputable def threshold (res : Fid K → ℝ × ℝ) (factor : ℝ) (v : View K) : Option ℝ :=
  (Num.stddev (v.fids.map (reprojError res))).map (fun d => factor * d)

/-- `r.x() > threshold || r.y() > threshold`, calib_vi.cpp:174. -/
noncomputable def exceeds (t : Option ℝ) (r : ℝ × ℝ) : Bool :=
  match t with
  | none => false
  | some t => by classical exact decide (r.1 > t) || decide (r.2 > t)

/-- `problem->RemoveResidualBlock(fiducial_id)`, calib_vi.cpp:175. -/
def removeFid (p : Problem Par (Res K)) (f : Fid K) : Except Fault (Problem Par (Res K)) :=
  match p.rblocks.find? (fun b => decide (b.2 = .fid f)) with
  | none => .error .fatal
  | some b => removeResidual p b.1

/-- One camera of `filter_view`, calib_vi.cpp:157-186: problem, remaining residuals, number of
outliers. -/
noncomputable def filterCam (res : Fid K → ℝ × ℝ) (t : Option ℝ)
    (acc : Problem Par (Res K) × List (Fid K) × Nat) (cam : Int) :
    Except Fault (Problem Par (Res K) × List (Fid K) × Nat) :=
  let out := acc.2.1.filter (fun f => decide (f.cam = cam) && exceeds t (res f))
  out.foldlM removeFid acc.1 >>= fun p =>
  .ok (p, acc.2.1.filter (fun f => !(decide (f.cam = cam) && exceeds t (res f))),
    acc.2.2 + out.length)

/-- `filter_view`, calib_vi.cpp:143-189. -/
noncomputable def filterView (cams : List (Int × CamFlags)) (res : Fid K → ℝ × ℝ) (factor : ℝ)
    (p : Problem Par (Res K)) (v : View K) :
    Except Fault (Problem Par (Res K) × View K × Nat) :=
  (cams.map Prod.fst).foldlM (filterCam res (threshold res factor v)) (p, v.fids, 0) >>= fun o =>
  .ok (o.1, { v with fids := o.2.1 }, o.2.2)

/-- One iteration of the loop over the views in `solve`, calib_vi.cpp:1460-1463. -/
noncomputable def filterStep (cams : List (Int × CamFlags)) (res : Fid K → ℝ × ℝ) (factor : ℝ)
    (acc : Problem Par (Res K) × List (View K) × Nat) (v : View K) :
    Except Fault (Problem Par (Res K) × List (View K) × Nat) :=
  filterView cams res factor acc.1 v >>= fun o => .ok (o.1, acc.2.1 ++ [o.2.1], acc.2.2 + o.2.2)

/-- The outlier rejection of `solve`, calib_vi.cpp:1456-1464: the new state and the number it
reports. -/
noncomputable def filterViews (res : Fid K → ℝ × ℝ) (factor : ℝ) (s : St K D) :
    Except Fault (St K D × Nat) :=
  s.views.foldlM (filterStep s.cams res factor) (s.prob, [], 0) >>= fun o =>
  .ok ({ s with prob := o.1, views := o.2.1 }, o.2.2)

/-! ### `solve` -/

/-- A call of `ceres::Solve`: the parameter blocks held constant and the residuals of the
problem. -/
structure SolveCall (K : Type) where
  const : Par → Bool
  residuals : List (Res K)

/-- `SetParameterBlockConstant` and `SetParameterBlockVariable`. -/
def setConst (const : Par → Bool) (q : Par) (b : Bool) : Par → Bool :=
  fun x => if x = q then b else const x

/-- `solve`, calib_vi.cpp:1425-1479, without the printed output.  `const` is the set of constant
blocks of the problem before the call, `res` the residuals after the second call of the solver.
The result is the new state, the new set of constant blocks and the calls of the solver. -/
noncomputable def solve (rejection : Bool) (factor : ℝ) (res : Fid K → ℝ × ℝ)
    (const : Par → Bool) (s : St K D) :
    Except Fault (St K D × (Par → Bool) × List (SolveCall K)) :=
  let c1 := setConst const .delay true
  let k1 : SolveCall K := ⟨c1, s.prob.rblocks.map Prod.snd⟩
  let c2 := setConst c1 .delay false
  let k2 : SolveCall K := ⟨c2, s.prob.rblocks.map Prod.snd⟩
  if rejection then
    filterViews res factor s >>= fun o =>
    .ok (o.1, c2, [k1, k2, ⟨c2, o.1.prob.rblocks.map Prod.snd⟩])
  else .ok (s, c2, [k1, k2])

/-! ### `cost` -/

/-- The residuals of one view in `cost` and `eval_residuals`, calib_vi.cpp:1389-1405 and
1121-1138. -/
def View.evaluated (v : View K) : List (Res K) :=
  match v.imu with
  | none => []
  | some i => v.fids.map Res.fid ++ [.imu i]

/-- The set `res_fns`, calib_vi.cpp:1388-1409 and 1120-1142. -/
def evaluated (s : St K D) : List (Res K) :=
  (s.views.flatMap View.evaluated ++ (s.marg.map Prod.snd).toList).foldl
    (fun l r => insSet r l) []

/-- One iteration of `cost`, calib_vi.cpp:1412-1420. -/
noncomputable def costStep (ev : Res K → Option (List ℝ)) (c : ℝ) (r : Res K) : Except Fault ℝ :=
  match ev r with
  | none => .error .fatal
  | some x => .ok (c + 0.5 * (x.map (fun a => a * a)).sum)

/-- `cost`, calib_vi.cpp:1384-1423. -/
noncomputable def cost (ev : Res K → Option (List ℝ)) (s : St K D) : Except Fault ℝ :=
  (evaluated s).foldlM (costStep ev) 0

/-! ### Rates and poses -/

/-- The differences of consecutive timestamps in seconds, calib_vi.cpp:494-500 and 512-518. -/
def timeDiffs (fl : ℚ → ℚ) : List Int → List ℚ
  | a :: b :: l => Num.ts2sec fl (b - a) :: timeDiffs fl (b :: l)
  | _ => []

/-- `1.0 / median(time_diff)` after the check of the size; `none` is the infinity that the
division by zero gives. -/
def rate (fl : ℚ → ℚ) (ts : List Int) : Except Fault (Option ℚ) :=
  if ts.length < 2 then .error .fatal
  else Num.median (timeDiffs fl ts) >>= fun m =>
    .ok (if m = 0 then none else some (fl (1 / m)))

/-- `get_camera_rate`, calib_vi.cpp:488-504. -/
def cameraRate (fl : ℚ → ℚ) (s : St K D) : Except Fault (Option ℚ) := rate fl (s.views.map View.ts)

/-- `get_imu_rate`, calib_vi.cpp:506-522. -/
def imuRate (fl : ℚ → ℚ) (s : St K D) : Except Fault (Option ℚ) := rate fl s.imu.ts

/-- `get_imu_pose(ts)`, calib_vi.cpp:545-554: which view's pose. -/
def imuPose (s : St K D) (ts : Int) : Except Fault Par :=
  match s.views.find? (fun v => decide (v.ts = ts)) with
  | none => .error .fatal
  | some v => .ok (.pose v.num)

/-- `get_imu_pose()`, calib_vi.cpp:556-558. -/
def lastImuPose (s : St K D) : Except Fault Par :=
  match s.views.getLast? with
  | none => .error .oob
  | some v => .ok (.pose v.num)

/-- `get_pose_param(ts)`, calib_vi.cpp:560-569; `none` is a null pointer. -/
def poseParam (s : St K D) (ts : Int) : Option Par :=
  (s.views.find? (fun v => decide (v.ts = ts))).map (fun v => .pose v.num)

/-- `get_sb_param(ts)`, calib_vi.cpp:571-580. -/
def sbParam (s : St K D) (ts : Int) : Option Par :=
  (s.views.find? (fun v => decide (v.ts = ts))).map (fun v => .sb v.num)

end Yac.VI
