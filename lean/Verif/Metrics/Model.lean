import Verif.Residual.Model
import Verif.Num.Model
import Verif.Containers.SMap

/-!
# Model of the reprojection error queries and of the printed metrics

yac/lib/calib_residuals.cpp, calib_camera.cpp, calib_vi.cpp, calib_mocap.cpp.  Exact real
arithmetic.  A residual function is an element of `R`; `out f` is what its `get_residual` returns
and what it leaves in `r` (`none`: `r` holds a value that was never written).  Reading such a
value is the fault `uninit`.  A `std::map<int, ...>` is a list of pairs in the order of the keys.
-/

namespace Yac.Metrics
open Matrix Yac.Geom Yac.Cam Yac.Residual

/-- Return code and residual of `get_residual`. -/
abbrev Out := ℤ × Option Vec2

/-! ## `get_residual` and `get_reproj_error` -/

/-- What a reprojection residual of the camera calibration holds. -/
structure Corner where
  geom : CamGeom
  res : Fin 2 → ℤ
  z : Vec2
  p : Vec3 ℝ
  ext : Fin 7 → ℝ
  pose : Fin 7 → ℝ
  k : Params

/-- `reproj_residual_t::get_residual(vec2_t &)`, calib_residuals.cpp:411-421: forwards to the
two-argument form. -/
noncomputable def Corner.out (c : Corner) : Out :=
  reprojResidual c.geom c.res c.z c.p c.ext c.pose c.k

/-- What a fiducial residual of the visual-inertial calibration holds. -/
structure FidCorner where
  geom : CamGeom
  res : Fin 2 → ℤ
  z : Vec2
  p : Vec3 ℝ
  T_WF : Mat4 ℝ
  rp : Fin 2 → ℝ
  pose : Fin 7 → ℝ
  imuExt : Fin 7 → ℝ
  camExt : Fin 7 → ℝ
  k : Params

/-- `fiducial_residual_t::get_residual`, calib_residuals.cpp:571-594 (FIDUCIAL_PARAMS_SIZE = 2;
`fiducial_t::estimate`, calib_params.cpp:207-214, is `fiducialTf`): the residual is written
whether the projection succeeds or not. -/
noncomputable def FidCorner.out (c : FidCorner) : Out :=
  let T_CiB := tfInv (tfParams c.camExt)
  let T_SW := tfInv (tfParams c.pose)
  let pc := tfPoint (T_CiB * tfParams c.imuExt * T_SW * fiducialTf c.T_WF c.rp) c.p
  let pr := c.geom.project c.res c.k pc
  if pr.code ≠ 0 then (-1, pr.zhat.map fun zh => c.z - zh)
  else (0, pr.zhat.map fun zh => c.z - zh)

/-- What a residual of the motion capture calibration holds. -/
structure MocapCorner where
  geom : CamGeom
  res : Fin 2 → ℤ
  z : Vec2
  p : Vec3 ℝ
  fid : Fin 7 → ℝ
  pose : Fin 7 → ℝ
  ext : Fin 7 → ℝ
  k : Params

/-- `mocap_residual_t::get_residual`, calib_residuals.cpp:867-887. -/
noncomputable def MocapCorner.out (c : MocapCorner) : Out :=
  let T_MW := (tfParams c.pose)⁻¹
  let T_C0M := (tfParams c.ext)⁻¹
  let pc := tfPoint (T_C0M * T_MW * tfParams c.fid) c.p
  let pr := c.geom.project c.res c.k pc
  if pr.code ≠ 0 then (-1, pr.zhat.map fun zh => c.z - zh)
  else (0, pr.zhat.map fun zh => c.z - zh)

/-- Reading the residual a `get_residual` call wrote. -/
def readR (r : Option Vec2) : Except Fault Vec2 :=
  match r with
  | some r => .ok r
  | none => .error .uninit

/-- `get_reproj_error` followed by the caller's test of the return code, calib_residuals.cpp:
423-430, 596-604, 889-897: the error when the code is zero. -/
noncomputable def ifValid (o : Out) : Except Fault (Option ℝ) :=
  if o.1 = 0 then (readR o.2).map (fun r => some (norm2 r)) else .ok none

/-- `get_reproj_error` with the return code ignored, calib_residuals.cpp:596-604. -/
noncomputable def always (o : Out) : Except Fault ℝ := (readR o.2).map norm2

/-! ## Camera calibration -/

section camera
variable {R : Type}

/-- One residual of the loops of `get_reproj_errors`, calib_camera.cpp:263-267 and 281-284. -/
noncomputable def pushValid (out : R → Out) (acc : List ℝ) (f : R) : Except Fault (List ℝ) :=
  (ifValid (out f)).map fun e =>
    match e with
    | some e => acc ++ [e]
    | none => acc

/-- `calib_view_t::get_reproj_errors()`, calib_camera.cpp:258-271. -/
noncomputable def viewErrors (out : R → Out) (v : List (Int × List R)) : Except Fault (List ℝ) :=
  v.foldlM (fun acc cr => cr.2.foldlM (pushValid out) acc) []

/-- `calib_view_t::get_reproj_errors(cam_idx)`, calib_camera.cpp:273-290. -/
noncomputable def viewErrorsOf (out : R → Out) (v : List (Int × List R)) (cam : Int) :
    Except Fault (List ℝ) :=
  v.foldlM (fun acc cr => if cr.1 ≠ cam then .ok acc else cr.2.foldlM (pushValid out) acc) []

/-- `calib_camera_t::get_all_reproj_errors`, calib_camera.cpp:752-758. -/
noncomputable def allErrors (out : R → Out) (views : List (Int × List (Int × List R))) :
    Except Fault (List ℝ) :=
  views.foldlM (fun acc v => (viewErrors out v.2).map (fun e => acc ++ e)) []

/-- `reproj_errors[cam_idx].push_back(error)`, calib_camera.cpp:766. -/
def push {E : Type} (m : List (Int × List E)) (cam : Int) (e : E) : List (Int × List E) :=
  SMap.set cam ((SMap.find cam m).getD [] ++ [e]) m

/-- The body of the loop over the cameras, calib_camera.cpp:764-768. -/
noncomputable def addCam (out : R → Out) (v : List (Int × List R)) (m : List (Int × List ℝ))
    (cam : Int) : Except Fault (List (Int × List ℝ)) :=
  (viewErrorsOf out v cam).map (fun es => es.foldl (fun m e => push m cam e) m)

/-- `calib_camera_t::get_reproj_errors`, calib_camera.cpp:760-772; `cams` are the indices of the
cameras of the calibration (calib_camera.cpp:217-223). -/
noncomputable def camErrors (out : R → Out) (cams : List Int)
    (views : List (Int × List (Int × List R))) : Except Fault (List (Int × List ℝ)) :=
  views.foldlM (fun m v => cams.foldlM (addCam out v.2) m) []

end camera

/-! ## Metrics -/

/-- The printed block of one list of errors; `none` is NaN. -/
structure Row where
  nbCorners : Nat
  rmse : Option ℝ
  mean : Option ℝ
  median : ℝ
  stddev : Option ℝ

/-- The four statistics of a list, calib_camera.cpp:2019-2022 and 2030-2033, calib_vi.cpp:
1525-1528 and 1535-1538. -/
noncomputable def row (n : Nat) (e : List ℝ) : Except Fault Row :=
  (Num.median e).map fun m => ⟨n, Num.rmse e, Num.mean e, m, Num.stddev e⟩

/-- The printed report: number of views, total block, one block per camera. -/
structure Report where
  nbViews : Nat
  total : Row
  cams : List (Int × Row)

/-- One camera of the report, calib_camera.cpp:2026-2035. -/
noncomputable def camRow (ce : Int × List ℝ) : Except Fault (Int × Row) :=
  (row ce.2.length ce.2).map fun r => (ce.1, r)

/-- `calib_camera_t::print_metrics`, calib_camera.cpp:2005-2037: the numbers before formatting. -/
noncomputable def printMetrics (nbViews : Nat) (errs : List (Int × List ℝ)) (all : List ℝ) :
    Except Fault Report :=
  (row (errs.foldl (fun n ce => n + ce.2.length) 0) all).bind fun t =>
    (errs.mapM camRow).map fun cs => ⟨nbViews, t, cs⟩

/-- The report of the camera calibration, calib_camera.cpp:2280-2286 (`show_results`) and
2300-2304 (`save_results`). -/
noncomputable def report {R : Type} (out : R → Out) (cams : List Int)
    (views : List (Int × List (Int × List R))) : Except Fault Report :=
  (camErrors out cams views).bind fun errs =>
    (allErrors out views).bind fun all => printMetrics views.length errs all

/-! ## Visual-inertial calibration -/

section vi
variable {R : Type}

/-- `calib_vi_view_t::get_reproj_errors(cam_idx)`, calib_vi.cpp:106-124: the return code is
ignored. -/
noncomputable def viViewErrors (out : R → Out) (v : List (Int × List R)) (cam : Int) :
    Except Fault (List ℝ) :=
  match SMap.find cam v with
  | none => .ok []
  | some fs => fs.mapM (fun f => always (out f))

/-- `extend(errors[cam_idx], ...)`, calib_vi.cpp:585-587. -/
noncomputable def viAddCam (out : R → Out) (v : List (Int × List R)) (m : List (Int × List ℝ))
    (cam : Int) : Except Fault (List (Int × List ℝ)) :=
  (viViewErrors out v cam).map fun es => SMap.set cam ((SMap.find cam m).getD [] ++ es) m

/-- `calib_vi_t::get_reproj_errors`, calib_vi.cpp:582-590. -/
noncomputable def viErrors (out : R → Out) (cams : List Int) (views : List (List (Int × List R))) :
    Except Fault (List (Int × List ℝ)) :=
  views.foldlM (fun m v => cams.foldlM (viAddCam out v) m) []

/-- `calib_vi_t::print_stats`, calib_vi.cpp:1513-1541. -/
noncomputable def viReport (out : R → Out) (cams : List Int)
    (views : List (List (Int × List R))) : Except Fault Report :=
  (viErrors out cams views).bind fun errs =>
    let all := errs.foldl (fun a ce => a ++ ce.2) []
    (row all.length all).bind fun t =>
      (errs.mapM camRow).map fun cs => ⟨views.length, t, cs⟩

end vi

/-! ## Motion capture calibration -/

/-- `mocap_view_t::get_reproj_errors` and `calib_mocap_t::get_reproj_errors`, calib_mocap.cpp:
70-81 and 292-300. -/
noncomputable def mocapErrors {R : Type} (out : R → Out) (views : List (Int × List R)) :
    Except Fault (List ℝ) :=
  views.foldlM (fun acc v => (v.2.foldlM (pushValid out) []).map
    (fun es => es.foldl (fun a e => a ++ [e]) acc)) []

end Yac.Metrics
