import Verif.Setup.FocalModel
import Verif.Calib.CameraModel
import Verif.Cam.Model

/-!
# Model of `add_camera_data` and `add_camera` with their initial intrinsics
(yac/lib/calib_camera.cpp:793-924, calib_params.cpp:408-464)

Exact real arithmetic.  A parameter vector is a list.
-/

namespace Yac.Setup
open Yac.AprilGrid (Grid fullyObservable)
open Yac.Calib

/-- What the calls below read or write of `calib_camera_t`: the state of `Verif.Calib`, and
`focal_length_init`. -/
structure Rig where
  cal : Cal ℝ (List ℝ)
  focal : List (Int × ℝ)

/-- Solver of the linear system in `fit_circle`. -/
abbrev LinSolver := List ((Fin 3 → ℝ) × ℝ) → Fin 3 → ℝ

/-- The focal length of a grid, calib_camera.cpp:802-807. -/
noncomputable def gridFocal (solve : LinSolver) (init : Bool) (g : Grid ℝ) : Except Fault (Option ℝ) :=
  if init && g.detected then
    fullyObservable g >>= fun b => if b then focalInit solve g 0 else .ok none
  else .ok none

/-- `param[0] = f; param[1] = f`, calib_camera.cpp:812-813. -/
def writeFocal (f : ℝ) : List ℝ → Except Fault (List ℝ)
  | _ :: _ :: rest => .ok (f :: f :: rest)
  | _ => .error .oob

/-- The tail of `add_camera_data`, calib_camera.cpp:809-815. -/
noncomputable def storeFocal (s : Rig) (cam : Int) (fs : List ℝ) : Except Fault Rig :=
  if fs.length > 3 then
    Num.median fs >>= fun f =>
    match SMap.find cam s.cal.params with
    | none => .ok { s with focal := SMap.set cam f s.focal }
    | some p =>
      writeFocal f p.val >>= fun v =>
      .ok { s with focal := SMap.set cam f s.focal,
                   cal := { s.cal with params := SMap.set cam ⟨v, p.fixed⟩ s.cal.params } }
  else .ok s

/-- `add_camera_data(cam_idx, grids, init_intrinsics)`, calib_camera.cpp:793-816. -/
noncomputable def addData (solve : LinSolver) (s : Rig) (cam : Int) (grids : List (Grid ℝ)) (init : Bool) :
    Except Fault Rig :=
  grids.mapM (gridFocal solve init) >>= fun fs =>
    storeFocal { s with cal := addCameraData s.cal cam grids } cam (fs.filterMap id)

/-- `add_camera_data(grids, init_intrinsics)` for several cameras, calib_camera.cpp:818-837. -/
noncomputable def addDataAll (solve : LinSolver) (s : Rig) (grids : List (Int × List (Grid ℝ))) (init : Bool) :
    Except Fault Rig :=
  grids.foldlM (fun s cg => addData solve s cg.1 cg.2 init) s

/-- `add_camera` with intrinsics, calib_camera.cpp:846-880. -/
def addCam (s : Rig) (i : Int) (projModel distModel : String) (proj dist ext : List ℝ) (fixI fixE : Bool) :
    Except Fault Rig :=
  if projModel = "pinhole" ∧ (distModel = "radtan4" ∨ distModel = "equi4") then
    Calib.addCamera s.cal i (proj ++ dist) ext fixI fixE >>= fun c => .ok { s with cal := c }
  else .error .fatal

/-- `add_camera` without intrinsics, calib_camera.cpp:882-924. -/
noncomputable def addCamDefault (s : Rig) (i : Int) (w h : ℤ) (projModel distModel : String) (ext : List ℝ)
    (fixI fixE : Bool) : Except Fault Rig :=
  if projModel = "pinhole" then
    let f := match SMap.find i s.focal with
      | some f => f
      | none => Cam.pinholeFocal w 120
    if distModel = "radtan4" ∨ distModel = "equi4" then
      addCam s i projModel distModel [f, f, ((w : ℝ) - 1) / 2, ((h : ℝ) - 1) / 2] [0, 0, 0, 0] ext fixI
        (decide (i = 0) || fixE)
    else .error .fatal
  else .error .fatal

/-- `camera_params_t::init`, calib_params.cpp:431-464: the parameter vector. -/
noncomputable def paramsInit (w h : ℤ) (projModel distModel : String) : Except Fault (List ℝ) :=
  if projModel = "pinhole" then
    if distModel = "radtan4" ∨ distModel = "equi4" then
      .ok ([Cam.pinholeFocal w 90, Cam.pinholeFocal w 90, (w : ℝ) / 2, (h : ℝ) / 2] ++ [0, 0, 0, 0])
    else .error .fatal
  else .error .fatal

/-- `proj_params` and `dist_params`, calib_params.cpp:427-429, for `proj_size` and `dist_size`. -/
def projParams (projSize : Nat) (param : List ℝ) : List ℝ := param.take projSize
def distParams (distSize : Nat) (param : List ℝ) : List ℝ := param.drop (param.length - distSize)

end Yac.Setup
