import Verif.Calib.LoopModel
import Verif.Data.PreModel

/-!
# Model of `calib_camera_t::load_data`

yac/lib/calib_camera.cpp:1854-1935.  The data set on disk is the list of files `list_files` reports
for the directory of every camera (fs.cpp:208-223: ascending by name, nothing for a directory that
does not exist; file names are not empty) and the text of `camera_poses.csv`, if there is one.
-/

namespace Yac.Calib

open Yac.AprilGrid (Grid)
open Yac.Data (File isTs tsOf loadFile)
open Yac.Geom Yac.Text

variable {K V : Type} [Field K] [LinearOrder K]

/-- The files below `data_path`. -/
structure DataSet (K : Type) where
  /-- The files of `grid0/cam<i>`, in the order of their names. -/
  grids : Int → List (List Char × File K)
  /-- The text of `camera_poses.csv`; `none`: there is no such file. -/
  poses : Option (List Char)

/-- The constructor of a grid from a file, aprilgrid.cpp:5-12. -/
def fileGrid (v2 : Bool) (f : File K) : Except Fault (Grid K) :=
  loadFile v2 f >>= fun g => .ok { g with init := true }

/-- One file of the first loop of `_load_views`, calib_camera.cpp:1862-1871. -/
def noteFile (cam : Int) (m : List (Int × List (Int × File K))) (nf : List Char × File K) :
    List (Int × List (Int × File K)) :=
  if isTs nf.1 then SMap.set (tsOf nf.1) (SMap.set cam nf.2 ((SMap.find (tsOf nf.1) m).getD [])) m
  else m

/-- `grid_data`, calib_camera.cpp:1856-1872. -/
def gridData (d : DataSet K) (cams : List Int) : List (Int × List (Int × File K)) :=
  cams.foldl (fun m cam => (d.grids cam).foldl (noteFile cam) m) []

/-- One camera of the second loop of `_load_views`, calib_camera.cpp:1877-1883.  Accumulator: the
calibrator and `view_data`. -/
def loadCam (v2 : Bool) (ts : Int) (a : Cal K V × List (Int × Grid K)) (cf : Int × File K) :
    Except Fault (Cal K V × List (Int × Grid K)) :=
  fileGrid v2 cf.2 >>= fun g =>
    .ok ({ a.1 with timestamps := setInsert ts a.1.timestamps,
                    data := SMap.set ts (SMap.set cf.1 g ((SMap.find ts a.1.data).getD [])) a.1.data },
      SMap.set cf.1 g a.2)

/-- One timestamp of the second loop of `_load_views`, calib_camera.cpp:1875-1886. -/
def loadFrame (env : Env K V) (v2 : Bool) (s : Cal K V) (e : Int × List (Int × File K)) :
    Except Fault (Cal K V) :=
  e.2.foldlM (loadCam v2 e.1) (s, []) >>= fun a => addView env a.1 a.2 >>= fun r => .ok r.1

/-- `_load_views`, calib_camera.cpp:1854-1887. -/
def loadViews (env : Env K V) (v2 : Bool) (d : DataSet K) (s : Cal K V) : Except Fault (Cal K V) :=
  (gridData d (camIdxs s)).foldlM (loadFrame env v2) s

/-- `poses[ts]->set_trans(r); poses[ts]->set_rot(q)`, calib_camera.cpp:1922-1927; `mk` makes the
parameter vector of position and quaternion. -/
def setPose (mk : Vec3 ℚ → Quat ℚ → V) (s : Cal K V) (t : Int) (r : Vec3 ℚ) (q : Quat ℚ) : Cal K V :=
  match SMap.find t s.poses with
  | none => s
  | some p => { s with poses := SMap.set t ⟨p.id, mk r q⟩ s.poses }

/-- The rows of `camera_poses.csv`, calib_camera.cpp:1912-1928: a row that does not parse ends the
loop. -/
def poseRows (mk : Vec3 ℚ → Quat ℚ → V) : Nat → List Char → Cal K V → Cal K V
  | 0, _, s => s
  | n + 1, l, s =>
    match scanf poseFmt l with
    | ([.int t, .real x, .real y, .real z, .real qx, .real qy, .real qz, .real qw], rest) =>
      poseRows mk n rest (setPose mk s t ![x, y, z] ⟨qw, qx, qy, qz⟩)
    | _ => s

/-- `_load_camera_poses`, calib_camera.cpp:1889-1930. -/
def loadCameraPoses (mk : Vec3 ℚ → Quat ℚ → V) (d : DataSet K) (s : Cal K V) : Except Fault (Cal K V) :=
  match d.poses with
  | none => .ok s
  | some file =>
    match (getLines file).length with
    | 0 => .ok s
    | n + 1 => skipLine file >>= fun l => .ok (poseRows mk n l s)

/-- `load_data`, calib_camera.cpp:1932-1935. -/
def loadData (env : Env K V) (mk : Vec3 ℚ → Quat ℚ → V) (v2 : Bool) (d : DataSet K) (s : Cal K V) :
    Except Fault (Cal K V) :=
  loadViews env v2 d s >>= loadCameraPoses mk d

end Yac.Calib
