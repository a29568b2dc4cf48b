import Verif.Calib.CameraModel

/-! What the camera calibrator gives back: `get_camera_data`, `get_last_view` and the getters of a camera,
yac/lib/calib_camera.cpp:703-750 and 788-791. -/

namespace Yac.Calib
open Yac.AprilGrid (Grid)

variable {K V : Type}

/-- One timestamp of the loop of `get_camera_data`, calib_camera.cpp:709-717. -/
def dataAt (s : Cal K V) (cam : Int) (acc : List (Grid K)) (ts : Int) : List (Grid K) :=
  match SMap.find ts s.data with
  | none => acc
  | some frame =>
    match SMap.find cam frame with
    | none => acc
    | some g => acc ++ [g]

/-- `get_camera_data`, calib_camera.cpp:707-719. -/
def getCameraData (s : Cal K V) (cam : Int) : List (Grid K) := s.timestamps.foldl (dataAt s cam) []

/-- `get_last_view`, calib_camera.cpp:788-791: the last element of an empty vector is undefined; the subscript adds a null
pointer for a timestamp without a view. -/
def getLastView (s : Cal K V) : Except Fault (Option (View K)) :=
  match s.viewTs.getLast? with
  | none => .error .oob
  | some ts => .ok (SMap.find ts s.views)

/-- `get_camera_params`, calib_camera.cpp:729-731. -/
def getCameraParams (s : Cal K V) (cam : Int) : Except Fault V :=
  match SMap.find cam s.params with
  | none => .error .exn
  | some p => .ok p.val

/-- `get_camera_extrinsics`, calib_camera.cpp:748-750. -/
def getCameraExtrinsics (s : Cal K V) (cam : Int) : Except Fault V :=
  match SMap.find cam s.exts with
  | none => .error .exn
  | some p => .ok p.val

end Yac.Calib
