import Verif.Basic
import Mathlib.Data.List.Basic
import Mathlib.Data.List.Nodup

/-!
# Model of the cameras and the IMU of `calib_vi_t` before the first view

yac/lib/calib_vi.cpp.  The parameters are objects held by `std::shared_ptr`s in the maps and members of the calibrator; each gets
a number that is never used again.  The optimisation problem keeps raw pointers to them.  `V` is what a parameter object holds:
the vector, for intrinsics also resolution and model names.  As long as there is no view nothing else owns a parameter, so one
that is replaced is freed.
-/

namespace Yac.Rig

/-- The members that own a parameter: `cam_params[i]`, `cam_exts[i]`, `imu_exts`, `time_delay`, calib_vi.hpp. -/
inductive Slot where
  | intr (i : Int)
  | ext (i : Int)
  | imu
  | delay
  deriving DecidableEq

/-- The calibrator: who owns which parameter, the parameter blocks of the problem, and those set constant. -/
structure Rig (V : Type) where
  own : Slot → Option (Nat × V)
  next : Nat
  blocks : List Nat
  consts : List Nat

/-- A new calibrator, calib_vi.cpp:260-283. -/
def Rig.new {V : Type} : Rig V := ⟨fun _ => none, 0, [], []⟩

/-- One parameter: `make_shared` and assignment, `AddParameterBlock`, `SetParameterBlockConstant`; calib_vi.cpp:442-453,
467-473, 414-420, 423-428. -/
def register {V : Type} (m : Rig V) (s : Slot) (v : V) (known const : Bool) : Rig V :=
  { own := fun t => if t = s then some (m.next, v) else m.own t
    next := m.next + 1
    blocks := if known then m.next :: m.blocks else m.blocks
    consts := if const then m.next :: m.consts else m.consts }

/-- What is done with the calibrator. -/
inductive Op (V : Type) where
  /-- `add_imu` with the extrinsics and the time delay, and whether they are fixed. -/
  | imu (ext delay : V) (fixExt fixDelay : Bool)
  /-- `add_camera` with intrinsics and extrinsics, and whether they are fixed; `model`: the camera model is one that exists. -/
  | camera (i : Int) (model : Bool) (intr ext : V) (fixIntr fixExt : Bool)

/-- `add_imu`, calib_vi.cpp:399-429, and `add_camera`, calib_vi.cpp:431-474: intrinsics enter the problem only if they are
fixed (otherwise the first residual enters them). -/
def step {V : Type} (m : Rig V) : Op V → Except Fault (Rig V)
  | .imu e d fe fd => .ok (register (register m .imu e true fe) .delay d true fd)
  | .camera i ok v e fv fe =>
    let m1 := register m (.intr i) v fv fv
    if ok then .ok (register m1 (.ext i) e true fe) else .error .fatal

/-- A history. -/
def run {V : Type} (m : Rig V) : List (Op V) → Except Fault (Rig V)
  | [] => .ok m
  | o :: os => step m o >>= fun m => run m os

/-- `cam_params.at(i)`, `cam_exts.at(i)`: calib_vi.cpp:524-535 (`get_camera_resolution`, `get_camera_params`,
`get_camera_extrinsics`). -/
def camAt {V : Type} (m : Rig V) (s : Slot) : Except Fault V :=
  match m.own s with
  | some p => .ok p.2
  | none => .error .exn

/-- `imu_exts->tf()`, `time_delay->param[0]`, calib_vi.cpp:537-541: null pointers before `add_imu`. -/
def imuAt {V : Type} (m : Rig V) (s : Slot) : Except Fault V :=
  match m.own s with
  | some p => .ok p.2
  | none => .error .oob

/-- `get_camera_params`, calib_vi.cpp:529-531; the resolution (524-527) is part of the object. -/
def getParams {V : Type} (m : Rig V) (i : Int) : Except Fault V := camAt m (.intr i)
/-- `get_camera_extrinsics`, calib_vi.cpp:533-535. -/
def getExtrinsics {V : Type} (m : Rig V) (i : Int) : Except Fault V := camAt m (.ext i)
/-- `get_imu_extrinsics`, calib_vi.cpp:537. -/
def getImu {V : Type} (m : Rig V) : Except Fault V := imuAt m .imu
/-- `get_imucam_time_delay`, calib_vi.cpp:539-541. -/
def getDelay {V : Type} (m : Rig V) : Except Fault V := imuAt m .delay

end Yac.Rig
