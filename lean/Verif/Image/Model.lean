import Verif.VI.LoadLemmas
import Verif.AprilGrid.DetectProps
import Verif.Num.Model

/-!
# Model of the intake of camera images

`calib_vi_t::add_measurement(ts, cam_idx, image)`, yac/lib/calib_vi.cpp:811-868, and
`calib_camera_t::add_measurement`, yac/lib/calib_camera.cpp:926-968.  An image is a `Shot`: its
timestamp, size and what the tag detector and the corner refinement deliver for it.
-/

namespace Yac.Image

open Yac.AprilGrid (Grid Row Shot Tag Board detectAll detectThread readRow writeRow)
open Yac.VI (St VEnv)

/-- `img_buf[cam_idx] = {ts, image}`, calib_vi.cpp:822 and calib_camera.cpp:931. -/
def put (buf : List (Int × Shot)) (cam : Int) (sh : Shot) : List (Int × Shot) := SMap.set cam sh buf

/-- `ready`, calib_vi.cpp:825-831 and calib_camera.cpp:934-940. -/
def ready (ts : Int) (buf : List (Int × Shot)) : Bool := buf.all fun e => !decide (ts > e.2.ts)

/-- One row of the rescaling loop, calib_vi.cpp:855-858. -/
def rescaleAt (k : ℚ) (g : Grid ℚ) (i : Nat) : Except Fault (Grid ℚ) :=
  readRow g.data (i : Int) >>= fun r =>
    if r.flag > 0 then
      writeRow g.data (i : Int) { r with kx := r.kx / k, ky := r.ky / k } >>= fun d => .ok { g with data := d }
    else .ok g

/-- The rescaling loop for one grid, calib_vi.cpp:854-859. -/
def rescale (n : Nat) (k : ℚ) (g : Grid ℚ) : Except Fault (Grid ℚ) := (List.range n).foldlM (rescaleAt k) g

/-- The rescaling of all grids, calib_vi.cpp:853-860. -/
def rescaleAll (n : Nat) (k : ℚ) (buf : List (Int × Grid ℚ)) : Except Fault (List (Int × Grid ℚ)) :=
  buf.mapM fun e => rescale n k e.2 >>= fun g => .ok (e.1, g)

/-- The settings and what is not modelled: `std::sort` of the tags by id, and the image `cv::resize` produces (with
what is detected in it). -/
structure Cfg where
  board : Board
  scale : ℚ
  srt : List Tag → List Tag
  resize : ℚ → Shot → Shot

/-- The grids found in the buffered images, calib_vi.cpp:838-864.  `cv::resize` throws for a factor that is not
positive; it is only called for a buffered image, and the buffer is never empty here. -/
def detectBuf (c : Cfg) (buf : List (Int × Shot)) : Except Fault (List (Int × Grid ℚ)) :=
  if Num.fltcmp c.scale 1 ≠ 0 then
    if c.scale ≤ 0 then .error .exn
    else detectAll c.board c.srt (buf.map fun e => (e.1, { c.resize c.scale e.2 with ts := e.2.ts })) >>=
      rescaleAll (c.board.rows * c.board.cols * 4) c.scale
  else detectAll c.board c.srt buf

/-- `calib_vi_t` with its image buffer. -/
structure VSt (D : Type) where
  base : St ℚ D
  imgBuf : List (Int × Shot)

variable {D : Type}

/-- `calib_vi_t::add_measurement(ts, cam_idx, image)`, calib_vi.cpp:811-868. -/
def addImage (c : Cfg) (s : VSt D) (cam : Int) (sh : Shot) : Except Fault (VSt D × Bool) :=
  if s.base.imuStarted = false then .ok (s, false)
  else if ready sh.ts (put s.imgBuf cam sh) = false then .ok ({ s with imgBuf := put s.imgBuf cam sh }, false)
  else detectBuf c (put s.imgBuf cam sh) >>= fun gs =>
    .ok (⟨{ s.base with gridBuf := gs }, put s.imgBuf cam sh⟩, true)

/-- A call on `calib_vi_t`: an image, a grid, an IMU sample, or `reset`. -/
inductive Call (D : Type) where
  | image (cam : Int) (sh : Shot)
  | grid (cam : Int) (g : Grid ℚ)
  | imu (ts : Int) (a w : D)
  | reset

/-- One call.  `reset` leaves the image buffer, calib_vi.cpp:1100-1114. -/
def step (env : VEnv ℚ D) (c : Cfg) (s : VSt D) : Call D → Except Fault (VSt D)
  | .image cam sh => addImage c s cam sh >>= fun r => .ok r.1
  | .grid cam g => .ok { s with base := VI.addGrid s.base cam g }
  | .imu ts a w => VI.addImu env s.base ts a w >>= fun r => .ok { s with base := r.1 }
  | .reset => .ok { s with base := VI.reset s.base }

/-- A sequence of calls. -/
def run (env : VEnv ℚ D) (c : Cfg) (s : VSt D) (h : List (Call D)) : Except Fault (VSt D) := h.foldlM (step env c) s

/-! ### `calib_camera_t` -/

/-- The two buffers of `calib_camera_t`, calib_camera.hpp:134-135. -/
structure CSt where
  imgBuf : List (Int × Shot)
  gridBuf : List (Int × Grid ℚ)

/-- `grid_buf[cam_idx]` for every image when the images are shown, calib_camera.cpp:950-953: `operator[]` inserts a
default grid. -/
def touch (buf : List (Int × Shot)) (gs : List (Int × Grid ℚ)) : List (Int × Grid ℚ) :=
  buf.foldl (fun gs e => match SMap.find e.1 gs with
    | some _ => gs
    | none => SMap.set e.1 AprilGrid.default gs) gs

/-- `calib_camera_t::add_measurement`, calib_camera.cpp:926-968.  The drawing is not modelled. -/
def addCamImage (b : Board) (srt : List Tag → List Tag) (s : CSt) (cam : Int) (sh : Shot) (imshow : Bool) :
    Except Fault (CSt × Bool) :=
  if ready sh.ts (put s.imgBuf cam sh) = false then .ok ({ s with imgBuf := put s.imgBuf cam sh }, false)
  else detectAll b srt (put s.imgBuf cam sh) >>= fun gs =>
    .ok (⟨put s.imgBuf cam sh, if imshow then touch (put s.imgBuf cam sh) gs else gs⟩, true)

/-- A sequence of images. -/
def runCam (b : Board) (srt : List Tag → List Tag) (s : CSt) (h : List (Int × Shot × Bool)) : Except Fault CSt :=
  h.foldlM (fun s e => addCamImage b srt s e.1 e.2.1 e.2.2 >>= fun r => .ok r.1) s

end Yac.Image
