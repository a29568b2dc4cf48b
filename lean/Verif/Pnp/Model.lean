import Verif.AprilGrid.Model
import Verif.Cam.Model
import Verif.Ctraj.Spec

/-!
# The pose of the target from one image

`solvepnp`, yac/lib/util/cv.cpp:1105-1159, and `aprilgrid_t::estimate`, yac/lib/util/aprilgrid.cpp:255-277.
Numbers are exact reals (the code hands OpenCV single-precision points).  OpenCV's `solvePnP` is a
parameter; its `Rodrigues` is the rotation about a vector by its length.
-/

namespace Yac.Pnp
open Yac.Geom Yac.Cam Yac.AprilGrid Yac.Ctraj

/-- `cv::solvePnP` from four points on: target points, pixels (`none`: not a number), camera matrix; `none` if it
returns false and leaves the two vectors as they were. -/
structure Cv where
  pnp : List (Vec3 ℝ) → List (Option Vec2) → Mat3 ℝ → Option (Vec3 ℝ × Vec3 ℝ)

/-- The two camera geometries, cv.hpp. -/
inductive Kind where
  | radtan
  | equi

/-- `cam->undistort`. -/
noncomputable def undistort : Kind → Params → Vec2 → Option Vec2
  | .radtan => radtanUndistort
  | .equi => equiUndistort

/-- The test of a keypoint, cv.cpp:1124-1127. -/
def valid (res : Fin 2 → ℤ) (z : ℝ × ℝ) : Prop := (z.1 ≥ 0 ∧ z.1 ≤ res 0) ∧ z.2 ≥ 0 ∧ z.2 ≤ res 1

/-- One keypoint of the loop, cv.cpp:1123-1139. -/
noncomputable def push (kind : Kind) (res : Fin 2 → ℤ) (k : Params) (acc : List (Option Vec2) × List (Vec3 ℝ))
    (e : (ℝ × ℝ) × (ℝ × ℝ × ℝ)) : List (Option Vec2) × List (Vec3 ℝ) :=
  open Classical in
  if valid res e.1 then
    (acc.1 ++ [undistort kind k ![e.1.1, e.1.2]], acc.2 ++ [![e.2.1, e.2.2.1, e.2.2.2]])
  else acc

/-- `solvepnp`, cv.cpp:1105-1159: the returned number and the pose written (`none`: made of vectors that were never
written).  OpenCV throws when it is given fewer than four points. -/
noncomputable def solvepnp (cv : Cv) (kind : Kind) (res : Fin 2 → ℤ) (k : Params) (keypoints : List (ℝ × ℝ))
    (objects : List (ℝ × ℝ × ℝ)) : Except Fault (ℤ × Option (Mat4 ℝ)) :=
  if keypoints.length ≠ objects.length then .error .fatal
  else
    let pts := (keypoints.zip objects).foldl (push kind res k) ([], [])
    if pts.1.length < 4 then .error .exn
    else
      match cv.pnp pts.2 pts.1 (pinholeK (k 0) (k 1) (k 2) (k 3)) with
      | none => .ok (0, none)
      | some (rvec, tvec) => .ok (0, some (tf (expRot rvec) tvec))

/-- `aprilgrid_t::estimate`, aprilgrid.cpp:255-277; `T` is what the caller's matrix held before. -/
noncomputable def estimate (cv : Cv) (kind : Kind) (res : Fin 2 → ℤ) (k : Params) (g : Grid ℝ) (T : Option (Mat4 ℝ)) :
    Except Fault (ℤ × Option (Mat4 ℝ)) :=
  if g.init = false then .error .fatal
  else if g.nbDetections = 0 then .ok (-1, T)
  else do
    let pts ← forRows g.data (g.tagRows * g.tagCols * 4) (([], []) : List (ℝ × ℝ) × List (ℝ × ℝ × ℝ))
      (fun acc _ r => if r.flag > 0 then (acc.1 ++ [(r.kx, r.ky)], acc.2 ++ [(r.px, r.py, r.pz)]) else acc)
    solvepnp cv kind res k pts.1 pts.2

end Yac.Pnp
