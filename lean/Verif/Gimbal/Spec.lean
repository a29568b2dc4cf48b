import Verif.Gimbal.Model
import Mathlib.Algebra.Quaternion

/-! What the gimbal program is meant to compute, without matrices. -/

namespace Yac.Gimbal
open Yac.Geom

/-- `v` turned by the quaternion `q = w + x i + y j + z k`: the vector part of `q v q*`. -/
noncomputable def spin (w x y z : ℝ) (v : Vec3 ℝ) : Vec3 ℝ :=
  let q : Quaternion ℝ := ⟨w, x, y, z⟩
  let u := q * ⟨0, v 0, v 1, v 2⟩ * star q
  ![u.imI, u.imJ, u.imK]

/-- The point `x` of a frame with pose `(rx, ry, rz, qw, qx, qy, qz)`, in the parent frame. -/
noncomputable def place (p : Fin 7 → ℝ) (x : Vec3 ℝ) : Vec3 ℝ :=
  fun i => spin (p 3) (p 4) (p 5) (p 6) x i + p (i.castLE (by decide))

/-- The point `x` after the joint has turned by `a` about its third axis. -/
noncomputable def turn (a : ℝ) (x : Vec3 ℝ) : Vec3 ℝ :=
  ![Real.cos a * x 0 - Real.sin a * x 1, Real.sin a * x 0 + Real.cos a * x 1, x 2]

/-- Unit quaternion. -/
def IsUnit7 (p : Fin 7 → ℝ) : Prop := p 3 ^ 2 + p 4 ^ 2 + p 5 ^ 2 + p 6 ^ 2 = 1

/-- All seven poses have unit quaternions. -/
structure Params.Ok (P : Params) : Prop where
  body : IsUnit7 P.body
  gimbal : IsUnit7 P.gimbal
  link0 : IsUnit7 P.link0
  link1 : IsUnit7 P.link1
  effector : IsUnit7 P.effector
  cam : IsUnit7 P.cam
  target : IsUnit7 P.target

/-- The point `x` of the camera frame, in the world: from the camera through the end effector, the three joints
with the two links between them, the gimbal mount and the body. -/
noncomputable def inWorld (P : Params) (x : Vec3 ℝ) : Vec3 ℝ :=
  place P.body (place P.gimbal (turn P.joint0 (place P.link0 (turn P.joint1 (place P.link1 (turn P.joint2
    (place P.effector (place P.cam x))))))))

/-- Image of a point by a pinhole camera `(fx, fy, cx, cy)`. -/
noncomputable def pinhole (k : Fin 4 → ℝ) (x : Vec3 ℝ) : ℝ × ℝ :=
  (k 0 * x 0 / x 2 + k 2, k 1 * x 1 / x 2 + k 3)

/-- Rigid transform: a rotation and a translation. -/
def Rigid (T : Mat4 ℝ) : Prop := ∃ (C : Mat3 ℝ) (r : Vec3 ℝ), C * C.transpose = 1 ∧ C.det = 1 ∧ T = tf C r

/-- The parameters of a view of camera 0 while the body is at the origin. -/
def viewParams (e : Ext) (v : View) (t : Fin 7 → ℝ) : Params :=
  ⟨![0, 0, 0, 1, 0, 0, 0], e.gimbal, e.link0, e.link1, v.joint0, v.joint1, v.joint2, e.effector, e.cam0, t⟩

/-- A view from which the program estimates the target pose. -/
def View.Used (v : View) : Prop := 20 ≤ v.corners ∧ v.pnp ≠ none

/-- The pose of the target in the camera frame that was estimated from view `v` puts the target at `t`. -/
def View.Exact (e : Ext) (t : Fin 7 → ℝ) (v : View) : Prop :=
  ∀ T, v.pnp = some T → Rigid T ∧ ∀ x, inWorld (viewParams e v t) (tfPoint T x) = place t x

/-- All extrinsics have unit quaternions. -/
structure Ext.Ok (e : Ext) : Prop where
  gimbal : IsUnit7 e.gimbal
  link0 : IsUnit7 e.link0
  link1 : IsUnit7 e.link1
  effector : IsUnit7 e.effector
  cam0 : IsUnit7 e.cam0

end Yac.Gimbal
