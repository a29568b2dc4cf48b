import Verif.Geom.Pose

/-!
# Model of the interpolation functions (yac/lib/util/core.cpp:1570-1690, 1826-1849)

Exact real arithmetic.
-/

namespace Yac.Stream
open Matrix Yac.Geom

/-- `lerp`, core.hpp:1332-1335. -/
def lerp3 (a b : Vec3 ℝ) (t : ℝ) : Vec3 ℝ := fun i => a i * (1 - t) + b i * t

/-- `q.dot(p)`. -/
def Quat.dot (p q : Quat ℝ) : ℝ := p.x * q.x + p.y * q.y + p.z * q.z + p.w * q.w

/-- `s * p + t * q` on the coefficients. -/
def Quat.comb (s : ℝ) (p : Quat ℝ) (t : ℝ) (q : Quat ℝ) : Quat ℝ :=
  ⟨s * p.w + t * q.w, s * p.x + t * q.x, s * p.y + t * q.y, s * p.z + t * q.z⟩

/-- `-q` on the coefficients. -/
def Quat.negc (q : Quat ℝ) : Quat ℝ := ⟨-q.w, -q.x, -q.y, -q.z⟩

/-- `slerp`, core.cpp:1574-1616. -/
noncomputable def slerp (qs qe : Quat ℝ) (alpha : ℝ) : Quat ℝ :=
  let q0 := Quat.normalize qs
  let q1 := Quat.normalize qe
  let dot := Quat.dot q0 q1
  let q1' := if dot < 0 then Quat.negc q1 else q1
  let dot' := if dot < 0 then -dot else dot
  if dot' > 9995 / 10000 then
    Quat.normalize (Quat.comb 1 q0 alpha (Quat.comb 1 q1' (-1) q0))
  else
    let theta0 := Real.arccos dot'
    let theta := theta0 * alpha
    let s0 := Real.cos theta - dot' * Real.sin theta / Real.sin theta0
    let s1 := Real.sin theta / Real.sin theta0
    Quat.comb s0 q0 s1 q1'

/-- The threshold `1 - epsilon` of `Eigen::QuaternionBase::slerp`. -/
noncomputable def slerpOne : ℝ := 1 - 1 / 2 ^ 52

/-- `a.slerp(t, b)` of Eigen (Eigen/src/Geometry/Quaternion.h), the function called at
core.cpp:1629 and core.cpp:1845. -/
noncomputable def eigenSlerp (a b : Quat ℝ) (t : ℝ) : Quat ℝ :=
  let d := Quat.dot a b
  let absD := |d|
  let s0 := if absD ≥ slerpOne then 1 - t
            else Real.sin ((1 - t) * Real.arccos absD) / Real.sin (Real.arccos absD)
  let s1 := if absD ≥ slerpOne then t
            else Real.sin (t * Real.arccos absD) / Real.sin (Real.arccos absD)
  let s1 := if d < 0 then -s1 else s1
  Quat.comb s0 a s1 b

/-- `interp_pose`, core.cpp:1618-1633. -/
noncomputable def interpPose (p0 p1 : Mat4 ℝ) (alpha : ℝ) : Mat4 ℝ :=
  let trans0 := tfTrans p0
  let quat0 := rotToQuat (tfRot p0)
  let trans1 := tfTrans p1
  let quat1 := rotToQuat (tfRot p1)
  tfQuat (eigenSlerp quat1 quat0 alpha) (lerp3 trans0 trans1 alpha)

/-- `lerp_pose`, core.cpp:1826-1849; `none` where the code divides by zero. -/
noncomputable def lerpPose (t0 : ℤ) (pose0 : Mat4 ℝ) (t1 : ℤ) (pose1 : Mat4 ℝ) (t : ℤ) :
    Option (Mat4 ℝ) :=
  let num : ℝ := ((t - t0 : ℤ) : ℝ) * (1 / 10 ^ 9)
  let den : ℝ := ((t1 - t0 : ℤ) : ℝ) * (1 / 10 ^ 9)
  if den = 0 then none
  else
    let alpha := num / den
    some (tfQuat (eigenSlerp (rotToQuat (tfRot pose1)) (rotToQuat (tfRot pose0)) alpha)
      (lerp3 (tfTrans pose0) (tfTrans pose1) alpha))

end Yac.Stream
