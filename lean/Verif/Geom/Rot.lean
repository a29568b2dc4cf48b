import Verif.Basic
import Verif.Num.Model
import Mathlib.LinearAlgebra.Matrix.Notation
import Mathlib.LinearAlgebra.Matrix.Determinant.Basic
import Mathlib.Analysis.SpecialFunctions.Complex.Arg
import Mathlib.Analysis.SpecialFunctions.Trigonometric.Inverse

/-!
# Model of rotations, quaternions and rigid transforms

yac/lib/util/core.cpp and yac/lib/util/ceres_utils.cpp.  Numbers are exact.  Polynomial
functions are over any commutative ring, the others over the reals.
-/

namespace Yac.Geom
open Matrix

/-- `mat3_t`. -/
abbrev Mat3 (K : Type) := Matrix (Fin 3) (Fin 3) K
/-- `mat4_t`. -/
abbrev Mat4 (K : Type) := Matrix (Fin 4) (Fin 4) K
/-- `vec3_t`. -/
abbrev Vec3 (K : Type) := Fin 3 → K

/-- `quat_t` (`Eigen::Quaternion`). -/
@[ext] structure Quat (K : Type) where
  w : K
  x : K
  y : K
  z : K
  deriving DecidableEq, Repr

section ring
variable {K : Type} [CommRing K]

/-- `p * q` of `Eigen::Quaternion`. -/
def Quat.mul (p q : Quat K) : Quat K :=
  ⟨p.w * q.w - p.x * q.x - p.y * q.y - p.z * q.z,
   p.w * q.x + p.x * q.w + p.y * q.z - p.z * q.y,
   p.w * q.y - p.x * q.z + p.y * q.w + p.z * q.x,
   p.w * q.z + p.x * q.y - p.y * q.x + p.z * q.w⟩

/-- `Eigen::Quaternion::conjugate`. -/
def Quat.conj (q : Quat K) : Quat K := ⟨q.w, -q.x, -q.y, -q.z⟩
/-- `Eigen::Quaternion::squaredNorm`. -/
def Quat.normSq (q : Quat K) : K := q.w * q.w + q.x * q.x + q.y * q.y + q.z * q.z
/-- `q.coeffs()`: `(x, y, z, w)`. -/
def Quat.coeffs (q : Quat K) : Fin 4 → K := ![q.x, q.y, q.z, q.w]
/-- `(w, x, y, z)`. -/
def Quat.wxyz (q : Quat K) : Fin 4 → K := ![q.w, q.x, q.y, q.z]

/-- `Eigen::Quaternion::toRotationMatrix`. -/
def Quat.toRot (q : Quat K) : Mat3 K :=
  let tx := 2 * q.x
  let ty := 2 * q.y
  let tz := 2 * q.z
  let twx := tx * q.w
  let twy := ty * q.w
  let twz := tz * q.w
  let txx := tx * q.x
  let txy := ty * q.x
  let txz := tz * q.x
  let tyy := ty * q.y
  let tyz := tz * q.y
  let tzz := tz * q.z
  !![1 - (tyy + tzz), txy - twz, txz + twy;
     txy + twz, 1 - (txx + tzz), tyz - twx;
     txz - twy, tyz + twx, 1 - (txx + tyy)]

/-- `quat2rot`, core.cpp:1393-1420. -/
def quat2rot (q : Quat K) : Mat3 K :=
  let qx2 := q.x * q.x
  let qy2 := q.y * q.y
  let qz2 := q.z * q.z
  let qw2 := q.w * q.w
  !![qw2 + qx2 - qy2 - qz2, 2 * (q.x * q.y - q.w * q.z), 2 * (q.x * q.z + q.w * q.y);
     2 * (q.x * q.y + q.w * q.z), qw2 - qx2 + qy2 - qz2, 2 * (q.y * q.z - q.w * q.x);
     2 * (q.x * q.z - q.w * q.y), 2 * (q.y * q.z + q.w * q.x), qw2 - qx2 - qy2 + qz2]

/-- `quat_lmul(q)`, core.cpp:1429-1442. -/
def quatLmul (q : Quat K) : Mat4 K :=
  !![q.w, -q.x, -q.y, -q.z;
     q.x, q.w, -q.z, q.y;
     q.y, q.z, q.w, -q.x;
     q.z, -q.y, q.x, q.w]

/-- `quat_rmul(q)`, core.cpp:1449-1462. -/
def quatRmul (q : Quat K) : Mat4 K :=
  !![q.w, -q.x, -q.y, -q.z;
     q.x, q.w, q.z, -q.y;
     q.y, -q.z, q.w, q.x;
     q.z, q.y, -q.x, q.w]

/-- `quat_lmul_xyz`, `quat_rmul_xyz`, `quat_mat_xyz`, core.cpp:1444-1447, 1464-1469: the
bottom right 3x3 block. -/
def quatMatXyz (Q : Mat4 K) : Mat3 K :=
  !![Q 1 1, Q 1 2, Q 1 3; Q 2 1, Q 2 2, Q 2 3; Q 3 1, Q 3 2, Q 3 3]

/-- `plus(q_AB)`, ceres_utils.cpp:5-25. -/
def plusMat (r : Quat K) : Mat4 K :=
  let q := r.coeffs
  !![q 3, -(q 2), q 1, q 0;
     q 2, q 3, -(q 0), q 1;
     -(q 1), q 0, q 3, q 2;
     -(q 0), -(q 1), -(q 2), q 3]

/-- `oplus(q_BC)`, ceres_utils.cpp:27-37. -/
def oplusMat (r : Quat K) : Mat4 K :=
  let q := r.coeffs
  !![q 3, q 2, -(q 1), q 0;
     -(q 2), q 3, q 0, q 1;
     q 1, -(q 0), q 3, q 2;
     -(q 0), -(q 1), -(q 2), q 3]

/-- `quat_inv` on arrays, core.cpp:1113-1118. -/
def quatInvArr (q : Fin 4 → K) : Fin 4 → K := ![q 0, -(q 1), -(q 2), -(q 3)]

/-- `quat_lmul`/`quat_mul` on arrays, core.cpp:1123-1147. -/
def quatMulArr (p q : Fin 4 → K) : Fin 4 → K :=
  ![p 0 * q 0 - p 1 * q 1 - p 2 * q 2 - p 3 * q 3,
    p 1 * q 0 + p 0 * q 1 - p 3 * q 2 + p 2 * q 3,
    p 2 * q 0 + p 3 * q 1 + p 0 * q 2 - p 1 * q 3,
    p 3 * q 0 - p 2 * q 1 + p 1 * q 2 + p 0 * q 3]

/-- `skew`, core.cpp:349-357. -/
def skew (w : Vec3 K) : Mat3 K :=
  !![0, -(w 2), w 1;
     w 2, 0, -(w 0);
     -(w 1), w 0, 0]

/-- Eigen's dot product of two 3-vectors. -/
def dot3 (a b : Vec3 K) : K := a 0 * b 0 + a 1 * b 1 + a 2 * b 2

/-- `skewsq`, core.cpp:359-362; `pow(w.norm(), 2)` is the squared norm. -/
def skewsq (w : Vec3 K) : Mat3 K := vecMulVec w w - dot3 w w • (1 : Mat3 K)

/-! ## Rigid transforms, core.cpp:1020-1056, 1106-1108 and core.hpp:1058-1068 -/

/-- `tf(C, r)`, core.cpp:1034-1039. -/
def tf (C : Mat3 K) (r : Vec3 K) : Mat4 K :=
  !![C 0 0, C 0 1, C 0 2, r 0;
     C 1 0, C 1 1, C 1 2, r 1;
     C 2 0, C 2 1, C 2 2, r 2;
     0, 0, 0, 1]

/-- `tf(q, r)`, core.cpp:1041-1043. -/
def tfQuat (q : Quat K) (r : Vec3 K) : Mat4 K := tf q.toRot r

/-- `tf(params)`, core.cpp:1020-1032: parameters `(rx, ry, rz, qx, qy, qz, qw)`. -/
def tfParams (p : Fin 7 → K) : Mat4 K := tfQuat ⟨p 6, p 3, p 4, p 5⟩ ![p 0, p 1, p 2]

/-- `tf_rot`, core.hpp:1058. -/
def tfRot (T : Mat4 K) : Mat3 K :=
  !![T 0 0, T 0 1, T 0 2; T 1 0, T 1 1, T 1 2; T 2 0, T 2 1, T 2 2]

/-- `tf_trans`, core.hpp:1068. -/
def tfTrans (T : Mat4 K) : Vec3 K := ![T 0 3, T 1 3, T 2 3]

/-- `tf_inv`, core.cpp:1045-1049. -/
def tfInv (T : Mat4 K) : Mat4 K :=
  tf (tfRot T)ᵀ ((-(tfRot T)ᵀ) *ᵥ tfTrans T)

/-- `tf_point`, core.cpp:1106-1108. -/
def tfPoint (T : Mat4 K) (p : Vec3 K) : Vec3 K :=
  let h := T *ᵥ ![p 0, p 1, p 2, 1]
  ![h 0, h 1, h 2]

end ring

/-! ## Functions of real numbers -/

/-- `v.norm()`. -/
noncomputable def norm3 (v : Vec3 ℝ) : ℝ := Real.sqrt (dot3 v v)

/-- Eigen's conversion of a rotation matrix to a quaternion (`quat_t{C}`,
Eigen/src/Geometry/Quaternion.h). -/
noncomputable def rotToQuat (m : Mat3 ℝ) : Quat ℝ :=
  let t := m 0 0 + m 1 1 + m 2 2
  if t > 0 then
    let t := Real.sqrt (t + 1)
    let w := (1 / 2) * t
    let t := (1 / 2) / t
    ⟨w, (m 2 1 - m 1 2) * t, (m 0 2 - m 2 0) * t, (m 1 0 - m 0 1) * t⟩
  else
    let i : Fin 3 := if m 1 1 > m 0 0 then 1 else 0
    let i : Fin 3 := if m 2 2 > m i i then 2 else i
    if i = 0 then
      let t := Real.sqrt (m 0 0 - m 1 1 - m 2 2 + 1)
      let x := (1 / 2) * t
      let t := (1 / 2) / t
      ⟨(m 2 1 - m 1 2) * t, x, (m 1 0 + m 0 1) * t, (m 2 0 + m 0 2) * t⟩
    else if i = 1 then
      let t := Real.sqrt (m 1 1 - m 2 2 - m 0 0 + 1)
      let y := (1 / 2) * t
      let t := (1 / 2) / t
      ⟨(m 0 2 - m 2 0) * t, (m 0 1 + m 1 0) * t, y, (m 2 1 + m 1 2) * t⟩
    else
      let t := Real.sqrt (m 2 2 - m 0 0 - m 1 1 + 1)
      let z := (1 / 2) * t
      let t := (1 / 2) / t
      ⟨(m 1 0 - m 0 1) * t, (m 0 2 + m 2 0) * t, (m 1 2 + m 2 1) * t, z⟩

/-- `tf_quat`, core.hpp:1063. -/
noncomputable def tfQuatOf (T : Mat4 ℝ) : Quat ℝ := rotToQuat (tfRot T)

/-- `tf_vec`, core.cpp:1051-1058. -/
noncomputable def tfVec (T : Mat4 ℝ) : Fin 7 → ℝ :=
  let r := tfTrans T
  let q := tfQuatOf T
  ![r 0, r 1, r 2, q.x, q.y, q.z, q.w]

/-- `pose_diff`, core.cpp:1149-1178: `dr` and `drot`.  The array functions treat the four
numbers after the translation as `(w, x, y, z)`. -/
noncomputable def poseDiff (p0 p1 : Fin 7 → ℝ) : ℝ × ℝ :=
  let dpos : Vec3 ℝ := ![p0 0 - p1 0, p0 1 - p1 1, p0 2 - p1 2]
  let q0 : Fin 4 → ℝ := ![p0 3, p0 4, p0 5, p0 6]
  let q1 : Fin 4 → ℝ := ![p1 3, p1 4, p1 5, p1 6]
  let dq := quatMulArr (quatInvArr q0) q1
  let dtheta : Vec3 ℝ := ![2 * dq 1, 2 * dq 2, 2 * dq 3]
  (norm3 dpos, norm3 dtheta)

/-- `rotx`, core.cpp:1180-1190. -/
noncomputable def rotx (t : ℝ) : Mat3 ℝ :=
  !![1, 0, 0; 0, Real.cos t, Real.sin t; 0, -Real.sin t, Real.cos t]
/-- `roty`, core.cpp:1192-1202. -/
noncomputable def roty (t : ℝ) : Mat3 ℝ :=
  !![Real.cos t, 0, -Real.sin t; 0, 1, 0; Real.sin t, 0, Real.cos t]
/-- `rotz`, core.cpp:1204-1214. -/
noncomputable def rotz (t : ℝ) : Mat3 ℝ :=
  !![Real.cos t, Real.sin t, 0; -Real.sin t, Real.cos t, 0; 0, 0, 1]

open Real in
/-- `euler123`, core.cpp:1216-1242. -/
noncomputable def euler123 (phi theta psi : ℝ) : Mat3 ℝ :=
  !![cos psi * cos theta, sin psi * cos theta, -sin theta;
     cos psi * sin theta * sin phi - sin psi * cos phi,
       sin psi * sin theta * sin phi + cos psi * cos phi, cos theta * sin phi;
     cos psi * sin theta * cos phi + sin psi * sin phi,
       sin psi * sin theta * cos phi - cos psi * sin phi, cos theta * cos phi]

open Real in
/-- `euler321`, core.cpp:1244-1270. -/
noncomputable def euler321 (phi theta psi : ℝ) : Mat3 ℝ :=
  !![cos psi * cos theta, cos psi * sin theta * sin phi - sin psi * cos phi,
       cos psi * sin theta * cos phi + sin psi * sin phi;
     sin psi * cos theta, sin psi * sin theta * sin phi + cos psi * cos phi,
       sin psi * sin theta * cos phi - cos psi * sin phi;
     -sin theta, cos theta * sin phi, cos theta * cos phi]

open Real in
/-- `euler2quat`, core.cpp:1272-1291. -/
noncomputable def euler2quat (phi theta psi : ℝ) : Quat ℝ :=
  let cphi := cos (phi / 2)
  let cth := cos (theta / 2)
  let cpsi := cos (psi / 2)
  let sphi := sin (phi / 2)
  let sth := sin (theta / 2)
  let spsi := sin (psi / 2)
  let qx := sphi * cth * cpsi - cphi * sth * spsi
  let qy := cphi * sth * cpsi + sphi * cth * spsi
  let qz := cphi * cth * spsi - sphi * sth * cpsi
  let qw := cphi * cth * cpsi + sphi * sth * spsi
  let mag := sqrt (qw * qw + qx * qx + qy * qy + qz * qz)
  ⟨qw / mag, qx / mag, qy / mag, qz / mag⟩

/-- C `atan2(y, x)`, for arguments not both zero the argument of `x + y i`. -/
noncomputable def atan2 (y x : ℝ) : ℝ := Complex.arg ⟨x, y⟩

/-- `quat2euler`, core.cpp:1375-1391. -/
noncomputable def quat2euler (q : Quat ℝ) : Vec3 ℝ :=
  let qw2 := q.w * q.w
  let qx2 := q.x * q.x
  let qy2 := q.y * q.y
  let qz2 := q.z * q.z
  ![atan2 (2 * (q.x * q.w + q.z * q.y)) (qw2 - qx2 - qy2 + qz2),
    Real.arcsin (2 * (q.y * q.w - q.x * q.z)),
    atan2 (2 * (q.x * q.y + q.z * q.w)) (qw2 + qx2 - qy2 - qz2)]

/-- `rvec2rot`, core.cpp:1328-1373. -/
noncomputable def rvec2rot (v : Vec3 ℝ) (eps : ℝ) : Mat3 ℝ :=
  let theta := Real.sqrt (dot3 v v)
  if theta < eps then
    !![1, -(v 2), v 1; v 2, 1, -(v 0); -(v 1), v 0, 1]
  else
    let x := v 0 / theta
    let y := v 1 / theta
    let z := v 2 / theta
    let c := Real.cos theta
    let s := Real.sin theta
    let C := 1 - c
    let xs := x * s
    let ys := y * s
    let zs := z * s
    let xC := x * C
    let yC := y * C
    let zC := z * C
    let xyC := x * yC
    let yzC := y * zC
    let zxC := z * xC
    !![x * xC + c, xyC - zs, zxC + ys;
       xyC + zs, y * yC + c, yzC - xs;
       zxC - ys, yzC + xs, z * zC + c]

/-- Eigen's `normalized()`: a zero vector is returned unchanged. -/
noncomputable def normalized (v : Vec3 ℝ) : Vec3 ℝ :=
  if dot3 v v > 0 then fun i => v i / Real.sqrt (dot3 v v) else v

/-- Cross product. -/
def cross3 {K : Type} [CommRing K] (a b : Vec3 K) : Vec3 K :=
  ![a 1 * b 2 - a 2 * b 1, a 2 * b 0 - a 0 * b 2, a 0 * b 1 - a 1 * b 0]

/-- `vecs2rot`, core.cpp:1293-1326; the matrix is that of `quat2rot` written out. -/
noncomputable def vecs2rot (a g : Vec3 ℝ) : Mat3 ℝ :=
  let cosTheta := dot3 (normalized a) (normalized g)
  let halfCos := Real.sqrt ((1 / 2) * (1 + cosTheta))
  let halfSin := Real.sqrt ((1 / 2) * (1 - cosTheta))
  let w := normalized (cross3 a g)
  quat2rot ⟨halfCos, halfSin * w 0, halfSin * w 1, halfSin * w 2⟩

/-- `sinc`, core.cpp:522-534. -/
noncomputable def sinc (x : ℝ) : ℝ :=
  if |x| > 1 / 1000000 then Real.sin x / x
  else
    let x2 := x * x
    let x4 := x2 * x2
    let x6 := x2 * x2 * x2
    1 - (1 / 6) * x2 + (1 / 120) * x4 - (1 / 5040) * x6

/-- `quat_delta`, core.cpp:1422-1427, and `deltaQ`, ceres_utils.cpp:56-62. -/
noncomputable def quatDelta (d : Vec3 ℝ) : Quat ℝ :=
  let h := (1 / 2) * norm3 d
  let k := sinc h * (1 / 2)
  ⟨Real.cos h, k * d 0, k * d 1, k * d 2⟩

end Yac.Geom
