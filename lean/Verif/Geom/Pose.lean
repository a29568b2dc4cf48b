import Verif.Geom.Rot

/-!
# Model of the pose parameters

yac/lib/calib_params.cpp (param_t, pose_t) and yac/lib/util/ceres_utils.cpp
(PoseLocalParameterization, lift_pose_jacobian), exact real arithmetic.
-/

namespace Yac.Geom
open Matrix

/-! ## `param_t`, calib_params.cpp:30-38 -/

/-- `param_t::plus`, calib_params.cpp:34. -/
def paramPlus {n : Nat} (p dx : Fin n → ℝ) : Fin n → ℝ := fun i => p i + dx i
/-- `param_t::minus`, calib_params.cpp:36. -/
def paramMinus {n : Nat} (p dx : Fin n → ℝ) : Fin n → ℝ := fun i => p i - dx i
/-- `param_t::perturb`, calib_params.cpp:38-40; an index outside the vector is an Eigen
assertion. -/
def paramPerturb {n : Nat} (p : Fin n → ℝ) (i : ℤ) (h : ℝ) : Except Fault (Fin n → ℝ) :=
  if 0 ≤ i ∧ i < n then .ok (fun j => if (j : ℤ) = i then p j + h else p j) else .error .oob

/-! ## `pose_t`, calib_params.cpp:44-151.  The parameter vector is
`(rx, ry, rz, qx, qy, qz, qw)`. -/

/-- `pose_t::rot`, calib_params.cpp:65-67. -/
def poseQuat (p : Fin 7 → ℝ) : Quat ℝ := ⟨p 6, p 3, p 4, p 5⟩
/-- `pose_t::trans`, calib_params.cpp:69. -/
def poseTrans (p : Fin 7 → ℝ) : Vec3 ℝ := ![p 0, p 1, p 2]
/-- `pose_t::tf`, calib_params.cpp:71. -/
def poseTf (p : Fin 7 → ℝ) : Mat4 ℝ := tfQuat (poseQuat p) (poseTrans p)

/-- `pose_t::set_trans`, calib_params.cpp:73-77. -/
def poseSetTrans (p : Fin 7 → ℝ) (r : Vec3 ℝ) : Fin 7 → ℝ :=
  ![r 0, r 1, r 2, p 3, p 4, p 5, p 6]
/-- `pose_t::set_rot(q)`, calib_params.cpp:79-84. -/
def poseSetQuat (p : Fin 7 → ℝ) (q : Quat ℝ) : Fin 7 → ℝ :=
  ![p 0, p 1, p 2, q.x, q.y, q.z, q.w]
/-- `pose_t::set_rot(C)`, calib_params.cpp:86-92. -/
noncomputable def poseSetRot (p : Fin 7 → ℝ) (C : Mat3 ℝ) : Fin 7 → ℝ := poseSetQuat p (rotToQuat C)
/-- `pose_t::set_tf(T)`, calib_params.cpp:104-107. -/
noncomputable def poseSetTf (p : Fin 7 → ℝ) (T : Mat4 ℝ) : Fin 7 → ℝ :=
  poseSetTrans (poseSetRot p (tfRot T)) (tfTrans T)
/-- The constructor from a transform, calib_params.cpp:50-63. -/
noncomputable def poseOfTf (T : Mat4 ℝ) : Fin 7 → ℝ :=
  ![tfTrans T 0, tfTrans T 1, tfTrans T 2, (tfQuatOf T).x, (tfQuatOf T).y, (tfQuatOf T).z,
    (tfQuatOf T).w]

/-- `pose_t::plus`, calib_params.cpp:109-125. -/
noncomputable def posePlus (p : Fin 7 → ℝ) (dx : Fin 6 → ℝ) : Fin 7 → ℝ :=
  let dq := quatDelta ![dx 3, dx 4, dx 5]
  let q : Quat ℝ := ⟨p 6, p 3, p 4, p 5⟩
  let qu := dq.mul q
  ![p 0 + dx 0, p 1 + dx 1, p 2 + dx 2, qu.x, qu.y, qu.z, qu.w]

/-- `pose_t::minus`, calib_params.cpp:127-138. -/
noncomputable def poseMinus (p : Fin 7 → ℝ) (dx : Fin 6 → ℝ) : Fin 7 → ℝ := posePlus p (-dx)

/-- Column `i` of `I(3) * h`. -/
def axisStep (i : Fin 3) (h : ℝ) : Vec3 ℝ := fun j => if j = i then h else 0

/-- `tf_perturb_rot` for an axis `i ≥ 0`, core.cpp:1060-1071 (the vector `ones(3,1) * h` for
`i = -1` is not used by `pose_t`). -/
noncomputable def tfPerturbRot (T : Mat4 ℝ) (h : ℝ) (i : Fin 3) : Mat4 ℝ :=
  tf (rvec2rot (axisStep i h) (1 / 100000000) * tfRot T) (tfTrans T)

/-- `tf_perturb_trans`, core.cpp:1073-1085. -/
noncomputable def tfPerturbTrans (T : Mat4 ℝ) (h : ℝ) (i : Fin 3) : Mat4 ℝ :=
  tf (tfRot T) (tfTrans T + axisStep i h)

/-- `pose_t::perturb`, calib_params.cpp:140-151. -/
noncomputable def posePerturb (p : Fin 7 → ℝ) (i : ℤ) (h : ℝ) : Except Fault (Fin 7 → ℝ) :=
  if 0 ≤ i ∧ i < 3 then
    let T := tfPerturbTrans (poseTf p) h (Fin.ofNat 3 i.toNat)
    .ok (poseSetTrans (poseSetRot p (tfRot T)) (tfTrans T))
  else if 3 ≤ i ∧ i ≤ 5 then
    let T := tfPerturbRot (poseTf p) h (Fin.ofNat 3 (i - 3).toNat)
    .ok (poseSetTrans (poseSetRot p (tfRot T)) (tfTrans T))
  else .error .fatal

/-! ## `PoseLocalParameterization`, ceres_utils.cpp:95-163 -/

/-- `Eigen::Quaternion::normalize`. -/
noncomputable def Quat.normalize (q : Quat ℝ) : Quat ℝ :=
  if q.normSq > 0 then
    let n := Real.sqrt q.normSq
    ⟨q.w / n, q.x / n, q.y / n, q.z / n⟩
  else q

/-- `Eigen::Quaternion::inverse`. -/
noncomputable def Quat.inverse (q : Quat ℝ) : Quat ℝ :=
  let n := q.normSq
  if n > 0 then ⟨q.w / n, -q.x / n, -q.y / n, -q.z / n⟩ else ⟨0, 0, 0, 0⟩

/-- `Plus`, ceres_utils.cpp:99-128. -/
noncomputable def ceresPlus (x : Fin 7 → ℝ) (d : Fin 6 → ℝ) : Fin 7 → ℝ :=
  let T := tfParams x
  let q := tfQuatOf T
  let dq := quatDelta ![d 3, d 4, d 5]
  let q := (dq.mul q).normalize
  let r := tfTrans T
  ![r 0 + d 0, r 1 + d 1, r 2 + d 2, q.x, q.y, q.z, q.w]

/-- `S` of `PlusJacobian`, ceres_utils.cpp:142-145. -/
noncomputable def halfS : Matrix (Fin 4) (Fin 3) ℝ :=
  !![1 / 2, 0, 0; 0, 1 / 2, 0; 0, 0, 1 / 2; 0, 0, 0]

/-- `PlusJacobian`, ceres_utils.cpp:130-152. -/
noncomputable def ceresPlusJac (x : Fin 7 → ℝ) : Matrix (Fin 7) (Fin 6) ℝ :=
  let q := tfQuatOf (tfParams x)
  let B := oplusMat q * halfS
  !![1, 0, 0, 0, 0, 0;
     0, 1, 0, 0, 0, 0;
     0, 0, 1, 0, 0, 0;
     0, 0, 0, B 0 0, B 0 1, B 0 2;
     0, 0, 0, B 1 0, B 1 1, B 1 2;
     0, 0, 0, B 2 0, B 2 1, B 2 2;
     0, 0, 0, B 3 0, B 3 1, B 3 2]

/-- `lift_pose_jacobian`, ceres_utils.cpp:64-79. -/
noncomputable def liftJac (T : Mat4 ℝ) : Matrix (Fin 6) (Fin 7) ℝ :=
  let Jq : Matrix (Fin 3) (Fin 4) ℝ := !![2, 0, 0, 0; 0, 2, 0, 0; 0, 0, 2, 0]
  let q := tfQuatOf T
  let B := Jq * oplusMat q.inverse
  !![1, 0, 0, 0, 0, 0, 0;
     0, 1, 0, 0, 0, 0, 0;
     0, 0, 1, 0, 0, 0, 0;
     0, 0, 0, B 0 0, B 0 1, B 0 2, B 0 3;
     0, 0, 0, B 1 0, B 1 1, B 1 2, B 1 3;
     0, 0, 0, B 2 0, B 2 1, B 2 2, B 2 3]

end Yac.Geom
