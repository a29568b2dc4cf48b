import Verif.Geom.QuatOfRot
import Mathlib.Analysis.SpecialFunctions.Trigonometric.Bounds
import Mathlib.LinearAlgebra.Matrix.Trace
import Mathlib.Analysis.Real.Pi.Bounds

/-!
# C32 (rigid transforms), C34 (Euler angles and rotation vectors), C36 (pose difference),
C67 (rotation between two directions)
-/

namespace Yac.Geom
open Matrix

theorem mat4_eq {K : Type} (A B : Mat4 K) (h : ∀ i j, A i j = B i j) : A = B := by
  ext i j; exact h i j

/-! ## C32 -/

section ring
variable {K : Type} [CommRing K]

theorem tf_mul (A B : Mat3 K) (a b : Vec3 K) : tf A a * tf B b = tf (A * B) (A *ᵥ b + a) := by
  ext i j
  fin_cases i <;> fin_cases j <;>
    simp [tf, Matrix.mul_apply, Fin.sum_univ_four, Fin.sum_univ_three, mulVec, dotProduct]

theorem tf_one : tf (1 : Mat3 K) 0 = 1 := by
  ext i j
  fin_cases i <;> fin_cases j <;> simp [tf]

theorem tfRot_tf (C : Mat3 K) (r : Vec3 K) : tfRot (tf C r) = C := by
  apply mat3_eq <;> simp [tf, tfRot]

theorem tfTrans_tf (C : Mat3 K) (r : Vec3 K) : tfTrans (tf C r) = r := by
  apply vec3_ext <;> simp [tf, tfTrans]

/-- C32: `tf_inv` is the two-sided inverse of every rigid transform. -/
theorem C32_inverse (C : Mat3 K) (r : Vec3 K) (h : C * Cᵀ = 1) :
    tf C r * tfInv (tf C r) = 1 ∧ tfInv (tf C r) * tf C r = 1 := by
  have h1 : tf C r * tfInv (tf C r) = 1 := by
    rw [tfInv, tfRot_tf, tfTrans_tf, tf_mul, h, mulVec_mulVec, Matrix.mul_neg, h,
      neg_mulVec, one_mulVec, neg_add_cancel, tf_one]
  exact ⟨h1, mul_eq_one_comm.mp h1⟩

/-- C32: `tf_point` applies rotation and translation, and composes. -/
theorem C32_point (C : Mat3 K) (r p : Vec3 K) (T : Mat4 K) :
    tfPoint (tf C r) p = C *ᵥ p + r ∧
    tfPoint (T * tf C r) p = tfPoint T (tfPoint (tf C r) p) ∧
    (C * Cᵀ = 1 → tfPoint (tfInv (tf C r)) (tfPoint (tf C r) p) = p) := by
  have a : ∀ C r p, tfPoint (tf C r : Mat4 K) p = C *ᵥ p + r := by
    intro C r p
    apply vec3_ext <;> simp [tfPoint, tf, mulVec, dotProduct, Fin.sum_univ_four, Fin.sum_univ_three]
  refine ⟨a C r p, ?_, fun h => ?_⟩
  · unfold tfPoint
    simp only [← mulVec_mulVec]
    have : (tf C r *ᵥ ![p 0, p 1, p 2, 1]) = ![(tf C r *ᵥ ![p 0, p 1, p 2, 1]) 0,
        (tf C r *ᵥ ![p 0, p 1, p 2, 1]) 1, (tf C r *ᵥ ![p 0, p 1, p 2, 1]) 2, 1] := by
      ext i
      fin_cases i
      · rfl
      · rfl
      · rfl
      · simp [tf, mulVec, dotProduct, Fin.sum_univ_four]
    conv_lhs => rw [this]
    simp
  · rw [a, tfInv, tfRot_tf, tfTrans_tf, a, mulVec_add, mulVec_mulVec, mul_eq_one_comm.mp h,
      one_mulVec, neg_mulVec, add_assoc, add_neg_cancel, add_zero]

/-- C32: `tf_rot` and `tf_trans` recover what `tf` was built from (for the quaternion and the
parameter-vector constructors the rotation is the quaternion's matrix), and a matrix with last
row `(0,0,0,1)` is rebuilt from them. -/
theorem C32_recover (C : Mat3 K) (r : Vec3 K) (q : Quat K) (p : Fin 7 → K) :
    tfRot (tf C r) = C ∧ tfTrans (tf C r) = r ∧
    tfRot (tfQuat q r) = q.toRot ∧ tfTrans (tfQuat q r) = r ∧
    tfRot (tfParams p) = Quat.toRot ⟨p 6, p 3, p 4, p 5⟩ ∧
    tfTrans (tfParams p) = ![p 0, p 1, p 2] :=
  ⟨tfRot_tf C r, tfTrans_tf C r, tfRot_tf _ r, tfTrans_tf _ r, tfRot_tf _ _, tfTrans_tf _ _⟩

theorem C32_rebuild (T : Mat4 K) (h : T 3 0 = 0 ∧ T 3 1 = 0 ∧ T 3 2 = 0 ∧ T 3 3 = 1) :
    tf (tfRot T) (tfTrans T) = T := by
  obtain ⟨h0, h1, h2, h3⟩ := h
  ext i j
  fin_cases i <;> fin_cases j <;> simp [tf, tfRot, tfTrans, h0, h1, h2, h3]

end ring

/-- C32: the quaternion Eigen computes from a proper rotation is unit and has that rotation
as its matrix; so `tf(tf_vec(T)) = T` for every rigid transform. -/
theorem C32_vec (C : Mat3 ℝ) (r : Vec3 ℝ) (h : C * Cᵀ = 1) (hd : C.det = 1) :
    (rotToQuat C).normSq = 1 ∧ (rotToQuat C).toRot = C ∧
    (tfQuatOf (tf C r)).toRot = C ∧
    tfParams (tfVec (tf C r)) = tf C r := by
  obtain ⟨a, b⟩ := (rotToQuat_spec ⟨h, hd⟩).spec
  refine ⟨a, b, by rw [tfQuatOf, tfRot_tf, b], ?_⟩
  have : (⟨(rotToQuat C).w, (rotToQuat C).x, (rotToQuat C).y, (rotToQuat C).z⟩ : Quat ℝ) =
    rotToQuat C := rfl
  have e : ![r 0, r 1, r 2] = r := by apply vec3_ext <;> rfl
  simp only [tfParams, tfVec, tfTrans_tf, tfQuatOf, tfRot_tf, tfQuat]
  show tf ((rotToQuat C).toRot) ![r 0, r 1, r 2] = tf C r
  rw [b, e]

/-- C32: `tf_vec` of a transform built from parameters returns the translation and the
quaternion up to sign; the sign is kept if the scalar part is above 1/2 and flipped if it is
below -1/2. -/
theorem C32_vec_params (q : Quat ℝ) (hq : q.normSq = 1) (r : Vec3 ℝ) :
    (tfVec (tfQuat q r) = ![r 0, r 1, r 2, q.x, q.y, q.z, q.w] ∨
     tfVec (tfQuat q r) = ![r 0, r 1, r 2, -q.x, -q.y, -q.z, -q.w]) ∧
    (q.w > 1 / 2 → tfVec (tfQuat q r) = ![r 0, r 1, r 2, q.x, q.y, q.z, q.w]) ∧
    (q.w < -(1 / 2) → tfVec (tfQuat q r) = ![r 0, r 1, r 2, -q.x, -q.y, -q.z, -q.w]) := by
  have hR : IsRot q.toRot := ⟨toRot_mul_transpose q hq, toRot_det q hq⟩
  have hs := rotToQuat_spec hR
  have ho := QuatOf.of_toRot q hq
  have pm := hs.pm ho
  have ev : tfVec (tfQuat q r) = ![r 0, r 1, r 2, (rotToQuat q.toRot).x, (rotToQuat q.toRot).y,
      (rotToQuat q.toRot).z, (rotToQuat q.toRot).w] := by
    simp only [tfVec, tfQuat, tfTrans_tf, tfQuatOf, tfRot_tf]
  have pos : 4 * (q.w * q.w) > 1 → 0 < (rotToQuat q.toRot).w := by
    intro h
    have t : q.toRot 0 0 + q.toRot 1 1 + q.toRot 2 2 > 0 := by have := ho.ww; linarith
    unfold rotToQuat
    simp only [if_pos t]
    have : 0 < Real.sqrt (q.toRot 0 0 + q.toRot 1 1 + q.toRot 2 2 + 1) :=
      Real.sqrt_pos.mpr (by linarith)
    positivity
  refine ⟨?_, fun h => ?_, fun h => ?_⟩
  · rw [ev]
    rcases pm with h | h <;> rw [h]
    · left; rfl
    · right; rfl
  · rw [ev]
    rcases pm with e | e
    · rw [e]
    · exfalso
      have := pos (by nlinarith)
      rw [e] at this
      simp only at this
      linarith
  · rw [ev]
    rcases pm with e | e
    · exfalso
      have := pos (by nlinarith)
      rw [e] at this
      linarith
    · rw [e]

/-- C32 witness: a rotation that is its own inverse up to sign choice, with a translation. -/
example : (!![0, -1, 0; 1, 0, 0; 0, 0, 1] : Mat3 ℤ) * (!![0, -1, 0; 1, 0, 0; 0, 0, 1])ᵀ = 1 ∧
    (!![0, -1, 0; 1, 0, 0; 0, 0, 1] : Mat3 ℤ).det = 1 ∧
    tfPoint (tf !![0, -1, 0; 1, 0, 0; 0, 0, 1] ![10, 20, (30 : ℤ)]) ![1, 2, 3] = ![8, 21, 33] := by
  decide

/-! ## C34 -/

theorem rotx_rot (t : ℝ) : IsRot (rotx t) := by
  have h := Real.sin_sq_add_cos_sq t
  constructor
  · apply mat3_eq <;> rw [mul_entry] <;> simp [rotx] <;> first | ring1 | linear_combination h
  · rw [Matrix.det_fin_three]; simp [rotx]; linear_combination h

theorem roty_rot (t : ℝ) : IsRot (roty t) := by
  have h := Real.sin_sq_add_cos_sq t
  constructor
  · apply mat3_eq <;> rw [mul_entry] <;> simp [roty] <;> first | ring1 | linear_combination h
  · rw [Matrix.det_fin_three]; simp [roty]; linear_combination h

theorem rotz_rot (t : ℝ) : IsRot (rotz t) := by
  have h := Real.sin_sq_add_cos_sq t
  constructor
  · apply mat3_eq <;> rw [mul_entry] <;> simp [rotz] <;> first | ring1 | linear_combination h
  · rw [Matrix.det_fin_three]; simp [rotz]; linear_combination h

theorem IsRot.mul {K : Type} [CommRing K] {A B : Mat3 K} (ha : IsRot A) (hb : IsRot B) :
    IsRot (A * B) := by
  refine ⟨?_, by rw [Matrix.det_mul, ha.2, hb.2, one_mul]⟩
  rw [Matrix.transpose_mul, Matrix.mul_assoc, ← Matrix.mul_assoc B, hb.1, Matrix.one_mul, ha.1]

theorem IsRot.transpose {K : Type} [CommRing K] {A : Mat3 K} (ha : IsRot A) : IsRot Aᵀ :=
  ⟨by rw [Matrix.transpose_transpose]; exact mul_eq_one_comm.mp ha.1,
    by rw [Matrix.det_transpose]; exact ha.2⟩

theorem euler123_eq (phi theta psi : ℝ) :
    euler123 phi theta psi = rotx phi * roty theta * rotz psi := by
  apply mat3_eq <;> rw [mul_entry, mul_entry, mul_entry, mul_entry] <;>
    simp [euler123, rotx, roty, rotz] <;> ring

theorem euler321_eq (phi theta psi : ℝ) :
    euler321 phi theta psi = rotz (-psi) * roty (-theta) * rotx (-phi) := by
  apply mat3_eq <;> rw [mul_entry, mul_entry, mul_entry, mul_entry] <;>
    simp [euler321, rotx, roty, rotz] <;> ring

/-- C34: `rotx`, `roty`, `rotz`, `euler123`, `euler321` are proper rotations for all angles. -/
theorem C34_rotations (phi theta psi t : ℝ) :
    IsRot (rotx t) ∧ IsRot (roty t) ∧ IsRot (rotz t) ∧
    IsRot (euler123 phi theta psi) ∧ IsRot (euler321 phi theta psi) := by
  refine ⟨rotx_rot t, roty_rot t, rotz_rot t, ?_, ?_⟩
  · rw [euler123_eq]; exact ((rotx_rot _).mul (roty_rot _)).mul (rotz_rot _)
  · rw [euler321_eq]; exact ((rotz_rot _).mul (roty_rot _)).mul (rotx_rot _)

/-- C34: what the axis rotations do: the axis stays, and (they are the passive rotations) the
next axis turns towards minus the one after. -/
theorem C34_axes (t : ℝ) :
    rotx t *ᵥ ![1, 0, 0] = ![1, 0, 0] ∧ rotx t *ᵥ ![0, 1, 0] = ![0, Real.cos t, -Real.sin t] ∧
    roty t *ᵥ ![0, 1, 0] = ![0, 1, 0] ∧ roty t *ᵥ ![0, 0, 1] = ![-Real.sin t, 0, Real.cos t] ∧
    rotz t *ᵥ ![0, 0, 1] = ![0, 0, 1] ∧ rotz t *ᵥ ![1, 0, 0] = ![Real.cos t, -Real.sin t, 0] := by
  refine ⟨?_, ?_, ?_, ?_, ?_, ?_⟩ <;>
    (apply vec3_ext <;> simp [rotx, roty, rotz, mulVec, dotProduct, Fin.sum_univ_three])

/-- C34, consistency: `euler321(roll, pitch, yaw)` is the product of the inverses (transposes)
of the code's axis rotations, and the transpose of `euler123`. -/
theorem C34_euler321_partial (phi theta psi : ℝ) :
    euler321 phi theta psi = (rotz psi)ᵀ * (roty theta)ᵀ * (rotx phi)ᵀ ∧
    euler321 phi theta psi = (euler123 phi theta psi)ᵀ ∧
    euler123 phi theta psi = rotx phi * roty theta * rotz psi := by
  have h : euler321 phi theta psi = (euler123 phi theta psi)ᵀ := by
    apply mat3_eq <;> simp [euler321, euler123]
  refine ⟨?_, h, euler123_eq _ _ _⟩
  rw [h, euler123_eq, Matrix.transpose_mul, Matrix.transpose_mul, Matrix.mul_assoc]

/-- C34 refuted as stated: `euler321` is not `rotz(yaw) * roty(pitch) * rotx(roll)`. -/
theorem C34_euler321_refuted : ∃ phi theta psi : ℝ,
    euler321 phi theta psi ≠ rotz psi * roty theta * rotx phi := by
  refine ⟨0, 0, Real.pi / 2, fun h => ?_⟩
  have := congrFun (congrFun h 1) 0
  rw [mul_entry, mul_entry, mul_entry, mul_entry] at this
  simp [euler321, rotx, roty, rotz] at this
  linarith

/-- The magnitude computed in `euler2quat` is one. -/
theorem euler2quat_eq (phi theta psi : ℝ) :
    euler2quat phi theta psi =
      ⟨Real.cos (phi / 2) * Real.cos (theta / 2) * Real.cos (psi / 2)
          + Real.sin (phi / 2) * Real.sin (theta / 2) * Real.sin (psi / 2),
       Real.sin (phi / 2) * Real.cos (theta / 2) * Real.cos (psi / 2)
          - Real.cos (phi / 2) * Real.sin (theta / 2) * Real.sin (psi / 2),
       Real.cos (phi / 2) * Real.sin (theta / 2) * Real.cos (psi / 2)
          + Real.sin (phi / 2) * Real.cos (theta / 2) * Real.sin (psi / 2),
       Real.cos (phi / 2) * Real.cos (theta / 2) * Real.sin (psi / 2)
          - Real.sin (phi / 2) * Real.sin (theta / 2) * Real.cos (psi / 2)⟩ := by
  have h1 := Real.sin_sq_add_cos_sq (phi / 2)
  have h2 := Real.sin_sq_add_cos_sq (theta / 2)
  have h3 := Real.sin_sq_add_cos_sq (psi / 2)
  unfold euler2quat
  generalize Real.cos (phi / 2) = a at *
  generalize Real.sin (phi / 2) = b at *
  generalize Real.cos (theta / 2) = c at *
  generalize Real.sin (theta / 2) = d at *
  generalize Real.cos (psi / 2) = e at *
  generalize Real.sin (psi / 2) = f at *
  have : Real.sqrt ((a * c * e + b * d * f) * (a * c * e + b * d * f)
      + (b * c * e - a * d * f) * (b * c * e - a * d * f)
      + (a * d * e + b * c * f) * (a * d * e + b * c * f)
      + (a * c * f - b * d * e) * (a * c * f - b * d * e)) = 1 := by
    rw [Real.sqrt_eq_one]
    have : (a * c * e + b * d * f) * (a * c * e + b * d * f)
      + (b * c * e - a * d * f) * (b * c * e - a * d * f)
      + (a * d * e + b * c * f) * (a * d * e + b * c * f)
      + (a * c * f - b * d * e) * (a * c * f - b * d * e) =
      (b ^ 2 + a ^ 2) * (d ^ 2 + c ^ 2) * (f ^ 2 + e ^ 2) := by ring
    rw [this, h1, h2, h3]; norm_num
  simp [this]

theorem euler2quat_norm (phi theta psi : ℝ) : (euler2quat phi theta psi).normSq = 1 := by
  rw [euler2quat_eq]
  have h1 := Real.sin_sq_add_cos_sq (phi / 2)
  have h2 := Real.sin_sq_add_cos_sq (theta / 2)
  have h3 := Real.sin_sq_add_cos_sq (psi / 2)
  unfold Quat.normSq
  have e : ∀ a b c d e f : ℝ, (a * c * e + b * d * f) * (a * c * e + b * d * f)
      + (b * c * e - a * d * f) * (b * c * e - a * d * f)
      + (a * d * e + b * c * f) * (a * d * e + b * c * f)
      + (a * c * f - b * d * e) * (a * c * f - b * d * e) =
      (b ^ 2 + a ^ 2) * (d ^ 2 + c ^ 2) * (f ^ 2 + e ^ 2) := by intros; ring
  simp only
  rw [e, h1, h2, h3]; norm_num

theorem euler2quat_rot (phi theta psi : ℝ) :
    quat2rot (euler2quat phi theta psi) = euler321 phi theta psi := by
  have h1 := Real.sin_sq_add_cos_sq (phi / 2)
  have h2 := Real.sin_sq_add_cos_sq (theta / 2)
  have h3 := Real.sin_sq_add_cos_sq (psi / 2)
  have d : ∀ t : ℝ, Real.sin t = 2 * Real.sin (t / 2) * Real.cos (t / 2) := by
    intro t; rw [← Real.sin_two_mul]; congr 1; ring
  have c : ∀ t : ℝ, Real.cos t = Real.cos (t / 2) ^ 2 - Real.sin (t / 2) ^ 2 := by
    intro t; rw [← Real.cos_two_mul']; congr 1; ring
  rw [euler2quat_eq, euler321, d phi, d theta, d psi, c phi, c theta, c psi]
  generalize Real.cos (phi / 2) = a at *
  generalize Real.sin (phi / 2) = b at *
  generalize Real.cos (theta / 2) = c at *
  generalize Real.sin (theta / 2) = d at *
  generalize Real.cos (psi / 2) = e at *
  generalize Real.sin (psi / 2) = f at *
  apply mat3_eq <;> simp [quat2rot]
  · linear_combination ((e ^ 2 - f ^ 2) * (c ^ 2 - d ^ 2)) * h1
  · linear_combination -(2 * f * e * (a ^ 2 - b ^ 2)) * h2
  · linear_combination (2 * f * e * (2 * b * a)) * h2
  · linear_combination (2 * f * e * (c ^ 2 - d ^ 2)) * h1
  · linear_combination ((e ^ 2 - f ^ 2) * (a ^ 2 - b ^ 2)) * h2
  · linear_combination -((e ^ 2 - f ^ 2) * (2 * b * a)) * h2
  · linear_combination -(2 * d * c) * (h1 * (f ^ 2 + e ^ 2) + h3)
  · linear_combination ((c ^ 2 - d ^ 2) * (2 * b * a)) * h3
  · linear_combination ((c ^ 2 - d ^ 2) * (a ^ 2 - b ^ 2)) * h3

theorem atan2_polar (r t : ℝ) (hr : 0 < r) (h1 : -Real.pi < t) (h2 : t ≤ Real.pi) :
    atan2 (r * Real.sin t) (r * Real.cos t) = t := by
  unfold atan2
  have : (⟨r * Real.cos t, r * Real.sin t⟩ : ℂ) =
      (r : ℂ) * (Complex.cos t + Complex.sin t * Complex.I) := by
    apply Complex.ext <;> simp [← Complex.ofReal_cos, ← Complex.ofReal_sin]
  rw [this]
  exact Complex.arg_mul_cos_add_sin_mul_I hr ⟨h1, h2⟩

/-- C34: `euler2quat` returns a unit quaternion whose rotation matrix (by `quat2rot` and by
Eigen) is `euler321`, for all angles. -/
theorem C34_euler2quat (phi theta psi : ℝ) :
    (euler2quat phi theta psi).normSq = 1 ∧
    quat2rot (euler2quat phi theta psi) = euler321 phi theta psi ∧
    (euler2quat phi theta psi).toRot = euler321 phi theta psi :=
  ⟨euler2quat_norm _ _ _, euler2quat_rot _ _ _,
    by rw [(C33_sandwich _).2 (euler2quat_norm _ _ _), euler2quat_rot]⟩

theorem quat2euler_rot (q : Quat ℝ) : quat2euler q =
    ![atan2 (quat2rot q 2 1) (quat2rot q 2 2), Real.arcsin (-(quat2rot q 2 0)),
      atan2 (quat2rot q 1 0) (quat2rot q 0 0)] := by
  have a : 2 * (q.x * q.w + q.z * q.y) = quat2rot q 2 1 := by simp [quat2rot]; ring
  have b : 2 * (q.y * q.w - q.x * q.z) = -(quat2rot q 2 0) := by simp [quat2rot]; ring
  have c : 2 * (q.x * q.y + q.z * q.w) = quat2rot q 1 0 := by simp [quat2rot]; ring
  rw [← a, ← b, ← c]
  rfl

/-- C34: `quat2euler` undoes `euler2quat` on the principal domain. -/
theorem C34_quat2euler (phi theta psi : ℝ) (h1 : -Real.pi < phi) (h2 : phi ≤ Real.pi)
    (h3 : -(Real.pi / 2) < theta) (h4 : theta < Real.pi / 2) (h5 : -Real.pi < psi)
    (h6 : psi ≤ Real.pi) :
    quat2euler (euler2quat phi theta psi) = ![phi, theta, psi] := by
  rw [quat2euler_rot, euler2quat_rot]
  have hc : 0 < Real.cos theta := Real.cos_pos_of_mem_Ioo ⟨h3, h4⟩
  apply vec3_ext <;> simp [euler321]
  · exact atan2_polar _ _ hc h1 h2
  · rw [Real.arcsin_sin] <;> linarith
  · rw [mul_comm, mul_comm (Real.cos psi)]
    exact atan2_polar _ _ hc h5 h6

/-- C34: and `euler2quat` of the angles gives back the quaternion up to sign, that is the same
rotation, for every unit quaternion away from the gimbal lock. -/
theorem C34_euler_of_quat (q : Quat ℝ) (hq : q.normSq = 1)
    (hg : |2 * (q.y * q.w - q.x * q.z)| < 1) :
    let e := quat2euler q
    euler321 (e 0) (e 1) (e 2) = q.toRot := by
  have hR : IsRot q.toRot := ⟨toRot_mul_transpose q hq, toRot_det q hq⟩
  have he := hR.entries
  have hs := (C33_sandwich q).2 hq
  intro e
  have e0 : e 0 = atan2 (q.toRot 2 1) (q.toRot 2 2) := by
    show quat2euler q 0 = _; rw [quat2euler_rot, ← hs]; rfl
  have e1 : e 1 = Real.arcsin (-(q.toRot 2 0)) := by
    show quat2euler q 1 = _; rw [quat2euler_rot, ← hs]; rfl
  have e2 : e 2 = atan2 (q.toRot 1 0) (q.toRot 0 0) := by
    show quat2euler q 2 = _; rw [quat2euler_rot, ← hs]; rfl
  have hg' : |-(q.toRot 2 0)| < 1 := by
    have : -(q.toRot 2 0) = 2 * (q.y * q.w - q.x * q.z) := by simp [Quat.toRot]; ring
    rw [this]; exact hg
  rw [abs_lt] at hg'
  generalize hm : q.toRot = m at *
  rw [e0, e1, e2]
  have polar : ∀ y x : ℝ, y * y + x * x ≠ 0 →
      Real.cos (atan2 y x) = x / Real.sqrt (y * y + x * x) ∧
      Real.sin (atan2 y x) = y / Real.sqrt (y * y + x * x) := by
    intro y x h
    have hz : (⟨x, y⟩ : ℂ) ≠ 0 := by
      intro hz
      have h1 := congrArg Complex.re hz
      have h2 := congrArg Complex.im hz
      simp at h1 h2
      rw [h1, h2] at h; simp at h
    have hn : ‖(⟨x, y⟩ : ℂ)‖ = Real.sqrt (y * y + x * x) := by
      rw [Complex.norm_def, Complex.normSq_mk, add_comm]
    unfold atan2
    rw [Complex.cos_arg hz, Complex.sin_arg, hn]
    exact ⟨rfl, rfl⟩
  have hd : 0 < 1 - m 2 0 * m 2 0 := by nlinarith
  have e21 : m 2 1 * m 2 1 + m 2 2 * m 2 2 = 1 - m 2 0 * m 2 0 := by linarith [he.r22]
  have e10 : m 1 0 * m 1 0 + m 0 0 * m 0 0 = 1 - m 2 0 * m 2 0 := by linarith [he.c00]
  obtain ⟨c0, s0⟩ := polar (m 2 1) (m 2 2) (by rw [e21]; exact hd.ne')
  obtain ⟨c2, s2⟩ := polar (m 1 0) (m 0 0) (by rw [e10]; exact hd.ne')
  have s1 : Real.sin (Real.arcsin (-(m 2 0))) = -(m 2 0) :=
    Real.sin_arcsin hg'.1.le hg'.2.le
  have c1 : Real.cos (Real.arcsin (-(m 2 0))) = Real.sqrt (1 - m 2 0 * m 2 0) := by
    rw [Real.cos_arcsin]; congr 1; ring
  rw [e21] at c0 s0
  rw [e10] at c2 s2
  have hsq : Real.sqrt (1 - m 2 0 * m 2 0) * Real.sqrt (1 - m 2 0 * m 2 0) = 1 - m 2 0 * m 2 0 :=
    Real.mul_self_sqrt hd.le
  have hsp : 0 < Real.sqrt (1 - m 2 0 * m 2 0) := Real.sqrt_pos.mpr hd
  generalize Real.sqrt (1 - m 2 0 * m 2 0) = s at *
  have his : s⁻¹ * s = 1 := inv_mul_cancel₀ hsp.ne'
  have hi : s⁻¹ * s⁻¹ * (1 - m 2 0 * m 2 0) = 1 := by
    rw [← hsq]; linear_combination (s⁻¹ * s + 1) * his
  obtain ⟨-, -, -, -, -, -, -, -, -, -, -, -, k00, k01, k02, k10, k11, k12, k20, k21, k22⟩ := he
  simp only [div_eq_mul_inv] at c0 s0 c2 s2
  unfold euler321
  rw [c0, s0, c1, s1, c2, s2]
  generalize s⁻¹ = i at *
  apply mat3_eq <;> simp
  · linear_combination m 0 0 * his
  · linear_combination i * i * (-k01 - m 2 0 * k12) + m 0 1 * hi
  · linear_combination i * i * (-k02 + m 2 0 * k11) + m 0 2 * hi
  · linear_combination m 1 0 * his
  · linear_combination i * i * (-k11 + m 2 0 * k02) + m 1 1 * hi
  · linear_combination i * i * (-k12 - m 2 0 * k01) + m 1 2 * hi
  · linear_combination m 2 1 * his
  · linear_combination m 2 2 * his

/-- C34 witness: angles with no special position, and a quaternion away from gimbal lock. -/
example : -Real.pi < (1 : ℝ) ∧ (1 : ℝ) ≤ Real.pi ∧ -(Real.pi / 2) < (1 : ℝ) ∧
    (1 : ℝ) < Real.pi / 2 ∧ (⟨3/5, 0, 4/5, 0⟩ : Quat ℚ).normSq = 1 ∧
    |2 * ((4/5 : ℚ) * (3/5) - 0 * 0)| < 1 := by
  have h := Real.pi_gt_three
  exact ⟨by linarith, by linarith, by linarith, by linarith, by decide +kernel, by norm_num [abs_lt]⟩

theorem norm3_sq (v : Vec3 ℝ) : norm3 v * norm3 v = dot3 v v := by
  unfold norm3
  apply Real.mul_self_sqrt
  unfold dot3; nlinarith [mul_self_nonneg (v 0), mul_self_nonneg (v 1), mul_self_nonneg (v 2)]

theorem dot3_nonneg (v : Vec3 ℝ) : 0 ≤ dot3 v v := by
  unfold dot3; nlinarith [mul_self_nonneg (v 0), mul_self_nonneg (v 1), mul_self_nonneg (v 2)]

/-- The unit quaternion of a rotation by `|v|` about `v`. -/
noncomputable def expQuat (v : Vec3 ℝ) : Quat ℝ :=
  let s := Real.sin (norm3 v / 2) / norm3 v
  ⟨Real.cos (norm3 v / 2), s * v 0, s * v 1, s * v 2⟩

theorem expQuat_norm (v : Vec3 ℝ) (h : 0 < norm3 v) : (expQuat v).normSq = 1 := by
  have h1 := norm3_sq v
  have h2 := Real.sin_sq_add_cos_sq (norm3 v / 2)
  unfold dot3 at h1
  have h3 : Real.sin (norm3 v / 2) / norm3 v * norm3 v = Real.sin (norm3 v / 2) :=
    div_mul_cancel₀ _ h.ne'
  simp only [expQuat, Quat.normSq]
  generalize Real.sin (norm3 v / 2) / norm3 v = s at *
  generalize norm3 v = n at *
  linear_combination h2 - s * s * h1 + (s * n + Real.sin (n / 2)) * h3

theorem rvec2rot_exp (v : Vec3 ℝ) (eps : ℝ) (h : 0 < norm3 v) (he : eps ≤ norm3 v) :
    rvec2rot v eps = quat2rot (expQuat v) := by
  have h1 := norm3_sq v
  have h2 := Real.sin_sq_add_cos_sq (norm3 v / 2)
  have ds : Real.sin (norm3 v) = 2 * Real.sin (norm3 v / 2) * Real.cos (norm3 v / 2) := by
    rw [← Real.sin_two_mul]; congr 1; ring
  have dc : Real.cos (norm3 v) = Real.cos (norm3 v / 2) ^ 2 - Real.sin (norm3 v / 2) ^ 2 := by
    rw [← Real.cos_two_mul']; congr 1; ring
  have e : Real.sqrt (dot3 v v) = norm3 v := rfl
  unfold rvec2rot expQuat
  simp only [e, if_neg (not_lt.mpr he), ds, dc]
  unfold dot3 at h1
  have hi : (norm3 v)⁻¹ * norm3 v = 1 := inv_mul_cancel₀ h.ne'
  simp only [div_eq_mul_inv (b := norm3 v)]
  generalize Real.cos (norm3 v * 2⁻¹) = c at *
  generalize Real.sin (norm3 v * 2⁻¹) = s at *
  generalize (norm3 v)⁻¹ = i at *
  generalize norm3 v = n at *
  have hu : (v 0 * i) ^ 2 + (v 1 * i) ^ 2 + (v 2 * i) ^ 2 = 1 := by
    linear_combination -i * i * h1 + (i * n + 1) * hi
  generalize Real.cos (n / 2) = c at *
  generalize Real.sin (n / 2) = s at *
  apply mat3_eq <;> simp [quat2rot]
  · linear_combination (v 0 * i * v 0 * i) * (-h2) + s ^ 2 * hu
  · linear_combination (v 0 * i * v 1 * i) * (-h2)
  · linear_combination (v 0 * i * v 2 * i) * (-h2)
  · linear_combination (v 0 * i * v 1 * i) * (-h2)
  · linear_combination (v 1 * i * v 1 * i) * (-h2) + s ^ 2 * hu
  · linear_combination (v 1 * i * v 2 * i) * (-h2)
  · linear_combination (v 0 * i * v 2 * i) * (-h2)
  · linear_combination (v 1 * i * v 2 * i) * (-h2)
  · linear_combination (v 2 * i * v 2 * i) * (-h2) + s ^ 2 * hu

theorem norm3_neg (v : Vec3 ℝ) : norm3 (-v) = norm3 v := by
  unfold norm3 dot3; congr 1; simp

/-- C34: for a rotation vector at least `eps` long, `rvec2rot` is a proper rotation, keeps the
axis, has the trace of a rotation by `|v|`, and the opposite vector gives the inverse. -/
theorem C34_rvec2rot_partial (v : Vec3 ℝ) (eps : ℝ) (h : 0 < norm3 v) (he : eps ≤ norm3 v) :
    IsRot (rvec2rot v eps) ∧ rvec2rot v eps *ᵥ v = v ∧
    (rvec2rot v eps).trace = 1 + 2 * Real.cos (norm3 v) ∧
    rvec2rot (-v) eps = (rvec2rot v eps)ᵀ ∧
    (∀ w, dot3 v w = 0 → rvec2rot v eps *ᵥ w = Real.cos (norm3 v) • w +
      (Real.sin (norm3 v) / norm3 v) • cross3 v w) := by
  have hn := expQuat_norm v h
  have hr := C33_rotation (expQuat v) hn
  have h1 := norm3_sq v
  have e : Real.sqrt (dot3 v v) = norm3 v := rfl
  have hi : (norm3 v)⁻¹ * norm3 v = 1 := inv_mul_cancel₀ h.ne'
  unfold dot3 at h1
  have hu : ∀ i n : ℝ, i * n = 1 → v 0 * v 0 + v 1 * v 1 + v 2 * v 2 = n * n →
      (v 0 * i) * (v 0 * i) + (v 1 * i) * (v 1 * i) + (v 2 * i) * (v 2 * i) = 1 := by
    intro i n a b
    linear_combination i * i * b + (i * n + 1) * a
  have hu := hu _ _ hi h1.symm
  refine ⟨by rw [rvec2rot_exp v eps h he]; exact ⟨hr.2.2.2.1, hr.2.2.2.2.2⟩, ?_, ?_, ?_, ?_⟩
  · rw [rvec2rot_exp v eps h he]
    unfold Quat.normSq at hn
    apply vec3_ext <;>
      simp [quat2rot, mulVec, dotProduct, Fin.sum_univ_three, expQuat] at hn ⊢ <;>
    · generalize Real.sin (norm3 v / 2) / norm3 v = s at *
      generalize Real.cos (norm3 v / 2) = c at *
      grind
  · unfold rvec2rot
    simp only [e, if_neg (not_lt.mpr he), div_eq_mul_inv]
    rw [Matrix.trace_fin_three]
    simp
    linear_combination (1 - Real.cos (norm3 v)) * hu
  · rw [rvec2rot_exp (-v) eps (by rw [norm3_neg]; exact h) (by rw [norm3_neg]; exact he),
      rvec2rot_exp v eps h he, ← (C33_homomorphism (expQuat v) (expQuat v)).2.2.2.1]
    congr 1
    simp only [expQuat, norm3_neg, Quat.conj, Pi.neg_apply]
    ext <;> simp
  · intro w hw
    unfold dot3 at hw
    unfold rvec2rot
    simp only [e, if_neg (not_lt.mpr he), div_eq_mul_inv]
    generalize Real.cos (norm3 v) = c at *
    generalize Real.sin (norm3 v) = s at *
    generalize (norm3 v)⁻¹ = i at *
    apply vec3_ext <;> simp [cross3, mulVec, dotProduct, Fin.sum_univ_three]
    · linear_combination (1 - c) * i * i * v 0 * hw
    · linear_combination (1 - c) * i * i * v 1 * hw
    · linear_combination (1 - c) * i * i * v 2 * hw

/-- C34 refuted for short rotation vectors: below `eps` the result is `I + skew(v)`, whose
determinant is `1 + |v|²`, so it is a proper rotation only for `v = 0`. -/
theorem C34_rvec2rot_refuted (v : Vec3 ℝ) (eps : ℝ) (he : norm3 v < eps) :
    rvec2rot v eps = 1 + skew v ∧ (rvec2rot v eps).det = 1 + dot3 v v ∧
    (IsRot (rvec2rot v eps) ↔ v = 0) := by
  have e : Real.sqrt (dot3 v v) = norm3 v := rfl
  have a : rvec2rot v eps = !![1, -(v 2), v 1; v 2, 1, -(v 0); -(v 1), v 0, 1] := by
    unfold rvec2rot
    simp only [e, if_pos he]
  have b : rvec2rot v eps = 1 + skew v := by
    rw [a]; apply mat3_eq <;> simp [skew]
  have d : (rvec2rot v eps).det = 1 + dot3 v v := by
    rw [a, Matrix.det_fin_three]; simp [dot3]; ring
  refine ⟨b, d, fun h => ?_, fun h => ?_⟩
  · have := h.2
    rw [d] at this
    unfold dot3 at this
    have h0 := mul_self_nonneg (v 0)
    have h1 := mul_self_nonneg (v 1)
    have h2 := mul_self_nonneg (v 2)
    apply vec3_ext <;> apply mul_self_eq_zero.mp <;> linarith
  · rw [b, h]
    have : skew (0 : Vec3 ℝ) = 0 := by apply mat3_eq <;> simp [skew]
    rw [this, add_zero]
    exact ⟨by simp, by simp⟩

/-- C34 witness: a long and a short rotation vector. -/
example : 0 < norm3 ![3, 0, 4] ∧ (1e-8 : ℝ) ≤ norm3 ![3, 0, 4] ∧ norm3 ![0, 0, 0] < 1e-8 := by
  have a : norm3 ![3, 0, 4] = 5 := by
    unfold norm3 dot3
    rw [show (5 : ℝ) = Real.sqrt (5 * 5) from (Real.sqrt_mul_self (by norm_num)).symm]
    congr 1; simp; norm_num
  have b : norm3 ![0, 0, 0] = 0 := by unfold norm3 dot3; simp
  rw [a, b]; norm_num

/-! ## C36 -/

/-- The rotation a pose parameter vector `(rx, ry, rz, qx, qy, qz, qw)` stands for. -/
noncomputable def poseRot (p : Fin 7 → ℝ) : Mat3 ℝ := tfRot (tfParams p)

/-- The stored quaternion has unit norm. -/
def UnitPose (p : Fin 7 → ℝ) : Prop := p 3 ^ 2 + p 4 ^ 2 + p 5 ^ 2 + p 6 ^ 2 = 1

theorem drot_sq (p0 p1 : Fin 7 → ℝ) (h0 : UnitPose p0) (h1 : UnitPose p1) :
    (poseDiff p0 p1).2 ^ 2 = 3 - ((poseRot p0)ᵀ * poseRot p1).trace := by
  unfold UnitPose at h0 h1
  unfold poseDiff
  simp only
  rw [pow_two, norm3_sq]
  rw [poseRot, poseRot, (C32_recover 1 0 ⟨1, 0, 0, 0⟩ p0).2.2.2.2.1,
    (C32_recover 1 0 ⟨1, 0, 0, 0⟩ p1).2.2.2.2.1]
  rw [Matrix.trace_fin_three, mul_entry, mul_entry, mul_entry]
  simp [quatMulArr, quatInvArr, dot3, Quat.toRot]
  generalize p0 3 = a at *
  generalize p0 4 = b at *
  generalize p0 5 = c at *
  generalize p0 6 = d at *
  generalize p1 3 = a' at *
  generalize p1 4 = b' at *
  generalize p1 5 = c' at *
  generalize p1 6 = d' at *
  have hd : d ^ 2 = 1 - a ^ 2 - b ^ 2 - c ^ 2 := by linarith
  have hd' : d' ^ 2 = 1 - a' ^ 2 - b' ^ 2 - c' ^ 2 := by linarith
  grind

theorem poseRot_rot (p : Fin 7 → ℝ) (h : UnitPose p) : IsRot (poseRot p) := by
  unfold UnitPose at h
  rw [poseRot, (C32_recover 1 0 ⟨1, 0, 0, 0⟩ p).2.2.2.2.1]
  have : (⟨p 6, p 3, p 4, p 5⟩ : Quat ℝ).normSq = 1 := by simp only [Quat.normSq]; linarith
  exact ⟨toRot_mul_transpose _ this, toRot_det _ this⟩

theorem rot_eq_of_trace {A B : Mat3 ℝ} (ha : IsRot A) (hb : IsRot B)
    (h : Matrix.trace (Aᵀ * B) = 3) : A = B := by
  have a := ha.entries
  have b := hb.entries
  rw [Matrix.trace_fin_three, mul_entry, mul_entry, mul_entry] at h
  simp only [Matrix.transpose_apply] at h
  have key : (A 0 0 - B 0 0) ^ 2 + (A 0 1 - B 0 1) ^ 2 + (A 0 2 - B 0 2) ^ 2 +
      (A 1 0 - B 1 0) ^ 2 + (A 1 1 - B 1 1) ^ 2 + (A 1 2 - B 1 2) ^ 2 +
      (A 2 0 - B 2 0) ^ 2 + (A 2 1 - B 2 1) ^ 2 + (A 2 2 - B 2 2) ^ 2 = 0 := by
    linear_combination a.r00 + a.r11 + a.r22 + b.r00 + b.r11 + b.r22 - 2 * h
  have n : ∀ i j, 0 ≤ (A i j - B i j) ^ 2 := fun i j => sq_nonneg _
  have n00 := n 0 0
  have n01 := n 0 1
  have n02 := n 0 2
  have n10 := n 1 0
  have n11 := n 1 1
  have n12 := n 1 2
  have n20 := n 2 0
  have n21 := n 2 1
  have n22 := n 2 2
  apply mat3_eq <;> apply sub_eq_zero.mp <;> apply pow_eq_zero_iff (two_ne_zero) |>.mp <;> linarith

/-- C36, what holds: equal poses give `(0, 0)`; the first component is the distance; for unit
quaternions the second is the chord `2 sin(α/2)` of the relative rotation angle `α` (despite
the array functions reading the stored `(x,y,z,w)` as `(w,x,y,z)`), it is zero exactly if the
rotations are equal, and it never exceeds the angle. -/
theorem C36_pose_diff_partial (p0 p1 : Fin 7 → ℝ) :
    poseDiff p0 p0 = (0, 0) ∧
    (poseDiff p0 p1).1 = Real.sqrt ((p0 0 - p1 0) ^ 2 + (p0 1 - p1 1) ^ 2 + (p0 2 - p1 2) ^ 2) ∧
    (UnitPose p0 → UnitPose p1 →
      ((poseDiff p0 p1).2 = 0 ↔ poseRot p0 = poseRot p1) ∧
      ∀ α, 0 ≤ α → α ≤ Real.pi → 1 + 2 * Real.cos α = ((poseRot p0)ᵀ * poseRot p1).trace →
        (poseDiff p0 p1).2 = 2 * Real.sin (α / 2) ∧ (poseDiff p0 p1).2 ≤ α) := by
  have hnn : 0 ≤ (poseDiff p0 p1).2 := Real.sqrt_nonneg _
  refine ⟨?_, ?_, fun h0 h1 => ⟨?_, fun α ha hb htr => ?_⟩⟩
  · unfold poseDiff norm3 dot3
    simp [quatMulArr, quatInvArr]
    rw [Real.sqrt_eq_zero']
    ring_nf; norm_num
  · unfold poseDiff norm3 dot3
    simp; congr 1; ring
  · have hs := drot_sq p0 p1 h0 h1
    constructor
    · intro hz
      rw [hz] at hs
      exact rot_eq_of_trace (poseRot_rot p0 h0) (poseRot_rot p1 h1) (by linarith)
    · intro he
      have hr := poseRot_rot p1 h1
      rw [he, mul_eq_one_comm.mp hr.1, Matrix.trace_one] at hs
      norm_num at hs
      exact hs
  · have hs := drot_sq p0 p1 h0 h1
    rw [← htr] at hs
    have hh : Real.cos α = 1 - 2 * Real.sin (α / 2) ^ 2 := by
      have := Real.cos_two_mul (α / 2)
      have h2 := Real.sin_sq_add_cos_sq (α / 2)
      rw [show 2 * (α / 2) = α by ring] at this
      linarith
    have hsn : 0 ≤ Real.sin (α / 2) := Real.sin_nonneg_of_nonneg_of_le_pi (by linarith) (by linarith [Real.pi_pos])
    have : (poseDiff p0 p1).2 = 2 * Real.sin (α / 2) := by
      have : (poseDiff p0 p1).2 ^ 2 = (2 * Real.sin (α / 2)) ^ 2 := by rw [hs, hh]; ring
      exact (pow_left_inj₀ hnn (by linarith) two_ne_zero).mp this
    refine ⟨this, ?_⟩
    rw [this]
    have := Real.sin_le (show 0 ≤ α / 2 by linarith)
    linarith

/-- C36 refuted as stated: for a half turn the rotation component is 2, not π. -/
theorem C36_angle_refuted : ∃ p0 p1 : Fin 7 → ℝ, UnitPose p0 ∧ UnitPose p1 ∧
    1 + 2 * Real.cos Real.pi = Matrix.trace ((poseRot p0)ᵀ * poseRot p1) ∧
    (poseDiff p0 p1).2 = 2 ∧ (poseDiff p0 p1).2 ≠ Real.pi := by
  have h0 : UnitPose ![0, 0, 0, 0, 0, 0, 1] := by simp [UnitPose]
  have h1 : UnitPose ![0, 0, 0, 1, 0, 0, 0] := by simp [UnitPose]
  have tr : 1 + 2 * Real.cos Real.pi =
      Matrix.trace ((poseRot ![0, 0, 0, 0, 0, 0, 1])ᵀ * poseRot ![0, 0, 0, 1, 0, 0, 0]) := by
    rw [poseRot, poseRot, (C32_recover 1 0 ⟨1, 0, 0, 0⟩ _).2.2.2.2.1,
      (C32_recover 1 0 ⟨1, 0, 0, 0⟩ _).2.2.2.2.1, Matrix.trace_fin_three, mul_entry, mul_entry,
      mul_entry]
    simp [Quat.toRot]; norm_num
  have h2 := (((C36_pose_diff_partial ![0, 0, 0, 0, 0, 0, 1] ![0, 0, 0, 1, 0, 0, 0]).2.2 h0
    h1).2 Real.pi Real.pi_pos.le le_rfl tr).1
  rw [Real.sin_pi_div_two, mul_one] at h2
  refine ⟨_, _, h0, h1, tr, h2, ?_⟩
  rw [h2]
  have := Real.pi_gt_three
  intro h; linarith

/-- C36 witness: two distinct unit poses. -/
example : UnitPose ![1, 2, 3, 0, 3/5, 0, 4/5] ∧ UnitPose ![1, 2, 3, 1/2, 1/2, 1/2, 1/2] := by
  constructor <;> simp [UnitPose] <;> norm_num

/-! ## C67 -/

theorem normalized_unit (v : Vec3 ℝ) (h : v ≠ 0) :
    dot3 (normalized v) (normalized v) = 1 ∧ norm3 v • normalized v = v ∧ 0 < norm3 v := by
  have hp : 0 < dot3 v v := by
    rcases (dot3_nonneg v).lt_or_eq with h' | h'
    · exact h'
    · exfalso; apply h
      unfold dot3 at h'
      have h0 := mul_self_nonneg (v 0)
      have h1 := mul_self_nonneg (v 1)
      have h2 := mul_self_nonneg (v 2)
      apply vec3_ext <;> apply mul_self_eq_zero.mp <;> linarith
  have hn : 0 < norm3 v := Real.sqrt_pos.mpr hp
  have hs := norm3_sq v
  have e : normalized v = fun i => v i / norm3 v := by unfold normalized; rw [if_pos hp]; rfl
  refine ⟨?_, ?_, hn⟩
  · rw [e]; unfold dot3 at hs ⊢
    simp only [div_mul_div_comm, ← add_div]
    rw [← hs]; exact div_self (by positivity)
  · rw [e]; ext i; simp; field_simp

/-- C67: for non-zero vectors that do not point in opposite directions, `vecs2rot(a, g)` is a
proper rotation taking the direction of `a` to the direction of `g`. -/
theorem C67_vecs2rot_partial (a g : Vec3 ℝ) (ha : a ≠ 0) (hg : g ≠ 0)
    (hne : normalized g ≠ -normalized a) :
    IsRot (vecs2rot a g) ∧ vecs2rot a g *ᵥ normalized a = normalized g := by
  obtain ⟨ua, sa, na⟩ := normalized_unit a ha
  obtain ⟨ug, sg, ng⟩ := normalized_unit g hg
  have hA : ∀ i, a i = norm3 a * normalized a i := fun i => by
    conv_lhs => rw [← sa]
    rfl
  have hG : ∀ i, g i = norm3 g * normalized g i := fun i => by
    conv_lhs => rw [← sg]
    rfl
  have hcr : ∀ i, cross3 a g i = norm3 a * norm3 g * cross3 (normalized a) (normalized g) i := by
    intro i
    have key : ∀ j k, a j * g k - a k * g j = norm3 a * norm3 g *
        (normalized a j * normalized g k - normalized a k * normalized g j) := by
      intro j k
      rw [hA j, hG k, hA k, hG j]; ring
    fin_cases i
    · exact key 1 2
    · exact key 2 0
    · exact key 0 1
  unfold vecs2rot
  simp only
  generalize hcd : dot3 (normalized a) (normalized g) = c
  have hc1 : c ≤ 1 := by
    have := dot3_nonneg (fun i => normalized a i - normalized g i)
    unfold dot3 at this hcd ua ug
    nlinarith
  have hplus : dot3 (fun i => normalized a i + normalized g i)
      (fun i => normalized a i + normalized g i) = 2 + 2 * c := by
    unfold dot3 at hcd ua ug ⊢
    linear_combination ua + ug + 2 * hcd
  have hc2 : -1 < c := by
    rcases lt_or_ge (-1) c with h | h
    · exact h
    · exfalso; apply hne
      have hz := dot3_nonneg (fun i => normalized a i + normalized g i)
      have hz0 : dot3 (fun i => normalized a i + normalized g i)
        (fun i => normalized a i + normalized g i) = 0 := by linarith
      unfold dot3 at hz0
      have h0 := mul_self_nonneg (normalized a 0 + normalized g 0)
      have h1 := mul_self_nonneg (normalized a 1 + normalized g 1)
      have h2 := mul_self_nonneg (normalized a 2 + normalized g 2)
      have : ∀ x y : ℝ, x + y = 0 → y = -x := fun x y h => by linarith
      apply vec3_ext <;> apply this <;> apply mul_self_eq_zero.mp <;> linarith
  have hhc : Real.sqrt (1 / 2 * (1 + c)) * Real.sqrt (1 / 2 * (1 + c)) = 1 / 2 * (1 + c) :=
    Real.mul_self_sqrt (by linarith)
  have hhs : Real.sqrt (1 / 2 * (1 - c)) * Real.sqrt (1 / 2 * (1 - c)) = 1 / 2 * (1 - c) :=
    Real.mul_self_sqrt (by linarith)
  have hhc0 : 0 ≤ Real.sqrt (1 / 2 * (1 + c)) := Real.sqrt_nonneg _
  have hhs0 : 0 ≤ Real.sqrt (1 / 2 * (1 - c)) := Real.sqrt_nonneg _
  have lag : dot3 (cross3 (normalized a) (normalized g)) (cross3 (normalized a) (normalized g)) =
      1 - c * c := by
    unfold dot3 at hcd ua ug ⊢
    simp [cross3]
    rw [← hcd]
    linear_combination (normalized g 0 * normalized g 0 + normalized g 1 * normalized g 1 +
      normalized g 2 * normalized g 2) * ua + ug
  by_cases hz : cross3 a g = 0
  · have hx : cross3 (normalized a) (normalized g) = 0 := by
      ext i
      have := hcr i
      rw [hz] at this
      rcases mul_eq_zero.mp this.symm with h | h
      · rcases mul_eq_zero.mp h with h | h <;> linarith
      · exact h
    rw [hx] at lag
    have hc : c = 1 := by
      simp [dot3] at lag
      have : (1 - c) * (1 + c) = 0 := by linarith
      rcases mul_eq_zero.mp this with h | h <;> linarith
    have hn : normalized (cross3 a g) = 0 := by rw [hz]; unfold normalized; simp [dot3]
    have hga : normalized g = normalized a := by
      have hd : dot3 (fun i => normalized a i - normalized g i)
        (fun i => normalized a i - normalized g i) = 0 := by
        unfold dot3 at hcd ua ug ⊢
        rw [hc] at hcd
        linear_combination ua + ug - 2 * hcd
      unfold dot3 at hd
      have h0 := mul_self_nonneg (normalized a 0 - normalized g 0)
      have h1 := mul_self_nonneg (normalized a 1 - normalized g 1)
      have h2 := mul_self_nonneg (normalized a 2 - normalized g 2)
      have : ∀ x y : ℝ, x - y = 0 → y = x := fun x y h => by linarith
      apply vec3_ext <;> apply this <;> apply mul_self_eq_zero.mp <;> linarith
    rw [hn, hc, hga]
    have one : quat2rot (⟨Real.sqrt (1 / 2 * (1 + 1)), Real.sqrt (1 / 2 * (1 - 1)) * (0 : Vec3 ℝ) 0,
        Real.sqrt (1 / 2 * (1 - 1)) * (0 : Vec3 ℝ) 1, Real.sqrt (1 / 2 * (1 - 1)) * (0 : Vec3 ℝ) 2⟩ :
        Quat ℝ) = 1 := by
      rw [show (1 : ℝ) / 2 * (1 + 1) = 1 by norm_num, Real.sqrt_one]
      apply mat3_eq <;> simp [quat2rot]
    rw [one]
    exact ⟨⟨by simp, by simp⟩, by simp⟩
  · obtain ⟨uw, sw, nw⟩ := normalized_unit _ hz
    have hW : ∀ i, norm3 (cross3 a g) * normalized (cross3 a g) i = cross3 a g i := fun i => by
      conv_rhs => rw [← sw]
      rfl
    have hns : norm3 (cross3 a g) = norm3 a * norm3 g *
        (2 * Real.sqrt (1 / 2 * (1 + c)) * Real.sqrt (1 / 2 * (1 - c))) := by
      refine (pow_left_inj₀ nw.le (by positivity) two_ne_zero).mp ?_
      have e1 : norm3 (cross3 a g) ^ 2 = (norm3 a * norm3 g) ^ 2 * (1 - c * c) := by
        rw [pow_two, norm3_sq, ← lag]
        unfold dot3
        rw [hcr 0, hcr 1, hcr 2]; ring
      rw [e1]
      generalize Real.sqrt (1 / 2 * (1 + c)) = hc at *
      generalize Real.sqrt (1 / 2 * (1 - c)) = hs at *
      have : hc ^ 2 * hs ^ 2 = (1 / 2 * (1 + c)) * (1 / 2 * (1 - c)) := by
        rw [← hhc, ← hhs]; ring
      linear_combination (-4 * (norm3 a * norm3 g) ^ 2) * this
    have hS : ∀ i, 2 * Real.sqrt (1 / 2 * (1 + c)) * Real.sqrt (1 / 2 * (1 - c)) *
        normalized (cross3 a g) i = cross3 (normalized a) (normalized g) i := by
      intro i
      have h1 := hW i
      rw [hns, hcr i, mul_assoc] at h1
      exact mul_left_cancel₀ (by positivity) h1
    have hnz : 2 * Real.sqrt (1 / 2 * (1 + c)) * Real.sqrt (1 / 2 * (1 - c)) ≠ 0 := by
      intro h0
      rw [h0, mul_zero] at hns
      exact nw.ne' hns
    have horth : dot3 (normalized (cross3 a g)) (normalized a) = 0 := by
      apply mul_left_cancel₀ hnz
      unfold dot3
      rw [mul_zero, mul_add, mul_add, ← mul_assoc, ← mul_assoc, ← mul_assoc, hS 0, hS 1, hS 2]
      simp [cross3]; ring
    generalize hw : normalized (cross3 a g) = w at *
    generalize Real.sqrt (1 / 2 * (1 + c)) = hc at *
    generalize Real.sqrt (1 / 2 * (1 - c)) = hs at *
    generalize normalized a = A at *
    generalize normalized g = G at *
    have h0 : 2 * hc * hs * w 0 = A 1 * G 2 - A 2 * G 1 := hS 0
    have h1 : 2 * hc * hs * w 1 = A 2 * G 0 - A 0 * G 2 := hS 1
    have h2 : 2 * hc * hs * w 2 = A 0 * G 1 - A 1 * G 0 := hS 2
    unfold dot3 at horth uw ua ug hcd
    have hunit : (⟨hc, hs * w 0, hs * w 1, hs * w 2⟩ : Quat ℝ).normSq = 1 := by
      simp only [Quat.normSq]
      linear_combination hhc + hhs + hs * hs * uw
    have hr := C33_rotation _ hunit
    refine ⟨⟨hr.2.2.2.1, hr.2.2.2.2.2⟩, ?_⟩
    apply vec3_ext <;> simp [quat2rot, mulVec, dotProduct, Fin.sum_univ_three]
    · linear_combination A 0 * hhc - A 0 * hhs - A 0 * hs * hs * uw + 2 * hs * hs * w 0 * horth
        + h1 * A 2 - h2 * A 1 + G 0 * ua - A 0 * hcd
    · linear_combination A 1 * hhc - A 1 * hhs - A 1 * hs * hs * uw + 2 * hs * hs * w 1 * horth
        + h2 * A 0 - h0 * A 2 + G 1 * ua - A 1 * hcd
    · linear_combination A 2 * hhc - A 2 * hhs - A 2 * hs * hs * uw + 2 * hs * hs * w 2 * horth
        + h0 * A 1 - h1 * A 0 + G 2 * ua - A 2 * hcd

/-- C67 refuted for opposite directions: the result is the zero matrix. -/
theorem C67_opposite_refuted : vecs2rot ![1, 0, 0] ![-1, 0, 0] = 0 := by
  have na : normalized ![1, 0, 0] = ![1, 0, 0] := by
    unfold normalized dot3; simp
  have ng : normalized ![-1, 0, 0] = ![-1, 0, 0] := by
    unfold normalized dot3; simp
  have cr : cross3 ![1, 0, 0] ![-1, 0, (0 : ℝ)] = 0 := by
    ext i; fin_cases i <;> simp [cross3]
  have n0 : normalized 0 = 0 := by unfold normalized; simp [dot3]
  unfold vecs2rot
  rw [na, ng, cr, n0]
  have : dot3 ![1, 0, 0] ![-1, 0, (0 : ℝ)] = -1 := by simp [dot3]
  simp only [this]
  rw [show (1 : ℝ) / 2 * (1 + -1) = 0 by norm_num, Real.sqrt_zero]
  apply mat3_eq <;> simp [quat2rot]

/-- C67 witness: orthogonal vectors of different length. -/
example : (![2, 0, 0] : Vec3 ℝ) ≠ 0 ∧ (![0, 3, 0] : Vec3 ℝ) ≠ 0 ∧
    normalized ![0, 3, 0] ≠ -normalized ![2, 0, 0] := by
  refine ⟨fun h => ?_, fun h => ?_, fun h => ?_⟩
  · have := congrFun h 0; simp at this
  · have := congrFun h 1; simp at this
  · have := congrFun h 1
    unfold normalized dot3 at this
    simp at this

end Yac.Geom
