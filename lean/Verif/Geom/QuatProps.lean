import Verif.Geom.RotLemmas
import Verif.Geom.Linear
import Mathlib.Algebra.Quaternion

/-!
# C33 (quaternions) and C35 (skew)
-/

namespace Yac.Geom
open Matrix

/-! ## Specification vocabulary -/

/-- A stored quaternion as an element of Mathlib's Hamilton quaternions. -/
def toH {K : Type} [CommRing K] (q : Quat K) : Quaternion K := ⟨q.w, q.x, q.y, q.z⟩

/-- A vector as a purely imaginary Hamilton quaternion. -/
def vecH {K : Type} [CommRing K] (v : Vec3 K) : Quaternion K := ⟨0, v 0, v 1, v 2⟩

/-- The array `(w, x, y, z)` as a Hamilton quaternion. -/
def arrH {K : Type} [CommRing K] (a : Fin 4 → K) : Quaternion K := ⟨a 0, a 1, a 2, a 3⟩

/-- The array `(x, y, z, w)` as a Hamilton quaternion. -/
def coeffH {K : Type} [CommRing K] (a : Fin 4 → K) : Quaternion K := ⟨a 3, a 0, a 1, a 2⟩

variable {K : Type} [CommRing K]

@[simp] theorem toH_re (q : Quat K) : (toH q).re = q.w := rfl
@[simp] theorem toH_imI (q : Quat K) : (toH q).imI = q.x := rfl
@[simp] theorem toH_imJ (q : Quat K) : (toH q).imJ = q.y := rfl
@[simp] theorem toH_imK (q : Quat K) : (toH q).imK = q.z := rfl
@[simp] theorem vecH_re (v : Vec3 K) : (vecH v).re = 0 := rfl
@[simp] theorem vecH_imI (v : Vec3 K) : (vecH v).imI = v 0 := rfl
@[simp] theorem vecH_imJ (v : Vec3 K) : (vecH v).imJ = v 1 := rfl
@[simp] theorem vecH_imK (v : Vec3 K) : (vecH v).imK = v 2 := rfl
@[simp] theorem arrH_re (a : Fin 4 → K) : (arrH a).re = a 0 := rfl
@[simp] theorem arrH_imI (a : Fin 4 → K) : (arrH a).imI = a 1 := rfl
@[simp] theorem arrH_imJ (a : Fin 4 → K) : (arrH a).imJ = a 2 := rfl
@[simp] theorem arrH_imK (a : Fin 4 → K) : (arrH a).imK = a 3 := rfl
@[simp] theorem coeffH_re (a : Fin 4 → K) : (coeffH a).re = a 3 := rfl
@[simp] theorem coeffH_imI (a : Fin 4 → K) : (coeffH a).imI = a 0 := rfl
@[simp] theorem coeffH_imJ (a : Fin 4 → K) : (coeffH a).imJ = a 1 := rfl
@[simp] theorem coeffH_imK (a : Fin 4 → K) : (coeffH a).imK = a 2 := rfl

theorem vec3_ext {a b : Vec3 K} (h0 : a 0 = b 0) (h1 : a 1 = b 1) (h2 : a 2 = b 2) : a = b := by
  ext i; fin_cases i <;> assumption

/-- C33: `p * q`, `quat_lmul(p) * q`, `quat_rmul(q) * p`, `plus(p) * q`, `oplus(q) * p` and
the array product are all the Hamilton product, each in its own component order. -/
theorem C33_hamilton (p q : Quat K) (a b : Fin 4 → K) :
    toH (p.mul q) = toH p * toH q ∧
    arrH (quatLmul p *ᵥ b) = toH p * arrH b ∧
    arrH (quatRmul q *ᵥ a) = arrH a * toH q ∧
    coeffH (plusMat p *ᵥ b) = toH p * coeffH b ∧
    coeffH (oplusMat q *ᵥ a) = coeffH a * toH q ∧
    arrH (quatMulArr a b) = arrH a * arrH b := by
  refine ⟨?_, ?_, ?_, ?_, ?_, ?_⟩ <;>
  · ext <;> simp [Quat.mul, quatLmul, quatRmul, plusMat, oplusMat, quatMulArr,
      Quat.coeffs, mulVec, dotProduct, Fin.sum_univ_four] <;> ring

/-- C33: the component orders. -/
theorem C33_layout (q : Quat K) : arrH q.wxyz = toH q ∧ coeffH q.coeffs = toH q := by
  constructor <;> ext <;> simp [Quat.wxyz, Quat.coeffs]

/-- C33: `quat2array` and `vec2array` keep the storage order of the parameter vectors. -/
theorem C33_quat2array (q : Quat K) (v : List K) :
    quat2array q.w q.x q.y q.z = List.ofFn q.coeffs ∧ vec2array v = v := by
  refine ⟨by simp [quat2array, Quat.coeffs, List.ofFn_succ], ?_⟩
  have : ∀ (l a : List K), l.foldl (fun a x => a ++ [x]) a = a ++ l := by
    intro l
    induction l with
    | nil => simp
    | cons b l ih => intro a; simp [ih]
  exact (this v []).trans (List.nil_append v)

/-- C33: `quat_inv` is the Hamilton conjugate, hence the two-sided inverse of a quaternion
whose squared norm is one. -/
theorem C33_inv (a : Fin 4 → K) :
    arrH (quatInvArr a) = star (arrH a) ∧
    (a 0 ^ 2 + a 1 ^ 2 + a 2 ^ 2 + a 3 ^ 2 = 1 →
      quatMulArr (quatInvArr a) a = ![1, 0, 0, 0] ∧
      quatMulArr a (quatInvArr a) = ![1, 0, 0, 0]) := by
  refine ⟨by ext <;> simp [quatInvArr], fun h => ⟨?_, ?_⟩⟩ <;>
  · ext i
    fin_cases i <;> simp [quatMulArr, quatInvArr]
    · linear_combination h
    all_goals ring

/-- C33, the inverse of other quaternions: `quat_inv` does not invert. -/
theorem C33_inv_nonunit_refuted :
    quatMulArr (quatInvArr ![2, 0, 0, (0 : ℤ)]) ![2, 0, 0, 0] = ![4, 0, 0, 0] := by decide

/-- C33: `quat2rot(q) * v` is the vector part of `q v q*`, whose scalar part is zero, and for
a unit quaternion Eigen's `toRotationMatrix` is the same matrix. -/
theorem C33_sandwich (q : Quat K) :
    (∀ v, vecH (quat2rot q *ᵥ v) = toH q * vecH v * star (toH q)) ∧
    (q.normSq = 1 → q.toRot = quat2rot q) := by
  constructor
  · intro v
    ext <;> simp [quat2rot, mulVec, dotProduct, Fin.sum_univ_three] <;> ring
  · intro h
    unfold Quat.normSq at h
    apply mat3_eq <;> simp [Quat.toRot, quat2rot]
    · linear_combination -h
    · ring
    · ring
    · ring
    · linear_combination -h
    · ring
    · ring
    · ring
    · linear_combination -h

theorem toRot_mul_transpose (q : Quat K) (h : q.normSq = 1) : q.toRot * q.toRotᵀ = 1 := by
  unfold Quat.normSq at h
  have hw : q.w * q.w = 1 - q.x * q.x - q.y * q.y - q.z * q.z := by linear_combination h
  apply mat3_eq <;> rw [mul_entry] <;> simp [Quat.toRot] <;> grind

theorem toRot_det (q : Quat K) (h : q.normSq = 1) : q.toRot.det = 1 := by
  unfold Quat.normSq at h
  have hw : q.w * q.w = 1 - q.x * q.x - q.y * q.y - q.z * q.z := by linear_combination h
  rw [Matrix.det_fin_three]
  simp [Quat.toRot]
  grind

/-- C33: the rotation matrix of a unit quaternion is orthonormal with determinant one, both
functions. -/
theorem C33_rotation (q : Quat K) (h : q.normSq = 1) :
    q.toRot * q.toRotᵀ = 1 ∧ q.toRotᵀ * q.toRot = 1 ∧ q.toRot.det = 1 ∧
    quat2rot q * (quat2rot q)ᵀ = 1 ∧ (quat2rot q)ᵀ * quat2rot q = 1 ∧ (quat2rot q).det = 1 := by
  have e := (C33_sandwich q).2 h
  have h1 := toRot_mul_transpose q h
  have h2 := mul_eq_one_comm.mp h1
  have h3 := toRot_det q h
  exact ⟨h1, h2, h3, e ▸ h1, e ▸ h2, e ▸ h3⟩

/-- C33: without the unit-norm condition `quat2rot` scales by the squared norm and Eigen's
conversion is no rotation. -/
theorem C33_nonunit_refuted :
    quat2rot (⟨2, 0, 0, 0⟩ : Quat ℤ) = 4 • (1 : Mat3 ℤ) ∧
    (Quat.toRot (⟨0, 2, 0, 0⟩ : Quat ℤ)) 1 1 = -7 := by
  constructor <;> decide

theorem quat2rot_mul (p q : Quat K) : quat2rot (p.mul q) = quat2rot p * quat2rot q := by
  apply mat3_eq <;> rw [mul_entry] <;> simp [quat2rot, Quat.mul] <;> ring

theorem normSq_mul (p q : Quat K) : (p.mul q).normSq = p.normSq * q.normSq := by
  simp [Quat.mul, Quat.normSq]; ring

/-- C33: the map is a homomorphism (`quat2rot` for all quaternions, Eigen's for unit ones),
conjugation becomes transposition, `q` and `-q` give the same rotation, and products of unit
quaternions are unit. -/
theorem C33_homomorphism (p q : Quat K) :
    quat2rot (p.mul q) = quat2rot p * quat2rot q ∧
    (p.normSq = 1 → q.normSq = 1 → (p.mul q).normSq = 1 ∧
      (p.mul q).toRot = p.toRot * q.toRot) ∧
    q.conj.toRot = q.toRotᵀ ∧ quat2rot q.conj = (quat2rot q)ᵀ ∧
    Quat.toRot ⟨-q.w, -q.x, -q.y, -q.z⟩ = q.toRot ∧
    quat2rot (⟨1, 0, 0, 0⟩ : Quat K) = 1 ∧ Quat.toRot (⟨1, 0, 0, 0⟩ : Quat K) = 1 := by
  refine ⟨quat2rot_mul p q, fun hp hq => ?_, ?_, ?_, ?_, ?_, ?_⟩
  · have h : (p.mul q).normSq = 1 := by rw [normSq_mul, hp, hq, one_mul]
    exact ⟨h, by rw [(C33_sandwich _).2 h, (C33_sandwich p).2 hp, (C33_sandwich q).2 hq,
      quat2rot_mul]⟩
  · apply mat3_eq <;> simp [Quat.toRot, Quat.conj] <;> ring
  · apply mat3_eq <;> simp [quat2rot, Quat.conj] <;> ring
  · apply mat3_eq <;> simp [Quat.toRot]
  · apply mat3_eq <;> simp [quat2rot]
  · apply mat3_eq <;> simp [Quat.toRot]

/-- C33: `quat_lmul_xyz`, `quat_rmul_xyz` are the blocks `w I ± skew(x, y, z)`. -/
theorem C33_blocks (q : Quat K) :
    quatMatXyz (quatLmul q) = q.w • (1 : Mat3 K) + skew ![q.x, q.y, q.z] ∧
    quatMatXyz (quatRmul q) = q.w • (1 : Mat3 K) - skew ![q.x, q.y, q.z] := by
  constructor <;> apply mat3_eq <;> simp [quatMatXyz, quatLmul, quatRmul, skew]

/-- C33 witness: a unit quaternion that is no axis rotation by a right angle. -/
example : (⟨1/2, 1/2, 1/2, 1/2⟩ : Quat ℚ).normSq = 1 ∧ (⟨3/5, 0, 4/5, 0⟩ : Quat ℚ).normSq = 1 ∧
    (⟨3/5, 0, 4/5, 0⟩ : Quat ℚ).toRot 0 2 = 24/25 := by
  decide +kernel

/-! ## C35 -/

/-- C35: antisymmetric, `skew(a) b = a × b` (Mathlib's cross product written out), and
`skewsq` is the square. -/
theorem C35_skew (a b : Vec3 K) :
    (skew a)ᵀ = -skew a ∧
    skew a *ᵥ b = ![a 1 * b 2 - a 2 * b 1, a 2 * b 0 - a 0 * b 2, a 0 * b 1 - a 1 * b 0] ∧
    skewsq a = skew a * skew a ∧
    skew a *ᵥ b = -(skew b *ᵥ a) ∧ skew a *ᵥ a = 0 := by
  refine ⟨?_, ?_, ?_, ?_, ?_⟩
  · apply mat3_eq <;> simp [skew]
  · apply vec3_ext <;> simp [skew, mulVec, dotProduct, Fin.sum_univ_three] <;> ring
  · apply mat3_eq <;> rw [mul_entry] <;> simp [skew, skewsq, vecMulVec, dot3] <;> ring
  · apply vec3_ext <;> simp [skew, mulVec, dotProduct, Fin.sum_univ_three] <;> ring
  · apply vec3_ext <;> simp [skew, mulVec, dotProduct, Fin.sum_univ_three] <;> ring

example : skew ![1, 2, (3 : ℤ)] *ᵥ ![4, 5, 6] = ![-3, 6, -3] := by decide

end Yac.Geom
