import Verif.Residual.Model
import Verif.Geom.PoseProps
import Verif.Cam.Props

/-!
Entrywise derivatives of matrix and vector valued curves, and of poses moved by the update rules.
-/

namespace Yac.Residual
open Matrix Yac.Geom Yac.Cam

section entrywise
set_option linter.unusedSectionVars false
variable {l m n : Type} [Fintype m] [Fintype n] [Fintype l]

/-- Entrywise derivative of a matrix valued curve. -/
def MDeriv (A : ℝ → Matrix m n ℝ) (A' : Matrix m n ℝ) (t0 : ℝ) : Prop :=
  ∀ i j, HasDerivAt (fun t => A t i j) (A' i j) t0

/-- Entrywise derivative of a vector valued curve. -/
def VDeriv (a : ℝ → m → ℝ) (a' : m → ℝ) (t0 : ℝ) : Prop := ∀ i, HasDerivAt (fun t => a t i) (a' i) t0

theorem VDeriv.add {a b : ℝ → m → ℝ} {a' b' : m → ℝ} {t0 : ℝ} (ha : VDeriv a a' t0)
    (hb : VDeriv b b' t0) : VDeriv (fun t => a t + b t) (a' + b') t0 :=
  fun i => (ha i).fun_add (hb i)

theorem VDeriv.sub {a b : ℝ → m → ℝ} {a' b' : m → ℝ} {t0 : ℝ} (ha : VDeriv a a' t0)
    (hb : VDeriv b b' t0) : VDeriv (fun t => a t - b t) (a' - b') t0 :=
  fun i => (ha i).fun_sub (hb i)

theorem VDeriv.const (a : m → ℝ) (t0 : ℝ) : VDeriv (fun _ => a) 0 t0 :=
  fun _ => hasDerivAt_const _ _

theorem MDeriv.const (A : Matrix m n ℝ) (t0 : ℝ) : MDeriv (fun _ => A) 0 t0 :=
  fun _ _ => hasDerivAt_const _ _

theorem MDeriv.transpose {A : ℝ → Matrix m n ℝ} {A' : Matrix m n ℝ} {t0 : ℝ} (h : MDeriv A A' t0) :
    MDeriv (fun t => (A t)ᵀ) A'ᵀ t0 := fun i j => h j i

theorem MDeriv.mul {A : ℝ → Matrix l m ℝ} {A' : Matrix l m ℝ} {B : ℝ → Matrix m n ℝ}
    {B' : Matrix m n ℝ} {t0 : ℝ} (hA : MDeriv A A' t0) (hB : MDeriv B B' t0) :
    MDeriv (fun t => A t * B t) (A' * B t0 + A t0 * B') t0 := by
  intro i j
  have := HasDerivAt.fun_sum (u := Finset.univ) fun k _ => (hA i k).fun_mul (hB k j)
  refine this.congr_deriv ?_
  simp [Matrix.mul_apply, Finset.sum_add_distrib]

theorem MDeriv.mulVec {A : ℝ → Matrix m n ℝ} {A' : Matrix m n ℝ} {b : ℝ → n → ℝ}
    {b' : n → ℝ} {t0 : ℝ} (hA : MDeriv A A' t0) (hb : VDeriv b b' t0) :
    VDeriv (fun t => A t *ᵥ b t) (A' *ᵥ b t0 + A t0 *ᵥ b') t0 := by
  intro i
  have := HasDerivAt.fun_sum (u := Finset.univ) fun k _ => (hA i k).fun_mul (hb k)
  refine this.congr_deriv ?_
  simp [Matrix.mulVec, dotProduct, Finset.sum_add_distrib]

theorem VDeriv.congr {a b : ℝ → m → ℝ} {a' : m → ℝ} {t0 : ℝ} (ha : VDeriv a a' t0)
    (h : ∀ᶠ t in nhds t0, b t = a t) : VDeriv b a' t0 := fun i =>
  (ha i).congr_of_eventuallyEq (by filter_upwards [h] with t ht; rw [ht])

theorem MDeriv.unique {A : ℝ → Matrix m n ℝ} {A' B' : Matrix m n ℝ} {t0 : ℝ} (h : MDeriv A A' t0)
    (h' : MDeriv A B' t0) : A' = B' := by
  ext i j; exact (h i j).unique (h' i j)

end entrywise

/-- A 3x3 curve that is invertible at `t0` stays invertible, and its inverse is differentiable. -/
theorem MDeriv.inv3 {A : ℝ → Mat3 ℝ} {A' : Mat3 ℝ} {t0 : ℝ} (h : MDeriv A A' t0)
    (hd : (A t0).det ≠ 0) :
    (∀ᶠ t in nhds t0, (A t).det ≠ 0) ∧
    MDeriv (fun t => (A t)⁻¹) (-((A t0)⁻¹ * A' * (A t0)⁻¹)) t0 := by
  have hdet : DifferentiableAt ℝ (fun t => (A t).det) t0 := by
    have e : ∀ i j, DifferentiableAt ℝ (fun t => A t i j) t0 := fun i j => (h i j).differentiableAt
    have h00 := e 0 0; have h01 := e 0 1; have h02 := e 0 2
    have h10 := e 1 0; have h11 := e 1 1; have h12 := e 1 2
    have h20 := e 2 0; have h21 := e 2 1; have h22 := e 2 2
    simp only [det_fin_three]
    fun_prop
  have hev : ∀ᶠ t in nhds t0, (A t).det ≠ 0 := hdet.continuousAt.eventually_ne hd
  refine ⟨hev, ?_⟩
  have hdiff : ∀ i j, DifferentiableAt ℝ (fun t => (A t)⁻¹ i j) t0 := by
    have e : ∀ i j, DifferentiableAt ℝ (fun t => A t i j) t0 := fun i j => (h i j).differentiableAt
    have h00 := e 0 0; have h01 := e 0 1; have h02 := e 0 2
    have h10 := e 1 0; have h11 := e 1 1; have h12 := e 1 2
    have h20 := e 2 0; have h21 := e 2 1; have h22 := e 2 2
    intro i j
    simp only [Matrix.inv_def, Ring.inverse_eq_inv', adjugate_fin_three, Matrix.smul_apply, smul_eq_mul]
    apply DifferentiableAt.mul
    · exact hdet.inv hd
    · fin_cases i <;> fin_cases j <;> simp <;> fun_prop
  set B : Mat3 ℝ := fun i j => deriv (fun t => (A t)⁻¹ i j) t0
  have hB : MDeriv (fun t => (A t)⁻¹) B t0 := fun i j => (hdiff i j).hasDerivAt
  have hprod := h.mul hB
  have hone : MDeriv (fun t => A t * (A t)⁻¹) 0 t0 := by
    intro i j
    refine (hasDerivAt_const t0 ((1 : Mat3 ℝ) i j)).congr_of_eventuallyEq ?_
    filter_upwards [hev] with t ht
    rw [mul_nonsing_inv _ (isUnit_iff_ne_zero.mpr ht)]
  have key := hprod.unique hone
  have hu : IsUnit (A t0).det := isUnit_iff_ne_zero.mpr hd
  have hBe : B = -((A t0)⁻¹ * A' * (A t0)⁻¹) := by
    have h1 : A t0 * B = -(A' * (A t0)⁻¹) := by
      rw [eq_neg_iff_add_eq_zero, add_comm]; exact key
    calc B = (A t0)⁻¹ * (A t0 * B) := by
            rw [← Matrix.mul_assoc, nonsing_inv_mul _ hu, Matrix.one_mul]
      _ = _ := by rw [h1, Matrix.mul_neg, Matrix.mul_assoc]
  rw [hBe] at hB
  exact hB

/-- A curve of poses (rotation, translation) passing through `(C t0, r t0)` with angular velocity
`w` and velocity `v`, both in the reference frame. -/
structure Moves (C : ℝ → Mat3 ℝ) (r : ℝ → Vec3 ℝ) (v w : Vec3 ℝ) (t0 : ℝ) : Prop where
  rot : MDeriv C (skew w * C t0) t0
  trans : VDeriv r v t0

theorem toRot_moves (q : ℝ → Quat ℝ) (w : Vec3 ℝ) (t0 : ℝ) (hq : (q t0).normSq = 1)
    (hw : HasDerivAt (fun t => (q t).w)
      (-(w 0 * (q t0).x + w 1 * (q t0).y + w 2 * (q t0).z) / 2) t0)
    (hx : HasDerivAt (fun t => (q t).x)
      ((w 0 * (q t0).w + w 1 * (q t0).z - w 2 * (q t0).y) / 2) t0)
    (hy : HasDerivAt (fun t => (q t).y)
      ((w 1 * (q t0).w + w 2 * (q t0).x - w 0 * (q t0).z) / 2) t0)
    (hz : HasDerivAt (fun t => (q t).z)
      ((w 2 * (q t0).w + w 0 * (q t0).y - w 1 * (q t0).x) / 2) t0) :
    MDeriv (fun t => (q t).toRot) (skew w * (q t0).toRot) t0 := by
  have hq' : (q t0).w * (q t0).w + (q t0).x * (q t0).x + (q t0).y * (q t0).y +
    (q t0).z * (q t0).z = 1 := hq
  have tx := hx.const_mul 2
  have ty := hy.const_mul 2
  have tz := hz.const_mul 2
  intro i j
  fin_cases i <;> fin_cases j
  · refine (((ty.fun_mul hy).fun_add (tz.fun_mul hz)).const_sub 1).congr_deriv ?_
    simp only [mul_entry]
    simp [skew, Quat.toRot]
    ring
  · refine ((ty.fun_mul hx).fun_sub (tz.fun_mul hw)).congr_deriv ?_
    simp only [mul_entry]
    simp [skew, Quat.toRot]
    linear_combination (-w 2) * hq'
  · refine ((tz.fun_mul hx).fun_add (ty.fun_mul hw)).congr_deriv ?_
    simp only [mul_entry]
    simp [skew, Quat.toRot]
    linear_combination (w 1) * hq'
  · refine ((ty.fun_mul hx).fun_add (tz.fun_mul hw)).congr_deriv ?_
    simp only [mul_entry]
    simp [skew, Quat.toRot]
    linear_combination (w 2) * hq'
  · refine (((tx.fun_mul hx).fun_add (tz.fun_mul hz)).const_sub 1).congr_deriv ?_
    simp only [mul_entry]
    simp [skew, Quat.toRot]
    ring
  · refine ((tz.fun_mul hy).fun_sub (tx.fun_mul hw)).congr_deriv ?_
    simp only [mul_entry]
    simp [skew, Quat.toRot]
    linear_combination (-w 0) * hq'
  · refine ((tz.fun_mul hx).fun_sub (ty.fun_mul hw)).congr_deriv ?_
    simp only [mul_entry]
    simp [skew, Quat.toRot]
    linear_combination (-w 1) * hq'
  · refine ((tz.fun_mul hy).fun_add (tx.fun_mul hw)).congr_deriv ?_
    simp only [mul_entry]
    simp [skew, Quat.toRot]
    linear_combination (w 0) * hq'
  · refine (((tx.fun_mul hx).fun_add (ty.fun_mul hy)).const_sub 1).congr_deriv ?_
    simp only [mul_entry]
    simp [skew, Quat.toRot]
    ring


/-- Translation and rotation halves of a six dimensional increment. -/
def lin (d : Fin 6 → ℝ) : Vec3 ℝ := ![d 0, d 1, d 2]
/-- see `lin` -/
def ang (d : Fin 6 → ℝ) : Vec3 ℝ := ![d 3, d 4, d 5]

theorem poseRot_eq (x : Fin 7 → ℝ) : tfRot (tfParams x) = Quat.toRot ⟨x 6, x 3, x 4, x 5⟩ :=
  tfRot_tf _ _

theorem poseTrans_eq (x : Fin 7 → ℝ) : tfTrans (tfParams x) = ![x 0, x 1, x 2] := tfTrans_tf _ _

theorem tfParams_eq (x : Fin 7 → ℝ) : tfParams x = tf (tfRot (tfParams x)) (tfTrans (tfParams x)) := by
  rw [poseRot_eq, poseTrans_eq]; rfl

theorem unit_quat {x : Fin 7 → ℝ} (h : UnitPose x) :
    (⟨x 6, x 3, x 4, x 5⟩ : Quat ℝ).normSq = 1 := by
  unfold UnitPose at h; simp only [Quat.normSq]; linarith

theorem unit_rot {x : Fin 7 → ℝ} (h : UnitPose x) : IsRot (tfRot (tfParams x)) := by
  rw [poseRot_eq]; exact ⟨toRot_mul_transpose _ (unit_quat h), toRot_det _ (unit_quat h)⟩

/-- The update rule of the solver moves a pose with the velocities given by the increment. -/
theorem posePlus_moves (x : Fin 7 → ℝ) (hx : UnitPose x) (d : Fin 6 → ℝ) :
    Moves (fun t => tfRot (tfParams (posePlus x fun i => t * d i)))
      (fun t => tfTrans (tfParams (posePlus x fun i => t * d i))) (lin d) (ang d) 0 ∧
    posePlus x (fun i => 0 * d i) = x := by
  set v : Vec3 ℝ := ![d 3, d 4, d 5] with hv
  set a := norm3 v / 2 with ha
  let Wt : ℝ → ℝ := fun t => Real.cos (t * a)
  let S : ℝ → ℝ := fun t => sincPoly ((t * a) ^ 2) / 2
  have hW : HasDerivAt Wt 0 0 := by
    have := ((hasDerivAt_id (0 : ℝ)).mul_const a).cos
    simpa [Wt] using this
  have hW0 : Wt 0 = 1 := by simp [Wt]
  have hS : HasDerivAt S 0 0 := by
    have := (hasDerivAt_sincPoly_line a).div_const 2
    simpa [S] using this
  have hS0 : S 0 = 1 / 2 := by simp [S, sincPoly]
  have hV : ∀ c : ℝ, HasDerivAt (fun t => S t * (t * c)) (c / 2) 0 := by
    intro c
    have := hS.mul ((hasDerivAt_id (0 : ℝ)).mul_const c)
    refine this.congr_deriv ?_
    simp [hS0]; ring
  have hvt : ∀ t : ℝ, ![t * d 3, t * d 4, t * d 5] = fun i => t * v i := by
    intro t; ext i; fin_cases i <;> simp [hv]
  have h0 : posePlus x (fun i => 0 * d i) = x := by
    have hq0 : quatDelta ![0 * d 3, 0 * d 4, 0 * d 5] = ⟨1, 0, 0, 0⟩ := by
      simp [quatDelta, norm3, dot3]
    unfold posePlus
    simp only [hq0]
    ext i; fin_cases i <;> simp [Quat.mul]
  refine ⟨⟨?_, ?_⟩, h0⟩
  · let Q : ℝ → Quat ℝ := fun t =>
      Quat.mul ⟨Wt t, S t * (t * v 0), S t * (t * v 1), S t * (t * v 2)⟩ ⟨x 6, x 3, x 4, x 5⟩
    have key : ∀ᶠ t in nhds (0 : ℝ), tfRot (tfParams (posePlus x fun i => t * d i)) = (Q t).toRot := by
      filter_upwards [quatDelta_line v] with t ht
      rw [poseRot_eq]
      have : quatDelta ![t * d 3, t * d 4, t * d 5] =
          ⟨Wt t, S t * (t * v 0), S t * (t * v 1), S t * (t * v 2)⟩ := by
        rw [hvt, ht]
      unfold posePlus
      simp only [this]
      rfl
    have hQ0 : Q 0 = ⟨x 6, x 3, x 4, x 5⟩ := by
      ext <;> simp [Q, Quat.mul, hW0]
    have hm := toRot_moves Q v 0 (by rw [hQ0]; exact unit_quat hx)
      (by rw [hQ0]
          refine ((((hW.mul_const (x 6)).fun_sub ((hV (v 0)).mul_const (x 3))).fun_sub
            ((hV (v 1)).mul_const (x 4))).fun_sub ((hV (v 2)).mul_const (x 5))).congr_deriv ?_
          simp; ring)
      (by rw [hQ0]
          refine ((((hW.mul_const (x 3)).fun_add ((hV (v 0)).mul_const (x 6))).fun_add
            ((hV (v 1)).mul_const (x 5))).fun_sub ((hV (v 2)).mul_const (x 4))).congr_deriv ?_
          simp; ring)
      (by rw [hQ0]
          refine ((((hW.mul_const (x 4)).fun_sub ((hV (v 0)).mul_const (x 5))).fun_add
            ((hV (v 1)).mul_const (x 6))).fun_add ((hV (v 2)).mul_const (x 3))).congr_deriv ?_
          simp; ring)
      (by rw [hQ0]
          refine ((((hW.mul_const (x 5)).fun_add ((hV (v 0)).mul_const (x 4))).fun_sub
            ((hV (v 1)).mul_const (x 3))).fun_add ((hV (v 2)).mul_const (x 6))).congr_deriv ?_
          simp; ring)
    intro i j
    have h1 := (hm i j).congr_of_eventuallyEq
      (f₁ := fun t => tfRot (tfParams (posePlus x fun i => t * d i)) i j)
      (by filter_upwards [key] with t ht; rw [ht])
    have : tfRot (tfParams (posePlus x fun i => 0 * d i)) = (Q 0).toRot := by
      rw [h0, hQ0, poseRot_eq]
    rw [this]
    exact h1
  · intro i
    have lin' : ∀ c e : ℝ, HasDerivAt (fun t : ℝ => c + t * e) e 0 := by
      intro c e
      have := ((hasDerivAt_id (0 : ℝ)).mul_const e).const_add c
      simpa using this
    simp only [poseTrans_eq]
    fin_cases i
    · exact lin' (x 0) (d 0)
    · exact lin' (x 1) (d 1)
    · exact lin' (x 2) (d 2)

/-- The same for the parameterisation used with Ceres. -/
theorem ceresPlus_moves (x : Fin 7 → ℝ) (hx : UnitPose x) (d : Fin 6 → ℝ) :
    Moves (fun t => tfRot (tfParams (ceresPlus x fun i => t * d i)))
      (fun t => tfTrans (tfParams (ceresPlus x fun i => t * d i))) (lin d) (ang d) 0 ∧
    tfParams (ceresPlus x (fun i => 0 * d i)) = tfParams x := by
  have hz : (fun i => 0 * d i) = (0 : Fin 6 → ℝ) := by ext; simp
  have h0 := (C42_plus_zero_partial x hx).2.1
  have h00 := (C42_plus_zero_partial x hx).1
  obtain ⟨hn, hpm⟩ := ceres_quat x hx
  set q := tfQuatOf (tfParams x) with hqd
  have hj := C42_jacobian x hx d
  have hJ : ceresPlusJac x *ᵥ d = ![d 0, d 1, d 2,
        (d 3 * q.w + d 4 * q.z - d 5 * q.y) / 2, (-(d 3 * q.z) + d 4 * q.w + d 5 * q.x) / 2,
        (d 3 * q.y - d 4 * q.x + d 5 * q.w) / 2, (-(d 3 * q.x) - d 4 * q.y - d 5 * q.z) / 2] := by
    ext k
    unfold ceresPlusJac
    simp only [← hqd]
    fin_cases k <;>
      simp [mulVec, dotProduct, Fin.sum_univ_six, oplusMat, halfS, Quat.coeffs, Matrix.mul_apply,
        Fin.sum_univ_four] <;> ring
  have hc0 : ceresPlus x 0 = ![x 0, x 1, x 2, q.x, q.y, q.z, q.w] := by
    have hq0 : quatDelta ![(0 : Fin 6 → ℝ) 3, (0 : Fin 6 → ℝ) 4, (0 : Fin 6 → ℝ) 5] = ⟨1, 0, 0, 0⟩ := by
      simp [quatDelta, norm3, dot3]
    have one_mul : ∀ q : Quat ℝ, Quat.mul ⟨1, 0, 0, 0⟩ q = q := by
      intro q; ext <;> simp [Quat.mul]
    unfold ceresPlus
    simp only
    rw [hq0, one_mul, normalize_unit _ hn, poseTrans_eq]
    simp [hqd]
  refine ⟨⟨?_, ?_⟩, by rw [hz]; exact h0⟩
  · rw [hJ] at hj
    let Q : ℝ → Quat ℝ := fun t => ⟨ceresPlus x (fun i => t * d i) 6, ceresPlus x (fun i => t * d i) 3,
      ceresPlus x (fun i => t * d i) 4, ceresPlus x (fun i => t * d i) 5⟩
    have hQ0 : Q 0 = q := by
      simp only [Q, hz, hc0]; ext <;> simp
    have hm := toRot_moves Q (ang d) 0 (by rw [hQ0]; exact hn)
      (by rw [hQ0]; exact (hj 6).congr_deriv (by simp [ang]; ring))
      (by rw [hQ0]; exact (hj 3).congr_deriv (by simp [ang]))
      (by rw [hQ0]; exact (hj 4).congr_deriv (by simp [ang]; ring))
      (by rw [hQ0]; exact (hj 5).congr_deriv (by simp [ang]; ring))
    have e : ∀ t, tfRot (tfParams (ceresPlus x fun i => t * d i)) = (Q t).toRot :=
      fun t => poseRot_eq _
    simp only [e]
    exact hm
  · rw [hJ] at hj
    intro i
    simp only [poseTrans_eq]
    fin_cases i
    · exact hj 0
    · exact hj 1
    · exact hj 2

/-! ### Points seen from moving frames -/

theorem skew_mulVec (a b : Vec3 ℝ) : skew a *ᵥ b = -(skew b *ᵥ a) := by
  ext i; fin_cases i <;> simp [skew, mulVec, dotProduct, Fin.sum_univ_three] <;> ring

theorem skew_transpose (a : Vec3 ℝ) : (skew a)ᵀ = -skew a := by
  ext i j; fin_cases i <;> fin_cases j <;> simp [skew]

/-- Derivative of `C p + r` for a moving pose and a moving point. -/
theorem Moves.point {C : ℝ → Mat3 ℝ} {r : ℝ → Vec3 ℝ} {v w : Vec3 ℝ} {t0 : ℝ}
    (h : Moves C r v w t0) {p : ℝ → Vec3 ℝ} {p' : Vec3 ℝ} (hp : VDeriv p p' t0) :
    VDeriv (fun t => C t *ᵥ p t + r t) (C t0 *ᵥ p' + (v - skew (C t0 *ᵥ p t0) *ᵥ w)) t0 := by
  have := (h.rot.mulVec hp).add h.trans
  have e : (skew w * C t0) *ᵥ p t0 + C t0 *ᵥ p' + v =
      C t0 *ᵥ p' + (v - skew (C t0 *ᵥ p t0) *ᵥ w) := by
    rw [← mulVec_mulVec, skew_mulVec w]
    abel
  rwa [e] at this

/-- Derivative of the coordinates of a moving point in a moving frame whose inverse rotation is
`D`. -/
theorem Moves.inv_point {C D : ℝ → Mat3 ℝ} {r : ℝ → Vec3 ℝ} {v w : Vec3 ℝ} {t0 : ℝ}
    (h : Moves C r v w t0) (hD : MDeriv D (-(D t0 * skew w)) t0) (hCD : C t0 * D t0 = 1)
    {q : ℝ → Vec3 ℝ} {q' : Vec3 ℝ} (hq : VDeriv q q' t0) :
    VDeriv (fun t => D t *ᵥ (q t - r t))
      (D t0 *ᵥ q' - D t0 *ᵥ (v - skew (C t0 *ᵥ (D t0 *ᵥ (q t0 - r t0))) *ᵥ w)) t0 := by
  have := hD.mulVec (hq.sub h.trans)
  have e : -(D t0 * skew w) *ᵥ (q t0 - r t0) + D t0 *ᵥ (q' - v) =
      D t0 *ᵥ q' - D t0 *ᵥ (v - skew (C t0 *ᵥ (D t0 *ᵥ (q t0 - r t0))) *ᵥ w) := by
    rw [mulVec_mulVec (q t0 - r t0) (C t0), hCD, one_mulVec, neg_mulVec, ← mulVec_mulVec, skew_mulVec w]
    simp only [mulVec_sub, mulVec_neg]
    abel
  rwa [e] at this

theorem Moves.transpose {C : ℝ → Mat3 ℝ} {r : ℝ → Vec3 ℝ} {v w : Vec3 ℝ} {t0 : ℝ}
    (h : Moves C r v w t0) : MDeriv (fun t => (C t)ᵀ) (-((C t0)ᵀ * skew w)) t0 := by
  have := h.rot.transpose
  rwa [transpose_mul, skew_transpose, Matrix.mul_neg] at this

theorem Moves.inverse {C : ℝ → Mat3 ℝ} {r : ℝ → Vec3 ℝ} {v w : Vec3 ℝ} {t0 : ℝ}
    (h : Moves C r v w t0) (hC : IsRot (C t0)) :
    (∀ᶠ t in nhds t0, (C t).det ≠ 0) ∧
    MDeriv (fun t => (C t)⁻¹) (-((C t0)⁻¹ * skew w)) t0 := by
  have hd : (C t0).det ≠ 0 := by rw [hC.2]; norm_num
  obtain ⟨a, b⟩ := h.rot.inv3 hd
  refine ⟨a, ?_⟩
  rwa [Matrix.mul_assoc, Matrix.mul_assoc, mul_nonsing_inv _ (isUnit_iff_ne_zero.mpr hd),
    Matrix.mul_one] at b

/-- The inverse of a rigid (or just invertible) 4x4 transform. -/
theorem tf_inverse (C : Mat3 ℝ) (r : Vec3 ℝ) (h : C.det ≠ 0) : (tf C r)⁻¹ = tf C⁻¹ (-(C⁻¹ *ᵥ r)) := by
  apply inv_eq_right_inv
  rw [tf_mul, mul_nonsing_inv _ (isUnit_iff_ne_zero.mpr h), mulVec_neg, mulVec_mulVec,
    mul_nonsing_inv _ (isUnit_iff_ne_zero.mpr h), one_mulVec, neg_add_cancel, tf_one]

theorem isRot_inv {C : Mat3 ℝ} (h : IsRot C) : C⁻¹ = Cᵀ := inv_eq_right_inv h.1

theorem tfPoint_tf (C : Mat3 ℝ) (r p : Vec3 ℝ) : tfPoint (tf C r) p = C *ᵥ p + r :=
  (C32_point C r p 1).1

theorem tfInv_tf (C : Mat3 ℝ) (r : Vec3 ℝ) : tfInv (tf C r) = tf Cᵀ (-(Cᵀ *ᵥ r)) := by
  rw [tfInv, tfRot_tf, tfTrans_tf, neg_mulVec]

end Yac.Residual
