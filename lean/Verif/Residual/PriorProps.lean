import Verif.Residual.Props

/-!
# C43: priors, and the limits of the claim
-/

namespace Yac.Residual
open Matrix Yac.Geom Yac.Cam

/-- C43 (plain prior): the Jacobian of `W (meas - x)` is `-W`. -/
theorem C43_prior {n : Nat} (W : Matrix (Fin n) (Fin n) ℝ) (meas x dx : Fin n → ℝ) (j : Fin n) :
    HasDerivAt (fun t : ℝ => (priorEval W meas (fun i => x i + t * dx i)).1 j)
      (((priorEval W meas x).2 *ᵥ dx) j) 0 ∧
    (priorEval W meas meas).1 = 0 := by
  constructor
  · have := (MDeriv.const W 0).mulVec ((VDeriv.const meas 0).sub (addLine_deriv x dx))
    refine (this j).congr_deriv ?_
    simp [priorEval, neg_mulVec, mulVec_neg]
  · simp [priorEval]

/-- The rotation is not on a boundary between the cases of the matrix-to-quaternion conversion. -/
def Stable (m : Mat3 ℝ) : Prop :=
  0 < m 0 0 + m 1 1 + m 2 2 ∨
  (m 0 0 + m 1 1 + m 2 2 < 0 ∧
    ((m 1 1 < m 0 0 ∧ m 2 2 < m 0 0) ∨ (m 0 0 < m 1 1 ∧ m 2 2 < m 1 1) ∨
      (m 0 0 < m 2 2 ∧ m 1 1 < m 2 2)))

/-- The four formulas of the conversion, as functions. -/
theorem half_sqrt_deriv {P L : ℝ → ℝ} {P' L' n a t0 : ℝ} (hP : HasDerivAt P P' t0)
    (hL : HasDerivAt L L' t0) (hn : 0 < n) (h1 : P t0 = 4 * (n * n)) (h2 : L t0 = 4 * (n * a)) :
    HasDerivAt (fun t => (1 / 2) * Real.sqrt (P t)) (P' / (8 * n)) t0 ∧
    HasDerivAt (fun t => L t * ((1 / 2) / Real.sqrt (P t))) (L' / (4 * n) - a * P' / (8 * (n * n))) t0 ∧
    0 < P t0 := by
  have hp : 0 < P t0 := by rw [h1]; positivity
  have hs : Real.sqrt (P t0) = 2 * n := by
    rw [h1, show 4 * (n * n) = (2 * n) * (2 * n) by ring]
    exact Real.sqrt_mul_self (by positivity)
  have hr := hP.sqrt hp.ne'
  rw [hs] at hr
  refine ⟨(hr.const_mul (1 / 2)).congr_deriv (by field_simp; ring), ?_, hp⟩
  refine (hL.fun_mul ((hasDerivAt_const t0 (1 / 2 : ℝ)).fun_div hr (by rw [hs]; positivity))).congr_deriv ?_
  rw [hs, h2]
  field_simp
  ring

set_option maxHeartbeats 1000000 in
/-- Along a curve of rotations `M` with `M' = -M [w]×`, the quaternion of `M` moves with
`-½ q ⊗ (0, w)`. -/
theorem rotToQuat_deriv (M : ℝ → Mat3 ℝ) (w : Vec3 ℝ) (t0 : ℝ)
    (hM : MDeriv M (-(M t0 * skew w)) t0) (hR : IsRot (M t0)) (hb : Stable (M t0)) (q : Quat ℝ)
    (hq : q = rotToQuat (M t0)) :
    HasDerivAt (fun t => (rotToQuat (M t)).x) (-(q.w * w 0 - q.z * w 1 + q.y * w 2) / 2) t0 ∧
    HasDerivAt (fun t => (rotToQuat (M t)).y) (-(q.z * w 0 + q.w * w 1 - q.x * w 2) / 2) t0 ∧
    HasDerivAt (fun t => (rotToQuat (M t)).z) (-(-(q.y * w 0) + q.x * w 1 + q.w * w 2) / 2) t0 := by
  have hQ := rotToQuat_spec hR
  rw [← hq] at hQ
  have hn := hQ.spec.1
  unfold Quat.normSq at hn
  obtain ⟨ww, xx, yy, zz, wx, wy, wz, xy, xz, yz⟩ := hQ
  have m00 : M t0 0 0 = q.w * q.w + q.x * q.x - q.y * q.y - q.z * q.z := by linarith
  have m11 : M t0 1 1 = q.w * q.w - q.x * q.x + q.y * q.y - q.z * q.z := by linarith
  have m22 : M t0 2 2 = q.w * q.w - q.x * q.x - q.y * q.y + q.z * q.z := by linarith
  have m01 : M t0 0 1 = 2 * (q.x * q.y) - 2 * (q.w * q.z) := by linarith
  have m10 : M t0 1 0 = 2 * (q.x * q.y) + 2 * (q.w * q.z) := by linarith
  have m02 : M t0 0 2 = 2 * (q.x * q.z) + 2 * (q.w * q.y) := by linarith
  have m20 : M t0 2 0 = 2 * (q.x * q.z) - 2 * (q.w * q.y) := by linarith
  have m12 : M t0 1 2 = 2 * (q.y * q.z) - 2 * (q.w * q.x) := by linarith
  have m21 : M t0 2 1 = 2 * (q.y * q.z) + 2 * (q.w * q.x) := by linarith
  have D : ∀ i j, (-(M t0 * skew w)) i j = -(M t0 i 0 * skew w 0 j + M t0 i 1 * skew w 1 j +
      M t0 i 2 * skew w 2 j) := by
    intro i j; rw [Matrix.neg_apply, mul_entry]
  have c := fun i j => (hM i j).continuousAt
  have tr := (hM 0 0).fun_add (hM 1 1) |>.fun_add (hM 2 2)
  rcases hb with ht | ⟨ht, hb⟩
  · have ev : ∀ᶠ t in nhds t0, 0 < M t 0 0 + M t 1 1 + M t 2 2 :=
      tr.continuousAt.eventually (lt_mem_nhds ht)
    have hw : 0 < q.w := by
      rw [hq]; unfold rotToQuat; simp only; rw [if_pos ht]
      have : 0 < Real.sqrt (M t0 0 0 + M t0 1 1 + M t0 2 2 + 1) := Real.sqrt_pos.mpr (by linarith)
      simp only; linarith
    have P := tr.add_const 1
    have P1 : M t0 0 0 + M t0 1 1 + M t0 2 2 + 1 = 4 * (q.w * q.w) := by linarith
    have hx := (half_sqrt_deriv P ((hM 2 1).fun_sub (hM 1 2)) hw P1 wx.symm).2.1
    have hy := (half_sqrt_deriv P ((hM 0 2).fun_sub (hM 2 0)) hw P1 wy.symm).2.1
    have hz := (half_sqrt_deriv P ((hM 1 0).fun_sub (hM 0 1)) hw P1 wz.symm).2.1
    refine ⟨(hx.congr_deriv ?_).congr_of_eventuallyEq ?_, (hy.congr_deriv ?_).congr_of_eventuallyEq ?_,
      (hz.congr_deriv ?_).congr_of_eventuallyEq ?_⟩
    · simp only [D, m00, m11, m22, m01, m10, m02, m20, m12, m21]; simp [skew]; field_simp; ring
    · filter_upwards [ev] with t h; unfold rotToQuat; simp only; rw [if_pos h]
    · simp only [D, m00, m11, m22, m01, m10, m02, m20, m12, m21]; simp [skew]; field_simp; ring
    · filter_upwards [ev] with t h; unfold rotToQuat; simp only; rw [if_pos h]
    · simp only [D, m00, m11, m22, m01, m10, m02, m20, m12, m21]; simp [skew]; field_simp; ring
    · filter_upwards [ev] with t h; unfold rotToQuat; simp only; rw [if_pos h]
  · have ev : ∀ᶠ t in nhds t0, M t 0 0 + M t 1 1 + M t 2 2 < 0 :=
      tr.continuousAt.eventually (gt_mem_nhds ht)
    have lt : ∀ i j, M t0 i i < M t0 j j → ∀ᶠ t in nhds t0, M t i i < M t j j := by
      intro i j h
      have := ((c j j).sub (c i i)).eventually (lt_mem_nhds (show 0 < M t0 j j - M t0 i i by linarith))
      filter_upwards [this] with t ht
      have : 0 < M t j j - M t i i := ht
      linarith
    rcases hb with ⟨h1, h2⟩ | ⟨h1, h2⟩ | ⟨h1, h2⟩
    · have e : ∀ t, M t 0 0 + M t 1 1 + M t 2 2 < 0 → M t 1 1 < M t 0 0 → M t 2 2 < M t 0 0 →
          rotToQuat (M t) = ⟨(M t 2 1 - M t 1 2) * ((1 / 2) / Real.sqrt (M t 0 0 - M t 1 1 - M t 2 2 + 1)),
            (1 / 2) * Real.sqrt (M t 0 0 - M t 1 1 - M t 2 2 + 1),
            (M t 1 0 + M t 0 1) * ((1 / 2) / Real.sqrt (M t 0 0 - M t 1 1 - M t 2 2 + 1)),
            (M t 2 0 + M t 0 2) * ((1 / 2) / Real.sqrt (M t 0 0 - M t 1 1 - M t 2 2 + 1))⟩ := by
        intro t a b c
        unfold rotToQuat
        simp [not_lt.mpr a.le, not_lt.mpr b.le, not_lt.mpr c.le]
      have hw : 0 < q.x := by
        rw [hq, e t0 ht h1 h2]
        have : 0 < Real.sqrt (M t0 0 0 - M t0 1 1 - M t0 2 2 + 1) := by
          apply Real.sqrt_pos.mpr; nlinarith
        simp only; linarith
      have P := (((hM 0 0).fun_sub (hM 1 1)).fun_sub (hM 2 2)).add_const 1
      have P1 : M t0 0 0 - M t0 1 1 - M t0 2 2 + 1 = 4 * (q.x * q.x) := by linarith
      have hx := (half_sqrt_deriv P ((hM 1 0).fun_add (hM 0 1)) hw P1 (a := q.y) (by linarith)).1
      have hy := (half_sqrt_deriv P ((hM 1 0).fun_add (hM 0 1)) hw P1 (a := q.y) (by linarith)).2.1
      have hz := (half_sqrt_deriv P ((hM 2 0).fun_add (hM 0 2)) hw P1 (a := q.z) (by linarith)).2.1
      refine ⟨(hx.congr_deriv ?_).congr_of_eventuallyEq ?_, (hy.congr_deriv ?_).congr_of_eventuallyEq ?_,
        (hz.congr_deriv ?_).congr_of_eventuallyEq ?_⟩
      · simp only [D, m00, m11, m22, m01, m10, m02, m20, m12, m21]; simp [skew]; field_simp; ring
      · filter_upwards [ev, lt 1 0 h1, lt 2 0 h2] with t a b c; rw [e t a b c]
      · simp only [D, m00, m11, m22, m01, m10, m02, m20, m12, m21]; simp [skew]; field_simp; ring
      · filter_upwards [ev, lt 1 0 h1, lt 2 0 h2] with t a b c; rw [e t a b c]
      · simp only [D, m00, m11, m22, m01, m10, m02, m20, m12, m21]; simp [skew]; field_simp; ring
      · filter_upwards [ev, lt 1 0 h1, lt 2 0 h2] with t a b c; rw [e t a b c]
    · have e : ∀ t, M t 0 0 + M t 1 1 + M t 2 2 < 0 → M t 0 0 < M t 1 1 → M t 2 2 < M t 1 1 →
          rotToQuat (M t) = ⟨(M t 0 2 - M t 2 0) * ((1 / 2) / Real.sqrt (M t 1 1 - M t 2 2 - M t 0 0 + 1)),
            (M t 0 1 + M t 1 0) * ((1 / 2) / Real.sqrt (M t 1 1 - M t 2 2 - M t 0 0 + 1)),
            (1 / 2) * Real.sqrt (M t 1 1 - M t 2 2 - M t 0 0 + 1),
            (M t 2 1 + M t 1 2) * ((1 / 2) / Real.sqrt (M t 1 1 - M t 2 2 - M t 0 0 + 1))⟩ := by
        intro t a b c
        unfold rotToQuat
        simp [not_lt.mpr a.le, b, not_lt.mpr c.le]
      have hw : 0 < q.y := by
        rw [hq, e t0 ht h1 h2]
        have : 0 < Real.sqrt (M t0 1 1 - M t0 2 2 - M t0 0 0 + 1) := by
          apply Real.sqrt_pos.mpr; nlinarith
        simp only; linarith
      have P := (((hM 1 1).fun_sub (hM 2 2)).fun_sub (hM 0 0)).add_const 1
      have P1 : M t0 1 1 - M t0 2 2 - M t0 0 0 + 1 = 4 * (q.y * q.y) := by linarith
      have hx := (half_sqrt_deriv P ((hM 0 1).fun_add (hM 1 0)) hw P1 (a := q.x) (by linarith)).2.1
      have hy := (half_sqrt_deriv P ((hM 0 1).fun_add (hM 1 0)) hw P1 (a := q.x) (by linarith)).1
      have hz := (half_sqrt_deriv P ((hM 2 1).fun_add (hM 1 2)) hw P1 (a := q.z) (by linarith)).2.1
      refine ⟨(hx.congr_deriv ?_).congr_of_eventuallyEq ?_, (hy.congr_deriv ?_).congr_of_eventuallyEq ?_,
        (hz.congr_deriv ?_).congr_of_eventuallyEq ?_⟩
      · simp only [D, m00, m11, m22, m01, m10, m02, m20, m12, m21]; simp [skew]; field_simp; ring
      · filter_upwards [ev, lt 0 1 h1, lt 2 1 h2] with t a b c; rw [e t a b c]
      · simp only [D, m00, m11, m22, m01, m10, m02, m20, m12, m21]; simp [skew]; field_simp; ring
      · filter_upwards [ev, lt 0 1 h1, lt 2 1 h2] with t a b c; rw [e t a b c]
      · simp only [D, m00, m11, m22, m01, m10, m02, m20, m12, m21]; simp [skew]; field_simp; ring
      · filter_upwards [ev, lt 0 1 h1, lt 2 1 h2] with t a b c; rw [e t a b c]
    · have e : ∀ t, M t 0 0 + M t 1 1 + M t 2 2 < 0 → M t 0 0 < M t 2 2 → M t 1 1 < M t 2 2 →
          rotToQuat (M t) = ⟨(M t 1 0 - M t 0 1) * ((1 / 2) / Real.sqrt (M t 2 2 - M t 0 0 - M t 1 1 + 1)),
            (M t 0 2 + M t 2 0) * ((1 / 2) / Real.sqrt (M t 2 2 - M t 0 0 - M t 1 1 + 1)),
            (M t 1 2 + M t 2 1) * ((1 / 2) / Real.sqrt (M t 2 2 - M t 0 0 - M t 1 1 + 1)),
            (1 / 2) * Real.sqrt (M t 2 2 - M t 0 0 - M t 1 1 + 1)⟩ := by
        intro t a b c
        unfold rotToQuat
        by_cases h : M t 0 0 < M t 1 1
        · simp [not_lt.mpr a.le, h, c]
        · simp [not_lt.mpr a.le, h, b]
      have hw : 0 < q.z := by
        rw [hq, e t0 ht h1 h2]
        have : 0 < Real.sqrt (M t0 2 2 - M t0 0 0 - M t0 1 1 + 1) := by
          apply Real.sqrt_pos.mpr; nlinarith
        simp only; linarith
      have P := (((hM 2 2).fun_sub (hM 0 0)).fun_sub (hM 1 1)).add_const 1
      have P1 : M t0 2 2 - M t0 0 0 - M t0 1 1 + 1 = 4 * (q.z * q.z) := by linarith
      have hx := (half_sqrt_deriv P ((hM 0 2).fun_add (hM 2 0)) hw P1 (a := q.x) (by linarith)).2.1
      have hy := (half_sqrt_deriv P ((hM 1 2).fun_add (hM 2 1)) hw P1 (a := q.y) (by linarith)).2.1
      have hz := (half_sqrt_deriv P ((hM 1 2).fun_add (hM 2 1)) hw P1 (a := q.y) (by linarith)).1
      refine ⟨(hx.congr_deriv ?_).congr_of_eventuallyEq ?_, (hy.congr_deriv ?_).congr_of_eventuallyEq ?_,
        (hz.congr_deriv ?_).congr_of_eventuallyEq ?_⟩
      · simp only [D, m00, m11, m22, m01, m10, m02, m20, m12, m21]; simp [skew]; field_simp; ring
      · filter_upwards [ev, lt 0 2 h1, lt 1 2 h2] with t a b c; rw [e t a b c]
      · simp only [D, m00, m11, m22, m01, m10, m02, m20, m12, m21]; simp [skew]; field_simp; ring
      · filter_upwards [ev, lt 0 2 h1, lt 1 2 h2] with t a b c; rw [e t a b c]
      · simp only [D, m00, m11, m22, m01, m10, m02, m20, m12, m21]; simp [skew]; field_simp; ring
      · filter_upwards [ev, lt 0 2 h1, lt 1 2 h2] with t a b c; rw [e t a b c]


/-- C43 (pose prior): the residual vanishes at the measured pose, and moves with the velocity the
Jacobian predicts, for every unit pose whose rotation relative to the measurement is not on a
boundary of the quaternion conversion (in particular for every relative rotation by less than
120 degrees). Missing: the boundary. -/
theorem C43_pose_prior_partial (W : Matrix (Fin 6) (Fin 6) ℝ) (Cm : Mat3 ℝ) (rm : Vec3 ℝ)
    (hm : IsRot Cm) (x : Fin 7 → ℝ) (hx : UnitPose x)
    (up : (Fin 7 → ℝ) → (Fin 6 → ℝ) → Fin 7 → ℝ) (hup : IsUpdate up)
    (hb : Stable (Cm * (poseRot x)ᵀ)) (d : Fin 6 → ℝ) :
    (∀ j, HasDerivAt (fun t : ℝ => (posePriorEval W (tf Cm rm) (up x fun i => t * d i)).1 j)
      (((posePriorEval W (tf Cm rm) x).2.1 *ᵥ d) j) 0) ∧
    (posePriorEval W (tf Cm rm) x).2.2 * ceresPlusJac x = (posePriorEval W (tf Cm rm) x).2.1 := by
  have c := hup.curve hx d
  set X := fun t : ℝ => up x fun i => t * d i
  have hR := unit_rot hx
  have d0 : (tfRot (tfParams x)).det ≠ 0 := by rw [hR.2]; norm_num
  obtain ⟨ev, hi⟩ := c.moves.inverse (by rw [c.start]; exact hR)
  have hrel : ∀ y : Fin 7 → ℝ, (tfRot (tfParams y)).det ≠ 0 →
      tfRot (tf Cm rm * (tfParams y)⁻¹) = Cm * (tfRot (tfParams y))⁻¹ := by
    intro y hy
    have := tf_inverse _ (tfTrans (tfParams y)) hy
    rw [← tfParams_eq] at this
    rw [this, tf_mul, tfRot_tf]
  have hM : MDeriv (fun t => Cm * (tfRot (tfParams (X t)))⁻¹)
      (-(Cm * (tfRot (tfParams (X 0)))⁻¹ * skew (ang d))) 0 := by
    have := (MDeriv.const Cm 0).mul hi
    simp only [Matrix.zero_mul, zero_add, Matrix.mul_neg, ← Matrix.mul_assoc] at this
    exact this
  have hM0 : Cm * (tfRot (tfParams (X 0)))⁻¹ = Cm * (poseRot x)ᵀ := by
    rw [c.start, isRot_inv hR]; rfl
  have hrot : IsRot (Cm * (tfRot (tfParams (X 0)))⁻¹) := by
    rw [hM0]; exact hm.mul (unit_rot hx).transpose
  obtain ⟨qx, qy, qz⟩ := rotToQuat_deriv (fun t => Cm * (tfRot (tfParams (X t)))⁻¹) (ang d) 0 hM hrot
    (by rw [hM0]; exact hb) _ rfl
  have err : VDeriv (fun t => posePriorErr (tf Cm rm) (X t)) (posePriorJac (tf Cm rm) x *ᵥ d) 0 := by
    have hqe : rotToQuat (tfRot (tf Cm rm * (tfParams x)⁻¹)) =
        rotToQuat (Cm * (tfRot (tfParams (X 0)))⁻¹) := by
      rw [hrel x d0, c.start]
    set q := rotToQuat (Cm * (tfRot (tfParams (X 0)))⁻¹) with hq
    have tr := c.moves.trans
    intro j
    fin_cases j
    · refine ((tr 0).const_sub (rm 0)).congr_deriv ?_ |>.congr_of_eventuallyEq
        (Filter.Eventually.of_forall fun t => ?_)
      · simp [posePriorJac, mulVec, dotProduct, Fin.sum_univ_six, lin]
      · simp [posePriorErr, tfTrans_tf]
    · refine ((tr 1).const_sub (rm 1)).congr_deriv ?_ |>.congr_of_eventuallyEq
        (Filter.Eventually.of_forall fun t => ?_)
      · simp [posePriorJac, mulVec, dotProduct, Fin.sum_univ_six, lin]
      · simp [posePriorErr, tfTrans_tf]
    · refine ((tr 2).const_sub (rm 2)).congr_deriv ?_ |>.congr_of_eventuallyEq
        (Filter.Eventually.of_forall fun t => ?_)
      · simp [posePriorJac, mulVec, dotProduct, Fin.sum_univ_six, lin]
      · simp [posePriorErr, tfTrans_tf]
    · refine (qx.const_mul 2).congr_deriv ?_ |>.congr_of_eventuallyEq ?_
      · simp [posePriorJac, hqe, mulVec, dotProduct, Fin.sum_univ_six, ang, plusMat, Quat.coeffs]; ring
      · filter_upwards [ev] with t ht
        simp [posePriorErr, hrel _ ht]
    · refine (qy.const_mul 2).congr_deriv ?_ |>.congr_of_eventuallyEq ?_
      · simp [posePriorJac, hqe, mulVec, dotProduct, Fin.sum_univ_six, ang, plusMat, Quat.coeffs]; ring
      · filter_upwards [ev] with t ht
        simp [posePriorErr, hrel _ ht]
    · refine (qz.const_mul 2).congr_deriv ?_ |>.congr_of_eventuallyEq ?_
      · simp [posePriorJac, hqe, mulVec, dotProduct, Fin.sum_univ_six, ang, plusMat, Quat.coeffs]; ring
      · filter_upwards [ev] with t ht
        simp [posePriorErr, hrel _ ht]
  constructor
  · intro j
    have := (MDeriv.const W 0).mulVec err
    refine (this j).congr_deriv ?_
    simp [posePriorEval, mulVec_mulVec]
  · simp only [posePriorEval]
    rw [Matrix.mul_assoc, C42_lift x hx, Matrix.mul_one]

/-- C43: the pose prior is zero exactly where the translation agrees and the rotation agrees up
to the quaternion's vector part, in particular at the measurement itself. -/
theorem C43_pose_prior_zero (W : Matrix (Fin 6) (Fin 6) ℝ) (x : Fin 7 → ℝ) (hx : UnitPose x) :
    (posePriorEval W (tfParams x) x).1 = 0 := by
  have hR := unit_rot hx
  have d0 : (tfRot (tfParams x)).det ≠ 0 := by rw [hR.2]; norm_num
  have hrel : tfRot (tfParams x * (tfParams x)⁻¹) = 1 := by
    have := tf_inverse _ (tfTrans (tfParams x)) d0
    rw [← tfParams_eq] at this
    rw [this]
    conv_lhs => rw [tfParams_eq x, tf_mul, tfRot_tf, tfRot_tf]
    exact mul_nonsing_inv _ (isUnit_iff_ne_zero.mpr d0)
  have : posePriorErr (tfParams x) x = 0 := by
    unfold posePriorErr
    simp only [hrel]
    ext j
    have h3 : (0 : ℝ) < 1 + 1 + 1 := by norm_num
    fin_cases j <;> simp [rotToQuat, h3]
  simp [posePriorEval, this]

/-- Hypotheses of `C43_pose_prior_partial` are met: any unit pose compared with itself, and a pose
compared with one turned by 180 degrees. -/
example : (∀ x, UnitPose x → Stable (poseRot x * (poseRot x)ᵀ)) ∧
    Stable ((!![1, 0, 0; 0, -1, 0; 0, 0, -1] : Mat3 ℝ) * (poseRot ![0, 0, 0, 0, 0, 0, 1])ᵀ) := by
  constructor
  · intro x hx
    have : poseRot x * (poseRot x)ᵀ = 1 := (unit_rot hx).1
    rw [this]; left; simp; norm_num
  · have : poseRot ![0, 0, 0, 0, 0, 0, 1] = 1 := by
      show tfRot (tfParams _) = 1
      rw [poseRot_eq]
      apply mat3_eq <;> simp [Quat.toRot]
    rw [this, transpose_one, Matrix.mul_one]
    right
    refine ⟨by simp, Or.inl ?_⟩
    constructor <;> simp <;> norm_num

/-- C43 for the two camera models: every point off the plane of the camera (radial-tangential). -/
theorem C43_radtan (cres : Fin 2 → ℤ) (k : Params) (pc : Vec3 ℝ) (h : 0 < pc 2) :
    Exact radtanGeom cres k pc := radtan_exact cres k pc h.ne'

/-- C43 for the two camera models: every point in front of the camera off the optical axis
(equidistant). -/
theorem C43_equi_partial (cres : Fin 2 → ℤ) (k : Params) (pc : Vec3 ℝ) (h : 0 < pc 2)
    (hr : 1 / 10 ^ 8 < Real.sqrt ((pc 0 / pc 2) ^ 2 + (pc 1 / pc 2) ^ 2)) :
    Exact equiGeom cres k pc := equi_exact cres k pc h hr

/-- C43: what the blocks hold when the projection is invalid: all minimal blocks are zero. -/
theorem C43_invalid (g : CamGeom) (cres : Fin 2 → ℤ) (W : Mat2) (z : Vec2) (p : Vec3 ℝ)
    (x0 x1 : Fin 7 → ℝ) (k : Params) (hv : (g.project cres k (reprojPoint x0 x1 p)).code ≠ 0) :
    ∀ J0 J1 J2, (reprojEval g cres W z p x0 x1 k).jac = some (J0, J1, J2) →
      J0.min = 0 ∧ J1.min = 0 ∧ J2.min = 0 ∧ J0.full = 0 ∧ J1.full = 0 ∧ J2.full = 0 := by
  intro J0 J1 J2 h
  unfold reprojPoint at hv
  simp only [reprojEval, hv, decide_false] at h
  split at h
  · simp only [Option.some.injEq, Prod.mk.injEq, poseJac] at h
    obtain ⟨rfl, rfl, rfl⟩ := h
    simp
  · cases h

theorem id_pose : tfParams ![0, 0, 0, 0, 0, 0, 1] = (1 : Mat4 ℝ) := by
  rw [tfParams_eq, poseRot_eq, poseTrans_eq, ← tf_one]
  congr 1
  · apply mat3_eq <;> simp [Quat.toRot]
  · ext i; fin_cases i <;> simp

/-- C43 refuted for points in front of the camera that fall outside the image: the residual is
still reported and changes with the principal point, but the reported derivative is zero. -/
theorem C43_outside_refuted : ∃ (cres : Fin 2 → ℤ) (k : Params) (p z : Fin 3 → ℝ) (x0 x1 : Fin 7 → ℝ),
    UnitPose x0 ∧ UnitPose x1 ∧ 0 < reprojPoint x0 x1 p 2 ∧ z = 0 ∧
    (∀ dk : Params, ∃ J0 J1 J2 : _,
      (reprojEval radtanGeom cres 1 0 p x0 x1 k).jac = some (J0, J1, J2) ∧ J2.min *ᵥ dk = 0) ∧
    ∀ t : ℝ, (reprojEval radtanGeom cres 1 0 p x0 x1 (fun i => k i + t * if i = 2 then 1 else 0)).r
      = some ![-10 - t, 0] := by
  refine ⟨![5, 5], ![1, 1, 0, 0, 0, 0, 0, 0], ![10, 0, 1], 0, ![0, 0, 0, 0, 0, 0, 1],
    ![0, 0, 0, 0, 0, 0, 1], by simp [UnitPose], by simp [UnitPose], ?_, rfl, ?_, ?_⟩
  · have hp : reprojPoint ![0, 0, 0, 0, 0, 0, 1] ![0, 0, 0, 0, 0, 0, 1] ![10, 0, 1] = ![10, 0, 1] := by
      unfold reprojPoint
      rw [id_pose, ← tf_one, tfInv_tf, tf_mul, tfPoint_tf]
      ext i; fin_cases i <;> simp
    rw [hp]; simp
  all_goals
    have hp : reprojPoint ![0, 0, 0, 0, 0, 0, 1] ![0, 0, 0, 0, 0, 0, 1] ![10, 0, 1] = ![10, 0, 1] := by
      unfold reprojPoint
      rw [id_pose, ← tf_one, tfInv_tf, tf_mul, tfPoint_tf]
      ext i; fin_cases i <;> simp
  · intro dk
    have hc : ¬ (radtanProject ![5, 5] ![1, 1, 0, 0, 0, 0, 0, 0] ![10, 0, 1]).code = 0 := by
      rw [(C38_radtan _ _ _).2.1]
      simp [Spec.Inside, Spec.radtanX]
      norm_num
    have hj : (reprojEval radtanGeom ![5, 5] 1 0 ![10, 0, 1] ![0, 0, 0, 0, 0, 0, 1]
        ![0, 0, 0, 0, 0, 0, 1] ![1, 1, 0, 0, 0, 0, 0, 0]).jac.isSome := by
      unfold reprojPoint at hp
      simp only [reprojEval, hp, radtanGeom]
      simp [radtanProjectJac, radtanParamsJac, projectPoint, projectJac]
    obtain ⟨⟨J0, J1, J2⟩, hJ⟩ := Option.isSome_iff_exists.mp hj
    refine ⟨J0, J1, J2, hJ, ?_⟩
    rw [(C43_invalid _ _ _ _ _ _ _ _ (by rw [hp]; exact hc) J0 J1 J2 hJ).2.2.1, zero_mulVec]
  · intro t
    unfold reprojPoint at hp
    simp only [reprojEval, hp, radtanGeom]
    obtain ⟨z, hz, h0, h1⟩ := (C38_radtan ![5, 5]
      (fun i => (![1, 1, 0, 0, 0, 0, 0, 0] : Params) i + t * if i = 2 then 1 else 0) ![10, 0, 1]).1 (by simp)
    rw [hz]
    simp only [Option.map_some, one_mulVec]
    congr 1
    simp [Spec.radtanX, Spec.radtanY] at h0 h1
    ext i; fin_cases i
    · simp [h0]; ring
    · simp [h1]

/-- C43, values: the weighted residual is `W (z - ẑ)` for the pixel `ẑ` of the fiducial corner, and
`get_residual` reports the same difference unweighted, exactly when the projection is valid. -/
theorem C43_values (g : CamGeom) (cres : Fin 2 → ℤ) (W : Mat2) (z : Vec2) (p : Vec3 ℝ)
    (x0 x1 : Fin 7 → ℝ) (k : Params) (pc : Vec3 ℝ)
    (hpc : pc = (poseRot x0)ᵀ *ᵥ ((poseRot x1 *ᵥ p + poseTrans x1) - poseTrans x0)) :
    (∀ zh, (g.project cres k pc).zhat = some zh →
      (reprojEval g cres W z p x0 x1 k).r = some (W *ᵥ (z - zh)) ∧
      ((g.project cres k pc).code = 0 → reprojResidual g cres z p x0 x1 k = (0, some (z - zh)))) ∧
    ((g.project cres k pc).zhat = none → (reprojEval g cres W z p x0 x1 k).r = none) ∧
    ((g.project cres k pc).code ≠ 0 → reprojResidual g cres z p x0 x1 k = (-1, none)) := by
  have e0 : tfPoint (tfInv (tfParams x0) * tfParams x1) p = pc := by
    have hpt : ∀ y : Fin 7 → ℝ, poseTrans y = tfTrans (tfParams y) := fun y => (poseTrans_eq y).symm
    rw [reprojPoint_eq, hpc, hpt, hpt]; rfl
  simp only [reprojEval, reprojResidual, e0]
  refine ⟨fun zh h => ⟨by rw [h]; rfl, fun hc => ?_⟩, fun h => by rw [h]; rfl, fun h => if_pos h⟩
  rw [if_neg (by simp [hc]), h]; rfl

/-- C43 refuted for the equidistant camera: behind the camera the residual uses a pixel that was
never written. -/
theorem C43_unwritten_refuted (cres : Fin 2 → ℤ) (W : Mat2) (z : Vec2) (p : Vec3 ℝ)
    (x0 x1 : Fin 7 → ℝ) (k : Params) (h : reprojPoint x0 x1 p 2 < 0) :
    (reprojEval equiGeom cres W z p x0 x1 k).r = none := by
  unfold reprojPoint at h
  simp only [reprojEval, equiGeom]
  rw [(C38_equi_partial cres k _).1 h]
  rfl

/-- C43: for an invalid projection the fiducial residual hands Ceres the unmasked Jacobian of the
camera parameters while the minimal one is zero, so the two disagree unless the former is zero. -/
theorem C43_fiducial_invalid_refuted (g : CamGeom) (cres : Fin 2 → ℤ) (W : Mat2) (z : Vec2)
    (p : Vec3 ℝ) (T_WF : Mat4 ℝ) (rp : Fin 2 → ℝ) (xs xi xc : Fin 7 → ℝ) (k : Params) (pc : Vec3 ℝ)
    (hpc : pc = tfPoint (tfInv (tfParams xc) * tfParams xi * tfInv (tfParams xs) * fiducialTf T_WF rp) p)
    (hv : (g.project cres k pc).code ≠ 0) (Jc : Matrix (Fin 2) (Fin 8) ℝ)
    (hJ : g.paramsJac k pc = some Jc) :
    ∀ J0 J1 J2 J3 J4, (fiducialEval g cres W z p T_WF rp xs xi xc k).jac = some (J0, J1, J2, J3, J4) →
      J0.min = 0 ∧ J1.min = 0 ∧ J2.min = 0 ∧ J3.min = 0 ∧ J4.min = 0 ∧
      J0.full = 0 ∧ J1.full = 0 ∧ J2.full = 0 ∧ J4.full = -(W * Jc) := by
  intro J0 J1 J2 J3 J4 h
  simp only [fiducialEval, ← hpc, hv, decide_false, hJ] at h
  split at h
  · rename_i e
    simp only [Option.some.injEq] at e
    subst e
    simp only [Option.some.injEq, Prod.mk.injEq, poseJac] at h
    obtain ⟨rfl, rfl, rfl, rfl, rfl⟩ := h
    simp
  · cases h

/-- The hypotheses of `C43_reproj` are met: camera and target 2 m apart, the point projects into
the image. -/
example : ∃ (k : Params) (p : Vec3 ℝ) (x0 x1 : Fin 7 → ℝ) (pc : Vec3 ℝ), UnitPose x0 ∧ UnitPose x1 ∧
    pc = (poseRot x0)ᵀ *ᵥ ((poseRot x1 *ᵥ p + poseTrans x1) - poseTrans x0) ∧ 0 < pc 2 ∧
    (radtanGeom.project ![640, 480] k pc).code = 0 ∧ Exact radtanGeom ![640, 480] k pc := by
  have hr : ∀ a : ℝ, poseRot ![0, 0, a, 0, 0, 0, 1] = 1 := by
    intro a
    show tfRot (tfParams _) = 1
    rw [poseRot_eq]
    apply mat3_eq <;> simp [Quat.toRot]
  have hpc : (![1, 0, 2] : Vec3 ℝ) = (poseRot ![0, 0, 0, 0, 0, 0, 1])ᵀ *ᵥ
      ((poseRot ![0, 0, 2, 0, 0, 0, 1] *ᵥ ![1, 0, 0] + poseTrans ![0, 0, 2, 0, 0, 0, 1]) -
        poseTrans ![0, 0, 0, 0, 0, 0, 1]) := by
    rw [hr, hr]
    ext i; fin_cases i <;> simp [poseTrans]
  refine ⟨![100, 100, 320, 240, 1 / 10, 0, 0, 0], ![1, 0, 0], ![0, 0, 0, 0, 0, 0, 1],
    ![0, 0, 2, 0, 0, 0, 1], ![1, 0, 2], by simp [UnitPose], by simp [UnitPose], hpc, by simp, ?_,
    C43_radtan _ _ _ (by simp)⟩
  refine (C38_radtan _ _ _).2.1.mpr ⟨by simp, ?_⟩
  simp [Spec.Inside, Spec.radtanX, Spec.radtanY]
  norm_num

end Yac.Residual
