import Verif.Imu.JacProps

/-!
# C44: the transition of the covariance in one step
-/

namespace Yac.Imu
open Yac.Geom Yac.Stream Yac.Residual Matrix

/-- A perturbation of the increments before a step, as they are stored: position, attitude (in the frame of
the start), velocity. -/
structure Nudge (I : ℝ → Integ) (x θ v : Vec3 ℝ) : Prop where
  unit : ∀ t, (I t).q.normSq = 1
  pos : VDeriv (fun t => (I t).acc_dbl) x 0
  att : MDeriv (fun t => (I t).q.toRot) (skew θ * (I 0).q.toRot) 0
  vel : VDeriv (fun t => (I t).acc_int) v 0

/-- How far the position row of the transition is from the derivative of the step. -/
noncomputable def gap (I I1 : Integ) (dt : ℝ) (θ b : Vec3 ℝ) : Vec3 ℝ :=
  dt • skew I.acc_int *ᵥ θ + dt • I.C_int *ᵥ b - ((1 / 2 : ℝ) * dt * dt) • (I.q.toRot + I1.q.toRot) *ᵥ b

theorem skew_smul' (c : ℝ) (u : Vec3 ℝ) : skew (c • u) = c • skew u := by
  ext i j; fin_cases i <;> fin_cases j <;> simp [skew]

theorem skew_add' (u w : Vec3 ℝ) : skew (u + w) = skew u + skew w := by
  ext i j; fin_cases i <;> fin_cases j <;> simp [skew] <;> ring

/-- C44 (partial: the attitude and velocity rows, for perturbations of the increments and of the
accelerometer bias): a step multiplies the covariance from both sides with a matrix `F` and adds the
noise; the rows of `F` for attitude and velocity are the derivative of the step.  The row for position
is not: it differs from the derivative by `gap`. -/
theorem C44_transition_partial (re : Bool) (p : Params) (sb : SB) (I : ℝ → Integ) (g : Seg) (x θ v b : Vec3 ℝ)
    (hn : Nudge I x θ v) (hq : (stepQuat ((1 / 2 : ℝ) • (g.w0 + g.w1) - sb.bg) g.dt).normSq = 1) :
    let I1 : ℝ → Integ := fun t => integrate re p ⟨sb.v, sb.bg, sb.ba + t • b⟩ (I t) g
    ∃ F : Mat15, (∀ P, (integrate re p sb { I 0 with P := P } g).P = F * P * Fᵀ + diagonal (fun i => noise p g.dt i.1)) ∧
      MDeriv (fun t => (I1 t).q.toRot)
        (skew (blk F 1 0 *ᵥ x + blk F 1 1 *ᵥ θ + blk F 1 2 *ᵥ v + blk F 1 4 *ᵥ b) * (I1 0).q.toRot) 0 ∧
      VDeriv (fun t => (I1 t).acc_int) (blk F 2 0 *ᵥ x + blk F 2 1 *ᵥ θ + blk F 2 2 *ᵥ v + blk F 2 4 *ᵥ b) 0 ∧
      VDeriv (fun t => (I1 t).acc_dbl) (blk F 0 0 *ᵥ x + blk F 0 1 *ᵥ θ + blk F 0 2 *ᵥ v + blk F 0 4 *ᵥ b +
        gap (I 0) (I1 0) g.dt θ b) 0 ∧
      (∀ i, blk F 3 i = if i = 3 then 1 else 0) ∧ (∀ i, blk F 4 i = if i = 4 then 1 else 0) := by
  intro I1
  set w := (1 / 2 : ℝ) • (g.w0 + g.w1) - sb.bg with hw
  set a := (1 / 2 : ℝ) • (g.a0 + g.a1) - sb.ba with ha
  set dq := stepQuat w g.dt with hdq
  set C := (I 0).q.toRot with hC
  set C1 := ((I 0).q.mul dq).toRot with hC1
  have ea : ∀ t : ℝ, (1 / 2 : ℝ) • (g.a0 + g.a1) - (sb.ba + t • b) = a - t • b := by
    intro t; rw [ha]; abel
  have e1 : ∀ t, ((I t).q.mul dq).toRot = (I t).q.toRot * dq.toRot := fun t => toRot_mul (hn.unit t) hq
  have hA1 : MDeriv (fun t => ((I t).q.mul dq).toRot) (skew θ * C1) 0 := by
    have := hn.att.mul (MDeriv.const dq.toRot 0)
    rw [Matrix.mul_zero, add_zero, Matrix.mul_assoc] at this
    rw [hC1, e1 0]
    simpa only [e1] using this
  have hS := (MDeriv.add hn.att hA1).mulVec (line_deriv a b)
  have hz : (skew θ * C + skew θ * C1) *ᵥ (a - (0 : ℝ) • b) + (C + C1) *ᵥ (-b) =
      (-skew ((C + C1) *ᵥ a)) *ᵥ θ - (C + C1) *ᵥ b := by
    rw [zero_smul, sub_zero, ← Matrix.mul_add, ← mulVec_mulVec, skew_mulVec θ, neg_mulVec, mulVec_neg, sub_eq_add_neg]
  change VDeriv _ ((skew θ * C + skew θ * C1) *ᵥ (a - (0 : ℝ) • b) + (C + C1) *ᵥ (-b)) 0 at hS
  rw [hz] at hS
  refine ⟨fDelta (I 0) C C1 a (dq.inverse.toRot * (I 0).cross + g.dt • rightJacobian (g.dt • w)) g.dt,
    fun P => rfl, ?_, ?_, ?_, ?_, ?_⟩
  · show MDeriv (fun t => ((I t).q.mul dq).toRot) (skew ((0 : Mat3 ℝ) *ᵥ x + (1 : Mat3 ℝ) *ᵥ θ + (0 : Mat3 ℝ) *ᵥ v +
      (0 : Mat3 ℝ) *ᵥ b) * C1) 0
    simpa using hA1
  · have h := hn.vel.add (VDeriv.smul ((1 / 2 : ℝ) * g.dt) hS)
    have e2 : (fun t => (I1 t).acc_int) = fun t => (I t).acc_int + ((1 / 2 : ℝ) * g.dt) •
        (((I t).q.toRot + ((I t).q.mul dq).toRot) *ᵥ (a - t • b)) := by
      funext t
      simp only [I1, integrate, ea, ← hw, ← hdq]
    rw [e2]
    show VDeriv _ ((0 : Mat3 ℝ) *ᵥ x + (-skew (((1 / 2 : ℝ) * g.dt) • ((C + C1) *ᵥ a))) *ᵥ θ + (1 : Mat3 ℝ) *ᵥ v +
      (-(((1 / 2 : ℝ) * g.dt) • (C + C1))) *ᵥ b) 0
    refine fun i => (h i).congr_deriv ?_
    rw [skew_smul']
    generalize skew ((C + C1) *ᵥ a) = X
    generalize C + C1 = Y
    simp only [zero_mulVec, one_mulVec, neg_mulVec, smul_mulVec, Pi.add_apply, Pi.sub_apply, Pi.neg_apply, Pi.smul_apply,
      Pi.zero_apply, smul_eq_mul]
    ring
  · have h := hn.pos.add ((VDeriv.smul g.dt hn.vel).add (VDeriv.smul ((1 / 4 : ℝ) * g.dt * g.dt) hS))
    have e2 : (fun t => (I1 t).acc_dbl) = fun t => (I t).acc_dbl + (g.dt • (I t).acc_int +
        ((1 / 4 : ℝ) * g.dt * g.dt) • (((I t).q.toRot + ((I t).q.mul dq).toRot) *ᵥ (a - t • b))) := by
      funext t
      simp only [I1, integrate, ea, ← hw, ← hdq]
    rw [e2]
    show VDeriv _ ((1 : Mat3 ℝ) *ᵥ x + (-skew (g.dt • (I 0).acc_int + ((1 / 4 : ℝ) * g.dt * g.dt) • ((C + C1) *ᵥ a))) *ᵥ θ +
      (g.dt • (1 : Mat3 ℝ)) *ᵥ v + (-(g.dt • (I 0).C_int) + ((1 / 4 : ℝ) * g.dt * g.dt) • (C + C1)) *ᵥ b +
      (g.dt • skew (I 0).acc_int *ᵥ θ + g.dt • (I 0).C_int *ᵥ b - ((1 / 2 : ℝ) * g.dt * g.dt) • (C + C1) *ᵥ b)) 0
    refine fun i => (h i).congr_deriv ?_
    rw [skew_add', skew_smul', skew_smul']
    generalize skew ((C + C1) *ᵥ a) = X
    generalize C + C1 = Y
    simp only [add_mulVec, one_mulVec, neg_mulVec, smul_mulVec, Pi.add_apply, Pi.sub_apply, Pi.neg_apply, Pi.smul_apply,
      smul_eq_mul]
    ring
  · intro i; fin_cases i <;> rfl
  · intro i; fin_cases i <;> rfl

/-- C44: the column of the transition for the gyroscope bias: the attitude turns by the step's rotation
of the bias; the entries for position and velocity are the changes in the step of the derivatives with
respect to the gyroscope bias over the interval so far. -/
theorem C44_transition_gyro (re : Bool) (p : Params) (sb : SB) (I : Integ) (g : Seg) :
    ∃ F : Mat15, (∀ P, (integrate re p sb { I with P := P } g).P = F * P * Fᵀ + diagonal (fun i => noise p g.dt i.1)) ∧
      blk F 1 3 = -(g.dt • (integrate re p sb I g).q.toRot) ∧
      blk F 2 3 = (integrate re p sb I g).dv - I.dv ∧ blk F 0 3 = (integrate re p sb I g).dp - I.dp := by
  refine ⟨fDelta I I.q.toRot (I.q.mul (stepQuat ((1 / 2 : ℝ) • (g.w0 + g.w1) - sb.bg) g.dt)).toRot
    ((1 / 2 : ℝ) • (g.a0 + g.a1) - sb.ba) ((stepQuat ((1 / 2 : ℝ) • (g.w0 + g.w1) - sb.bg) g.dt).inverse.toRot * I.cross +
      g.dt • rightJacobian (g.dt • ((1 / 2 : ℝ) • (g.w0 + g.w1) - sb.bg))) g.dt, fun P => rfl, rfl, ?_, ?_⟩
  · show _ = I.dv + _ - I.dv
    rw [add_sub_cancel_left]
    rfl
  · show _ = I.dp + _ - I.dp
    rw [add_sub_cancel_left]
    rfl

/-- The covariance of an accelerometer bias uncertain along the first axis. -/
def biasOnly : Mat15 := diagonal (fun i => if i = (4, 0) then 1 else 0)

/-- A second at rest. -/
noncomputable def rest : Seg := ⟨0, 0, 0, 0, 1⟩

/-- C44 refuted for the position row of the transition: over a second at rest, from the start, a greater
accelerometer bias gives a smaller position (by half of it), but the covariance of the two that is
delivered is positive. -/
theorem C44_transition_refuted : ∃ p : Params,
    (integrate false p ⟨0, 0, 0⟩ { P := biasOnly } rest).P (0, 0) (4, 0) = 1 / 2 ∧
    ∀ b : Vec3 ℝ, VDeriv (fun t => (integrate false p ⟨0, 0, t • b⟩ {} rest).acc_dbl) (-(1 / 2 : ℝ) • b) 0 := by
  have hdq : stepQuat ((1 / 2 : ℝ) • ((0 : Vec3 ℝ) + 0) - 0) 1 = ⟨1, 0, 0, 0⟩ := by
    simp [stepQuat, norm3, dot3]
  have hr : (Quat.mul (⟨1, 0, 0, 0⟩ : Quat ℝ) ⟨1, 0, 0, 0⟩).toRot = 1 := by
    ext i j; fin_cases i <;> fin_cases j <;> simp [Quat.mul, Quat.toRot]
  have hr0 : (⟨1, 0, 0, 0⟩ : Quat ℝ).toRot = 1 := by
    ext i j; fin_cases i <;> fin_cases j <;> simp [Quat.toRot]
  refine ⟨⟨0, 0, 0, 0, 0⟩, ?_, ?_⟩
  · simp only [integrate, rest, hdq, hr, hr0]
    rw [Matrix.add_apply, diagonal_apply_ne _ (by decide), add_zero, biasOnly, Matrix.mul_assoc, Matrix.mul_apply,
      Finset.sum_eq_single (4, 0)]
    · rw [Matrix.diagonal_mul, Matrix.transpose_apply, if_pos rfl]
      simp [fDelta, ofBlocks]
      norm_num
    · intro k _ hk
      rw [Matrix.diagonal_mul, if_neg hk, zero_mul, mul_zero]
    · simp
  · intro b i
    simp only [integrate, rest, hdq, hr, hr0]
    have := (((hasDerivAt_id (0 : ℝ)).mul_const (b i)).const_mul (-(1 / 2 : ℝ)))
    refine (this.congr_deriv (by simp)).congr_of_eventuallyEq ?_
    filter_upwards with t
    simp [add_mulVec]
    ring

/-- Witness of `C44_transition_partial`: a perturbation of the increments at the start. -/
example (x v : Vec3 ℝ) : Nudge (fun t => { acc_dbl := t • x, acc_int := t • v }) x 0 v := by
  refine ⟨fun t => by simp [Quat.normSq], ?_, ?_, ?_⟩
  · intro i
    refine ((hasDerivAt_id (0 : ℝ)).mul_const (x i)).congr_deriv ?_
    simp
  · intro i j
    refine (hasDerivAt_const (0 : ℝ) ((⟨1, 0, 0, 0⟩ : Quat ℝ).toRot i j)).congr_deriv ?_
    have : skew (0 : Vec3 ℝ) = 0 := by ext i j; fin_cases i <;> fin_cases j <;> simp [skew]
    rw [this, Matrix.zero_mul]; rfl
  · intro i
    refine ((hasDerivAt_id (0 : ℝ)).mul_const (v i)).congr_deriv ?_
    simp

end Yac.Imu
