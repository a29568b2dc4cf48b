import Verif.Imu.QuatPath

/-!
# C44: the Jacobians of the propagation and of the residual
-/

namespace Yac.Imu
open Yac.Geom Yac.Stream Yac.Residual Matrix

/-- Two runs that differ by `δ` in the accelerometer bias. -/
structure Shift (δ : Vec3 ℝ) (I I' : Integ) : Prop where
  q : I'.q = I.q
  ci : I'.C_int = I.C_int
  cd : I'.C_dbl = I.C_dbl
  vel : I'.acc_int = I.acc_int - I.C_int *ᵥ δ
  pos : I'.acc_dbl = I.acc_dbl - I.C_dbl *ᵥ δ
  dt : I'.dt = I.dt

theorem Shift.step {re : Bool} {p : Params} {sb e : SB} (he : e.bg = 0) {I I' : Integ} (h : Shift e.ba I I') (g : Seg) :
    Shift e.ba (integrate re p sb I g) (integrate re p (sbAt sb e 1) I' g) := by
  have eb : (sbAt sb e 1).bg = sb.bg := by simp [sbAt, he]
  have ea : (1 / 2 : ℝ) • (g.a0 + g.a1) - (sbAt sb e 1).ba = (1 / 2 : ℝ) • (g.a0 + g.a1) - sb.ba - e.ba := by
    simp only [sbAt, one_smul]; abel
  refine ⟨?_, ?_, ?_, ?_, ?_, ?_⟩ <;> simp only [integrate, eb, ea, h.q, h.ci, h.cd, h.vel, h.pos, h.dt]
  · generalize I.q.toRot + (I.q.mul (stepQuat ((1 / 2 : ℝ) • (g.w0 + g.w1) - sb.bg) g.dt)).toRot = Z
    rw [mulVec_sub, smul_sub, add_mulVec, smul_mulVec]
    abel
  · generalize I.q.toRot + (I.q.mul (stepQuat ((1 / 2 : ℝ) • (g.w0 + g.w1) - sb.bg) g.dt)).toRot = Z
    rw [mulVec_sub, smul_sub, smul_sub, add_mulVec, add_mulVec, smul_mulVec, smul_mulVec]
    abel

theorem Shift.fold {re : Bool} {p : Params} {sb e : SB} (he : e.bg = 0) (l : List Seg) {I I' : Integ}
    (h : Shift e.ba I I') :
    Shift e.ba (l.foldl (integrate re p sb) I) (l.foldl (integrate re p (sbAt sb e 1)) I') := by
  induction l generalizing I I' with
  | nil => exact h
  | cons g l ih => exact ih (h.step he g)

theorem Run.preint {p : Params} {sb : SB} {d : Imu (Vec3 ℝ)} {tstart tend : ℤ} {s : Loop} {l : List Seg}
    (h : Run false p sb d tstart tend s l) (p' : Params) (sb' : SB) :
    preint p' sb' d tstart tend = .ok ⟨l.foldl (integrate false p' sb') {}, s.time, s.started, l.length⟩ := by
  have := h.other p' sb'
  rwa [if_neg (by simp)] at this

theorem Run.redo {p : Params} {sb : SB} {d : Imu (Vec3 ℝ)} {tstart tend : ℤ} {s : Loop} {l : List Seg}
    (h : Run true p sb d tstart tend s l) (p' : Params) (sb' : SB) :
    redo p' sb' d tstart tend = .ok ⟨l.foldl (integrate true p' sb') {}, s.time, s.started, l.length⟩ := by
  have := h.other p' sb'
  rwa [if_pos rfl] at this

/-- C44: the blocks of the Jacobian for speed and accelerometer bias are exact, not just to first
order: changing the initial velocity by `e.v` and the accelerometer bias by `e.ba` leaves the attitude
and changes velocity and position by the blocks applied to the changes. -/
theorem C44_accel_jacobian (p : Params) (d : Imu (Vec3 ℝ)) (T : Mat4 ℝ) (sb e : SB) (tstart tend : ℤ)
    (hc : Covers d tstart tend) (ht : tstart ≤ tend) (he : e.bg = 0) :
    ∃ out out', propagation p d T sb tstart tend = .ok out ∧
      propagation p d T ⟨sb.v + e.v, sb.bg, sb.ba + e.ba⟩ tstart tend = .ok out' ∧
      tfRot out'.T = tfRot out.T ∧
      out'.sb.v = out.sb.v + blk out.jac 2 2 *ᵥ e.v + blk out.jac 2 4 *ᵥ e.ba ∧
      tfTrans out'.T = tfTrans out.T + blk out.jac 0 2 *ᵥ e.v + blk out.jac 0 4 *ᵥ e.ba ∧
      blk out.jac 1 2 = 0 ∧ blk out.jac 1 4 = 0 := by
  obtain ⟨s, l, h1, h2, -⟩ := preint_run p sb hc ht
  have esb : (⟨sb.v + e.v, sb.bg, sb.ba + e.ba⟩ : SB) = sbAt sb e 1 := by
    simp [sbAt, he]
  have h1' := h2.preint p (sbAt sb e 1)
  have hS := Shift.fold (re := false) (p := p) (sb := sb) he l (I := {}) (I' := {})
    ⟨rfl, rfl, rfl, by simp, by simp, rfl⟩
  rw [← h2.fold] at hS
  rw [esb]
  refine ⟨_, _, by unfold propagation; rw [h1]; rfl, by unfold propagation; rw [h1']; rfl, ?_, ?_, ?_, ?_, ?_⟩
  · show tfRot (moved p T _ _).1 = tfRot (moved p T _ _).1
    unfold moved tfQuat
    simp only
    rw [tfRot_tf, tfRot_tf, hS.q]
  · show (moved p T _ _).2.v = (moved p T _ _).2.v + blk (jacobian T s.I) 2 2 *ᵥ e.v + blk (jacobian T s.I) 2 4 *ᵥ e.ba
    have e22 : blk (jacobian T s.I) 2 2 = 1 := rfl
    have e24 : blk (jacobian T s.I) 2 4 = -(tfRot T * s.I.C_int) := rfl
    rw [e22, e24]
    unfold moved
    simp only
    rw [hS.vel, hS.dt, one_mulVec, neg_mulVec, ← mulVec_mulVec, mulVec_sub]
    simp only [sbAt, one_smul]
    abel
  · show tfTrans (moved p T _ _).1 = tfTrans (moved p T _ _).1 + blk (jacobian T s.I) 0 2 *ᵥ e.v +
      blk (jacobian T s.I) 0 4 *ᵥ e.ba
    have e22 : blk (jacobian T s.I) 0 2 = s.I.dt • 1 := rfl
    have e24 : blk (jacobian T s.I) 0 4 = -(tfRot T * s.I.C_dbl) := rfl
    rw [e22, e24]
    unfold moved tfQuat
    simp only
    rw [tfTrans_tf, tfTrans_tf, hS.pos, hS.dt, smul_mulVec, one_mulVec, neg_mulVec, ← mulVec_mulVec, mulVec_sub]
    simp only [sbAt, one_smul, smul_add]
    abel
  · rfl
  · rfl

/-- C44 (partial: the velocity and position rows, and data that does not turn or turns by at least 1e-4 in every
step, where `rightJacobian` is exact): the blocks of the Jacobian for speed, gyroscope bias and accelerometer bias are
the derivatives of velocity and position. -/
theorem C44_gyro_jacobian_partial (p : Params) (d : Imu (Vec3 ℝ)) (T : Mat4 ℝ) (sb e : SB) (tstart tend : ℤ)
    (hc : Covers d tstart tend) (hs : d.ts.Pairwise (· < ·)) (ht : tstart ≤ tend) (hb : Brisk d sb.bg tstart tend) :
    ∃ out : ℝ → Output, (∀ t, propagation p d T ⟨sb.v + t • e.v, sb.bg + t • e.bg, sb.ba + t • e.ba⟩ tstart tend = .ok (out t)) ∧
      VDeriv (fun t => tfTrans (out t).T) (blk (out 0).jac 0 2 *ᵥ e.v + blk (out 0).jac 0 3 *ᵥ e.bg +
        blk (out 0).jac 0 4 *ᵥ e.ba) 0 ∧
      VDeriv (fun t => (out t).sb.v) (blk (out 0).jac 2 2 *ᵥ e.v + blk (out 0).jac 2 3 *ᵥ e.bg +
        blk (out 0).jac 2 4 *ᵥ e.ba) 0 := by
  obtain ⟨s, l, h1, h2, -⟩ := preint_run p sb hc ht
  have hP := h2.path hs hb e
  set I : ℝ → Integ := fun t => l.foldl (integrate false p (sbAt sb e t)) {} with hI
  have hdt : ∀ t, (I t).dt = (I 0).dt := fun t => by rw [hI]; simp only [fold_dt]
  have hv : VDeriv (fun t : ℝ => sb.v + t • e.v) e.v 0 := by
    intro i
    have := ((hasDerivAt_id (0 : ℝ)).mul_const (e.v i)).const_add (sb.v i)
    refine this.congr_deriv ?_
    rw [one_mul]
  refine ⟨fun t => ⟨(moved p T (sbAt sb e t) (I t)).1, (moved p T (sbAt sb e t) (I t)).2, covariance T (I t),
    jacobian T (I t), l.length⟩, fun t => ?_, ?_, ?_⟩
  · have := h2.preint p (sbAt sb e t)
    unfold propagation
    change (preint p (sbAt sb e t) d tstart tend >>= _) = _
    rw [this]; rfl
  · show VDeriv (fun t => tfTrans (moved p T (sbAt sb e t) (I t)).1) (((I 0).dt • (1 : Mat3 ℝ)) *ᵥ e.v +
      (tfRot T * (I 0).dp) *ᵥ e.bg + (-(tfRot T * (I 0).C_dbl)) *ᵥ e.ba) 0
    have h := (((VDeriv.const (tfTrans T) 0).add (VDeriv.smul (I 0).dt hv)).add
      ((MDeriv.const (tfRot T) 0).mulVec hP.pos)).sub (VDeriv.const (((1 / 2 : ℝ) * (I 0).dt * (I 0).dt) • gW p) 0)
    have e1 : (fun t => tfTrans (moved p T (sbAt sb e t) (I t)).1) = fun t => tfTrans T + (I 0).dt • (sb.v + t • e.v) +
        tfRot T *ᵥ (I t).acc_dbl - ((1 / 2 : ℝ) * (I 0).dt * (I 0).dt) • gW p := by
      funext t
      unfold moved tfQuat
      simp only [tfTrans_tf, hdt t]
      rfl
    rw [e1]
    refine fun i => (h i).congr_deriv ?_
    rw [zero_mulVec, smul_mulVec, one_mulVec, neg_mulVec, ← mulVec_mulVec, ← mulVec_mulVec, mulVec_sub]
    simp only [Pi.add_apply, Pi.sub_apply, Pi.neg_apply, Pi.zero_apply, hI]
    ring
  · show VDeriv (fun t => (moved p T (sbAt sb e t) (I t)).2.v) ((1 : Mat3 ℝ) *ᵥ e.v +
      (tfRot T * (I 0).dv) *ᵥ e.bg + (-(tfRot T * (I 0).C_int)) *ᵥ e.ba) 0
    have h := hv.add (((MDeriv.const (tfRot T) 0).mulVec hP.vel).sub (VDeriv.const ((I 0).dt • gW p) 0))
    have e1 : (fun t => (moved p T (sbAt sb e t) (I t)).2.v) = fun t => sb.v + t • e.v +
        (tfRot T *ᵥ (I t).acc_int - (I 0).dt • gW p) := by
      funext t
      unfold moved
      simp only [hdt t]
      rfl
    rw [e1]
    refine fun i => (h i).congr_deriv ?_
    rw [zero_mulVec, one_mulVec, neg_mulVec, ← mulVec_mulVec, ← mulVec_mulVec, mulVec_sub]
    simp only [Pi.add_apply, Pi.sub_apply, Pi.neg_apply, Pi.zero_apply, hI]
    ring

/-- C44: the blocks of the Jacobian for the initial pose: as the pose moves with velocity `v` and angular velocity `w`
in the world frame, position and velocity move by the blocks, and so does the attitude if every step is exact. -/
theorem C44_pose_jacobian (p : Params) (d : Imu (Vec3 ℝ)) (T : ℝ → Mat4 ℝ) (sb : SB) (tstart tend : ℤ) (v w : Vec3 ℝ)
    (hc : Covers d tstart tend) (hs : d.ts.Pairwise (· < ·)) (ht : tstart ≤ tend) (hT : ∀ t, IsRot (tfRot (T t)))
    (hm : Moves (fun t => tfRot (T t)) (fun t => tfTrans (T t)) v w 0) :
    ∃ out : ℝ → Output, (∀ t, propagation p d (T t) sb tstart tend = .ok (out t)) ∧
      VDeriv (fun t => tfTrans (out t).T) (blk (out 0).jac 0 0 *ᵥ v + blk (out 0).jac 0 1 *ᵥ w) 0 ∧
      VDeriv (fun t => (out t).sb.v) (blk (out 0).jac 2 0 *ᵥ v + blk (out 0).jac 2 1 *ᵥ w) 0 ∧
      (Brisk d sb.bg tstart tend → MDeriv (fun t => tfRot (out t).T)
        (skew (blk (out 0).jac 1 0 *ᵥ v + blk (out 0).jac 1 1 *ᵥ w) * tfRot (out 0).T) 0) := by
  obtain ⟨s, l, h1, h2, -⟩ := preint_run p sb hc ht
  refine ⟨fun t => ⟨(moved p (T t) sb s.I).1, (moved p (T t) sb s.I).2, covariance (T t) s.I, jacobian (T t) s.I, s.count⟩,
    fun t => by unfold propagation; rw [h1]; rfl, ?_, ?_, ?_⟩
  · show VDeriv (fun t => tfTrans (moved p (T t) sb s.I).1) ((1 : Mat3 ℝ) *ᵥ v + (-skew (tfRot (T 0) *ᵥ s.I.acc_dbl)) *ᵥ w) 0
    have h := ((hm.trans.add (VDeriv.const (s.I.dt • sb.v) 0)).add (hm.rot.mulVec (VDeriv.const s.I.acc_dbl 0))).sub
      (VDeriv.const (((1 / 2 : ℝ) * s.I.dt * s.I.dt) • gW p) 0)
    have e1 : (fun t => tfTrans (moved p (T t) sb s.I).1) = fun t => tfTrans (T t) + s.I.dt • sb.v +
        tfRot (T t) *ᵥ s.I.acc_dbl - ((1 / 2 : ℝ) * s.I.dt * s.I.dt) • gW p := by
      funext t
      unfold moved tfQuat
      simp only [tfTrans_tf]
    rw [e1]
    refine fun i => (h i).congr_deriv ?_
    rw [one_mulVec, ← mulVec_mulVec, skew_mulVec w, neg_mulVec, mulVec_zero]
    simp
  · show VDeriv (fun t => (moved p (T t) sb s.I).2.v) ((0 : Mat3 ℝ) *ᵥ v + (-skew (tfRot (T 0) *ᵥ s.I.acc_int)) *ᵥ w) 0
    have h := (VDeriv.const sb.v 0).add ((hm.rot.mulVec (VDeriv.const s.I.acc_int 0)).sub (VDeriv.const (s.I.dt • gW p) 0))
    have e1 : (fun t => (moved p (T t) sb s.I).2.v) = fun t => sb.v + (tfRot (T t) *ᵥ s.I.acc_int - s.I.dt • gW p) := rfl
    rw [e1]
    refine fun i => (h i).congr_deriv ?_
    rw [← mulVec_mulVec, skew_mulVec w, neg_mulVec, mulVec_zero]
    simp
  · intro hb
    show MDeriv (fun t => tfRot (moved p (T t) sb s.I).1) (skew ((0 : Mat3 ℝ) *ᵥ v + (1 : Mat3 ℝ) *ᵥ w) *
      tfRot (moved p (T 0) sb s.I).1) 0
    have hu : s.I.q.normSq = 1 := by
      have := (h2.path hs hb ⟨0, 0, 0⟩).q.unit
      simp only [sbAt_zero] at this
      rwa [h2.fold]
    have e1 : ∀ t, tfRot (moved p (T t) sb s.I).1 = tfRot (T t) * s.I.q.toRot := by
      intro t
      unfold moved tfQuat
      simp only
      rw [tfRot_tf, toRot_mul (tf_of_rot (hT t)).1 hu, (tf_of_rot (hT t)).2]
    simp only [e1]
    rw [zero_mulVec, zero_add, one_mulVec, ← Matrix.mul_assoc]
    have h := hm.rot.mul (MDeriv.const s.I.q.toRot 0)
    rwa [Matrix.mul_zero, add_zero] at h

/-- A step of one second at the rate `(0, 0, π)`. -/
theorem rightJ_pi : rightJacobian ((1 : ℝ) • ![0, 0, Real.pi]) *ᵥ ![1, 0, 0] = ![0, -(2 / Real.pi), 0] := by
  have hn : norm3 (![0, 0, Real.pi] : Vec3 ℝ) = Real.pi := by
    unfold norm3
    have : dot3 (![0, 0, Real.pi] : Vec3 ℝ) ![0, 0, Real.pi] = Real.pi ^ 2 := by simp [dot3]; ring
    rw [this, Real.sqrt_sq Real.pi_pos.le]
  have hp := Real.pi_pos
  have h3 := Real.pi_gt_three
  rw [one_smul]
  unfold rightJacobian
  simp only
  rw [hn, if_neg (by norm_num; linarith), Real.cos_pi, Real.sin_pi]
  apply vec3_ext
  · simp [mulVec, dotProduct, Fin.sum_univ_three, skew, Matrix.mul_apply]
    field_simp; ring
  · simp [mulVec, dotProduct, Fin.sum_univ_three, skew, Matrix.mul_apply]
    field_simp; ring
  · simp [mulVec, dotProduct, Fin.sum_univ_three, skew, Matrix.mul_apply]

end Yac.Imu
