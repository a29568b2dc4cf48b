import Verif.Imu.CovProps

/-!
# Derivatives of the increments with respect to the gyroscope bias
-/

namespace Yac.Imu
open Yac.Geom Yac.Stream Yac.Residual Matrix

/-- A curve of quaternions through a unit quaternion with angular velocity `η` in the body frame. -/
structure Turns (q : ℝ → Quat ℝ) (η : Vec3 ℝ) (t0 : ℝ) : Prop where
  unit : (q t0).normSq = 1
  w : HasDerivAt (fun t => (q t).w) (-(((q t0).x * η 0 + (q t0).y * η 1 + (q t0).z * η 2) / 2)) t0
  x : HasDerivAt (fun t => (q t).x) (((q t0).w * η 0 + (q t0).y * η 2 - (q t0).z * η 1) / 2) t0
  y : HasDerivAt (fun t => (q t).y) (((q t0).w * η 1 + (q t0).z * η 0 - (q t0).x * η 2) / 2) t0
  z : HasDerivAt (fun t => (q t).z) (((q t0).w * η 2 + (q t0).x * η 1 - (q t0).y * η 0) / 2) t0

theorem Turns.rot {q : ℝ → Quat ℝ} {η : Vec3 ℝ} {t0 : ℝ} (h : Turns q η t0) :
    MDeriv (fun t => (q t).toRot) ((q t0).toRot * skew η) t0 := by
  obtain ⟨hu, hw, hx, hy, hz⟩ := h
  have hq' : (q t0).w * (q t0).w + (q t0).x * (q t0).x + (q t0).y * (q t0).y +
    (q t0).z * (q t0).z = 1 := hu
  have tx := hx.const_mul 2
  have ty := hy.const_mul 2
  have tz := hz.const_mul 2
  intro i j
  fin_cases i <;> fin_cases j
  · refine (((ty.fun_mul hy).fun_add (tz.fun_mul hz)).const_sub 1).congr_deriv ?_
    simp only [mul_entry]
    simp [skew, Quat.toRot]
    ring
  · refine ((ty.fun_mul hx).fun_sub (tz.fun_mul hw)).congr_deriv ?_
    simp only [mul_entry]
    simp [skew, Quat.toRot]
    linear_combination (-η 2) * hq'
  · refine ((tz.fun_mul hx).fun_add (ty.fun_mul hw)).congr_deriv ?_
    simp only [mul_entry]
    simp [skew, Quat.toRot]
    linear_combination (η 1) * hq'
  · refine ((ty.fun_mul hx).fun_add (tz.fun_mul hw)).congr_deriv ?_
    simp only [mul_entry]
    simp [skew, Quat.toRot]
    linear_combination (η 2) * hq'
  · refine (((tx.fun_mul hx).fun_add (tz.fun_mul hz)).const_sub 1).congr_deriv ?_
    simp only [mul_entry]
    simp [skew, Quat.toRot]
    ring
  · refine ((tz.fun_mul hy).fun_sub (tx.fun_mul hw)).congr_deriv ?_
    simp only [mul_entry]
    simp [skew, Quat.toRot]
    linear_combination (-η 0) * hq'
  · refine ((tz.fun_mul hx).fun_sub (ty.fun_mul hw)).congr_deriv ?_
    simp only [mul_entry]
    simp [skew, Quat.toRot]
    linear_combination (-η 1) * hq'
  · refine ((tz.fun_mul hy).fun_add (tx.fun_mul hw)).congr_deriv ?_
    simp only [mul_entry]
    simp [skew, Quat.toRot]
    linear_combination (η 0) * hq'
  · refine (((tx.fun_mul hx).fun_add (ty.fun_mul hy)).const_sub 1).congr_deriv ?_
    simp only [mul_entry]
    simp [skew, Quat.toRot]
    ring

theorem inverse_unit {q : Quat ℝ} (h : q.normSq = 1) : q.inverse.toRot = q.toRotᵀ := by
  have : q.inverse = q.conj := by
    unfold Quat.inverse
    simp [h, Quat.conj]
  rw [this]
  exact (C33_homomorphism q q).2.2.1

/-- Moving a vector across a unit quaternion. -/
theorem swap {q : Quat ℝ} (h : q.normSq = 1) (η : Vec3 ℝ) :
    q.x * (q.toRotᵀ *ᵥ η) 0 + q.y * (q.toRotᵀ *ᵥ η) 1 + q.z * (q.toRotᵀ *ᵥ η) 2 =
      η 0 * q.x + η 1 * q.y + η 2 * q.z ∧
    q.w * (q.toRotᵀ *ᵥ η) 0 + q.y * (q.toRotᵀ *ᵥ η) 2 - q.z * (q.toRotᵀ *ᵥ η) 1 =
      η 0 * q.w + η 1 * q.z - η 2 * q.y ∧
    q.w * (q.toRotᵀ *ᵥ η) 1 + q.z * (q.toRotᵀ *ᵥ η) 0 - q.x * (q.toRotᵀ *ᵥ η) 2 =
      η 1 * q.w + η 2 * q.x - η 0 * q.z ∧
    q.w * (q.toRotᵀ *ᵥ η) 2 + q.x * (q.toRotᵀ *ᵥ η) 1 - q.y * (q.toRotᵀ *ᵥ η) 0 =
      η 2 * q.w + η 0 * q.y - η 1 * q.x := by
  rw [(C33_sandwich q).2 h]
  have hu : q.w * q.w + q.x * q.x + q.y * q.y + q.z * q.z = 1 := h
  refine ⟨?_, ?_, ?_, ?_⟩ <;> simp [quat2rot, mulVec, dotProduct, Fin.sum_univ_three]
  · linear_combination (η 0 * q.x + η 1 * q.y + η 2 * q.z) * hu
  · linear_combination (η 0 * q.w + η 1 * q.z - η 2 * q.y) * hu
  · linear_combination (η 1 * q.w + η 2 * q.x - η 0 * q.z) * hu
  · linear_combination (η 2 * q.w + η 0 * q.y - η 1 * q.x) * hu

/-- Angular velocities of a product, in the body frame. -/
theorem Turns.mul {p q : ℝ → Quat ℝ} {η ζ : Vec3 ℝ} {t0 : ℝ} (hp : Turns p η t0) (hq : Turns q ζ t0) :
    Turns (fun t => (p t).mul (q t)) ((q t0).inverse.toRot *ᵥ η + ζ) t0 := by
  obtain ⟨s0, s1, s2, s3⟩ := swap hq.unit η
  rw [inverse_unit hq.unit]
  generalize (q t0).toRotᵀ *ᵥ η = ρ at *
  refine ⟨by rw [normSq_mul, hp.unit, hq.unit, one_mul], ?_, ?_, ?_, ?_⟩
  · refine ((((hp.w.fun_mul hq.w).fun_sub (hp.x.fun_mul hq.x)).fun_sub (hp.y.fun_mul hq.y)).fun_sub
      (hp.z.fun_mul hq.z)).congr_deriv ?_
    simp only [Quat.mul, Pi.add_apply]
    linear_combination ((p t0).w * s0 + (p t0).x * s1 + (p t0).y * s2 + (p t0).z * s3) / 2
  · refine ((((hp.w.fun_mul hq.x).fun_add (hp.x.fun_mul hq.w)).fun_add (hp.y.fun_mul hq.z)).fun_sub
      (hp.z.fun_mul hq.y)).congr_deriv ?_
    simp only [Quat.mul, Pi.add_apply]
    linear_combination (-(p t0).w * s1 + (p t0).x * s0 - (p t0).y * s3 + (p t0).z * s2) / 2
  · refine ((((hp.w.fun_mul hq.y).fun_sub (hp.x.fun_mul hq.z)).fun_add (hp.y.fun_mul hq.w)).fun_add
      (hp.z.fun_mul hq.x)).congr_deriv ?_
    simp only [Quat.mul, Pi.add_apply]
    linear_combination (-(p t0).w * s2 + (p t0).x * s3 + (p t0).y * s0 - (p t0).z * s1) / 2
  · refine ((((hp.w.fun_mul hq.z).fun_add (hp.x.fun_mul hq.y)).fun_sub (hp.y.fun_mul hq.x)).fun_add
      (hp.z.fun_mul hq.w)).congr_deriv ?_
    simp only [Quat.mul, Pi.add_apply]
    linear_combination (-(p t0).w * s3 - (p t0).x * s2 + (p t0).y * s1 + (p t0).z * s0) / 2

theorem norm3_path (w δ : Vec3 ℝ) (h : norm3 w ≠ 0) :
    HasDerivAt (fun t : ℝ => norm3 (w - t • δ)) (-(dot3 w δ) / norm3 w) 0 := by
  have hd : HasDerivAt (fun t : ℝ => dot3 (w - t • δ) (w - t • δ)) (-(2 * dot3 w δ)) 0 := by
    have e : ∀ i, HasDerivAt (fun t : ℝ => (w - t • δ) i) (-(δ i)) 0 := by
      intro i
      have := ((hasDerivAt_id (0 : ℝ)).mul_const (δ i)).const_sub (w i)
      refine this.congr_deriv ?_
      rw [one_mul]
    refine ((((e 0).fun_mul (e 0)).fun_add ((e 1).fun_mul (e 1))).fun_add ((e 2).fun_mul (e 2))).congr_deriv ?_
    simp [dot3]; ring
  have h0 : dot3 (w - (0 : ℝ) • δ) (w - (0 : ℝ) • δ) ≠ 0 := by
    rw [zero_smul, sub_zero, ← norm3_sq]; exact mul_ne_zero h h
  have := hd.sqrt h0
  refine this.congr_deriv ?_
  rw [zero_smul, sub_zero]
  show -(2 * dot3 w δ) / (2 * norm3 w) = _
  field_simp

/-- A long enough step for the exact right Jacobian, or none at all. -/
def LongStep (w : Vec3 ℝ) (dt : ℝ) : Prop := w = 0 ∨ 1 / 10 ^ 4 ≤ norm3 w * dt

theorem norm3_smul {c : ℝ} (h : 0 ≤ c) (v : Vec3 ℝ) : norm3 (c • v) = c * norm3 v := by
  unfold norm3
  have : dot3 (c • v) (c • v) = c ^ 2 * dot3 v v := by simp [dot3]; ring
  rw [this, Real.sqrt_mul (sq_nonneg c), Real.sqrt_sq h]

theorem rightJ_zero : rightJacobian 0 = 1 := by
  have : skew (0 : Vec3 ℝ) = 0 := by ext i j; fin_cases i <;> fin_cases j <;> simp [skew]
  unfold rightJacobian
  simp [this, norm3, dot3]

/-- How the rotation of a step changes with the rate. -/
theorem stepQuat_turns (w δ : Vec3 ℝ) {dt : ℝ} (hd : 0 < dt) (h : LongStep w dt) :
    Turns (fun t => stepQuat (w - t • δ) dt) (-(dt • (rightJacobian (dt • w) *ᵥ δ))) 0 := by
  rcases h with rfl | h
  · rw [smul_zero, rightJ_zero, one_mulVec]
    have hs0 : stepQuat ((0 : Vec3 ℝ) - (0 : ℝ) • δ) dt = ⟨1, 0, 0, 0⟩ := by
      simp [stepQuat, norm3, dot3]
    have hn : ∀ t : ℝ, norm3 ((0 : Vec3 ℝ) - t • δ) = |t| * norm3 δ := by
      intro t
      rw [zero_sub, norm3_neg]
      rcases le_total 0 t with ht | ht
      · rw [norm3_smul ht, abs_of_nonneg ht]
      · rw [abs_of_nonpos ht, ← norm3_smul (neg_nonneg.mpr ht), neg_smul, norm3_neg]
    have hcos : ∀ t : ℝ, Real.cos (norm3 ((0 : Vec3 ℝ) - t • δ) * (1 / 2) * dt) = Real.cos (t * (norm3 δ / 2 * dt)) := by
      intro t
      rw [hn]
      rcases le_total 0 t with ht | ht
      · rw [abs_of_nonneg ht]; congr 1; ring
      · rw [abs_of_nonpos ht, ← Real.cos_neg]; congr 1; ring
    set c := norm3 δ / 2 * dt with hc
    have hsq : ∀ t : ℝ, norm3 ((0 : Vec3 ℝ) - t • δ) * (1 / 2) * dt * (norm3 ((0 : Vec3 ℝ) - t • δ) * (1 / 2) * dt) =
        t * t * (c * c) := by
      intro t
      rw [hn]
      have := abs_mul_abs_self t
      rw [hc]
      linear_combination (norm3 δ / 2 * dt) ^ 2 * this
    have hev : ∀ᶠ t in nhds (0 : ℝ), sinc (norm3 ((0 : Vec3 ℝ) - t • δ) * (1 / 2) * dt) =
        1 - 1 / 6 * (t * t * (c * c)) + 1 / 120 * (t * t * (c * c) * (t * t * (c * c)))
          - 1 / 5040 * (t * t * (c * c) * (t * t * (c * c)) * (t * t * (c * c))) := by
      have hcont : ContinuousAt (fun t : ℝ => |t| * c) 0 := by fun_prop
      have h1 : ∀ᶠ t in nhds (0 : ℝ), |t| * c < 1 / 1000000 := by
        apply hcont.eventually_lt continuousAt_const
        simp
      filter_upwards [h1] with t ht
      unfold sinc
      have e : norm3 ((0 : Vec3 ℝ) - t • δ) * (1 / 2) * dt = |t| * c := by rw [hn, hc]; ring
      have cn : 0 ≤ |t| * c := by
        rw [← e, hn]; have := norm3_nonneg' δ; positivity
      rw [if_neg (by rw [e, abs_of_nonneg cn]; linarith)]
      simp only
      rw [hsq]
    have hvec : ∀ k : ℝ, HasDerivAt (fun t : ℝ => sinc (norm3 ((0 : Vec3 ℝ) - t • δ) * (1 / 2) * dt) * (-(t * k)) * (1 / 2) * dt)
        (-(k * dt) / 2) 0 := by
      intro k
      have hp : HasDerivAt (fun t : ℝ => (1 - 1 / 6 * (t * t * (c * c)) + 1 / 120 * (t * t * (c * c) * (t * t * (c * c)))
          - 1 / 5040 * (t * t * (c * c) * (t * t * (c * c)) * (t * t * (c * c)))) * (-(t * k)) * (1 / 2) * dt)
          (-(k * dt) / 2) 0 := by
        have i := hasDerivAt_id (0 : ℝ)
        have q := (i.fun_mul i).mul_const (c * c)
        have P := (((q.const_mul (1 / 6)).const_sub 1).fun_add ((q.fun_mul q).const_mul (1 / 120))).fun_sub
          (((q.fun_mul q).fun_mul q).const_mul (1 / 5040))
        have := (((P.fun_mul ((i.mul_const k).fun_neg)).mul_const (1 / 2)).mul_const dt)
        refine this.congr_deriv ?_
        simp; ring
      refine hp.congr_of_eventuallyEq ?_
      filter_upwards [hev] with t ht
      rw [ht]
    refine ⟨?_, ?_, ?_, ?_, ?_⟩
    · show (stepQuat ((0 : Vec3 ℝ) - (0 : ℝ) • δ) dt).normSq = 1
      rw [hs0]; simp [Quat.normSq]
    · simp only [hs0]
      have : HasDerivAt (fun t : ℝ => Real.cos (t * c)) 0 0 := by
        have := ((hasDerivAt_id (0 : ℝ)).mul_const c).cos
        refine this.congr_deriv ?_
        simp
      refine (this.congr_of_eventuallyEq ?_).congr_deriv (by simp)
      exact Filter.Eventually.of_forall fun t => hcos t
    · simp only [hs0]
      refine ((hvec (δ 0)).congr_of_eventuallyEq ?_).congr_deriv ?_
      · exact Filter.Eventually.of_forall fun t => by
          simp only [stepQuat, Pi.sub_apply, Pi.zero_apply, Pi.smul_apply, smul_eq_mul, zero_sub]
      · simp; ring
    · simp only [hs0]
      refine ((hvec (δ 1)).congr_of_eventuallyEq ?_).congr_deriv ?_
      · exact Filter.Eventually.of_forall fun t => by
          simp only [stepQuat, Pi.sub_apply, Pi.zero_apply, Pi.smul_apply, smul_eq_mul, zero_sub]
      · simp; ring
    · simp only [hs0]
      refine ((hvec (δ 2)).congr_of_eventuallyEq ?_).congr_deriv ?_
      · exact Filter.Eventually.of_forall fun t => by
          simp only [stepQuat, Pi.sub_apply, Pi.zero_apply, Pi.smul_apply, smul_eq_mul, zero_sub]
      · simp; ring
  · have hn0 : norm3 w ≠ 0 := by
      intro h0; rw [h0, zero_mul] at h; norm_num at h
    have hnp : 0 < norm3 w := lt_of_le_of_ne (norm3_nonneg' w) (Ne.symm hn0)
    have hN := norm3_path w δ hn0
    have hev : ∀ᶠ t in nhds (0 : ℝ), stepQuat (w - t • δ) dt = expQuat (w - t • δ) dt := by
      have hc : ContinuousAt (fun t : ℝ => norm3 (w - t • δ) * dt) 0 := hN.continuousAt.mul continuousAt_const
      have h1 : ∀ᶠ t in nhds (0 : ℝ), (2 / 1000000 : ℝ) < norm3 (w - t • δ) * dt := by
        apply continuousAt_const.eventually_lt hc
        rw [zero_smul, sub_zero]
        refine lt_of_lt_of_le ?_ h
        norm_num
      filter_upwards [h1] with t ht
      exact stepQuat_exact _ _ hd (Or.inr ht)
    have h0e : stepQuat (w - (0 : ℝ) • δ) dt = expQuat w dt := by
      have := hev.self_of_nhds
      rw [this, zero_smul, sub_zero]
    -- half angle
    set a := norm3 w * dt / 2 with ha
    have hhalf : HasDerivAt (fun t : ℝ => norm3 (w - t • δ) * dt / 2) (-(dot3 w δ) / norm3 w * dt / 2) 0 :=
      (hN.mul_const dt).div_const 2
    have hcos := hhalf.cos
    have hk := hhalf.sin.fun_div hN (by rw [zero_smul, sub_zero]; exact hn0)
    have hv : ∀ i, HasDerivAt (fun t : ℝ => (w - t • δ) i) (-(δ i)) 0 := by
      intro i
      have := ((hasDerivAt_id (0 : ℝ)).mul_const (δ i)).const_sub (w i)
      refine this.congr_deriv ?_
      rw [one_mul]
    have hphi : norm3 (dt • w) = 2 * a := by rw [norm3_smul hd.le, ha]; ring
    have hJ : rightJacobian (dt • w) = 1 + (-(1 - Real.cos (2 * a)) / (2 * a) ^ 2) • skew (dt • w) +
        ((2 * a - Real.sin (2 * a)) / (2 * a) ^ 3) • (skew (dt • w) * skew (dt • w)) := by
      unfold rightJacobian
      simp only
      rw [if_neg (by rw [hphi, ha]; linarith), hphi]
    have hws := norm3_sq w
    have hsc := Real.sin_sq_add_cos_sq a
    have ha2 : 2 * a = norm3 w * dt := by rw [ha]; ring
    have hdd : dt ≠ 0 := hd.ne'
    have hη : ∀ i, (-(dt • (rightJacobian (dt • w) *ᵥ δ))) i =
        -(2 * Real.sin a * Real.cos a / norm3 w) * δ i + 2 * Real.sin a ^ 2 / norm3 w ^ 2 * (skew w *ᵥ δ) i -
        (norm3 w * dt - 2 * Real.sin a * Real.cos a) / norm3 w ^ 3 * dot3 w δ * w i := by
      intro i
      have hsk : skew (dt • w) = dt • skew w := by
        ext i j; fin_cases i <;> fin_cases j <;> simp [skew]
      have hss : (skew w * skew w) *ᵥ δ = dot3 w δ • w - (norm3 w * norm3 w) • δ := by
        rw [hws]
        apply vec3_ext <;> simp [skew, Matrix.mul_apply, mulVec, dotProduct, Fin.sum_univ_three, dot3] <;> ring
      rw [hJ, hsk, Matrix.smul_mul, Matrix.mul_smul, Matrix.add_mulVec, Matrix.add_mulVec, smul_mulVec, smul_mulVec,
        smul_mulVec, smul_mulVec, smul_mulVec, hss, one_mulVec, Real.cos_two_mul, Real.sin_two_mul, ha2]
      simp only [Pi.neg_apply, Pi.smul_apply, Pi.add_apply, Pi.sub_apply, smul_eq_mul]
      have e : Real.cos a ^ 2 = 1 - Real.sin a ^ 2 := by linarith
      rw [e]
      field_simp
      ring
    have hcr : ∀ i, (skew w *ᵥ (-(dt • (rightJacobian (dt • w) *ᵥ δ)))) i =
        -(2 * Real.sin a * Real.cos a / norm3 w) * (skew w *ᵥ δ) i + 2 * Real.sin a ^ 2 / norm3 w ^ 2 *
          (dot3 w δ * w i - norm3 w * norm3 w * δ i) := by
      intro i
      have e : (-(dt • (rightJacobian (dt • w) *ᵥ δ))) =
        (-(2 * Real.sin a * Real.cos a / norm3 w)) • δ + (2 * Real.sin a ^ 2 / norm3 w ^ 2) • (skew w *ᵥ δ) -
        ((norm3 w * dt - 2 * Real.sin a * Real.cos a) / norm3 w ^ 3 * dot3 w δ) • w := by
        funext i
        rw [hη i]; rfl
      have hss : skew w *ᵥ (skew w *ᵥ δ) = dot3 w δ • w - (norm3 w * norm3 w) • δ := by
        rw [hws]
        apply vec3_ext <;> simp [skew, mulVec, dotProduct, Fin.sum_univ_three, dot3] <;> ring
      have hsw : skew w *ᵥ w = 0 := by
        apply vec3_ext <;> simp [skew, mulVec, dotProduct, Fin.sum_univ_three] <;> ring
      rw [e, mulVec_sub, mulVec_add, mulVec_smul, mulVec_smul, mulVec_smul, hss, hsw]
      simp only [Pi.add_apply, Pi.sub_apply, Pi.smul_apply, smul_eq_mul, smul_zero, Pi.zero_apply, sub_zero]
    have hdot : w 0 * (-(dt • (rightJacobian (dt • w) *ᵥ δ))) 0 + w 1 * (-(dt • (rightJacobian (dt • w) *ᵥ δ))) 1 +
        w 2 * (-(dt • (rightJacobian (dt • w) *ᵥ δ))) 2 = -(dot3 w δ * dt) := by
      rw [hη 0, hη 1, hη 2]
      have hsd : w 0 * (skew w *ᵥ δ) 0 + w 1 * (skew w *ᵥ δ) 1 + w 2 * (skew w *ᵥ δ) 2 = 0 := by
        simp [skew, mulVec, dotProduct, Fin.sum_univ_three]; ring
      have hws' : norm3 w * norm3 w = w 0 * w 0 + w 1 * w 1 + w 2 * w 2 := hws
      have hD : dot3 w δ = w 0 * δ 0 + w 1 * δ 1 + w 2 * δ 2 := rfl
      have e : -(dot3 w δ * dt) = -(2 * Real.sin a * Real.cos a / norm3 w) * dot3 w δ -
          (norm3 w * dt - 2 * Real.sin a * Real.cos a) / norm3 w ^ 3 * dot3 w δ * (norm3 w * norm3 w) := by
        field_simp; ring
      rw [e]
      linear_combination (-(2 * Real.sin a * Real.cos a / norm3 w)) * (-1 : ℝ) * hD +
        (2 * Real.sin a ^ 2 / norm3 w ^ 2) * hsd +
        (norm3 w * dt - 2 * Real.sin a * Real.cos a) / norm3 w ^ 3 * dot3 w δ * hws'
    have hskew : ∀ u : Vec3 ℝ, (skew w *ᵥ u) 0 = w 1 * u 2 - w 2 * u 1 ∧ (skew w *ᵥ u) 1 = w 2 * u 0 - w 0 * u 2 ∧
        (skew w *ᵥ u) 2 = w 0 * u 1 - w 1 * u 0 := by
      intro u
      refine ⟨?_, ?_, ?_⟩ <;> simp [skew, mulVec, dotProduct, Fin.sum_univ_three] <;> ring
    have hfin : ∀ i, (Real.cos (norm3 w * dt / 2) * (-(dot3 w δ) / norm3 w * dt / 2) * norm3 w -
          Real.sin (norm3 w * dt / 2) * (-(dot3 w δ) / norm3 w)) / norm3 w ^ 2 * w i +
          Real.sin (norm3 w * dt / 2) / norm3 w * -(δ i) =
        (Real.cos a * (-(dt • (rightJacobian (dt • w) *ᵥ δ))) i +
          Real.sin a / norm3 w * (skew w *ᵥ (-(dt • (rightJacobian (dt • w) *ᵥ δ)))) i) / 2 := by
      intro i
      rw [hη i, hcr i, ← ha]
      have e : Real.cos a ^ 2 = 1 - Real.sin a ^ 2 := by linarith
      field_simp
      ring_nf
      rw [e]
      ring
    generalize hE : (-(dt • (rightJacobian (dt • w) *ᵥ δ))) = η at *
    obtain ⟨k0, k1, k2⟩ := hskew η
    refine ⟨?_, ?_, ?_, ?_, ?_⟩
    · show (stepQuat (w - (0 : ℝ) • δ) dt).normSq = 1
      rw [h0e]; exact expQuat_normSq w dt
    · refine (hcos.congr_of_eventuallyEq ?_).congr_deriv ?_
      · filter_upwards [hev] with t ht
        rw [ht]; rfl
      · rw [h0e, zero_smul, sub_zero, ← ha]
        simp only [expQuat, ← ha]
        have : Real.sin a / norm3 w * w 0 * η 0 + Real.sin a / norm3 w * w 1 * η 1 + Real.sin a / norm3 w * w 2 * η 2 =
          Real.sin a / norm3 w * (-(dot3 w δ * dt)) := by rw [← hdot]; ring
        rw [this]
        field_simp
    · refine ((hk.fun_mul (hv 0)).congr_of_eventuallyEq ?_).congr_deriv ?_
      · filter_upwards [hev] with t ht
        rw [ht]; rfl
      · have := hfin 0
        rw [h0e]
        simp only [zero_smul, sub_zero, expQuat, ← ha] at this ⊢
        rw [this, k0]; ring
    · refine ((hk.fun_mul (hv 1)).congr_of_eventuallyEq ?_).congr_deriv ?_
      · filter_upwards [hev] with t ht
        rw [ht]; rfl
      · have := hfin 1
        rw [h0e]
        simp only [zero_smul, sub_zero, expQuat, ← ha] at this ⊢
        rw [this, k1]; ring
    · refine ((hk.fun_mul (hv 2)).congr_of_eventuallyEq ?_).congr_deriv ?_
      · filter_upwards [hev] with t ht
        rw [ht]; rfl
      · have := hfin 2
        rw [h0e]
        simp only [zero_smul, sub_zero, expQuat, ← ha] at this ⊢
        rw [this, k2]; ring

end Yac.Imu
