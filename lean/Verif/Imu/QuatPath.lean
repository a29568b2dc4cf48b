import Verif.Imu.BiasPath

/-!
# Derivatives of quaternions
-/

namespace Yac.Imu
open Yac.Geom Yac.Stream Yac.Residual Matrix

/-- Componentwise derivative of a curve of quaternions. -/
structure QDeriv (q : ℝ → Quat ℝ) (q' : Quat ℝ) (t0 : ℝ) : Prop where
  w : HasDerivAt (fun t => (q t).w) q'.w t0
  x : HasDerivAt (fun t => (q t).x) q'.x t0
  y : HasDerivAt (fun t => (q t).y) q'.y t0
  z : HasDerivAt (fun t => (q t).z) q'.z t0

/-- Sum of quaternions. -/
def qadd (p q : Quat ℝ) : Quat ℝ := ⟨p.w + q.w, p.x + q.x, p.y + q.y, p.z + q.z⟩

/-- Half the product with a vector from the left. -/
noncomputable def halfL (v : Vec3 ℝ) (q : Quat ℝ) : Quat ℝ := Quat.mul ⟨0, v 0 / 2, v 1 / 2, v 2 / 2⟩ q

theorem QDeriv.mul {p q : ℝ → Quat ℝ} {p' q' : Quat ℝ} {t0 : ℝ} (hp : QDeriv p p' t0) (hq : QDeriv q q' t0) :
    QDeriv (fun t => (p t).mul (q t)) (qadd (p'.mul (q t0)) ((p t0).mul q')) t0 := by
  refine ⟨?_, ?_, ?_, ?_⟩
  · refine ((((hp.w.fun_mul hq.w).fun_sub (hp.x.fun_mul hq.x)).fun_sub (hp.y.fun_mul hq.y)).fun_sub
      (hp.z.fun_mul hq.z)).congr_deriv ?_
    simp only [Quat.mul, qadd]; ring
  · refine ((((hp.w.fun_mul hq.x).fun_add (hp.x.fun_mul hq.w)).fun_add (hp.y.fun_mul hq.z)).fun_sub
      (hp.z.fun_mul hq.y)).congr_deriv ?_
    simp only [Quat.mul, qadd]; ring
  · refine ((((hp.w.fun_mul hq.y).fun_sub (hp.x.fun_mul hq.z)).fun_add (hp.y.fun_mul hq.w)).fun_add
      (hp.z.fun_mul hq.x)).congr_deriv ?_
    simp only [Quat.mul, qadd]; ring
  · refine ((((hp.w.fun_mul hq.z).fun_add (hp.x.fun_mul hq.y)).fun_sub (hp.y.fun_mul hq.x)).fun_add
      (hp.z.fun_mul hq.w)).congr_deriv ?_
    simp only [Quat.mul, qadd]; ring

/-- A curve through a unit quaternion that turns with `v` in the reference frame, inverted. -/
theorem QDeriv.inverse {q : ℝ → Quat ℝ} {v : Vec3 ℝ} {t0 : ℝ} (hu : (q t0).normSq = 1) (h : QDeriv q (halfL v (q t0)) t0) :
    QDeriv (fun t => (q t).inverse) ((q t0).inverse.mul ⟨0, -v 0 / 2, -v 1 / 2, -v 2 / 2⟩) t0 := by
  have hn : HasDerivAt (fun t => (q t).normSq) 0 t0 := by
    refine ((((h.w.fun_mul h.w).fun_add (h.x.fun_mul h.x)).fun_add (h.y.fun_mul h.y)).fun_add (h.z.fun_mul h.z)).congr_deriv ?_
    simp only [halfL, Quat.mul]; ring
  have hne : (q t0).normSq ≠ 0 := by rw [hu]; norm_num
  have hev : ∀ᶠ t in nhds t0, (q t).inverse = ⟨(q t).w / (q t).normSq, -(q t).x / (q t).normSq,
      -(q t).y / (q t).normSq, -(q t).z / (q t).normSq⟩ := by
    have : ∀ᶠ t in nhds t0, 0 < (q t).normSq := continuousAt_const.eventually_lt hn.continuousAt (by rw [hu]; norm_num)
    filter_upwards [this] with t ht
    unfold Quat.inverse
    simp only
    rw [if_pos ht]
  have h0 : (q t0).inverse = (q t0).conj := by
    rw [hev.self_of_nhds, hu]; simp [Quat.conj]
  rw [h0]
  refine ⟨?_, ?_, ?_, ?_⟩
  · refine ((h.w.fun_div hn hne).congr_of_eventuallyEq ?_).congr_deriv ?_
    · filter_upwards [hev] with t ht; rw [ht]
    · rw [hu]; simp only [halfL, Quat.mul, Quat.conj]; ring
  · refine ((h.x.fun_neg.fun_div hn hne).congr_of_eventuallyEq ?_).congr_deriv ?_
    · filter_upwards [hev] with t ht; rw [ht]
    · rw [hu]; simp only [halfL, Quat.mul, Quat.conj]; ring
  · refine ((h.y.fun_neg.fun_div hn hne).congr_of_eventuallyEq ?_).congr_deriv ?_
    · filter_upwards [hev] with t ht; rw [ht]
    · rw [hu]; simp only [halfL, Quat.mul, Quat.conj]; ring
  · refine ((h.z.fun_neg.fun_div hn hne).congr_of_eventuallyEq ?_).congr_deriv ?_
    · filter_upwards [hev] with t ht; rw [ht]
    · rw [hu]; simp only [halfL, Quat.mul, Quat.conj]; ring

/-- Angular velocity in the reference frame. -/
theorem Turns.left {q : ℝ → Quat ℝ} {η : Vec3 ℝ} {t0 : ℝ} (h : Turns q η t0) :
    QDeriv q (halfL ((q t0).toRot *ᵥ η) (q t0)) t0 := by
  have e : (q t0).toRotᵀ *ᵥ ((q t0).toRot *ᵥ η) = η := by
    rw [mulVec_mulVec, mul_eq_one_comm.mp (toRot_mul_transpose _ h.unit), one_mulVec]
  obtain ⟨s0, s1, s2, s3⟩ := swap h.unit ((q t0).toRot *ᵥ η)
  rw [e] at s0 s1 s2 s3
  generalize (q t0).toRot *ᵥ η = ρ at *
  refine ⟨h.w.congr_deriv ?_, h.x.congr_deriv ?_, h.y.congr_deriv ?_, h.z.congr_deriv ?_⟩ <;>
    simp only [halfL, Quat.mul]
  · linear_combination -s0 / 2
  · linear_combination s1 / 2
  · linear_combination s2 / 2
  · linear_combination s3 / 2

/-- The quaternion computed from a moving rotation matrix of less than 120 degrees turns with it. -/
theorem rotToQuat_left {C : ℝ → Mat3 ℝ} {v : Vec3 ℝ} {t0 : ℝ} (h : MDeriv C (skew v * C t0) t0) (hC : IsRot (C t0))
    (ht : 0 < (C t0).trace) :
    QDeriv (fun t => rotToQuat (C t)) (halfL v (rotToQuat (C t0))) t0 := by
  obtain ⟨hu, hr⟩ := (rotToQuat_spec hC).spec
  have htr : HasDerivAt (fun t => C t 0 0 + C t 1 1 + C t 2 2) ((skew v * C t0).trace) t0 := by
    refine (((h 0 0).fun_add (h 1 1)).fun_add (h 2 2)).congr_deriv ?_
    simp [trace, Fin.sum_univ_three]
  have ht' : 0 < C t0 0 0 + C t0 1 1 + C t0 2 2 := by
    simpa [trace, Fin.sum_univ_three] using ht
  set S : ℝ → ℝ := fun t => Real.sqrt (C t 0 0 + C t 1 1 + C t 2 2 + 1) with hS
  have hS0 : 0 < S t0 := Real.sqrt_pos.mpr (by linarith)
  have hSd : HasDerivAt S ((skew v * C t0).trace / (2 * S t0)) t0 :=
    (htr.add_const 1).sqrt (by linarith)
  have hev : ∀ᶠ t in nhds t0, rotToQuat (C t) = ⟨1 / 2 * S t, (C t 2 1 - C t 1 2) * (1 / 2 / S t),
      (C t 0 2 - C t 2 0) * (1 / 2 / S t), (C t 1 0 - C t 0 1) * (1 / 2 / S t)⟩ := by
    have : ∀ᶠ t in nhds t0, 0 < C t 0 0 + C t 1 1 + C t 2 2 :=
      continuousAt_const.eventually_lt htr.continuousAt ht'
    filter_upwards [this] with t h
    unfold rotToQuat
    simp only
    rw [if_pos h]
  have h0 := hev.self_of_nhds
  generalize hq : rotToQuat (C t0) = q at *
  have hw : S t0 = 2 * q.w := by rw [h0]; ring
  have hwp : 0 < q.w := by linarith
  have hinv : HasDerivAt (fun t => 1 / 2 / S t) (-(1 / 2 * ((skew v * C t0).trace / (2 * S t0))) / S t0 ^ 2) t0 := by
    refine ((hasDerivAt_const t0 (1 / 2 : ℝ)).fun_div hSd hS0.ne').congr_deriv ?_
    ring
  have hu' : q.w * q.w + q.x * q.x + q.y * q.y + q.z * q.z = 1 := hu
  have hwe : q.w * q.w = 1 - q.x * q.x - q.y * q.y - q.z * q.z := by linarith
  rw [← hr] at h hSd hinv
  have hT : (skew v * q.toRot).trace = -4 * q.w * (v 0 * q.x + v 1 * q.y + v 2 * q.z) := by
    simp [trace, Fin.sum_univ_three, skew, Quat.toRot]; ring
  rw [hT, hw] at hSd hinv
  have e21 : ∀ i j, C t0 i j = q.toRot i j := fun i j => by rw [hr]
  refine ⟨?_, ?_, ?_, ?_⟩
  · refine ((hSd.const_mul (1 / 2)).congr_of_eventuallyEq ?_).congr_deriv ?_
    · filter_upwards [hev] with t h; rw [h]
    · simp only [halfL, Quat.mul]; field_simp; ring
  · refine ((((h 2 1).fun_sub (h 1 2)).fun_mul hinv).congr_of_eventuallyEq ?_).congr_deriv ?_
    · filter_upwards [hev] with t h; rw [h]
    · rw [hw, e21, e21]
      simp only [mul_entry]
      simp [skew, Quat.toRot, halfL, Quat.mul]
      field_simp
      linear_combination (-8 * v 0) * hu'
  · refine ((((h 0 2).fun_sub (h 2 0)).fun_mul hinv).congr_of_eventuallyEq ?_).congr_deriv ?_
    · filter_upwards [hev] with t h; rw [h]
    · rw [hw, e21, e21]
      simp only [mul_entry]
      simp [skew, Quat.toRot, halfL, Quat.mul]
      field_simp
      linear_combination (-8 * v 1) * hu'
  · refine ((((h 1 0).fun_sub (h 0 1)).fun_mul hinv).congr_of_eventuallyEq ?_).congr_deriv ?_
    · filter_upwards [hev] with t h; rw [h]
    · rw [hw, e21, e21]
      simp only [mul_entry]
      simp [skew, Quat.toRot, halfL, Quat.mul]
      field_simp
      linear_combination (-8 * v 2) * hu'

end Yac.Imu
