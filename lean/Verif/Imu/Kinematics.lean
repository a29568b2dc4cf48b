import Verif.Imu.Lemmas
import Verif.Residual.Motion
import Verif.Geom.RotProps
import Mathlib.Analysis.Quaternion

/-!
# Rigid body kinematics with constant angular velocity and specific force
-/

namespace Yac.Imu
open Yac.Geom Yac.Stream Yac.Residual Matrix

theorem norm3_zero {w : Vec3 ℝ} (h : norm3 w = 0) : w = 0 := by
  have := norm3_sq w
  rw [h, mul_zero] at this
  simp only [dot3] at this
  apply vec3_ext <;> simp only [Pi.zero_apply] <;> nlinarith [sq_nonneg (w 0), sq_nonneg (w 1), sq_nonneg (w 2)]

theorem abs_dot3_le (x y : Vec3 ℝ) : |dot3 x y| ≤ norm3 x * norm3 y := by
  have hx := norm3_sq x
  have hy := norm3_sq y
  have h : dot3 x y ^ 2 ≤ (norm3 x * norm3 y) ^ 2 := by
    rw [mul_pow, pow_two (norm3 x), pow_two (norm3 y), hx, hy]
    simp only [dot3]
    nlinarith [sq_nonneg (x 0 * y 1 - x 1 * y 0), sq_nonneg (x 0 * y 2 - x 2 * y 0),
      sq_nonneg (x 1 * y 2 - x 2 * y 1)]
  have hn : 0 ≤ norm3 x * norm3 y := mul_nonneg (Real.sqrt_nonneg _) (Real.sqrt_nonneg _)
  exact abs_le_of_sq_le_sq h hn

theorem norm3_nonneg' (x : Vec3 ℝ) : 0 ≤ norm3 x := Real.sqrt_nonneg _

theorem norm3_skew_le (w x : Vec3 ℝ) : norm3 (skew w *ᵥ x) ≤ norm3 w * norm3 x := by
  apply le_of_sq_le_sq _ (mul_nonneg (norm3_nonneg' w) (norm3_nonneg' x))
  rw [mul_pow, pow_two, pow_two, pow_two, norm3_sq, norm3_sq, norm3_sq]
  simp [dot3, skew, mulVec, dotProduct, Fin.sum_univ_three]
  nlinarith [sq_nonneg (w 0 * x 0 + w 1 * x 1 + w 2 * x 2)]

theorem norm3_rot {R : Mat3 ℝ} (h : IsRot R) (x : Vec3 ℝ) : norm3 (R *ᵥ x) = norm3 x := by
  have ht : Rᵀ * R = 1 := by
    have := h.1
    rwa [mul_eq_one_comm] at this
  have e : dot3 (R *ᵥ x) (R *ᵥ x) = dot3 x x := by
    have h1 : ∀ y z : Vec3 ℝ, dot3 y z = y ⬝ᵥ z := by
      intro y z; simp [dot3, dotProduct, Fin.sum_univ_three]
    rw [h1, h1, dotProduct_mulVec, vecMul_mulVec, ht, vecMul_one]
  unfold norm3
  rw [e]

/-- The rotation by the angle `|w| t` about the axis `w`, as a quaternion. -/
noncomputable def expQuat (w : Vec3 ℝ) (t : ℝ) : Quat ℝ :=
  let k := Real.sin (norm3 w * t / 2) / norm3 w
  ⟨Real.cos (norm3 w * t / 2), k * w 0, k * w 1, k * w 2⟩

theorem expQuat_zero (w : Vec3 ℝ) : expQuat w 0 = ⟨1, 0, 0, 0⟩ := by
  simp [expQuat]

theorem expQuat_still (t : ℝ) : expQuat 0 t = ⟨1, 0, 0, 0⟩ := by
  simp [expQuat, norm3, dot3]

theorem expQuat_normSq (w : Vec3 ℝ) (t : ℝ) : (expQuat w t).normSq = 1 := by
  have hs := norm3_sq w
  simp only [dot3] at hs
  simp only [expQuat, Quat.normSq]
  have hc := Real.sin_sq_add_cos_sq (norm3 w * t / 2)
  by_cases h : norm3 w = 0
  · simp [h]
  · generalize norm3 w * t / 2 = x at *
    have : Real.sin x / norm3 w * w 0 * (Real.sin x / norm3 w * w 0) +
        Real.sin x / norm3 w * w 1 * (Real.sin x / norm3 w * w 1) +
        Real.sin x / norm3 w * w 2 * (Real.sin x / norm3 w * w 2) = Real.sin x ^ 2 := by
      field_simp
      linear_combination (-(Real.sin x) ^ 2) * hs
    linear_combination this + hc

theorem expQuat_mul (w : Vec3 ℝ) (s t : ℝ) : (expQuat w s).mul (expQuat w t) = expQuat w (s + t) := by
  have hs := norm3_sq w
  simp only [dot3] at hs
  have e : norm3 w * (s + t) / 2 = norm3 w * s / 2 + norm3 w * t / 2 := by ring
  simp only [expQuat, Quat.mul, e, Real.cos_add, Real.sin_add]
  by_cases h : norm3 w = 0
  · have := norm3_zero h
    subst this
    simp [h]
  · generalize norm3 w * s / 2 = x
    generalize norm3 w * t / 2 = y
    congr 1
    · field_simp
      linear_combination (Real.sin x * Real.sin y) * hs
    · field_simp; ring
    · field_simp; ring
    · field_simp; ring

/-- A step is exact if it turns by nothing or by more than 2e-6. -/
theorem stepQuat_exact (w : Vec3 ℝ) (dt : ℝ) (hd : 0 < dt)
    (h : w = 0 ∨ 2 / 1000000 < norm3 w * dt) : stepQuat w dt = expQuat w dt := by
  rcases h with rfl | h
  · rw [expQuat_still]
    simp [stepQuat, norm3, dot3]
  · have hp : 0 < norm3 w * dt := lt_trans (by norm_num) h
    have hn : norm3 w ≠ 0 := by
      intro h0; rw [h0, zero_mul] at hp; exact lt_irrefl _ hp
    have e : norm3 w * (1 / 2) * dt = norm3 w * dt / 2 := by ring
    unfold stepQuat expQuat
    simp only [e]
    have hsinc : sinc (norm3 w * dt / 2) = Real.sin (norm3 w * dt / 2) / (norm3 w * dt / 2) := by
      unfold sinc
      rw [if_pos (by rw [abs_of_pos (by linarith)]; linarith)]
    rw [hsinc]
    have hd' : dt ≠ 0 := hd.ne'
    congr 1 <;> · field_simp

theorem sinc_close (x : ℝ) (hx : 0 ≤ x) : |sinc x * x - Real.sin x| ≤ 1 / 10 ^ 24 := by
  unfold sinc
  by_cases h : |x| > 1 / 1000000
  · rw [if_pos h]
    have : x ≠ 0 := by rintro rfl; simp at h; linarith
    rw [div_mul_cancel₀ _ this, sub_self, abs_zero]
    positivity
  · rw [if_neg h, abs_of_nonneg hx] at *
    have hx1 : x ≤ 1 / 1000000 := not_lt.mp h
    have hb := Real.sin_bound (x := x) (by rw [abs_of_nonneg hx]; linarith)
    rw [abs_of_nonneg hx] at hb
    simp only
    have x2 : x ^ 2 ≤ 1 / 10 ^ 12 := by nlinarith
    have x4 : x ^ 4 ≤ 1 / 10 ^ 24 := by nlinarith [sq_nonneg x, sq_nonneg (x^2)]
    have x4n : 0 ≤ x ^ 4 := by positivity
    have x5 : x ^ 5 ≤ x ^ 4 * (1 / 1000000) := by
      rw [pow_succ]; exact mul_le_mul_of_nonneg_left hx1 x4n
    have x5n : 0 ≤ x ^ 5 := by positivity
    have x7 : x ^ 7 ≤ x ^ 5 := by
      have : x ^ 7 = x ^ 5 * x ^ 2 := by ring
      rw [this]; nlinarith
    have x7n : 0 ≤ x ^ 7 := by positivity
    have e : (1 - 1 / 6 * (x * x) + 1 / 120 * (x * x * (x * x)) - 1 / 5040 * (x * x * (x * x) * (x * x))) * x
      = x - x ^ 3 / 6 + x ^ 5 / 120 - x ^ 7 / 5040 := by ring
    rw [e]
    rw [abs_le] at hb ⊢
    constructor <;> nlinarith

theorem norm_toH (q : Quat ℝ) : ‖toH q‖ * ‖toH q‖ = q.normSq := by
  rw [← Quaternion.normSq_eq_norm_mul_self, Quaternion.normSq_def']
  simp only [toH, Quat.normSq]
  ring

theorem toH_mul (p q : Quat ℝ) : toH (p.mul q) = toH p * toH q := by
  ext
  · rw [Quaternion.re_mul]; simp only [toH, Quat.mul]
  · rw [Quaternion.imI_mul]; simp only [toH, Quat.mul]
  · rw [Quaternion.imJ_mul]; simp only [toH, Quat.mul]
  · rw [Quaternion.imK_mul]; simp only [toH, Quat.mul]

theorem stepQuat_close (w : Vec3 ℝ) (dt : ℝ) (hd : 0 < dt) :
    ‖toH (stepQuat w dt) - toH (expQuat w dt)‖ ≤ 1 / 10 ^ 24 := by
  set h := norm3 w * dt / 2 with hh
  have e : norm3 w * (1 / 2) * dt = h := by rw [hh]; ring
  have hnn : 0 ≤ h := by rw [hh]; have := norm3_nonneg' w; positivity
  by_cases hn : norm3 w = 0
  · have := norm3_zero hn
    subst this
    rw [stepQuat_exact 0 dt hd (Or.inl rfl), sub_self, norm_zero]
    positivity
  set δ := (sinc h * h - Real.sin h) / norm3 w with hδ
  have hdiff : toH (stepQuat w dt) - toH (expQuat w dt) = toH ⟨0, δ * w 0, δ * w 1, δ * w 2⟩ := by
    have key : ∀ x : ℝ, sinc h * x * (1 / 2) * dt - Real.sin h / norm3 w * x = δ * x := by
      intro x
      rw [hδ]
      have : dt = 2 * h / norm3 w := by rw [hh]; field_simp
      rw [this]; field_simp
    simp only [stepQuat, expQuat, e, ← hh, toH]
    ext
    · simp only [Quaternion.re_sub]; exact sub_self _
    · simp only [Quaternion.imI_sub]; exact key _
    · simp only [Quaternion.imJ_sub]; exact key _
    · simp only [Quaternion.imK_sub]; exact key _
  rw [hdiff]
  have hsq : ‖toH ⟨0, δ * w 0, δ * w 1, δ * w 2⟩‖ ^ 2 = (sinc h * h - Real.sin h) ^ 2 := by
    rw [pow_two, norm_toH]
    have hs := norm3_sq w
    simp only [dot3] at hs
    simp only [Quat.normSq]
    have : δ * norm3 w = sinc h * h - Real.sin h := by rw [hδ]; field_simp
    rw [← this]
    linear_combination (-(δ ^ 2)) * hs
  have := sinc_close h hnn
  have h2 : ‖toH ⟨0, δ * w 0, δ * w 1, δ * w 2⟩‖ = |sinc h * h - Real.sin h| := by
    rw [← abs_of_nonneg (norm_nonneg (toH _))]
    exact (sq_eq_sq_iff_abs_eq_abs _ _).mp hsq
  rw [h2]; exact this

/-- The rotation with constant angular velocity. -/
noncomputable def rotAt (w : Vec3 ℝ) (t : ℝ) : Mat3 ℝ := (expQuat w t).toRot

theorem rotAt_isRot (w : Vec3 ℝ) (t : ℝ) : IsRot (rotAt w t) :=
  ⟨toRot_mul_transpose _ (expQuat_normSq w t), toRot_det _ (expQuat_normSq w t)⟩

theorem rotAt_zero (w : Vec3 ℝ) : rotAt w 0 = 1 := by
  unfold rotAt
  rw [expQuat_zero]
  apply mat3_eq <;> simp [Quat.toRot]

theorem rotAt_deriv (w : Vec3 ℝ) (t : ℝ) : MDeriv (rotAt w) (skew w * rotAt w t) t := by
  have hs := norm3_sq w
  simp only [dot3] at hs
  have hx : HasDerivAt (fun t : ℝ => norm3 w * t / 2) (norm3 w / 2) t := by
    have := ((hasDerivAt_id t).const_mul (norm3 w)).div_const 2
    simpa using this
  have hk : HasDerivAt (fun t => Real.sin (norm3 w * t / 2) / norm3 w)
      (Real.cos (norm3 w * t / 2) * (norm3 w / 2) / norm3 w) t := hx.sin.div_const _
  by_cases h : norm3 w = 0
  · have := norm3_zero h
    subst this
    have e : rotAt 0 = fun _ => 1 := by
      funext s; unfold rotAt; rw [expQuat_still]; apply mat3_eq <;> simp [Quat.toRot]
    have e0 : skew (0 : Vec3 ℝ) = 0 := by
      ext i j; fin_cases i <;> fin_cases j <;> simp [skew]
    rw [e, e0, Matrix.zero_mul]
    exact MDeriv.const 1 t
  have hc : Real.cos (norm3 w * t / 2) * (norm3 w / 2) / norm3 w = Real.cos (norm3 w * t / 2) / 2 := by
    field_simp
  rw [hc] at hk
  apply toRot_moves (expQuat w) w t (expQuat_normSq w t)
  · refine hx.cos.congr_deriv ?_
    simp only [expQuat]
    field_simp
    linear_combination (Real.sin (norm3 w * t / 2)) * (-1 : ℝ) * hs
  · refine (hk.mul_const (w 0)).congr_deriv ?_
    simp only [expQuat]; ring
  · refine (hk.mul_const (w 1)).congr_deriv ?_
    simp only [expQuat]; ring
  · refine (hk.mul_const (w 2)).congr_deriv ?_
    simp only [expQuat]; ring

end Yac.Imu
