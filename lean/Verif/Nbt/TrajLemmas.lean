import Verif.Nbt.Traj
import Verif.Residual.Motion
import Verif.Imu.QuatPath
import Mathlib.Analysis.SpecialFunctions.Trigonometric.Deriv
import Mathlib.Analysis.SpecialFunctions.Sqrt

/-!
# Lemmas about the Lissajous trajectories
-/

namespace Yac.Nbt
open Matrix Yac.Geom Yac.Residual Yac.Imu
open Real (sin cos pi sqrt)

theorem phase_eq (tr : Traj) (t : ℝ) : phase tr t = sin (0.25 * t * tr.w) ^ 2 := by
  unfold phase; congr 2; ring

theorem s_deriv (tr : Traj) (t : ℝ) :
    HasDerivAt (fun t => sin (0.25 * t * tr.w)) (0.25 * tr.w * cos (0.25 * t * tr.w)) t := by
  have h : HasDerivAt (fun t => 0.25 * t * tr.w) (0.25 * tr.w) t := by
    refine (((hasDerivAt_id t).const_mul 0.25).mul_const tr.w).congr_deriv ?_
    ring
  exact h.sin.congr_deriv (by ring)

theorem c_deriv (tr : Traj) (t : ℝ) :
    HasDerivAt (fun t => cos (0.25 * t * tr.w)) (-(0.25 * tr.w * sin (0.25 * t * tr.w))) t := by
  have h : HasDerivAt (fun t => 0.25 * t * tr.w) (0.25 * tr.w) t := by
    refine (((hasDerivAt_id t).const_mul 0.25).mul_const tr.w).congr_deriv ?_
    ring
  exact h.cos.congr_deriv (by ring)

theorem sq_deriv (tr : Traj) (t : ℝ) :
    HasDerivAt (fun t => sin (0.25 * t * tr.w) ^ 2)
      (0.5 * tr.w * sin (0.25 * t * tr.w) * cos (0.25 * t * tr.w)) t := by
  have h := (s_deriv tr t).fun_mul (s_deriv tr t)
  have e : (fun t => sin (0.25 * t * tr.w) ^ 2) =
      fun t => sin (0.25 * t * tr.w) * sin (0.25 * t * tr.w) := by funext t; ring
  rw [e]
  exact h.congr_deriv (by ring)

theorem phase_deriv (tr : Traj) (t : ℝ) :
    HasDerivAt (phase tr) (0.5 * tr.w * sin (0.25 * t * tr.w) * cos (0.25 * t * tr.w)) t := by
  have e : phase tr = fun t => sin (0.25 * t * tr.w) ^ 2 := funext (phase_eq tr)
  rw [e]; exact sq_deriv tr t

theorem lin_deriv (tr : Traj) (u v t : ℝ) :
    HasDerivAt (fun t => u * sin (0.25 * t * tr.w) ^ 2 + v)
      (u * (0.5 * tr.w * sin (0.25 * t * tr.w) * cos (0.25 * t * tr.w))) t :=
  ((sq_deriv tr t).const_mul u).add_const v

theorem posX_deriv (tr : Traj) (t : ℝ) :
    HasDerivAt (posX tr) (0.5 * tr.A * tr.a * tr.w * sin (0.25 * t * tr.w) * cos (0.25 * t * tr.w)
      * cos (tr.a * sin (0.25 * t * tr.w) ^ 2 + tr.delta)) t := by
  have h := ((lin_deriv tr tr.a tr.delta t).sin.const_mul tr.A)
  have e : posX tr = fun t => tr.A * sin (tr.a * sin (0.25 * t * tr.w) ^ 2 + tr.delta) := by
    funext t; rw [posX, phase_eq]
  rw [e]
  exact h.congr_deriv (by ring)

theorem posY_deriv (tr : Traj) (t : ℝ) :
    HasDerivAt (posY tr) (0.5 * tr.B * tr.b * tr.w * sin (0.25 * t * tr.w)
      * cos (tr.b * sin (0.25 * t * tr.w) ^ 2) * cos (0.25 * t * tr.w)) t := by
  have h := (((sq_deriv tr t).const_mul tr.b).sin.const_mul tr.B)
  have e : posY tr = fun t => tr.B * sin (tr.b * sin (0.25 * t * tr.w) ^ 2) := by
    funext t; rw [posY, phase_eq]
  rw [e]
  exact h.congr_deriv (by ring)

theorem under_eq (tr : Traj) (t : ℝ) :
    under tr t = -tr.A ^ 2 * sin (tr.a * sin (0.25 * t * tr.w) ^ 2 + tr.delta) ^ 2
      - tr.B ^ 2 * sin (tr.b * sin (0.25 * t * tr.w) ^ 2) ^ 2 + tr.R ^ 2 := by
  rw [under, posX, posY, phase_eq]; ring

/-- Half the rate of `under`. -/
noncomputable def num (tr : Traj) (t : ℝ) : ℝ :=
  -0.5 * tr.A ^ 2 * tr.a * tr.w * sin (0.25 * t * tr.w)
      * sin (tr.a * sin (0.25 * t * tr.w) ^ 2 + tr.delta) * cos (0.25 * t * tr.w)
      * cos (tr.a * sin (0.25 * t * tr.w) ^ 2 + tr.delta)
    - 0.5 * tr.B ^ 2 * tr.b * tr.w * sin (tr.b * sin (0.25 * t * tr.w) ^ 2) * sin (0.25 * t * tr.w)
      * cos (tr.b * sin (0.25 * t * tr.w) ^ 2) * cos (0.25 * t * tr.w)

theorem under_deriv (tr : Traj) (t : ℝ) : HasDerivAt (under tr) (2 * num tr t) t := by
  have h := ((hasDerivAt_const t (tr.R * tr.R)).fun_sub
    ((posX_deriv tr t).fun_mul (posX_deriv tr t))).fun_sub ((posY_deriv tr t).fun_mul (posY_deriv tr t))
  refine h.congr_deriv ?_
  rw [num, posX, posY, phase_eq]; ring

theorem height_deriv (tr : Traj) (t : ℝ) (h : 0 < under tr t) :
    HasDerivAt (fun t => sqrt (under tr t)) (num tr t / sqrt (under tr t)) t := by
  refine ((under_deriv tr t).sqrt h.ne').congr_deriv ?_
  have : sqrt (under tr t) ≠ 0 := (Real.sqrt_pos.mpr h).ne'
  field_simp

/-- Rate of `num`. -/
noncomputable def numDot (tr : Traj) (t : ℝ) : ℝ :=
    (0.25 * tr.A ^ 2 * tr.a ^ 2 * tr.w ^ 2 * sin (0.25 * t * tr.w) ^ 2 * sin (tr.a * sin (0.25 * t * tr.w) ^ 2 + tr.delta) ^ 2 * cos (0.25 * t * tr.w) ^ 2
        - 0.25 * tr.A ^ 2 * tr.a ^ 2 * tr.w ^ 2 * sin (0.25 * t * tr.w) ^ 2 * cos (0.25 * t * tr.w) ^ 2 * cos (tr.a * sin (0.25 * t * tr.w) ^ 2 + tr.delta) ^ 2
        + 0.125 * tr.A ^ 2 * tr.a * tr.w ^ 2 * sin (0.25 * t * tr.w) ^ 2 * sin (tr.a * sin (0.25 * t * tr.w) ^ 2 + tr.delta) * cos (tr.a * sin (0.25 * t * tr.w) ^ 2 + tr.delta)
        - 0.125 * tr.A ^ 2 * tr.a * tr.w ^ 2 * sin (tr.a * sin (0.25 * t * tr.w) ^ 2 + tr.delta) * cos (0.25 * t * tr.w) ^ 2 * cos (tr.a * sin (0.25 * t * tr.w) ^ 2 + tr.delta)
        + 0.25 * tr.B ^ 2 * tr.b ^ 2 * tr.w ^ 2 * sin (tr.b * sin (0.25 * t * tr.w) ^ 2) ^ 2 * sin (0.25 * t * tr.w) ^ 2 * cos (0.25 * t * tr.w) ^ 2
        - 0.25 * tr.B ^ 2 * tr.b ^ 2 * tr.w ^ 2 * sin (0.25 * t * tr.w) ^ 2 * cos (tr.b * sin (0.25 * t * tr.w) ^ 2) ^ 2 * cos (0.25 * t * tr.w) ^ 2
        + 0.125 * tr.B ^ 2 * tr.b * tr.w ^ 2 * sin (tr.b * sin (0.25 * t * tr.w) ^ 2) * sin (0.25 * t * tr.w) ^ 2 * cos (tr.b * sin (0.25 * t * tr.w) ^ 2)
        - 0.125 * tr.B ^ 2 * tr.b * tr.w ^ 2 * sin (tr.b * sin (0.25 * t * tr.w) ^ 2) * cos (tr.b * sin (0.25 * t * tr.w) ^ 2) * cos (0.25 * t * tr.w) ^ 2)

theorem num_deriv (tr : Traj) (t : ℝ) : HasDerivAt (num tr) (numDot tr t) t := by
  have hs := s_deriv tr t
  have hc := c_deriv tr t
  have hx := lin_deriv tr tr.a tr.delta t
  have hy := (sq_deriv tr t).const_mul tr.b
  have h1 := (((hs.const_mul (-0.5 * tr.A ^ 2 * tr.a * tr.w)).fun_mul hx.sin).fun_mul hc).fun_mul hx.cos
  have h2 := (((hy.sin.const_mul (0.5 * tr.B ^ 2 * tr.b * tr.w)).fun_mul hs).fun_mul hy.cos).fun_mul hc
  refine (h1.fun_sub h2).congr_deriv ?_
  unfold numDot
  ring

/-- The rotation half of a product of poses: no assumption on the matrices is needed for the
translation. -/
theorem tfTrans_mul_tf (M : Mat4 ℝ) (C : Mat3 ℝ) (r : Vec3 ℝ) :
    tfTrans (M * tf C r) = tfRot M *ᵥ r + tfTrans M := by
  apply vec3_ext <;>
    simp [tfTrans, tfRot, tf, Matrix.mul_apply, Fin.sum_univ_four, dotProduct, Fin.sum_univ_three]

theorem tfRot_mul_tf (M : Mat4 ℝ) (C : Mat3 ℝ) (r : Vec3 ℝ) :
    tfRot (M * tf C r) = tfRot M * C := by
  apply mat3_eq <;>
    simp [tfRot, tf, Matrix.mul_apply, Fin.sum_univ_four, Fin.sum_univ_three]

theorem attitude_eq (tr : Traj) (t : ℝ) : attitude tr t =
    euler2quat (pi + tr.pitch_bound * sin (2 * pi * tr.pitch_scale * phase tr t))
      (tr.yaw_bound * sin (2 * pi * tr.yaw_scale * phase tr t)) 0 := by
  unfold attitude euler2quat
  simp only []
  ext <;> simp only [] <;> ring_nf

theorem wT (tr : Traj) (h : tr.T ≠ 0) : tr.w * tr.T = 2 * pi := by
  unfold Traj.w Traj.f; field_simp

theorem rotation_eq (tr : Traj) (h : tr.T ≠ 0) (t : ℝ) : rotation tr t =
    euler321 (pi + tr.pitch_bound * sin (2 * pi * tr.pitch_scale * phase tr t))
      (tr.yaw_bound * sin (2 * pi * tr.yaw_scale * phase tr t)) 0 := by
  unfold rotation; simp only [wT tr h]

theorem attitude_val (tr : Traj) (t : ℝ) : attitude tr t =
    ⟨cos (0.5 * tr.pitch_bound * sin (2 * pi * tr.pitch_scale * sin (0.25 * t * tr.w) ^ 2) + pi / 2)
        * cos (0.5 * tr.yaw_bound * sin (2 * pi * tr.yaw_scale * sin (0.25 * t * tr.w) ^ 2)),
     sin (0.5 * tr.pitch_bound * sin (2 * pi * tr.pitch_scale * sin (0.25 * t * tr.w) ^ 2) + pi / 2)
        * cos (0.5 * tr.yaw_bound * sin (2 * pi * tr.yaw_scale * sin (0.25 * t * tr.w) ^ 2)),
     cos (0.5 * tr.pitch_bound * sin (2 * pi * tr.pitch_scale * sin (0.25 * t * tr.w) ^ 2) + pi / 2)
        * sin (0.5 * tr.yaw_bound * sin (2 * pi * tr.yaw_scale * sin (0.25 * t * tr.w) ^ 2)),
     -(sin (0.5 * tr.pitch_bound * sin (2 * pi * tr.pitch_scale * sin (0.25 * t * tr.w) ^ 2) + pi / 2)
        * sin (0.5 * tr.yaw_bound * sin (2 * pi * tr.yaw_scale * sin (0.25 * t * tr.w) ^ 2)))⟩ := by
  rw [attitude_eq, euler2quat_eq, phase_eq]
  have e1 : (pi + tr.pitch_bound * sin (2 * pi * tr.pitch_scale * sin (0.25 * t * tr.w) ^ 2)) / 2 =
      0.5 * tr.pitch_bound * sin (2 * pi * tr.pitch_scale * sin (0.25 * t * tr.w) ^ 2) + pi / 2 := by ring
  have e2 : (tr.yaw_bound * sin (2 * pi * tr.yaw_scale * sin (0.25 * t * tr.w) ^ 2)) / 2 =
      0.5 * tr.yaw_bound * sin (2 * pi * tr.yaw_scale * sin (0.25 * t * tr.w) ^ 2) := by ring
  rw [e1, e2]
  simp

/-- The reported quaternion rate is the derivative of the reported quaternion. -/
theorem attitude_deriv (tr : Traj) (t : ℝ) : QDeriv (attitude tr) (attitudeDot tr t) t := by
  have e := funext (attitude_val tr)
  have hn : ∀ sp cp sy cy : ℝ, sp ^ 2 + cp ^ 2 = 1 → sy ^ 2 + cy ^ 2 = 1 →
      sqrt (sy ^ 2 * sp ^ 2 + sy ^ 2 * cp ^ 2 + sp ^ 2 * cy ^ 2 + cy ^ 2 * cp ^ 2) = 1 := by
    intro sp cp sy cy h1 h2
    rw [Real.sqrt_eq_one]
    linear_combination (sy ^ 2 + cy ^ 2) * h1 + h2
  have hP := ((((sq_deriv tr t).const_mul (2 * pi * tr.pitch_scale)).sin.const_mul
    (0.5 * tr.pitch_bound)).add_const (pi / 2))
  have hY := ((((sq_deriv tr t).const_mul (2 * pi * tr.yaw_scale)).sin.const_mul (0.5 * tr.yaw_bound)))
  have key : attitudeDot tr t = attitudeDot tr t := rfl
  conv at key =>
    rhs
    unfold attitudeDot
  simp only [hn _ _ _ _ (Real.sin_sq_add_cos_sq _) (Real.sin_sq_add_cos_sq _), div_one] at key
  rw [e, key]
  refine ⟨?_, ?_, ?_, ?_⟩
  · exact (hP.cos.fun_mul hY.cos).congr_deriv (by ring)
  · exact (hP.sin.fun_mul hY.cos).congr_deriv (by ring)
  · exact (hP.cos.fun_mul hY.sin).congr_deriv (by ring)
  · exact ((hP.sin.fun_mul hY.sin).fun_neg).congr_deriv (by ring)

theorem attitude_unit (tr : Traj) (t : ℝ) : (attitude tr t).normSq = 1 := by
  rw [attitude_eq]; exact euler2quat_norm _ _ _

theorem attitude_rot (tr : Traj) (h : tr.T ≠ 0) (t : ℝ) : (attitude tr t).toRot = rotation tr t := by
  rw [attitude_eq, rotation_eq tr h]; exact (C34_euler2quat _ _ _).2.2

end Yac.Nbt
