import Verif.Imu.JacProps
import Mathlib.Analysis.SpecialFunctions.Trigonometric.Bounds

/-!
# C44: the small angle branch of the right Jacobian
-/

namespace Yac.Imu
open Yac.Geom Matrix

/-- The right Jacobian of SO(3). -/
noncomputable def exactJr (v : Vec3 ℝ) : Mat3 ℝ :=
  1 - ((1 - Real.cos (norm3 v)) / norm3 v ^ 2) • skew v + ((norm3 v - Real.sin (norm3 v)) / norm3 v ^ 3) • (skew v * skew v)

theorem skew_le (v : Vec3 ℝ) (i j : Fin 3) : |skew v i j| ≤ norm3 v := by
  have h : ∀ k, |v k| ≤ norm3 v := by
    intro k
    have hn : norm3 v ^ 2 = v 0 ^ 2 + v 1 ^ 2 + v 2 ^ 2 := by
      rw [pow_two, norm3_sq]; simp [dot3]; ring
    have h0 : (0 : ℝ) ≤ norm3 v := Real.sqrt_nonneg _
    apply abs_le_of_sq_le_sq _ h0
    rw [hn]
    fin_cases k <;> simp <;> nlinarith [sq_nonneg (v 0), sq_nonneg (v 1), sq_nonneg (v 2)]
  have h0 : (0 : ℝ) ≤ norm3 v := Real.sqrt_nonneg _
  fin_cases i <;> fin_cases j <;> simp [skew, h0, h]

theorem skew_mul_le (v : Vec3 ℝ) (i j : Fin 3) : |(skew v * skew v) i j| ≤ 3 * norm3 v ^ 2 := by
  rw [Matrix.mul_apply, Fin.sum_univ_three]
  have h0 : (0 : ℝ) ≤ norm3 v := Real.sqrt_nonneg _
  have h : ∀ k, |skew v i k * skew v k j| ≤ norm3 v ^ 2 := by
    intro k
    rw [abs_mul, pow_two]
    exact mul_le_mul (skew_le v i k) (skew_le v k j) (abs_nonneg _) h0
  have h1 := h 0
  have h2 := h 1
  have h3 := h 2
  rw [abs_le] at h1 h2 h3 ⊢
  constructor <;> linarith [h1.1, h1.2, h2.1, h2.2, h3.1, h3.2]

/-- C44: `rightJacobian` is the right Jacobian of SO(3): exactly for rotations of at least 1e-4 rad, and below with an error of
at most a quarter of the third power of the angle. -/
theorem C44_right_jacobian (v : Vec3 ℝ) (hv : v ≠ 0) (i j : Fin 3) :
    |rightJacobian v i j - exactJr v i j| ≤ (if norm3 v < 1 / 10 ^ 4 then 1 / 4 * norm3 v ^ 3 else 0) := by
  have h0 : 0 < norm3 v := by
    have hle : (0 : ℝ) ≤ norm3 v := Real.sqrt_nonneg _
    rcases hle.lt_or_eq with h | h
    · exact h
    · exfalso
      apply hv
      have hn : v 0 ^ 2 + v 1 ^ 2 + v 2 ^ 2 = 0 := by
        have : norm3 v ^ 2 = v 0 ^ 2 + v 1 ^ 2 + v 2 ^ 2 := by rw [pow_two, norm3_sq]; simp [dot3]; ring
        rw [← this, ← h]; ring
      apply vec3_ext <;> simp only [Pi.zero_apply] <;> nlinarith [sq_nonneg (v 0), sq_nonneg (v 1), sq_nonneg (v 2)]
  unfold rightJacobian exactJr
  have hX := skew_le v i j
  have hXX := skew_mul_le v i j
  by_cases hs : norm3 v < 1 / 10 ^ 4
  · rw [if_pos hs, if_pos hs]
    simp only [Matrix.add_apply, Matrix.sub_apply, Matrix.smul_apply, smul_eq_mul]
    generalize (skew v * skew v) i j = y at hXX ⊢
    generalize skew v i j = x at hX ⊢
    generalize norm3 v = f at *
    have h1 : |f| ≤ 1 := by rw [abs_of_pos h0]; linarith
    have hc := Real.cos_bound h1
    have hsn := Real.sin_bound h1
    rw [abs_of_pos h0] at hc hsn
    have e1 : |(1 - Real.cos f) / f ^ 2 - 1 / 2| ≤ 5 / 96 * f ^ 2 := by
      have : (1 - Real.cos f) / f ^ 2 - 1 / 2 = -((Real.cos f - (1 - f ^ 2 / 2)) / f ^ 2) := by field_simp; ring
      rw [this, abs_neg, abs_div, abs_of_pos (by positivity : (0 : ℝ) < f ^ 2), div_le_iff₀ (by positivity)]
      calc _ ≤ f ^ 4 * (5 / 96) := hc
        _ = _ := by ring
    have e2 : |(f - Real.sin f) / f ^ 3 - 1 / 6| ≤ 5 / 96 * f := by
      have : (f - Real.sin f) / f ^ 3 - 1 / 6 = -((Real.sin f - (f - f ^ 3 / 6)) / f ^ 3) := by field_simp; ring
      rw [this, abs_neg, abs_div, abs_of_pos (by positivity : (0 : ℝ) < f ^ 3), div_le_iff₀ (by positivity)]
      have h4 : 0 < f ^ 4 := by positivity
      calc _ ≤ f ^ 5 / 100 := hsn
        _ ≤ _ := by nlinarith
    generalize (1 - Real.cos f) / f ^ 2 = a at *
    generalize (f - Real.sin f) / f ^ 3 = b at *
    have e3 : |(a - 1 / 2) * x| ≤ 5 / 96 * f ^ 2 * f := by
      rw [abs_mul]; exact mul_le_mul e1 hX (abs_nonneg _) (by positivity)
    have e4 : |(b - 1 / 6) * y| ≤ 5 / 96 * f * (3 * f ^ 2) := by
      rw [abs_mul]; exact mul_le_mul e2 hXX (abs_nonneg _) (by positivity)
    have e5 : (1 : Mat3 ℝ) i j + -(1 / 2) * x + 1 / 6 * y - ((1 : Mat3 ℝ) i j - a * x + b * y) =
        (a - 1 / 2) * x - (b - 1 / 6) * y := by ring
    rw [e5]
    have hf3 : 0 < f ^ 3 := by positivity
    rw [abs_le] at e3 e4 ⊢
    constructor <;> nlinarith [e3.1, e3.2, e4.1, e4.2]
  · rw [if_neg hs, if_neg hs]
    simp only [Matrix.add_apply, Matrix.sub_apply, Matrix.smul_apply, smul_eq_mul]
    have : (1 : Mat3 ℝ) i j + -(1 - Real.cos (norm3 v)) / norm3 v ^ 2 * skew v i j +
        (norm3 v - Real.sin (norm3 v)) / norm3 v ^ 3 * (skew v * skew v) i j -
        ((1 : Mat3 ℝ) i j - (1 - Real.cos (norm3 v)) / norm3 v ^ 2 * skew v i j +
        (norm3 v - Real.sin (norm3 v)) / norm3 v ^ 3 * (skew v * skew v) i j) = 0 := by ring
    rw [this, abs_zero]

example : norm3 (![1 / 10 ^ 5, 0, 0] : Vec3 ℝ) < 1 / 10 ^ 4 := by
  unfold norm3
  rw [Real.sqrt_lt' (by norm_num)]
  simp [dot3]
  norm_num

end Yac.Imu
