import Verif.Att.LieModel
import Verif.Ctraj.Rate
import Verif.Imu.JrProps
import Verif.Imu.TransProps
import Verif.Imu.BiasPath
import Verif.Nbt.TrajProps

/-! C109: `lie::Exp` and `lie::Jr`. -/

namespace Yac.Lie
open Yac.Geom Yac.Residual Yac.Ctraj Matrix

/-- The rotation about `phi` by the angle `|phi|`, by the formula of Rodrigues. -/
theorem expRot_rodrigues {phi : Vec3 ℝ} (h : phi ≠ 0) : expRot phi = 1 +
    (Real.sin (norm3 phi) / norm3 phi) • skew phi +
    ((1 - Real.cos (norm3 phi)) / (norm3 phi * norm3 phi)) • (skew phi * skew phi) := by
  have hp := norm3_pos h
  obtain ⟨he, hsm, _⟩ := normalized_unit phi h
  rw [expRot, if_neg h]
  have hc : Real.cos (norm3 phi) = 1 - 2 * Real.sin (norm3 phi / 2) ^ 2 := by
    have h1 := Real.cos_two_mul (norm3 phi / 2)
    have h2 := Real.sin_sq_add_cos_sq (norm3 phi / 2)
    rw [show 2 * (norm3 phi / 2) = norm3 phi by ring] at h1
    linarith
  have hs : Real.sin (norm3 phi) = 2 * Real.sin (norm3 phi / 2) * Real.cos (norm3 phi / 2) := by
    rw [← Real.sin_two_mul]
    ring_nf
  have hcs := Real.sin_sq_add_cos_sq (norm3 phi / 2)
  have hS : skew phi = norm3 phi • skew (normalized phi) := by
    conv_lhs => rw [← hsm]
    rw [Imu.skew_smul']
  rw [hc, hs, hS, smul_mul_smul_comm, smul_smul, smul_smul]
  have e1 : 2 * Real.sin (norm3 phi / 2) * Real.cos (norm3 phi / 2) / norm3 phi * norm3 phi =
      2 * Real.sin (norm3 phi / 2) * Real.cos (norm3 phi / 2) := by field_simp
  have e2 : (1 - (1 - 2 * Real.sin (norm3 phi / 2) ^ 2)) / (norm3 phi * norm3 phi) *
      (norm3 phi * norm3 phi) = 2 * Real.sin (norm3 phi / 2) ^ 2 := by field_simp; ring
  rw [e1, e2]
  unfold aaQuat
  generalize Real.sin (norm3 phi / 2) = s at *
  generalize Real.cos (norm3 phi / 2) = c at *
  generalize normalized phi = e at *
  simp only [dot3] at he
  apply mat3_eq <;>
    simp [Quat.toRot, skew, Matrix.mul_apply, Fin.sum_univ_three] <;> ring

/-- `Exp` of a rotation vector of at least 1e-3 rad is the rotation about the vector by its
length. -/
theorem C109_exp (phi : Vec3 ℝ) (h : 1 / 1000 ≤ norm3 phi) : exp phi = expRot phi ∧ IsRot (exp phi) := by
  have h0 : phi ≠ 0 := norm3_ne (lt_of_lt_of_le (by norm_num) h)
  have e : exp phi = expRot phi := by
    unfold exp
    simp only []
    rw [if_neg (not_lt.2 h), expRot_rodrigues h0]
  exact ⟨e, e ▸ expRot_isRot phi⟩

theorem exp_small {phi : Vec3 ℝ} (h : norm3 phi < 1 / 1000) : exp phi = 1 + skew phi := by
  unfold exp
  simp only []
  rw [if_pos h]

/-- Below 1e-3 rad every entry of `Exp` is within `|phi|²` of that of the rotation. -/
theorem C109_small (phi : Vec3 ℝ) (h : norm3 phi < 1 / 1000) (i j : Fin 3) :
    |exp phi i j - expRot phi i j| ≤ norm3 phi ^ 2 := by
  rw [exp_small h]
  by_cases h0 : phi = 0
  · subst h0
    have : skew (0 : Vec3 ℝ) = 0 := by apply mat3_eq <;> simp [skew]
    rw [expRot, if_pos rfl, this]
    simp
    positivity
  have hp := norm3_pos h0
  rw [expRot_rodrigues h0]
  have hsk := Imu.skew_le phi i j
  have hsq : |(skew phi * skew phi) i j| ≤ norm3 phi ^ 2 := by
    have hn : norm3 phi ^ 2 = phi 0 ^ 2 + phi 1 ^ 2 + phi 2 ^ 2 := by
      rw [pow_two, norm3_sq]; simp [dot3]; ring
    rw [hn, abs_le]
    fin_cases i <;> fin_cases j <;> simp [skew, Matrix.mul_apply, Fin.sum_univ_three] <;>
      constructor <;> nlinarith [sq_nonneg (phi 0), sq_nonneg (phi 1), sq_nonneg (phi 2),
        sq_nonneg (phi 0 - phi 1), sq_nonneg (phi 0 + phi 1), sq_nonneg (phi 0 - phi 2),
        sq_nonneg (phi 0 + phi 2), sq_nonneg (phi 1 - phi 2), sq_nonneg (phi 1 + phi 2)]
  have hs1 := Real.sin_gt_sub_cube hp
  have hs2 := Real.sin_lt hp
  have hc1 := Real.one_sub_sq_div_two_le_cos (x := norm3 phi)
  have hc2 := Real.cos_le_one (norm3 phi)
  have ha : |1 - Real.sin (norm3 phi) / norm3 phi| ≤ norm3 phi ^ 2 / 6 := by
    have e : 1 - Real.sin (norm3 phi) / norm3 phi = (norm3 phi - Real.sin (norm3 phi)) / norm3 phi := by
      field_simp
    rw [e, abs_le]
    constructor
    · have : 0 ≤ (norm3 phi - Real.sin (norm3 phi)) / norm3 phi := div_nonneg (by linarith) hp.le
      nlinarith [sq_nonneg (norm3 phi)]
    · rw [div_le_iff₀ hp]
      nlinarith
  have hb : |(1 - Real.cos (norm3 phi)) / (norm3 phi * norm3 phi)| ≤ 1 / 2 := by
    rw [abs_of_nonneg (div_nonneg (by linarith) (by positivity)), div_le_iff₀ (by positivity)]
    nlinarith
  have e : ((1 : Mat3 ℝ) + skew phi) i j - ((1 : Mat3 ℝ) + (Real.sin (norm3 phi) / norm3 phi) • skew phi +
      ((1 - Real.cos (norm3 phi)) / (norm3 phi * norm3 phi)) • (skew phi * skew phi)) i j =
      (1 - Real.sin (norm3 phi) / norm3 phi) * skew phi i j -
      ((1 - Real.cos (norm3 phi)) / (norm3 phi * norm3 phi)) * (skew phi * skew phi) i j := by
    simp only [Matrix.add_apply, Matrix.smul_apply, smul_eq_mul]
    ring
  rw [e]
  refine (abs_sub _ _).trans ?_
  rw [abs_mul, abs_mul]
  have h1 := mul_le_mul ha hsk (abs_nonneg _) (by positivity)
  have h2 := mul_le_mul hb hsq (abs_nonneg _) (by positivity)
  nlinarith [mul_nonneg hp.le (sq_nonneg (norm3 phi))]

/-- Below 1e-3 rad, other than at zero, `Exp` is not a rotation: the full claim, that `Exp` is the
rotation for every vector, is false. -/
theorem C109_exp_refuted (phi : Vec3 ℝ) (h0 : phi ≠ 0) (h : norm3 phi < 1 / 1000) :
    ¬ IsRot (exp phi) ∧ exp phi ≠ expRot phi := by
  have hp := norm3_pos h0
  have hn : ¬ IsRot (exp phi) := by
    rintro ⟨ho, -⟩
    rw [exp_small h] at ho
    have hn : norm3 phi ^ 2 = phi 0 ^ 2 + phi 1 ^ 2 + phi 2 ^ 2 := by
      rw [pow_two, norm3_sq]; simp [dot3]; ring
    have t0 := congrFun (congrFun ho 0) 0
    have t1 := congrFun (congrFun ho 1) 1
    have t2 := congrFun (congrFun ho 2) 2
    simp [skew, Matrix.mul_apply, Fin.sum_univ_three] at t0 t1 t2
    nlinarith
  exact ⟨hn, fun e => hn (e ▸ expRot_isRot phi)⟩

/-- For every vector: `Exp` keeps the axis, and `Exp` of the opposite vector is the transpose. -/
theorem C109_axis (phi : Vec3 ℝ) : exp phi *ᵥ phi = phi ∧ exp (-phi) = (exp phi)ᵀ := by
  have hk : skew phi *ᵥ phi = 0 := by
    apply vec3_ext <;> simp [skew, mulVec, dotProduct, Fin.sum_univ_three] <;> ring
  have hneg : norm3 (-phi) = norm3 phi := by
    unfold norm3
    congr 1
    simp [dot3]
  constructor
  · by_cases h : norm3 phi < 1 / 1000
    · rw [exp_small h, add_mulVec, one_mulVec, hk, add_zero]
    · unfold exp
      simp only []
      rw [if_neg h, add_mulVec, add_mulVec, one_mulVec, smul_mulVec, smul_mulVec, ← mulVec_mulVec, hk]
      simp
  · by_cases h : norm3 phi < 1 / 1000
    · rw [exp_small h, exp_small (by rw [hneg]; exact h), transpose_add, transpose_one,
        skew_transpose, Imu.skew_neg]
    · unfold exp
      simp only []
      rw [hneg, if_neg h, if_neg h, Imu.skew_neg, transpose_add, transpose_add, transpose_one, transpose_smul,
        transpose_smul, transpose_mul, skew_transpose]

/-- `Jr` of a nonzero vector is the right Jacobian of the exponential map: when the vector moves,
the rotation turns, in its own frame, at `Jr` times the rate of the vector. -/
theorem C109_jr {v : ℝ → Vec3 ℝ} {v' : Vec3 ℝ} {t0 : ℝ} (h : VDeriv v v' t0) (h0 : v t0 ≠ 0) :
    ∃ J, jr (v t0) = .ok J ∧
      MDeriv (fun t => expRot (v t)) (expRot (v t0) * skew (J *ᵥ v')) t0 := by
  have hp := norm3_pos h0
  refine ⟨_, by unfold jr; simp only []; rw [if_neg hp.ne'], ?_⟩
  have hm := expRot_moves h h0
  have key : angVel (v t0) v' = expRot (v t0) *ᵥ
      ((1 - ((1 - Real.cos (norm3 (v t0))) / (norm3 (v t0) * norm3 (v t0))) • skew (v t0) +
        ((norm3 (v t0) - Real.sin (norm3 (v t0))) / (norm3 (v t0) * norm3 (v t0) * norm3 (v t0))) •
          (skew (v t0) * skew (v t0))) *ᵥ v') := by
    rw [expRot_rodrigues h0, mulVec_mulVec]
    unfold angVel
    simp only []
    congr 1
    obtain ⟨he, hsm, _⟩ := normalized_unit (v t0) h0
    have hS : skew (v t0) = norm3 (v t0) • skew (normalized (v t0)) := by
      conv_lhs => rw [← hsm]
      rw [Imu.skew_smul']
    have hS3 : skew (normalized (v t0)) * skew (normalized (v t0)) * skew (normalized (v t0)) =
        - skew (normalized (v t0)) := by
      simp only [dot3] at he
      generalize normalized (v t0) = e at *
      apply mat3_eq <;> simp [skew, Matrix.mul_apply, Fin.sum_univ_three] <;> ring_nf
      all_goals first
        | linear_combination (e 0) * he
        | linear_combination (e 1) * he
        | linear_combination (e 2) * he
        | linear_combination (-e 0) * he
        | linear_combination (-e 1) * he
        | linear_combination (-e 2) * he
    rw [hS]
    have hcs := Real.sin_sq_add_cos_sq (norm3 (v t0))
    generalize skew (normalized (v t0)) = S at *
    generalize Real.sin (norm3 (v t0)) = s at *
    generalize Real.cos (norm3 (v t0)) = c at *
    generalize norm3 (v t0) = n at *
    have hn : n ≠ 0 := hp.ne'
    have hS4 : S * S * (S * S) = - (S * S) := by
      rw [← Matrix.mul_assoc, hS3, Matrix.neg_mul]
    have hS3' : S * (S * S) = - S := by rw [← Matrix.mul_assoc, hS3]
    simp only [smul_mul_smul_comm, smul_smul, Matrix.mul_add, Matrix.add_mul, Matrix.mul_sub,
      Matrix.one_mul, Matrix.mul_one, hS3, hS4, hS3', Matrix.sub_mul, smul_neg]
    generalize S * S = S2 at *
    ext i j
    simp only [Matrix.add_apply, Matrix.sub_apply, Matrix.smul_apply, smul_eq_mul, Matrix.neg_apply]
    have hs2 : s ^ 2 = 1 - c ^ 2 := by linarith
    field_simp
    ring_nf
    rw [hs2]
    ring
  rw [key, Nbt.skew_rot (expRot_isRot _)] at hm
  exact hm

/-- Above 1e-3 rad the same holds of the code's own `Exp`. -/
theorem C109_exp_moves {v : ℝ → Vec3 ℝ} {v' : Vec3 ℝ} {t0 : ℝ} (h : VDeriv v v' t0)
    (h0 : 1 / 1000 < norm3 (v t0)) :
    ∃ J, jr (v t0) = .ok J ∧ MDeriv (fun t => exp (v t)) (exp (v t0) * skew (J *ᵥ v')) t0 := by
  have hne : v t0 ≠ 0 := norm3_ne (lt_trans (by norm_num) h0)
  obtain ⟨J, hJ, hm⟩ := C109_jr h hne
  refine ⟨J, hJ, ?_⟩
  rw [(C109_exp (v t0) h0.le).1]
  have hev : ∀ᶠ t in nhds t0, 1 / 1000 < norm3 (v t) :=
    continuousAt_const.eventually_lt (norm3_deriv h hne).continuousAt h0
  intro i j
  refine (hm i j).congr_of_eventuallyEq ?_
  filter_upwards [hev] with t ht
  rw [(C109_exp (v t) ht.le).1]

/-- At zero, where the right Jacobian is the identity, `Jr` divides zero by zero. -/
theorem C109_jr_zero_refuted : jr 0 = .error .divZero ∧
    ∀ v' : Vec3 ℝ, MDeriv (fun t => expRot (t • v')) (expRot 0 * skew ((1 : Mat3 ℝ) *ᵥ v')) 0 := by
  constructor
  · unfold jr
    simp only []
    rw [if_pos]
    simp [norm3, dot3]
  · intro v'
    rw [one_mulVec, expRot, if_pos rfl, Matrix.one_mul]
    by_cases hv : v' = 0
    · subst hv
      have e : (fun t : ℝ => expRot (t • (0 : Vec3 ℝ))) = fun _ => 1 := by
        funext t
        rw [smul_zero, expRot, if_pos rfl]
      rw [e]
      have : skew (0 : Vec3 ℝ) = 0 := by apply mat3_eq <;> simp [skew]
      rw [this]
      exact MDeriv.const _ _
    obtain ⟨he, hsm, _⟩ := normalized_unit v' hv
    have hS : skew v' = norm3 v' • skew (normalized v') := by
      conv_lhs => rw [← hsm]
      rw [Imu.skew_smul']
    have e : (fun t : ℝ => expRot (t • v')) = fun t => (aaQuat (t * norm3 v') (normalized v')).toRot := by
      funext t
      rw [← expRot_axis he, mul_smul, hsm]
    rw [e, hS]
    have e2 : ∀ t, (aaQuat (t * norm3 v') (normalized v')).toRot = 1 +
        Real.sin (t * norm3 v') • skew (normalized v') +
        (1 - Real.cos (t * norm3 v')) • (skew (normalized v') * skew (normalized v')) := by
      intro t
      have hc : Real.cos (t * norm3 v') = 1 - 2 * Real.sin (t * norm3 v' / 2) ^ 2 := by
        have h1 := Real.cos_two_mul (t * norm3 v' / 2)
        have h2 := Real.sin_sq_add_cos_sq (t * norm3 v' / 2)
        rw [show 2 * (t * norm3 v' / 2) = t * norm3 v' by ring] at h1
        linarith
      have hs : Real.sin (t * norm3 v') = 2 * Real.sin (t * norm3 v' / 2) * Real.cos (t * norm3 v' / 2) := by
        rw [← Real.sin_two_mul]
        ring_nf
      rw [hc, hs]
      unfold aaQuat
      apply mat3_eq <;> simp [Quat.toRot, skew] <;> ring
    simp only [e2]
    intro i j
    have hd : HasDerivAt (fun t : ℝ => t * norm3 v') (norm3 v') 0 := by
      simpa using (hasDerivAt_id (0 : ℝ)).mul_const (norm3 v')
    have h1 := (hd.sin.mul_const (skew (normalized v') i j)).fun_add
      ((hd.cos.const_sub 1).mul_const ((skew (normalized v') * skew (normalized v')) i j))
    have h2 := h1.const_add ((1 : Mat3 ℝ) i j)
    refine (h2.congr_deriv ?_).congr_of_eventuallyEq ?_
    · simp
    · filter_upwards with t
      simp only [Matrix.add_apply, Matrix.smul_apply, smul_eq_mul]
      ring

/-- The right Jacobian used by the IMU factor above its own threshold is that of `Jr`. -/
theorem C109_imu_jr {v : Vec3 ℝ} (h : v ≠ 0) : jr v = .ok (Imu.exactJr v) := by
  unfold jr Imu.exactJr
  simp only []
  rw [if_neg (norm3_pos h).ne']
  congr 4 <;> ring

/-! Witnesses -/

theorem norm_x (a : ℝ) (ha : 0 ≤ a) : norm3 (![a, 0, 0] : Vec3 ℝ) = a := by
  unfold norm3
  simp [dot3, ha]

example : 1 / 1000 ≤ norm3 (![1, 0, 0] : Vec3 ℝ) := by rw [norm_x _ (by norm_num)]; norm_num
example : norm3 (![1 / 2000, 0, 0] : Vec3 ℝ) < 1 / 1000 ∧ (![1 / 2000, 0, 0] : Vec3 ℝ) ≠ 0 := by
  rw [norm_x _ (by norm_num)]
  exact ⟨by norm_num, fun h => by simpa using congrFun h 0⟩
example : exp ![Real.pi, 0, 0] = !![1, 0, 0; 0, -1, 0; 0, 0, -1] := by
  have hp := Real.pi_gt_three
  unfold exp
  simp only []
  rw [norm_x _ Real.pi_pos.le, if_neg (by linarith), Real.sin_pi, Real.cos_pi]
  apply mat3_eq <;> simp [skew] <;> field_simp <;> norm_num
example : VDeriv (fun t => (![t, 1, 0] : Vec3 ℝ)) ![1, 0, 0] 0 ∧ 1 / 1000 < norm3 (![0, 1, 0] : Vec3 ℝ) := by
  constructor
  · intro i
    fin_cases i
    · exact hasDerivAt_id' (0 : ℝ)
    · simpa using hasDerivAt_const (0 : ℝ) (1 : ℝ)
    · simpa using hasDerivAt_const (0 : ℝ) (0 : ℝ)
  · simp [norm3, dot3]
    norm_num

end Yac.Lie
