import Verif.Geom.Pose
import Verif.Geom.RotProps
import Mathlib.Analysis.SpecialFunctions.Trigonometric.Deriv
import Mathlib.Analysis.SpecialFunctions.Sqrt
import Mathlib.Analysis.Calculus.Deriv.Add
import Mathlib.Analysis.Calculus.Deriv.Mul

/-!
# C41 (pose update and its inverse) and C42 (manifold Jacobian)
-/

namespace Yac.Geom
open Matrix

/-! ## C41 -/

/-- C41 for the plain parameters: `plus` then `minus` restores, `plus(0)` is the identity, and
perturbing forth and back restores, for every valid index; other indices are rejected. -/
theorem C41_param {n : Nat} (p dx : Fin n → ℝ) (h : ℝ) :
    paramMinus (paramPlus p dx) dx = p ∧ paramPlus p 0 = p ∧
    (∀ i : Fin n, ∃ q, paramPerturb p i h = .ok q ∧ q i = p i + h ∧
      (∀ j, j ≠ i → q j = p j) ∧ paramPerturb q i (-h) = .ok p) ∧
    (∀ i : ℤ, i < 0 ∨ n ≤ i → paramPerturb p i h = .error .oob) := by
  refine ⟨by ext i; simp [paramMinus, paramPlus], by ext i; simp [paramPlus], fun i => ?_,
    fun i hi => ?_⟩
  · have hr : (0 : ℤ) ≤ (i : ℕ) ∧ ((i : ℕ) : ℤ) < n := by have := i.2; omega
    refine ⟨_, if_pos hr, by simp, fun j hj => ?_, ?_⟩
    · have : ((j : ℕ) : ℤ) ≠ (i : ℕ) := by
        intro h; exact hj (Fin.ext (by omega))
      simp [this]
    · unfold paramPerturb
      rw [if_pos hr]
      congr 1
      ext j
      by_cases hj : ((j : ℕ) : ℤ) = (i : ℕ) <;> simp [hj]
  · exact if_neg (by omega)

theorem quatDelta_neg (d : Vec3 ℝ) : quatDelta (-d) = (quatDelta d).conj := by
  have : norm3 (-d) = norm3 d := norm3_neg d
  simp only [quatDelta, this, Quat.conj, Pi.neg_apply]
  ext <;> simp

/-- The squared norm of the increment quaternion. -/
theorem quatDelta_normSq (d : Vec3 ℝ) : (quatDelta d).normSq =
    Real.cos (norm3 d / 2) ^ 2 + (sinc (norm3 d / 2) * (norm3 d / 2)) ^ 2 := by
  have h := norm3_sq d
  unfold dot3 at h
  simp only [quatDelta, Quat.normSq]
  rw [show (1 : ℝ) / 2 * norm3 d = norm3 d / 2 by ring]
  linear_combination (-(sinc (norm3 d / 2)) ^ 2 * (1 / 4)) * h

theorem norm3_nonneg (d : Vec3 ℝ) : 0 ≤ norm3 d := Real.sqrt_nonneg _

/-- The increment is exactly unit for a zero step and for steps longer than 2e-6, and within
3e-30 of unit for all others. -/
theorem quatDelta_unit (d : Vec3 ℝ) :
    (norm3 d = 0 ∨ 2 / 1000000 < norm3 d → (quatDelta d).normSq = 1) ∧
    |(quatDelta d).normSq - 1| ≤ 3 / 10 ^ 30 := by
  have hn := norm3_nonneg d
  have hexact : norm3 d = 0 ∨ 2 / 1000000 < norm3 d → (quatDelta d).normSq = 1 := by
    rintro (h | h)
    · rw [quatDelta_normSq, h]; simp
    · rw [quatDelta_normSq, sinc, if_pos, div_mul_cancel₀ _ (by linarith)]
      · have := Real.sin_sq_add_cos_sq (norm3 d / 2); linarith
      · rw [abs_of_nonneg (by linarith)]; linarith
  refine ⟨hexact, ?_⟩
  by_cases h : norm3 d ≤ 2 / 1000000
  · rw [quatDelta_normSq, sinc, if_neg (by rw [abs_of_nonneg (by linarith)]; linarith)]
    have hx0 : 0 ≤ norm3 d / 2 := by linarith
    have hx1 : norm3 d / 2 ≤ 1 / 1000000 := by linarith
    generalize norm3 d / 2 = x at *
    have hb := Real.sin_bound (x := x) (by rw [abs_of_nonneg hx0]; linarith)
    rw [abs_of_nonneg hx0] at hb
    have hs := Real.sin_sq_add_cos_sq x
    have hsn : Real.sin x ≤ x := Real.sin_le hx0
    have hs0 : 0 ≤ Real.sin x := Real.sin_nonneg_of_nonneg_of_le_pi hx0 (by linarith [Real.pi_gt_three])
    simp only
    set P := (1 - 1 / 6 * (x * x) + 1 / 120 * (x * x * (x * x)) - 1 / 5040 * (x * x * (x * x) * (x * x))) * x with hP
    have x2 : x ^ 2 ≤ 1 / 10 ^ 12 := by nlinarith
    have x4 : x ^ 4 ≤ 1 / 10 ^ 24 := by nlinarith [sq_nonneg x, sq_nonneg (x^2)]
    have x4n : 0 ≤ x ^ 4 := by positivity
    have x5 : x ^ 5 ≤ x ^ 4 * (1 / 1000000) := by
      rw [pow_succ]; exact mul_le_mul_of_nonneg_left hx1 x4n
    have x5n : 0 ≤ x ^ 5 := by positivity
    have x7 : x ^ 7 ≤ x ^ 5 := by
      have : x ^ 7 = x ^ 5 * x ^ 2 := by ring
      rw [this]; nlinarith
    have x7n : 0 ≤ x ^ 7 := by positivity
    have hd : |P - Real.sin x| ≤ x ^ 4 := by
      rw [abs_le] at hb ⊢
      have e : P = x - x ^ 3 / 6 + x ^ 5 / 120 - x ^ 7 / 5040 := by rw [hP]; ring
      rw [e]
      constructor <;> nlinarith
    have hp : |P + Real.sin x| ≤ 3 * x := by
      rw [abs_le] at hd ⊢
      have x4x : x ^ 4 ≤ x := by
        have : x ^ 4 = x * x ^ 3 := by ring
        have x3 : x ^ 3 ≤ 1 := by nlinarith [sq_nonneg x]
        rw [this]; nlinarith
      constructor <;> nlinarith
    have e : Real.cos x ^ 2 + P ^ 2 - 1 = (P - Real.sin x) * (P + Real.sin x) := by
      linear_combination hs
    rw [e, abs_mul]
    have m1 : |P - Real.sin x| * |P + Real.sin x| ≤ x ^ 4 * (3 * x) :=
      mul_le_mul hd hp (abs_nonneg _) x4n
    nlinarith
  · rw [hexact (Or.inr (by linarith))]; norm_num

theorem posePlus_minus (p : Fin 7 → ℝ) (dx : Fin 6 → ℝ) :
    let n := (quatDelta ![dx 3, dx 4, dx 5]).normSq
    poseMinus (posePlus p dx) dx = ![p 0, p 1, p 2, n * p 3, n * p 4, n * p 5, n * p 6] := by
  intro n
  have hneg : ![(-dx) 3, (-dx) 4, (-dx) 5] = -![dx 3, dx 4, dx 5] := by
    ext i; fin_cases i <;> simp
  unfold poseMinus posePlus
  simp only
  rw [hneg, quatDelta_neg]
  have hn : n = (quatDelta ![dx 3, dx 4, dx 5]).normSq := rfl
  rw [hn]
  generalize quatDelta ![dx 3, dx 4, dx 5] = q
  ext i
  fin_cases i <;> simp [Quat.mul, Quat.conj, Quat.normSq] <;> ring

/-- C41 for poses, what holds: `plus(dx)` then `minus(dx)` restores the translation exactly and
multiplies the stored quaternion by a factor which is one if the rotation part of `dx` is zero
or longer than 2e-6 and within 3e-30 of one otherwise; `plus(0)` is the identity; the updated
quaternion has the norm of the old one up to the same factor. -/
theorem C41_pose_partial (p : Fin 7 → ℝ) (dx : Fin 6 → ℝ) :
    (∃ n : ℝ, |n - 1| ≤ 3 / 10 ^ 30 ∧
      (norm3 ![dx 3, dx 4, dx 5] = 0 ∨ 2 / 1000000 < norm3 ![dx 3, dx 4, dx 5] → n = 1) ∧
      poseMinus (posePlus p dx) dx = ![p 0, p 1, p 2, n * p 3, n * p 4, n * p 5, n * p 6] ∧
      (poseQuat (posePlus p dx)).normSq = n * (poseQuat p).normSq) ∧
    (norm3 ![dx 3, dx 4, dx 5] = 0 ∨ 2 / 1000000 < norm3 ![dx 3, dx 4, dx 5] →
      poseMinus (posePlus p dx) dx = p) ∧
    posePlus p 0 = p := by
  have hu := quatDelta_unit ![dx 3, dx 4, dx 5]
  have hm := posePlus_minus p dx
  refine ⟨⟨_, hu.2, hu.1, hm, ?_⟩, fun h => ?_, ?_⟩
  · rw [← normSq_mul]
    simp [poseQuat, posePlus]
  · have hm' := hm
    simp only at hm'
    rw [hm', hu.1 h]
    ext i; fin_cases i <;> simp
  · have h0 : ![(0 : Fin 6 → ℝ) 3, (0 : Fin 6 → ℝ) 4, (0 : Fin 6 → ℝ) 5] = (0 : Vec3 ℝ) := by
      ext i; fin_cases i <;> simp
    have hq : quatDelta 0 = ⟨1, 0, 0, 0⟩ := by
      simp [quatDelta, norm3, dot3]
    unfold posePlus
    simp only
    rw [h0, hq]
    ext i; fin_cases i <;> simp [Quat.mul]

/-- C41: what the update does: the translation is added and the rotation is multiplied from
the left by the rotation of the rotation vector (steps longer than 2e-6). -/
theorem C41_pose_meaning (p : Fin 7 → ℝ) (dx : Fin 6 → ℝ) (hp : (poseQuat p).normSq = 1)
    (h : 2 / 1000000 < norm3 ![dx 3, dx 4, dx 5]) (eps : ℝ)
    (he : eps ≤ norm3 ![dx 3, dx 4, dx 5]) :
    poseTf (posePlus p dx) =
      tf (rvec2rot ![dx 3, dx 4, dx 5] eps * tfRot (poseTf p))
        (tfTrans (poseTf p) + ![dx 0, dx 1, dx 2]) := by
  have hn : 0 < norm3 ![dx 3, dx 4, dx 5] := by linarith
  have he1 : quatDelta ![dx 3, dx 4, dx 5] = expQuat ![dx 3, dx 4, dx 5] := by
    unfold quatDelta expQuat sinc
    simp only
    rw [if_pos (by rw [abs_of_nonneg (by linarith)]; linarith)]
    have e1 : (1 : ℝ) / 2 * norm3 ![dx 3, dx 4, dx 5] = norm3 ![dx 3, dx 4, dx 5] / 2 := by ring
    rw [e1]
    have e2 : Real.sin (norm3 ![dx 3, dx 4, dx 5] / 2) / (norm3 ![dx 3, dx 4, dx 5] / 2) * (1 / 2)
        = Real.sin (norm3 ![dx 3, dx 4, dx 5] / 2) / norm3 ![dx 3, dx 4, dx 5] := by
      field_simp
    rw [e2]
  have hd : (quatDelta ![dx 3, dx 4, dx 5]).normSq = 1 :=
    (quatDelta_unit _).1 (Or.inr h)
  have hq : poseQuat (posePlus p dx) = (quatDelta ![dx 3, dx 4, dx 5]).mul (poseQuat p) := by
    simp [poseQuat, posePlus]
  have ht : poseTrans (posePlus p dx) = poseTrans p + ![dx 0, dx 1, dx 2] := by
    apply vec3_ext <;> simp [poseTrans, posePlus]
  unfold poseTf tfQuat
  rw [hq, ht, tfRot_tf, tfTrans_tf, ((C33_homomorphism _ _).2.1 hd hp).2, he1,
    rvec2rot_exp _ eps hn he, (C33_sandwich (expQuat _)).2 (expQuat_norm _ hn)]

theorem norm3_axis (i : Fin 3) (h : ℝ) : norm3 (axisStep i h) = |h| := by
  unfold norm3 dot3 axisStep
  fin_cases i <;> simp [Real.sqrt_mul_self_eq_abs]

theorem axis_neg (i : Fin 3) (h : ℝ) : axisStep i (-h) = -axisStep i h := by
  ext j; unfold axisStep; by_cases e : j = i <;> simp [e]

theorem poseSet_tf (p : Fin 7 → ℝ) (C : Mat3 ℝ) (r : Vec3 ℝ) (hC : IsRot C) :
    poseTf (poseSetTrans (poseSetRot p C) r) = tf C r ∧
    (poseQuat (poseSetTrans (poseSetRot p C) r)).normSq = 1 := by
  have hs := (rotToQuat_spec hC).spec
  have hq : poseQuat (poseSetTrans (poseSetRot p C) r) = rotToQuat C := by
    simp [poseQuat, poseSetTrans, poseSetRot, poseSetQuat]
  have ht : poseTrans (poseSetTrans (poseSetRot p C) r) = r := by
    apply vec3_ext <;> simp [poseTrans, poseSetTrans, poseSetRot, poseSetQuat]
  unfold poseTf tfQuat
  rw [hq, ht, hs.2]
  exact ⟨rfl, hs.1⟩

/-- C41: setters and constructor: the pose of a rigid transform is that transform, with a unit
quaternion. -/
theorem C41_set_tf (p : Fin 7 → ℝ) (C : Mat3 ℝ) (r : Vec3 ℝ) (hC : IsRot C) (q : Quat ℝ) :
    poseTf (poseSetTf p (tf C r)) = tf C r ∧ poseTf (poseOfTf (tf C r)) = tf C r ∧
    (poseQuat (poseSetTf p (tf C r))).normSq = 1 ∧
    poseQuat (poseSetQuat p q) = q ∧ poseTrans (poseSetQuat p q) = poseTrans p ∧
    poseTrans (poseSetTrans p r) = r ∧ poseQuat (poseSetTrans p r) = poseQuat p := by
  have h := poseSet_tf p C r hC
  refine ⟨by unfold poseSetTf; rw [tfRot_tf, tfTrans_tf]; exact h.1, ?_,
    by unfold poseSetTf; rw [tfRot_tf, tfTrans_tf]; exact h.2, ?_, ?_, ?_, ?_⟩
  · have : poseOfTf (tf C r) = poseSetTf p (tf C r) := by
      ext i
      fin_cases i <;> simp [poseOfTf, poseSetTf, poseSetTrans, poseSetRot, poseSetQuat, tfQuatOf]
    rw [this]; unfold poseSetTf; rw [tfRot_tf, tfTrans_tf]; exact h.1
  · simp [poseQuat, poseSetQuat]
  · apply vec3_ext <;> simp [poseTrans, poseSetQuat]
  · apply vec3_ext <;> simp [poseTrans, poseSetTrans]
  · simp [poseQuat, poseSetTrans]

/-- C41 for `perturb`, what holds: on a unit pose, a translation step (0..2) or a rotation step
(3..5) of zero or at least 1e-8 gives the shifted or rotated rigid transform with a unit
quaternion, and perturbing back restores the transform.  Other indices are rejected. -/
theorem C41_perturb_partial (p : Fin 7 → ℝ) (hp : (poseQuat p).normSq = 1) (h : ℝ) :
    (∀ i : Fin 3, ∃ q, posePerturb p i h = .ok q ∧ (poseQuat q).normSq = 1 ∧
      poseTf q = tf (tfRot (poseTf p)) (poseTrans p + axisStep i h) ∧
      ∃ p', posePerturb q i (-h) = .ok p' ∧ poseTf p' = poseTf p ∧
        (poseQuat p').normSq = 1) ∧
    (h = 0 ∨ 1 / 100000000 ≤ |h| → ∀ i : Fin 3, ∃ q, posePerturb p (i + 3 : ℕ) h = .ok q ∧
      (poseQuat q).normSq = 1 ∧
      poseTf q = tf (rvec2rot (axisStep i h) (1 / 100000000) * tfRot (poseTf p)) (poseTrans p) ∧
      ∃ p', posePerturb q (i + 3 : ℕ) (-h) = .ok p' ∧ poseTf p' = poseTf p ∧
        (poseQuat p').normSq = 1) ∧
    (∀ i : ℤ, i < 0 ∨ 6 ≤ i → posePerturb p i h = .error .fatal) := by
  have hR : IsRot (poseQuat p).toRot := ⟨toRot_mul_transpose _ hp, toRot_det _ hp⟩
  have hrot : tfRot (poseTf p) = (poseQuat p).toRot := tfRot_tf _ _
  have htr : tfTrans (poseTf p) = poseTrans p := tfTrans_tf _ _
  refine ⟨fun i => ?_, fun hh i => ?_, fun i hi => ?_⟩
  · have hi : (0 : ℤ) ≤ ((i : ℕ) : ℤ) ∧ ((i : ℕ) : ℤ) < 3 := by omega
    have hf : Fin.ofNat 3 (((i : ℕ) : ℤ)).toNat = i := by simp
    have st : ∀ (p : Fin 7 → ℝ) h, posePerturb p i h = .ok (poseSetTrans (poseSetRot p
        (tfRot (poseTf p))) (tfTrans (poseTf p) + axisStep i h)) := by
      intro p h
      unfold posePerturb
      rw [if_pos hi]
      simp only [hf, tfPerturbTrans, tfRot_tf, tfTrans_tf]
    have h1 := poseSet_tf p (tfRot (poseTf p)) (tfTrans (poseTf p) + axisStep i h) (hrot ▸ hR)
    refine ⟨_, st p h, h1.2, by rw [h1.1, htr], _, st _ (-h), ?_⟩
    rw [h1.1, tfRot_tf, tfTrans_tf]
    have h2 := poseSet_tf (poseSetTrans (poseSetRot p
        (tfRot (poseTf p))) (tfTrans (poseTf p) + axisStep i h)) (tfRot (poseTf p))
        (tfTrans (poseTf p) + axisStep i h + axisStep i (-h)) (hrot ▸ hR)
    refine ⟨?_, h2.2⟩
    rw [h2.1, axis_neg, add_neg_cancel_right, hrot, htr]
    rfl
  · have hi : ¬ ((0 : ℤ) ≤ ((i + 3 : ℕ) : ℤ) ∧ ((i + 3 : ℕ) : ℤ) < 3) := by omega
    have hi' : (3 : ℤ) ≤ ((i + 3 : ℕ) : ℤ) ∧ ((i + 3 : ℕ) : ℤ) ≤ 5 := by omega
    have hf : Fin.ofNat 3 (((i + 3 : ℕ) : ℤ) - 3).toNat = i := by simp
    have st : ∀ (p : Fin 7 → ℝ) h, posePerturb p (i + 3 : ℕ) h = .ok (poseSetTrans (poseSetRot p
        (rvec2rot (axisStep i h) (1 / 100000000) * tfRot (poseTf p))) (tfTrans (poseTf p))) := by
      intro p h
      unfold posePerturb
      rw [if_neg hi, if_pos hi']
      simp only [hf, tfPerturbRot, tfRot_tf, tfTrans_tf]
    have rv : IsRot (rvec2rot (axisStep i h) (1 / 100000000)) ∧
        rvec2rot (axisStep i (-h)) (1 / 100000000) * rvec2rot (axisStep i h) (1 / 100000000) = 1 := by
      rcases hh with rfl | hh
      · have z : axisStep i 0 = 0 := by ext j; simp [axisStep]
        have r1 : rvec2rot (0 : Vec3 ℝ) (1 / 100000000) = 1 := by
          have := (C34_rvec2rot_refuted 0 (1 / 100000000) (by simp [norm3, dot3])).1
          rw [this]; apply mat3_eq <;> simp [skew]
        rw [neg_zero, z, r1]
        exact ⟨⟨by simp, by simp⟩, by simp⟩
      · have hn : norm3 (axisStep i h) = |h| := norm3_axis i h
        have := C34_rvec2rot_partial (axisStep i h) (1 / 100000000) (by rw [hn]; linarith)
          (by rw [hn]; exact hh)
        refine ⟨this.1, ?_⟩
        rw [axis_neg, this.2.2.2.1]
        exact mul_eq_one_comm.mp this.1.1
    have h1 := poseSet_tf p (rvec2rot (axisStep i h) (1 / 100000000) * tfRot (poseTf p))
      (tfTrans (poseTf p)) (rv.1.mul (hrot ▸ hR))
    refine ⟨_, st p h, h1.2, by rw [h1.1, htr], _, st _ (-h), ?_⟩
    rw [h1.1, tfRot_tf, tfTrans_tf, ← Matrix.mul_assoc, rv.2, Matrix.one_mul]
    have h2 := poseSet_tf (poseSetTrans (poseSetRot p
        (rvec2rot (axisStep i h) (1 / 100000000) * tfRot (poseTf p))) (tfTrans (poseTf p)))
        (tfRot (poseTf p)) (tfTrans (poseTf p)) (hrot ▸ hR)
    refine ⟨?_, h2.2⟩
    rw [h2.1, hrot, htr]
    rfl
  · unfold posePerturb
    rw [if_neg (by omega), if_neg (by omega)]

/-- C41 refuted for very small rotation steps: perturbing the identity pose about z by
0 < |h| < 1e-8 gives a quaternion that is not unit. -/
theorem C41_perturb_small_refuted (h : ℝ) (h0 : h ≠ 0) (h1 : |h| < 1 / 100000000) :
    ∃ q, posePerturb ![0, 0, 0, 0, 0, 0, 1] 5 h = .ok q ∧
      (poseQuat q).normSq = 1 + h ^ 2 / 4 ∧ (poseQuat q).normSq ≠ 1 := by
  have hrot : tfRot (poseTf ![0, 0, 0, 0, 0, 0, 1]) = 1 := by
    unfold poseTf tfQuat
    rw [tfRot_tf]
    apply mat3_eq <;> simp [Quat.toRot, poseQuat]
  have hr : rvec2rot (axisStep 2 h) (1 / 100000000) = !![1, -h, 0; h, 1, 0; 0, 0, 1] := by
    have := (C34_rvec2rot_refuted (axisStep 2 h) (1 / 100000000) (by rw [norm3_axis]; exact h1)).1
    rw [this]; apply mat3_eq <;> simp [skew, axisStep]
  have hq : rotToQuat !![1, -h, 0; h, 1, 0; 0, 0, 1] = ⟨1, 0, 0, h / 2⟩ := by
    have t : ((!![1, -h, 0; h, 1, 0; 0, 0, 1] : Mat3 ℝ) 0 0 +
      (!![1, -h, 0; h, 1, 0; 0, 0, 1] : Mat3 ℝ) 1 1 + (!![1, -h, 0; h, 1, 0; 0, 0, 1] : Mat3 ℝ) 2 2)
        = 3 := by simp; norm_num
    have s4 : Real.sqrt (3 + 1) = 2 := by
      rw [show (3 : ℝ) + 1 = 2 * 2 by norm_num, Real.sqrt_mul_self (by norm_num)]
    unfold rotToQuat
    simp only [t, if_pos (show (3 : ℝ) > 0 by norm_num), s4]
    ext <;> simp
    ring
  have e : posePerturb ![0, 0, 0, 0, 0, 0, 1] 5 h = .ok
      (poseSetTrans (poseSetRot ![0, 0, 0, 0, 0, 0, 1] !![1, -h, 0; h, 1, 0; 0, 0, 1])
        (tfTrans (poseTf ![0, 0, 0, 0, 0, 0, 1]))) := by
    unfold posePerturb
    rw [if_neg (by omega), if_pos (by omega)]
    have hf : Fin.ofNat 3 ((5 : ℤ) - 3).toNat = 2 := by decide
    simp only [hf, tfPerturbRot, tfRot_tf, tfTrans_tf, hrot, hr, Matrix.mul_one]
  have hn : (poseQuat (poseSetTrans (poseSetRot ![0, 0, 0, 0, 0, 0, 1]
      !![1, -h, 0; h, 1, 0; 0, 0, 1]) (tfTrans (poseTf ![0, 0, 0, 0, 0, 0, 1])))).normSq =
      1 + h ^ 2 / 4 := by
    simp only [poseSetRot, hq]
    simp [poseQuat, poseSetTrans, poseSetQuat, Quat.normSq]; ring
  refine ⟨_, e, hn, ?_⟩
  rw [hn]
  have : 0 < h ^ 2 := by positivity
  intro hc; linarith

/-- C41 witnesses. -/
example : (poseQuat ![1, 2, 3, 0, 3/5, 0, 4/5]).normSq = 1 ∧
    2 / 1000000 < norm3 ![0, 0, (1 : ℝ)] ∧ (1 : ℝ) / 100000000 ≤ |1 / 10| ∧
    |(1 : ℝ) / 10 ^ 9| < 1 / 100000000 := by
  refine ⟨by simp [poseQuat, Quat.normSq]; norm_num, ?_, by rw [abs_of_pos] <;> norm_num,
    by rw [abs_of_pos] <;> norm_num⟩
  have : norm3 ![0, 0, (1 : ℝ)] = 1 := by simp [norm3, dot3]
  rw [this]; norm_num

/-! ## C42 -/

/-- The quaternion the parameterisation works with. -/
theorem ceres_quat (x : Fin 7 → ℝ) (hx : UnitPose x) :
    (tfQuatOf (tfParams x)).normSq = 1 ∧
    (tfQuatOf (tfParams x) = ⟨x 6, x 3, x 4, x 5⟩ ∨
      tfQuatOf (tfParams x) = ⟨-x 6, -x 3, -x 4, -x 5⟩) := by
  unfold UnitPose at hx
  have hq : (⟨x 6, x 3, x 4, x 5⟩ : Quat ℝ).normSq = 1 := by simp only [Quat.normSq]; linarith
  have hR : IsRot (Quat.toRot ⟨x 6, x 3, x 4, x 5⟩) := ⟨toRot_mul_transpose _ hq, toRot_det _ hq⟩
  have e : tfQuatOf (tfParams x) = rotToQuat (Quat.toRot ⟨x 6, x 3, x 4, x 5⟩) := by
    unfold tfQuatOf tfParams tfQuat; rw [tfRot_tf]
  rw [e]
  exact ⟨(rotToQuat_spec hR).spec.1, (rotToQuat_spec hR).pm (QuatOf.of_toRot _ hq)⟩

theorem normalize_unit (q : Quat ℝ) (h : q.normSq = 1) : q.normalize = q := by
  unfold Quat.normalize
  rw [if_pos (by rw [h]; norm_num), h, Real.sqrt_one]
  simp

set_option maxHeartbeats 2000000 in
/-- C42: `lift_pose_jacobian(tf(x)) * PlusJacobian(x)` is the identity for unit poses. -/
theorem C42_lift (x : Fin 7 → ℝ) (hx : UnitPose x) :
    liftJac (tfParams x) * ceresPlusJac x = 1 := by
  have hq := (ceres_quat x hx).1
  unfold liftJac ceresPlusJac
  simp only
  have hinv : (tfQuatOf (tfParams x)).inverse = (tfQuatOf (tfParams x)).conj := by
    unfold Quat.inverse Quat.conj
    simp only [hq]
    simp
  rw [hinv]
  generalize tfQuatOf (tfParams x) = q at *
  unfold Quat.normSq at hq
  ext i j
  rw [Matrix.mul_apply, Fin.sum_univ_seven]
  fin_cases i <;> fin_cases j <;>
    simp [oplusMat, halfS, Quat.conj, Quat.coeffs, Matrix.mul_apply, Fin.sum_univ_four] <;>
    first | ring1 | linear_combination hq

/-- C42: `Plus(x, 0)` is `x` up to the sign of the quaternion (the same pose); it is `x` itself
if the scalar part is above 1/2. -/
theorem C42_plus_zero_partial (x : Fin 7 → ℝ) (hx : UnitPose x) :
    (ceresPlus x 0 = x ∨ ceresPlus x 0 = ![x 0, x 1, x 2, -x 3, -x 4, -x 5, -x 6]) ∧
    tfParams (ceresPlus x 0) = tfParams x ∧
    (1 / 2 < x 6 → ceresPlus x 0 = x) := by
  have h0 : ![(0 : Fin 6 → ℝ) 3, (0 : Fin 6 → ℝ) 4, (0 : Fin 6 → ℝ) 5] = (0 : Vec3 ℝ) := by
    ext i; fin_cases i <;> simp
  have hq0 : quatDelta 0 = ⟨1, 0, 0, 0⟩ := by simp [quatDelta, norm3, dot3]
  obtain ⟨hn, hpm⟩ := ceres_quat x hx
  have one_mul : ∀ q : Quat ℝ, Quat.mul ⟨1, 0, 0, 0⟩ q = q := by
    intro q; ext <;> simp [Quat.mul]
  have e : ceresPlus x 0 = ![x 0, x 1, x 2, (tfQuatOf (tfParams x)).x, (tfQuatOf (tfParams x)).y,
      (tfQuatOf (tfParams x)).z, (tfQuatOf (tfParams x)).w] := by
    unfold ceresPlus
    simp only
    rw [h0, hq0, one_mul, normalize_unit _ hn]
    have : tfTrans (tfParams x) = ![x 0, x 1, x 2] := (C32_recover 1 0 ⟨1, 0, 0, 0⟩ x).2.2.2.2.2
    rw [this]
    simp
  have a : ceresPlus x 0 = x ∨ ceresPlus x 0 = ![x 0, x 1, x 2, -x 3, -x 4, -x 5, -x 6] := by
    rw [e]
    rcases hpm with h | h
    · left; rw [h]; ext i; fin_cases i <;> rfl
    · right; rw [h]
  refine ⟨a, ?_, fun h => ?_⟩
  · rcases a with h | h
    · rw [h]
    · rw [h]
      have := (C33_homomorphism (⟨x 6, x 3, x 4, x 5⟩ : Quat ℝ) ⟨x 6, x 3, x 4, x 5⟩).2.2.2.2.1
      unfold tfParams tfQuat
      simp only at this
      rw [← this]
      simp
  · unfold UnitPose at hx
    have hq : (⟨x 6, x 3, x 4, x 5⟩ : Quat ℝ).normSq = 1 := by simp only [Quat.normSq]; linarith
    have := (C32_vec_params ⟨x 6, x 3, x 4, x 5⟩ hq ![x 0, x 1, x 2]).2.1 h
    have c : ceresPlus x 0 = tfVec (tfQuat ⟨x 6, x 3, x 4, x 5⟩ ![x 0, x 1, x 2]) := by
      rw [e]
      unfold tfVec
      have t : tfTrans (tfQuat ⟨x 6, x 3, x 4, x 5⟩ ![x 0, x 1, x 2]) = ![x 0, x 1, x 2] := tfTrans_tf _ _
      simp only [t]
      rfl
    rw [c, this]
    ext i; fin_cases i <;> rfl

/-- C42 refuted as stated: for the unit pose with quaternion scalar part -1, `Plus(x, 0)` is
not `x`. -/
theorem C42_plus_zero_refuted : ∃ x : Fin 7 → ℝ, UnitPose x ∧ ceresPlus x 0 ≠ x := by
  have hx : UnitPose ![0, 0, 0, 0, 0, 0, -1] := by simp [UnitPose]
  refine ⟨_, hx, fun h => ?_⟩
  have hq : (⟨-1, 0, 0, 0⟩ : Quat ℝ).normSq = 1 := by simp [Quat.normSq]
  have e : tfQuatOf (tfParams ![0, 0, 0, 0, 0, 0, -1]) = ⟨1, 0, 0, 0⟩ := by
    have h1 : tfRot (tfParams ![0, 0, 0, 0, 0, 0, (-1 : ℝ)]) = 1 := by
      rw [(C32_recover 1 0 ⟨1, 0, 0, 0⟩ _).2.2.2.2.1]
      apply mat3_eq <;> simp [Quat.toRot]
    unfold tfQuatOf
    rw [h1]
    have t : ((1 : Mat3 ℝ) 0 0 + (1 : Mat3 ℝ) 1 1 + (1 : Mat3 ℝ) 2 2) = 3 := by simp; norm_num
    have s4 : Real.sqrt (3 + 1) = 2 := by
      rw [show (3 : ℝ) + 1 = 2 * 2 by norm_num, Real.sqrt_mul_self (by norm_num)]
    unfold rotToQuat
    simp only [t, if_pos (show (3 : ℝ) > 0 by norm_num), s4]
    ext <;> simp
  have h0 : ![(0 : Fin 6 → ℝ) 3, (0 : Fin 6 → ℝ) 4, (0 : Fin 6 → ℝ) 5] = (0 : Vec3 ℝ) := by
    ext i; fin_cases i <;> simp
  have hq0 : quatDelta 0 = ⟨1, 0, 0, 0⟩ := by simp [quatDelta, norm3, dot3]
  have h6 := congrFun h 6
  unfold ceresPlus at h6
  rw [e, h0, hq0, normalize_unit] at h6
  · simp [Quat.mul] at h6
    norm_num at h6
  · simp [Quat.mul, Quat.normSq]

theorem norm3_smul (t : ℝ) (d : Vec3 ℝ) : norm3 (fun i => t * d i) = |t| * norm3 d := by
  unfold norm3 dot3
  rw [← Real.sqrt_sq_eq_abs, ← Real.sqrt_mul (sq_nonneg t)]
  congr 1; ring

/-- The `sinc` series as a polynomial. -/
noncomputable def sincPoly (u : ℝ) : ℝ :=
  1 - (1 / 6) * u + (1 / 120) * (u * u) - (1 / 5040) * (u * u * u)

theorem quatDelta_line (d : Vec3 ℝ) :
    ∀ᶠ t in nhds (0 : ℝ), quatDelta (fun i => t * d i) =
      ⟨Real.cos (t * (norm3 d / 2)),
       sincPoly ((t * (norm3 d / 2)) ^ 2) / 2 * (t * d 0),
       sincPoly ((t * (norm3 d / 2)) ^ 2) / 2 * (t * d 1),
       sincPoly ((t * (norm3 d / 2)) ^ 2) / 2 * (t * d 2)⟩ := by
  have hc : Filter.Tendsto (fun t : ℝ => |t * (norm3 d / 2)|) (nhds 0) (nhds 0) := by
    have : Continuous (fun t : ℝ => |t * (norm3 d / 2)|) := by fun_prop
    have h := this.tendsto 0
    simpa using h
  filter_upwards [hc.eventually (gt_mem_nhds (show (0 : ℝ) < 1 / 1000000 by norm_num))] with t ht
  have hn : (1 : ℝ) / 2 * norm3 (fun i => t * d i) = |t * (norm3 d / 2)| := by
    rw [norm3_smul, abs_mul, abs_of_nonneg (show 0 ≤ norm3 d / 2 by have := norm3_nonneg d; linarith)]
    ring
  unfold quatDelta
  simp only
  rw [hn, Real.cos_abs]
  have hs : sinc |t * (norm3 d / 2)| = sincPoly ((t * (norm3 d / 2)) ^ 2) := by
    unfold sinc sincPoly
    rw [if_neg (by rw [abs_abs]; linarith)]
    simp only [abs_mul_abs_self]
    ring
  rw [hs]
  ext <;> simp only <;> ring

theorem hasDerivAt_sincPoly_line (a : ℝ) :
    HasDerivAt (fun t : ℝ => sincPoly ((t * a) ^ 2)) 0 0 := by
  unfold sincPoly
  have h1 : HasDerivAt (fun t : ℝ => (t * a) ^ 2) 0 0 := by
    have := ((hasDerivAt_id (0 : ℝ)).mul_const a).fun_pow 2
    refine this.congr_deriv ?_
    simp
  have := (((h1.const_mul (1 / 6)).const_sub 1).add ((h1.mul h1).const_mul (1 / 120))).sub
    (((h1.mul h1).mul h1).const_mul (1 / 5040))
  refine this.congr_deriv ?_
  simp

/-- C42: along every direction of the increment, the derivative of `Plus` at zero is
`PlusJacobian` times the direction, for every unit pose. -/
theorem C42_jacobian (x : Fin 7 → ℝ) (hx : UnitPose x) (d : Fin 6 → ℝ) (k : Fin 7) :
    HasDerivAt (fun t : ℝ => ceresPlus x (fun i => t * d i) k) ((ceresPlusJac x *ᵥ d) k) 0 := by
  obtain ⟨hn, -⟩ := ceres_quat x hx
  have htr : tfTrans (tfParams x) = ![x 0, x 1, x 2] := (C32_recover 1 0 ⟨1, 0, 0, 0⟩ x).2.2.2.2.2
  set q := tfQuatOf (tfParams x) with hqd
  set v : Vec3 ℝ := ![d 3, d 4, d 5] with hv
  set a := norm3 v / 2 with ha
  -- the increment quaternion along the line
  let W : ℝ → ℝ := fun t => Real.cos (t * a)
  let S : ℝ → ℝ := fun t => sincPoly ((t * a) ^ 2) / 2
  have hW : HasDerivAt W 0 0 := by
    have := ((hasDerivAt_id (0 : ℝ)).mul_const a).cos
    simpa [W] using this
  have hW0 : W 0 = 1 := by simp [W]
  have hS : HasDerivAt S 0 0 := by
    have := (hasDerivAt_sincPoly_line a).div_const 2
    simpa [S] using this
  have hS0 : S 0 = 1 / 2 := by simp [S, sincPoly]
  have hV : ∀ c : ℝ, HasDerivAt (fun t => S t * (t * c)) (c / 2) 0 := by
    intro c
    have := hS.mul ((hasDerivAt_id (0 : ℝ)).mul_const c)
    refine this.congr_deriv ?_
    simp [hS0]; ring
  -- the norm
  let N : ℝ → ℝ := fun t => W t ^ 2 + (S t * (t * v 0)) ^ 2 + (S t * (t * v 1)) ^ 2 +
    (S t * (t * v 2)) ^ 2
  have hN : HasDerivAt N 0 0 := by
    have := (((hW.pow 2).add ((hV (v 0)).pow 2)).add ((hV (v 1)).pow 2)).add ((hV (v 2)).pow 2)
    refine this.congr_deriv ?_
    simp
  have hN0 : N 0 = 1 := by simp [N, hW0]
  have hR : HasDerivAt (fun t => Real.sqrt (N t)) 0 0 := by
    have := hN.sqrt (by rw [hN0]; norm_num)
    refine this.congr_deriv ?_
    simp
  have hR0 : Real.sqrt (N 0) = 1 := by rw [hN0, Real.sqrt_one]
  have quot : ∀ (f : ℝ → ℝ) (f' : ℝ), HasDerivAt f f' 0 →
      HasDerivAt (fun t => f t / Real.sqrt (N t)) f' 0 := by
    intro f f' hf
    have := hf.div hR (by rw [hR0]; norm_num)
    refine this.congr_deriv ?_
    simp [hR0]
  -- the update along the line, near zero
  have key : ∀ᶠ t in nhds (0 : ℝ), ceresPlus x (fun i => t * d i) =
      ![x 0 + t * d 0, x 1 + t * d 1, x 2 + t * d 2,
        (W t * q.x + S t * (t * v 0) * q.w + S t * (t * v 1) * q.z - S t * (t * v 2) * q.y) / Real.sqrt (N t),
        (W t * q.y - S t * (t * v 0) * q.z + S t * (t * v 1) * q.w + S t * (t * v 2) * q.x) / Real.sqrt (N t),
        (W t * q.z + S t * (t * v 0) * q.y - S t * (t * v 1) * q.x + S t * (t * v 2) * q.w) / Real.sqrt (N t),
        (W t * q.w - S t * (t * v 0) * q.x - S t * (t * v 1) * q.y - S t * (t * v 2) * q.z) / Real.sqrt (N t)] := by
    have hpos : ∀ᶠ t in nhds (0 : ℝ), 0 < N t :=
      hN.continuousAt.eventually (lt_mem_nhds (by rw [hN0]; norm_num))
    filter_upwards [quatDelta_line v, hpos] with t ht hp
    have hvt : ![t * d 3, t * d 4, t * d 5] = fun i => t * v i := by
      ext i; fin_cases i <;> simp [hv]
    unfold ceresPlus
    simp only
    rw [hvt, ht, htr, ← hqd]
    have hns : (Quat.mul ⟨W t, S t * (t * v 0), S t * (t * v 1), S t * (t * v 2)⟩ q).normSq = N t := by
      rw [normSq_mul, hn, mul_one]
      simp only [Quat.normSq, N]; ring
    have hq2 : (Quat.mul ⟨Real.cos (t * a), sincPoly ((t * a) ^ 2) / 2 * (t * v 0),
        sincPoly ((t * a) ^ 2) / 2 * (t * v 1), sincPoly ((t * a) ^ 2) / 2 * (t * v 2)⟩ q) =
        Quat.mul ⟨W t, S t * (t * v 0), S t * (t * v 1), S t * (t * v 2)⟩ q := rfl
    rw [hq2]
    unfold Quat.normalize
    rw [if_pos (by rw [hns]; exact hp), hns]
    simp [Quat.mul]
  have hval : ∀ k, HasDerivAt (fun t => (![x 0 + t * d 0, x 1 + t * d 1, x 2 + t * d 2,
        (W t * q.x + S t * (t * v 0) * q.w + S t * (t * v 1) * q.z - S t * (t * v 2) * q.y) / Real.sqrt (N t),
        (W t * q.y - S t * (t * v 0) * q.z + S t * (t * v 1) * q.w + S t * (t * v 2) * q.x) / Real.sqrt (N t),
        (W t * q.z + S t * (t * v 0) * q.y - S t * (t * v 1) * q.x + S t * (t * v 2) * q.w) / Real.sqrt (N t),
        (W t * q.w - S t * (t * v 0) * q.x - S t * (t * v 1) * q.y - S t * (t * v 2) * q.z) / Real.sqrt (N t)] : Fin 7 → ℝ) k)
      ((ceresPlusJac x *ᵥ d) k) 0 := by
    have lin : ∀ c e : ℝ, HasDerivAt (fun t : ℝ => c + t * e) e 0 := by
      intro c e
      have := ((hasDerivAt_id (0 : ℝ)).mul_const e).const_add c
      simpa using this
    have h0 := hV (v 0)
    have h1 := hV (v 1)
    have h2 := hV (v 2)
    intro k
    have hj : ceresPlusJac x *ᵥ d = ![d 0, d 1, d 2,
        (v 0 * q.w + v 1 * q.z - v 2 * q.y) / 2, (-(v 0 * q.z) + v 1 * q.w + v 2 * q.x) / 2,
        (v 0 * q.y - v 1 * q.x + v 2 * q.w) / 2, (-(v 0 * q.x) - v 1 * q.y - v 2 * q.z) / 2] := by
      ext k
      unfold ceresPlusJac
      simp only [← hqd]
      fin_cases k <;>
        simp [mulVec, dotProduct, Fin.sum_univ_six, oplusMat, halfS, Quat.coeffs, Matrix.mul_apply,
          Fin.sum_univ_four, hv] <;> ring
    rw [hj]
    fin_cases k
    · exact lin (x 0) (d 0)
    · exact lin (x 1) (d 1)
    · exact lin (x 2) (d 2)
    · refine quot _ _ (((((hW.mul_const q.x).add (h0.mul_const q.w)).add (h1.mul_const q.z)).sub
        (h2.mul_const q.y)).congr_deriv ?_)
      simp; ring
    · refine quot _ _ (((((hW.mul_const q.y).sub (h0.mul_const q.z)).add (h1.mul_const q.w)).add
        (h2.mul_const q.x)).congr_deriv ?_)
      simp; ring
    · refine quot _ _ (((((hW.mul_const q.z).add (h0.mul_const q.y)).sub (h1.mul_const q.x)).add
        (h2.mul_const q.w)).congr_deriv ?_)
      simp; ring
    · refine quot _ _ (((((hW.mul_const q.w).sub (h0.mul_const q.x)).sub (h1.mul_const q.y)).sub
        (h2.mul_const q.z)).congr_deriv ?_)
      simp; ring
  refine (hval k).congr_of_eventuallyEq ?_
  filter_upwards [key] with t ht
  rw [ht]

/-- C42 witness. -/
example : UnitPose ![1, 2, 3, 0, 3/5, 0, 4/5] ∧ (1 : ℝ) / 2 < (![1, 2, 3, 0, 3/5, 0, 4/5] : Fin 7 → ℝ) 6 := by
  constructor
  · simp [UnitPose]; norm_num
  · simp; norm_num

end Yac.Geom
