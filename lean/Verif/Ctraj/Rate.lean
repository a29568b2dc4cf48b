import Verif.Ctraj.Lemmas
import Mathlib.Analysis.SpecialFunctions.Sqrt
import Mathlib.Analysis.SpecialFunctions.Trigonometric.Deriv

/-! The derivative of a rotation given by a moving rotation vector. -/

namespace Yac.Ctraj
open Yac.Geom Yac.Residual Matrix

theorem norm3_deriv {v : ℝ → Vec3 ℝ} {v' : Vec3 ℝ} {t0 : ℝ} (h : VDeriv v v' t0) (h0 : v t0 ≠ 0) :
    HasDerivAt (fun t => norm3 (v t)) (dot3 (normalized (v t0)) v') t0 := by
  have hp := norm3_pos h0
  have hd : HasDerivAt (fun t => dot3 (v t) (v t)) (2 * dot3 (v t0) v') t0 := by
    refine ((((h 0).fun_mul (h 0)).fun_add ((h 1).fun_mul (h 1))).fun_add
      ((h 2).fun_mul (h 2))).congr_deriv ?_
    simp only [dot3]
    ring
  have hne : dot3 (v t0) (v t0) ≠ 0 := by
    rw [← norm3_sq]
    positivity
  refine (hd.sqrt hne).congr_deriv ?_
  have e : Real.sqrt (dot3 (v t0) (v t0)) = norm3 (v t0) := rfl
  rw [e, normalized_eq h0]
  simp only [dot3, Pi.smul_apply, smul_eq_mul]
  field_simp

theorem angVel_eq {e a : Vec3 ℝ} {n : ℝ} (he : dot3 e e = 1) (hn : 0 < n) (i : Fin 3) :
    angVel (n • e) a i = e i * dot3 e a +
      2 * Real.sin (n / 2) * Real.cos (n / 2) * (1 / n) * (a i - e i * dot3 e a) +
      2 * Real.sin (n / 2) ^ 2 * (1 / n) * cross3 e a i := by
  have hen : norm3 e = 1 := by unfold norm3; rw [he]; simp
  have he0 : e ≠ 0 := norm3_ne (by rw [hen]; norm_num)
  have hne : n • e ≠ 0 := smul_ne_zero hn.ne' he0
  have hnorm : norm3 (n • e) = n := by rw [norm3_smul, hen, abs_of_pos hn, mul_one]
  have hnz : normalized (n • e) = e := by
    rw [normalized_eq hne, hnorm, smul_smul]
    have : 1 / n * n = 1 := by field_simp
    rw [this, one_smul]
  have hc : Real.cos n = 1 - 2 * Real.sin (n / 2) ^ 2 := by
    have h1 := Real.cos_two_mul (n / 2)
    have h2 := Real.sin_sq_add_cos_sq (n / 2)
    rw [show 2 * (n / 2) = n by ring] at h1
    linarith
  have hs : Real.sin n = 2 * Real.sin (n / 2) * Real.cos (n / 2) := by
    rw [← Real.sin_two_mul]
    ring_nf
  unfold angVel
  rw [hnorm, hnz, hc, hs]
  generalize Real.sin (n / 2) = s
  generalize Real.cos (n / 2) = c
  have hk : n * (1 / n) = 1 := by field_simp
  have e1 : (1 - (1 - 2 * s ^ 2)) / n = 2 * s ^ 2 * (1 / n) := by ring
  have e2 : (n - 2 * s * c) / n = 1 - 2 * s * c * (1 / n) := by field_simp
  rw [e1, e2]
  generalize 1 / n = k
  simp only [dot3] at he
  fin_cases i
  · simp [mulVec, dotProduct, Fin.sum_univ_three, skew, dot3, cross3, Matrix.mul_apply]
    linear_combination (-(1 - 2 * s * c * k) * a 0) * he
  · simp [mulVec, dotProduct, Fin.sum_univ_three, skew, dot3, cross3, Matrix.mul_apply]
    linear_combination (-(1 - 2 * s * c * k) * a 1) * he
  · simp [mulVec, dotProduct, Fin.sum_univ_three, skew, dot3, cross3, Matrix.mul_apply]
    linear_combination (-(1 - 2 * s * c * k) * a 2) * he

/-- The rotation `expRot (v t)` turns with the angular velocity the code computes. -/
theorem expRot_moves {v : ℝ → Vec3 ℝ} {v' : Vec3 ℝ} {t0 : ℝ} (h : VDeriv v v' t0) (h0 : v t0 ≠ 0) :
    MDeriv (fun t => expRot (v t)) (skew (angVel (v t0) v') * expRot (v t0)) t0 := by
  have hp := norm3_pos h0
  have hn := norm3_deriv h h0
  obtain ⟨he, hsm, _⟩ := normalized_unit (v t0) h0
  obtain ⟨Q, hQ⟩ : ∃ Q : ℝ → Quat ℝ, Q = fun t => ⟨Real.cos (norm3 (v t) / 2),
    Real.sin (norm3 (v t) / 2) * (v t 0 / norm3 (v t)), Real.sin (norm3 (v t) / 2) * (v t 1 / norm3 (v t)),
    Real.sin (norm3 (v t) / 2) * (v t 2 / norm3 (v t))⟩ := ⟨_, rfl⟩
  have hnz : ∀ w : Vec3 ℝ, w ≠ 0 → ∀ i, normalized w i = w i / norm3 w := by
    intro w hw i
    rw [normalized_eq hw]
    simp only [Pi.smul_apply, smul_eq_mul]
    ring
  have hrot : ∀ t, v t ≠ 0 → expRot (v t) = (Q t).toRot := by
    intro t ht
    rw [expRot, if_neg ht, hQ]
    simp only [aaQuat, hnz _ ht]
  have hev : ∀ᶠ t in nhds t0, v t ≠ 0 := by
    have : ∀ᶠ t in nhds t0, 0 < norm3 (v t) :=
      continuousAt_const.eventually_lt hn.continuousAt hp
    filter_upwards [this] with t ht
    exact norm3_ne ht
  have hunit : (Q t0).normSq = 1 := by
    have := aaQuat_unit (t := norm3 (v t0)) he
    rw [hQ]
    simp only [aaQuat, hnz _ h0] at this
    exact this
  have hhalf : HasDerivAt (fun t => norm3 (v t) / 2) (dot3 (normalized (v t0)) v' / 2) t0 :=
    hn.div_const 2
  have hcomp : ∀ i, HasDerivAt (fun t => Real.sin (norm3 (v t) / 2) * (v t i / norm3 (v t)))
      (Real.cos (norm3 (v t0) / 2) * (dot3 (normalized (v t0)) v' / 2) * normalized (v t0) i +
        Real.sin (norm3 (v t0) / 2) * ((v' i - normalized (v t0) i * dot3 (normalized (v t0)) v') *
          (1 / norm3 (v t0)))) t0 := by
    intro i
    refine (hhalf.sin.fun_mul ((h i).fun_div hn hp.ne')).congr_deriv ?_
    rw [hnz _ h0 i]
    field_simp
  have hw : ∀ i, angVel (v t0) v' i = normalized (v t0) i * dot3 (normalized (v t0)) v' +
      2 * Real.sin (norm3 (v t0) / 2) * Real.cos (norm3 (v t0) / 2) * (1 / norm3 (v t0)) *
        (v' i - normalized (v t0) i * dot3 (normalized (v t0)) v') +
      2 * Real.sin (norm3 (v t0) / 2) ^ 2 * (1 / norm3 (v t0)) * cross3 (normalized (v t0)) v' i := by
    intro i
    have := angVel_eq (a := v') he hp i
    rwa [hsm] at this
  have hen : ∀ i, v t0 i / norm3 (v t0) = normalized (v t0) i := fun i => (hnz _ h0 i).symm
  have hcs := Real.sin_sq_add_cos_sq (norm3 (v t0) / 2)
  have hQw : (Q t0).w = Real.cos (norm3 (v t0) / 2) := by rw [hQ]
  have hQx : (Q t0).x = Real.sin (norm3 (v t0) / 2) * normalized (v t0) 0 := by rw [hQ]; simp only [hen]
  have hQy : (Q t0).y = Real.sin (norm3 (v t0) / 2) * normalized (v t0) 1 := by rw [hQ]; simp only [hen]
  have hQz : (Q t0).z = Real.sin (norm3 (v t0) / 2) * normalized (v t0) 2 := by rw [hQ]; simp only [hen]
  have hmove : MDeriv (fun t => (Q t).toRot) (skew (angVel (v t0) v') * (Q t0).toRot) t0 := by
    apply toRot_moves Q (angVel (v t0) v') t0 hunit
    · have : (fun t => (Q t).w) = fun t => Real.cos (norm3 (v t) / 2) := by rw [hQ]
      rw [this]
      refine hhalf.cos.congr_deriv ?_
      rw [hQx, hQy, hQz, hw, hw, hw]
      generalize Real.sin (norm3 (v t0) / 2) = s at *
      generalize Real.cos (norm3 (v t0) / 2) = c at *
      generalize (1 / norm3 (v t0)) = k at *
      generalize normalized (v t0) = e at *
      simp only [dot3, cross3, cons_val_zero, cons_val_one, cons_val] at *
      linear_combination (s * (e 0 * v' 0 + e 1 * v' 1 + e 2 * v' 2) / 2 -
        s ^ 2 * c * k * (e 0 * v' 0 + e 1 * v' 1 + e 2 * v' 2)) * he
    · have : (fun t => (Q t).x) = fun t => Real.sin (norm3 (v t) / 2) * (v t 0 / norm3 (v t)) := by rw [hQ]
      rw [this]
      refine (hcomp 0).congr_deriv ?_
      rw [hQw, hQy, hQz, hw, hw, hw]
      generalize Real.sin (norm3 (v t0) / 2) = s at *
      generalize Real.cos (norm3 (v t0) / 2) = c at *
      generalize (1 / norm3 (v t0)) = k at *
      generalize normalized (v t0) = e at *
      simp only [dot3, cross3, cons_val_zero, cons_val_one, cons_val] at *
      linear_combination (-s * k * (v' 0 - e 0 * (e 0 * v' 0 + e 1 * v' 1 + e 2 * v' 2))) * hcs -
        s ^ 3 * k * v' 0 * he
    · have : (fun t => (Q t).y) = fun t => Real.sin (norm3 (v t) / 2) * (v t 1 / norm3 (v t)) := by rw [hQ]
      rw [this]
      refine (hcomp 1).congr_deriv ?_
      rw [hQw, hQx, hQz, hw, hw, hw]
      generalize Real.sin (norm3 (v t0) / 2) = s at *
      generalize Real.cos (norm3 (v t0) / 2) = c at *
      generalize (1 / norm3 (v t0)) = k at *
      generalize normalized (v t0) = e at *
      simp only [dot3, cross3, cons_val_zero, cons_val_one, cons_val] at *
      linear_combination (-s * k * (v' 1 - e 1 * (e 0 * v' 0 + e 1 * v' 1 + e 2 * v' 2))) * hcs -
        s ^ 3 * k * v' 1 * he
    · have : (fun t => (Q t).z) = fun t => Real.sin (norm3 (v t) / 2) * (v t 2 / norm3 (v t)) := by rw [hQ]
      rw [this]
      refine (hcomp 2).congr_deriv ?_
      rw [hQw, hQx, hQy, hw, hw, hw]
      generalize Real.sin (norm3 (v t0) / 2) = s at *
      generalize Real.cos (norm3 (v t0) / 2) = c at *
      generalize (1 / norm3 (v t0)) = k at *
      generalize normalized (v t0) = e at *
      simp only [dot3, cross3, cons_val_zero, cons_val_one, cons_val] at *
      linear_combination (-s * k * (v' 2 - e 2 * (e 0 * v' 0 + e 1 * v' 1 + e 2 * v' 2))) * hcs -
        s ^ 3 * k * v' 2 * he
  intro i j
  refine ((hmove i j).congr_of_eventuallyEq ?_).congr_deriv ?_
  · filter_upwards [hev] with t ht
    rw [hrot t ht]
  · rw [hrot t0 h0]

end Yac.Ctraj
