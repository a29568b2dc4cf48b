import Verif.Cam.Model
import Mathlib.Analysis.SpecialFunctions.Trigonometric.ArctanDeriv
import Mathlib.Analysis.SpecialFunctions.Sqrt
import Mathlib.Analysis.SpecialFunctions.Log.Deriv
import Mathlib.Analysis.SpecialFunctions.ExpDeriv
import Mathlib.Analysis.Calculus.Deriv.Inv
import Mathlib.Tactic.FinCases
import Mathlib.Tactic.FieldSimp
import Mathlib.Tactic.LinearCombination
import Mathlib.Tactic.Positivity

/-!
Derivatives of the camera functions along differentiable curves.
-/

namespace Yac.Cam
open Matrix Yac.Geom

theorem projectPoint_deriv (p : ℝ → Vec3 ℝ) (p' : Vec3 ℝ) (t0 : ℝ)
    (hp : ∀ i, HasDerivAt (fun t => p t i) (p' i) t0) (hz : p t0 2 ≠ 0) :
    ∃ J, projectJac (p t0) = some J ∧
      (∀ᶠ t in nhds t0, projectPoint (p t) = some ![p t 0 / p t 2, p t 1 / p t 2]) ∧
      HasDerivAt (fun t => p t 0 / p t 2) ((J *ᵥ p') 0) t0 ∧
      HasDerivAt (fun t => p t 1 / p t 2) ((J *ᵥ p') 1) t0 := by
  refine ⟨_, if_neg hz, ?_, ?_, ?_⟩
  · filter_upwards [(hp 2).continuousAt.eventually_ne hz] with t ht
    exact if_neg ht
  · refine ((hp 0).fun_div (hp 2) hz).congr_deriv ?_
    simp [mulVec, dotProduct, Fin.sum_univ_three]
    field_simp
    ring
  · refine ((hp 1).fun_div (hp 2) hz).congr_deriv ?_
    simp [mulVec, dotProduct, Fin.sum_univ_three]
    field_simp
    ring

theorem radtan4_deriv (d : ℝ → Vec4) (d' : Vec4) (x : ℝ → Vec2) (x' : Vec2) (t0 : ℝ)
    (hd : ∀ i, HasDerivAt (fun t => d t i) (d' i) t0)
    (hx : ∀ i, HasDerivAt (fun t => x t i) (x' i) t0) (j : Fin 2) :
    HasDerivAt (fun t => radtan4Distort (d t) (x t) j)
      ((radtan4PointJac (d t0) (x t0) *ᵥ x' + radtan4ParamsJac (x t0) *ᵥ d') j) t0 := by
  have X := hx 0
  have Y := hx 1
  have x2 := X.fun_mul X
  have y2 := Y.fun_mul Y
  have r2 := x2.fun_add y2
  have r4 := r2.fun_mul r2
  have radial := (((hd 0).fun_mul r2).const_add 1).fun_add ((hd 1).fun_mul r4)
  have xy := X.fun_mul Y
  fin_cases j
  · have h := (X.fun_mul radial).fun_add ((((hd 2).const_mul 2).fun_mul xy).fun_add
      ((hd 3).fun_mul (r2.fun_add (x2.const_mul 2))))
    refine h.congr_deriv ?_
    simp [radtan4PointJac, radtan4ParamsJac, mulVec, dotProduct, Fin.sum_univ_two,
      Fin.sum_univ_four]
    ring
  · have h := (Y.fun_mul radial).fun_add ((((hd 3).const_mul 2).fun_mul xy).fun_add
      ((hd 2).fun_mul (r2.fun_add (y2.const_mul 2))))
    refine h.congr_deriv ?_
    simp [radtan4PointJac, radtan4ParamsJac, mulVec, dotProduct, Fin.sum_univ_two,
      Fin.sum_univ_four]
    ring

theorem equi4_deriv (d : ℝ → Vec4) (d' : Vec4) (x : ℝ → Vec2) (x' : Vec2) (t0 : ℝ)
    (hd : ∀ i, HasDerivAt (fun t => d t i) (d' i) t0)
    (hx : ∀ i, HasDerivAt (fun t => x t i) (x' i) t0) (hr : 1 / 10 ^ 8 < norm2 (x t0)) :
    ∃ J K, equi4PointJac (d t0) (x t0) = some J ∧ equi4ParamsJac (x t0) = some K ∧
      ∀ j, HasDerivAt (fun t => equi4Distort (d t) (x t) j) ((J *ᵥ x' + K *ᵥ d') j) t0 := by
  have X := hx 0
  have Y := hx 1
  have x2 := X.fun_mul X
  have y2 := Y.fun_mul Y
  have hpos : 0 < norm2 (x t0) := lt_trans (by norm_num) hr
  have hsq : x t0 0 * x t0 0 + x t0 1 * x t0 1 ≠ 0 := by
    intro h; unfold norm2 at hpos; rw [h, Real.sqrt_zero] at hpos; exact lt_irrefl _ hpos
  have R : HasDerivAt (fun t => norm2 (x t))
      ((x t0 0 * x' 0 + x t0 1 * x' 1) / norm2 (x t0)) t0 := by
    refine ((x2.fun_add y2).sqrt hsq).congr_deriv ?_
    show _ / (2 * norm2 (x t0)) = _
    field_simp
    ring
  have Th := R.arctan
  have th2 := Th.fun_mul Th
  have th4 := th2.fun_mul th2
  have th6 := th4.fun_mul th2
  have th8 := th4.fun_mul th4
  have thd := Th.fun_mul ((((((hd 0).fun_mul th2).const_add 1).fun_add ((hd 1).fun_mul th4)).fun_add
    ((hd 2).fun_mul th6)).fun_add ((hd 3).fun_mul th8))
  have s := thd.fun_div R hpos.ne'
  have ev : ∀ᶠ t in nhds t0, equi4Distort (d t) (x t) =
      ![thetaD (d t) (Real.arctan (norm2 (x t))) / norm2 (x t) * x t 0,
        thetaD (d t) (Real.arctan (norm2 (x t))) / norm2 (x t) * x t 1] := by
    filter_upwards [R.continuousAt.eventually (lt_mem_nhds hr)] with t ht
    exact if_neg (not_lt.mpr (le_of_lt ht))
  refine ⟨_, _, if_neg hpos.ne', if_neg hpos.ne', fun j => ?_⟩
  have hr1 : norm2 (x t0) * norm2 (x t0) + 1 ≠ 0 := by positivity
  have hr2 : 1 + norm2 (x t0) ^ 2 ≠ 0 := by positivity
  fin_cases j
  · have h := s.fun_mul X
    refine (h.congr_deriv ?_).congr_of_eventuallyEq ?_
    · generalize norm2 (x t0) = r at *
      have e : (1 : ℝ) / (1 + r ^ 2) = 1 / (r * r + 1) := by congr 1; ring
      simp [mulVec, dotProduct, Fin.sum_univ_two, Fin.sum_univ_four]
      generalize Real.arctan r = th
      field_simp
      ring
    · filter_upwards [ev] with t ht
      rw [ht]; rfl
  · have h := s.fun_mul Y
    refine (h.congr_deriv ?_).congr_of_eventuallyEq ?_
    · generalize norm2 (x t0) = r at *
      simp [mulVec, dotProduct, Fin.sum_univ_two, Fin.sum_univ_four]
      generalize Real.arctan r = th
      field_simp
      ring
    · filter_upwards [ev] with t ht
      rw [ht]; rfl

theorem pixel_deriv (f : ℝ → Vec4) (f' : Vec4) (x : ℝ → Vec2) (x' : Vec2) (t0 : ℝ)
    (hf : ∀ i, HasDerivAt (fun t => f t i) (f' i) t0)
    (hx : ∀ i, HasDerivAt (fun t => x t i) (x' i) t0) (j : Fin 2) :
    HasDerivAt (fun t => pixel (f t) (x t) j)
      ((pinholePointJac (f t0) *ᵥ x' + pinholeParamsJac (x t0) *ᵥ f') j) t0 := by
  fin_cases j
  · refine (((hf 0).fun_mul (hx 0)).fun_add (hf 2)).congr_deriv ?_
    simp [pinholePointJac, pinholeParamsJac, mulVec, dotProduct, Fin.sum_univ_two,
      Fin.sum_univ_four]
    ring
  · refine (((hf 1).fun_mul (hx 1)).fun_add (hf 3)).congr_deriv ?_
    simp [pinholePointJac, pinholeParamsJac, mulVec, dotProduct, Fin.sum_univ_two,
      Fin.sum_univ_four]
    ring

end Yac.Cam
