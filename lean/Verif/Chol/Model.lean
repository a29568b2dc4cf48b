import Verif.Basic
import Mathlib.Analysis.Real.Sqrt
import Mathlib.Algebra.BigOperators.Group.Finset.Basic
import Mathlib.LinearAlgebra.Matrix.NonsingularInverse

/-!
# Model of the weighting matrices of the residuals (yac/lib/calib_residuals.cpp)

`info{covar.inverse()}, sqrt_info{info.llt().matrixU()}` in the constructors of `prior_t`,
`pose_prior_t`, `reproj_residual_t`, `fiducial_residual_t` and `mocap_residual_t`, and the weighting
of the IMU residual.  `llt()` is Eigen's unblocked factorisation (`llt_inplace<..., Lower>::unblocked`,
used for fewer than 32 rows), which works in place on the lower triangle and stops at the first pivot
that is not positive; its status is never looked at.  Exact real arithmetic.
-/

namespace Yac.Chol
open Finset

/-- A matrix as Eigen stores it: entries by row and column. -/
abbrev Arr := Nat → Nat → ℝ

/-- Column `k` of the in-place factorisation of a matrix with `n` rows; `none`: the pivot is not
positive. -/
noncomputable def column (n k : Nat) (M : Arr) : Option Arr :=
  let x := M k k - ∑ l ∈ range k, M k l * M k l
  if x ≤ 0 then none
  else some fun i j =>
    if j = k ∧ i = k then Real.sqrt x
    else if j = k ∧ k < i ∧ i < n then (M i k - ∑ l ∈ range k, M i l * M k l) / Real.sqrt x
    else M i j

/-- The loop over the columns: the matrix, and whether the factorisation is still going. -/
noncomputable def step (n : Nat) (s : Arr × Bool) (k : Nat) : Arr × Bool :=
  if s.2 = false then s
  else
    match column n k s.1 with
    | none => (s.1, false)
    | some M => (M, true)

/-- `llt()` of a matrix with `n` rows. -/
noncomputable def factor (n : Nat) (A : Arr) : Arr × Bool := (List.range n).foldl (step n) (A, true)

/-- `matrixU()`: the transposed lower triangle. -/
def matrixU (M : Arr) : Arr := fun i j => if i ≤ j then M j i else 0

/-- The stored form of a square matrix. -/
def toArr {n : Nat} (A : Matrix (Fin n) (Fin n) ℝ) : Arr := fun i j =>
  if h : i < n ∧ j < n then A ⟨i, h.1⟩ ⟨j, h.2⟩ else 0

/-- `info.llt().matrixU()`. -/
noncomputable def lltU {n : Nat} (A : Matrix (Fin n) (Fin n) ℝ) : Matrix (Fin n) (Fin n) ℝ :=
  fun i j => matrixU (factor n (toArr A)).1 i j

/-- `sqrt_info` of the constructors, calib_residuals.cpp:250, 295, 364-365, 541-542 and 844;
`none`: the inverse of a singular covariance is infinite or not a number. -/
noncomputable def sqrtInfo {n : Nat} (covar : Matrix (Fin n) (Fin n) ℝ) :
    Option (Matrix (Fin n) (Fin n) ℝ) :=
  open Classical in if covar.det = 0 then none else some (lltU covar⁻¹)

/-- `lltOfInformation.matrixU()` for matrices whose rows are numbered by pairs (the IMU residual,
calib_residuals.cpp:1509-1511, has five blocks of three rows). -/
noncomputable def lltPair {m n : Nat} (A : Matrix (Fin m × Fin n) (Fin m × Fin n) ℝ) :
    Matrix (Fin m × Fin n) (Fin m × Fin n) ℝ :=
  (lltU (A.reindex finProdFinEquiv finProdFinEquiv)).reindex finProdFinEquiv.symm
    finProdFinEquiv.symm

end Yac.Chol
