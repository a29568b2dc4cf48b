import Mathlib.LinearAlgebra.Matrix.Notation
import Mathlib.LinearAlgebra.Matrix.Rank
import Mathlib.Data.Real.Basic
import Verif.Basic

/-! Pseudo-inverse, rank and dense solve: `pinv`, `rank`, `full_rank` of yac/lib/util/core.cpp:437-464 and
`linsolve_dense_svd` of yac/lib/solver.cpp:11-21.  Exact real arithmetic. -/

namespace Yac.Dense
open Matrix

/-- `Eigen::JacobiSVD` with full `U` and `V`: `U`, the singular values, `V`. -/
abbrev Svd := (m n : ℕ) → Matrix (Fin m) (Fin n) ℝ →
  Matrix (Fin m) (Fin m) ℝ × (ℕ → ℝ) × Matrix (Fin n) (Fin n) ℝ

/-- `M(i, i) = v`. -/
def setDiag {m n : ℕ} (M : Matrix (Fin m) (Fin n) ℝ) (i : ℕ) (v : ℝ) : Matrix (Fin m) (Fin n) ℝ :=
  fun r c => if r.val = i ∧ c.val = i then v else M r c

open Classical in
/-- The loop of `pinv`, core.cpp:440-448. -/
noncomputable def valsInv (m n : ℕ) (s : ℕ → ℝ) (tol : ℝ) : Matrix (Fin n) (Fin m) ℝ :=
  (List.range (min m n)).foldl (fun M i => if s i > tol then setDiag M i (1 / s i) else setDiag M i 0) 0

/-- `pinv`, core.cpp:437-451. -/
noncomputable def pinv (svd : Svd) {m n : ℕ} (A : Matrix (Fin m) (Fin n) ℝ) (tol : ℝ) : Matrix (Fin n) (Fin m) ℝ :=
  let d := svd m n A
  d.2.2 * valsInv m n d.2.1 tol * d.1ᵀ

/-- `linsolve_dense_svd`, solver.cpp:11-21.  `rank m n s` is `svd.rank()`; a rank above the numbers of rows and
columns would read outside the matrices. -/
noncomputable def linsolveSvd (svd : Svd) (rank : ℕ → ℕ → (ℕ → ℝ) → ℕ) {m n : ℕ} (A : Matrix (Fin m) (Fin n) ℝ)
    (b : Fin m → ℝ) : Except Fault (Fin n → ℝ) :=
  let d := svd m n A
  let r := rank m n d.2.1
  if h : r ≤ n ∧ r ≤ m then
    .ok ((d.2.2.submatrix id (Fin.castLE h.1) * diagonal (fun i : Fin r => (d.2.1 i.val)⁻¹) *
      (d.1.submatrix id (Fin.castLE h.2))ᵀ) *ᵥ b)
  else .error .oob

/-- `rank`, core.cpp:453-456; the full pivoting LU decomposition finds the rank. -/
noncomputable def rank {m n : ℕ} (A : Matrix (Fin m) (Fin n) ℝ) : ℕ := A.rank

open Classical in
/-- `full_rank`, core.cpp:458-464. -/
noncomputable def fullRank {m n : ℕ} (A : Matrix (Fin m) (Fin n) ℝ) : Bool :=
  if rank A ≠ m ∨ rank A ≠ n then false else true

end Yac.Dense
