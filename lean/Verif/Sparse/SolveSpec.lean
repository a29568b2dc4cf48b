import Verif.Sparse.Solve
import Mathlib.LinearAlgebra.Matrix.ToLin

/-!
# Contracts of the libraries, and what a least squares solution is
-/

namespace Yac.Sparse
open Matrix
open Yac.Solver (Mat)
open Yac.Marg (block)

/-- Every column is farther than `tol` from the span of the others. -/
def Independent {m n : ℕ} (tol : ℝ) (A : Matrix (Fin m) (Fin n) ℝ) : Prop :=
  ∀ (c : Fin n) (v : Fin n → ℝ), v c = 1 → tol < norm2 (A *ᵥ v)

/-- The contract of `SuiteSparseQR`: if the columns are independent beyond the tolerance, `A E = Q₁ R` with `Q₁` the
first columns of an orthogonal matrix and `R` invertible. -/
def IsSpqr (qr : Spqr) : Prop :=
  ∀ (tol : ℝ) (m n : ℕ) (A : Matrix (Fin m) (Fin n) ℝ), 0 ≤ tol → Independent tol A →
    (qr tol m n A).Qᵀ * (qr tol m n A).Q = 1 ∧ (qr tol m n A).R.det ≠ 0 ∧
    ∃ h : n ≤ m, A.submatrix id (qr tol m n A).E = (qr tol m n A).Q.submatrix id (Fin.castLE h) * (qr tol m n A).R

/-- The contract of `Eigen::JacobiSVD`: `A = U diag(s) Vᵀ`, `U` and `V` orthogonal, `s ≥ 0` descending. -/
def IsSvd3 (svd : Svd3) : Prop :=
  ∀ (n : ℕ) (A : Matrix (Fin n) (Fin n) ℝ), (svd n A).1ᵀ * (svd n A).1 = 1 ∧ (svd n A).2.2ᵀ * (svd n A).2.2 = 1 ∧
    (∀ i, 0 ≤ (svd n A).2.1 i) ∧ Antitone (svd n A).2.1 ∧
    A = (svd n A).1 * diagonal (svd n A).2.1 * (svd n A).2.2ᵀ

/-- `mu` is an eigenvalue. -/
def Eig {k : ℕ} (S : Matrix (Fin k) (Fin k) ℝ) (mu : ℝ) : Prop := ∃ v : Fin k → ℝ, v ≠ 0 ∧ S *ᵥ v = mu • v

/-- The information about the columns `Ar` when those of `Al` are unknown too: the Schur complement. -/
noncomputable def reducedInfo {m j k : ℕ} (Al : Matrix (Fin m) (Fin j) ℝ) (Ar : Matrix (Fin m) (Fin k) ℝ) :
    Matrix (Fin k) (Fin k) ℝ := Arᵀ * Ar - Arᵀ * Al * (Alᵀ * Al)⁻¹ * (Alᵀ * Ar)

/-- No eigenvalue is neither zero nor above the tolerance (the largest times `eps` times the size). -/
def Gapped {k : ℕ} (eps : ℝ) (S : Matrix (Fin k) (Fin k) ℝ) : Prop :=
  ∀ mu nu, Eig S mu → Eig S nu → mu = 0 ∨ nu * eps * k < mu

/-- The tolerance that the options ask for, by default the rounding unit. -/
def QrTol (o : Opts) (tol : ℝ) : Prop := 0 ≤ tol ∧ (o.qrTol = tol ∨ o.qrTol = -1 ∧ 0 < o.epsQR ∧ tol = macheps)

/-- A column that is not set to zero for being short. -/
def Significant (o : Opts) (A : Mat ℝ) (m c : ℕ) : Prop :=
  o.columnScaling = true → Real.sqrt (m * o.epsNorm) ≤ Real.sqrt (∑ r ∈ Finset.range m, A r c ^ 2)

/-- The first `j` columns, normalised if the options say so. -/
noncomputable def leftPart (o : Opts) (A : Mat ℝ) (m j : ℕ) : Matrix (Fin m) (Fin j) ℝ :=
  block A 0 0 m j * diagonal (scale o (block A 0 0 m j))

/-- The other columns, normalised if the options say so. -/
noncomputable def rightPart (o : Opts) (A : Mat ℝ) (m n j : ℕ) : Matrix (Fin m) (Fin (n - j)) ℝ :=
  block A 0 j m (n - j) * diagonal (scale o (block A 0 j m (n - j)))

/-- The residual `b - A x`. -/
noncomputable def resid (A : Mat ℝ) (n : ℕ) (b x : ℕ → ℝ) (i : ℕ) : ℝ := b i - ∑ c ∈ Finset.range n, A i c * x c

/-- The sum of its squares. -/
noncomputable def cost (A : Mat ℝ) (m n : ℕ) (b x : ℕ → ℝ) : ℝ := ∑ i ∈ Finset.range m, resid A n b x i ^ 2

end Yac.Sparse
