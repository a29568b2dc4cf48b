import Verif.Dense.Model

/-! What is assumed of the singular value decomposition, and the notions used in the claims. -/

namespace Yac.Dense
open Matrix

/-- The matrix with the given numbers on its diagonal. -/
def rectDiag (m n : ℕ) (s : ℕ → ℝ) : Matrix (Fin m) (Fin n) ℝ := fun i j => if i.val = j.val then s i.val else 0

/-- `U` and `V` are orthogonal, the singular values are nonnegative and in decreasing order, and
the product of the factors is the matrix. -/
def IsSvd (svd : Svd) : Prop := ∀ (m n : ℕ) (A : Matrix (Fin m) (Fin n) ℝ),
  (svd m n A).1ᵀ * (svd m n A).1 = 1 ∧ (svd m n A).2.2ᵀ * (svd m n A).2.2 = 1 ∧
  (∀ i, 0 ≤ (svd m n A).2.1 i) ∧ Antitone (svd m n A).2.1 ∧
  A = (svd m n A).1 * rectDiag m n (svd m n A).2.1 * (svd m n A).2.2ᵀ

/-- `JacobiSVD::rank()`: the number of singular values that reach a positive threshold
(`max(s(0) * eps * size, smallest positive number)`). -/
def IsRank (thr : ℕ → ℕ → (ℕ → ℝ) → ℝ) (rank : ℕ → ℕ → (ℕ → ℝ) → ℕ) : Prop :=
  ∀ m n s, 0 < thr m n s ∧ rank m n s ≤ min m n ∧
    (Antitone s → ∀ i, i < min m n → (i < rank m n s ↔ thr m n s ≤ s i))

/-- The four equations of Penrose: `P` is the pseudo-inverse of `A`. -/
def IsPinv {m n : ℕ} (A : Matrix (Fin m) (Fin n) ℝ) (P : Matrix (Fin n) (Fin m) ℝ) : Prop :=
  A * P * A = A ∧ P * A * P = P ∧ (A * P)ᵀ = A * P ∧ (P * A)ᵀ = P * A

/-- `σ` is a singular value of `A`: `σ²` is an eigenvalue of `Aᵀ A`. -/
def IsSing {m n : ℕ} (A : Matrix (Fin m) (Fin n) ℝ) (σ : ℝ) : Prop :=
  0 ≤ σ ∧ ∃ v : Fin n → ℝ, v ≠ 0 ∧ (Aᵀ * A) *ᵥ v = σ ^ 2 • v

end Yac.Dense
