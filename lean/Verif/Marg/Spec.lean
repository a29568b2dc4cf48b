import Verif.Marg.Model

/-!
# What marginalisation is supposed to achieve (independent of the code)
-/

namespace Yac.Marg
open Matrix Yac.Solver

/-- The contract of `Eigen::SelfAdjointEigenSolver` on symmetric matrices: orthonormal
eigenvectors and `A = V diag(vals) Vᵀ`. -/
def IsEigSolver (eig : EigSolver) : Prop :=
  ∀ n (A : Matrix (Fin n) (Fin n) ℝ), Aᵀ = A →
    (eig n A).vecsᵀ * (eig n A).vecs = 1 ∧
    A = (eig n A).vecs * diagonal (eig n A).vals * (eig n A).vecsᵀ

/-- `lam` is an eigenvalue of `A`. -/
def IsEigenvalue {n : Nat} (A : Matrix (Fin n) (Fin n) ℝ) (lam : ℝ) : Prop :=
  ∃ v : Fin n → ℝ, v ≠ 0 ∧ A *ᵥ v = lam • v

/-- `x` solves the `n` linear equations `H x = b`. -/
def Solves (n : Nat) (H : Nat → Nat → ℝ) (b x : Nat → ℝ) : Prop :=
  ∀ i < n, ∑ j ∈ Finset.range n, H i j * x j = b i

variable {P : Type}

/-- The sum of squares of all residuals after moving every free parameter `p` by `δ p`, to first
order; fixed parameters do not move. -/
noncomputable def linCost (info : P → PInfo) (fs : List (Res ℝ P)) (δ : P → Nat → ℝ) : ℝ :=
  (fs.map (fun f => ∑ k ∈ Finset.range f.size, (f.r k +
    (f.blocks.map (fun b => if (info b.1).base.fixed then 0
      else ∑ a ∈ Finset.range (info b.1).base.size, b.2 k a * δ b.1 a)).sum) ^ 2)).sum

/-- `p` is a free parameter of the residuals that is kept. -/
def Remaining (info : P → PInfo) (fs : List (Res ℝ P)) (p : P) : Prop :=
  (∃ f ∈ fs, ∃ B, (p, B) ∈ f.blocks) ∧ (info p).marg = false ∧ (info p).base.fixed = false

/-- `p` is a parameter of the residuals that is to be marginalised. -/
def Marginalised (info : P → PInfo) (fs : List (Res ℝ P)) (p : P) : Prop :=
  (∃ f ∈ fs, ∃ B, (p, B) ∈ f.blocks) ∧ (info p).marg = true

/-- The parameters stored as a position and a quaternion. -/
def PoseLike (i : PInfo) : Prop :=
  i.base.kind = .pose ∨ i.base.kind = .extrinsics ∨ (i.base.kind = .fiducial ∧ i.gsize = 7)

instance (i : PInfo) : Decidable (PoseLike i) := by unfold PoseLike; infer_instance

/-- The kept parameters are of the known types, and their sizes are those of their type. -/
def KnownTypes (info : P → PInfo) (fs : List (Res ℝ P)) : Prop :=
  ∀ p, Remaining info fs p → (info p).base.kind ≠ .other ∧
    (PoseLike (info p) → (info p).base.size = 6) ∧
    (¬PoseLike (info p) → (info p).gsize = (info p).base.size)

theorem isPose_iff (i : PInfo) : isPose i = true ↔ PoseLike i := by
  unfold isPose PoseLike
  simp only [Bool.or_eq_true, Bool.and_eq_true, decide_eq_true_eq, or_assoc]

theorem isPose_false (i : PInfo) : isPose i = false ↔ ¬PoseLike i := by
  rw [← isPose_iff]; simp

end Yac.Marg
