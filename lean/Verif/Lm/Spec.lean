import Verif.Lm.Model
import Verif.Solver.CovSpec

/-!
# What a least squares problem is (independent of the code)
-/

namespace Yac.Lm
open Yac.Solver (Res ParamInfo Vals deriv Mat)

variable {P V : Type} [DecidableEq P]

/-- The parameters that are optimised: those of a residual that are not fixed. -/
def Free (pb : Setup P V) (p : P) : Prop := (pb.info p).fixed = false ∧ ∃ g ∈ pb.fns, p ∈ g.blocks

/-- The parameters moved by `d`: component `i` of the free parameter `p` by `d p i`. -/
noncomputable def moved (pb : Setup P V) (S : Finset P) (σ : Vals P V) (d : P → ℕ → ℝ) : Vals P V :=
  fun p => if p ∈ S then pb.plus p (σ p) ((List.range (pb.info p).size).map (d p)) else σ p

/-- The size of a move. -/
noncomputable def size1 (pb : Setup P V) (S : Finset P) (d : P → ℕ → ℝ) : ℝ :=
  ∑ p ∈ S, ∑ i ∈ Finset.range (pb.info p).size, |d p i|

/-- The change of residual component `k` that the Jacobian predicts for a move. -/
noncomputable def predicted (pb : Setup P V) (S : Finset P) (f : Res ℝ P) (k : ℕ) (d : P → ℕ → ℝ) : ℝ :=
  ∑ p ∈ S, ∑ i ∈ Finset.range (pb.info p).size, deriv f p k i * d p i

/-- The residual can be evaluated near `σ` and its Jacobian is its derivative there. -/
def Smooth (pb : Setup P V) (S : Finset P) (σ : Vals P V) (g : RFn P V) : Prop :=
  ∃ r0, g.eval σ = some r0 ∧ ∀ k < g.size, ∀ eps > 0, ∃ del > 0, ∀ d, size1 pb S d ≤ del →
    ∃ r, g.eval (moved pb S σ d) = some r ∧ |r k - r0 k - predicted pb S (g.result σ r0) k d| ≤ eps * size1 pb S d

/-- The derivative of half the sum of squares with respect to component `i` of `p`. -/
noncomputable def gradient (pb : Setup P V) (σ : Vals P V) (p : P) (i : ℕ) : ℝ :=
  (pb.fns.map (fun (g : RFn P V) => match g.eval σ with
    | none => 0
    | some r => ∑ k ∈ Finset.range g.size, deriv (g.result σ r) p k i * r k)).sum

/-- Half the sum of squares of all residuals, if all of them can be evaluated. -/
noncomputable def trueCost (pb : Setup P V) (σ : Vals P V) : Option ℝ :=
  (pb.fns.mapM (fun (g : RFn P V) => (g.eval σ).map (fun r => 1 / 2 * ∑ k ∈ Finset.range g.size, r k ^ 2))).map List.sum

/-- What the solver needs of a problem: `S` are the free parameters, all of them registered and of a known type, at
least one a camera's, and no residual lists a parameter twice. -/
structure Problem (pb : Setup P V) (S : Finset P) : Prop where
  free : ∀ p, p ∈ S ↔ Free pb p
  registered : ∀ p ∈ S, p ∈ pb.params
  kind : ∀ p ∈ S, (pb.info p).kind ≠ .other
  camera : ∃ p ∈ S, (pb.info p).kind = .camera
  nodup : ∀ g ∈ pb.fns, g.blocks.Nodup

/-- The number of columns. -/
def dim (pb : Setup P V) (S : Finset P) : ℕ := ∑ p ∈ S, (pb.info p).size

end Yac.Lm
