import Verif.Solver.Book
import Mathlib.Data.Finset.Basic
import Mathlib.Data.Finset.Filter
import Mathlib.Data.Finset.Card

/-!
Specification of the optimisation problem kept by a solver: a set of parameters and a set
of residuals.  Written without reference to the solver's data structures.
-/

namespace Yac.Solver.Spec

variable {P R : Type} [DecidableEq P] [DecidableEq R]

/-- The problem a user believes to have built. -/
structure Prob (P R : Type) where
  params : Finset P
  residuals : Finset R

/-- Effect of one call: removing a parameter removes the residuals that use it. -/
def step (blocks : R → List P) (s : Prob P R) : Op P R → Prob P R
  | .addParam p => { s with params := insert p s.params }
  | .addResidual r => { s with residuals := insert r s.residuals }
  | .removeParam p =>
      { params := s.params.erase p, residuals := s.residuals.filter (fun r => p ∉ blocks r) }
  | .removeResidual r => { s with residuals := s.residuals.erase r }
  | .clear => ⟨∅, ∅⟩

/-- The problem after a history. -/
def run (blocks : R → List P) (ops : List (Op P R)) : Prob P R :=
  ops.foldl (step blocks) ⟨∅, ∅⟩

/-- A call is legal: residuals are added once, over distinct parameters that were added
before; only things that are in the problem are removed. -/
def Legal (blocks : R → List P) (s : Prob P R) : Op P R → Prop
  | .addParam _ => True
  | .addResidual r => r ∉ s.residuals ∧ (∀ p ∈ blocks r, p ∈ s.params) ∧ (blocks r).Nodup
  | .removeParam p => p ∈ s.params
  | .removeResidual r => r ∈ s.residuals
  | .clear => True

/-- Every call of the history is legal, starting from problem `s`. -/
def LegalFrom (blocks : R → List P) : Prob P R → List (Op P R) → Prop
  | _, [] => True
  | s, op :: ops => Legal blocks s op ∧ LegalFrom blocks (step blocks s op) ops

/-- Extra discipline: a parameter is only removed when the residuals present that use it
use no other parameter (for instance when they have been removed first). -/
def PrivateFrom (blocks : R → List P) : Prob P R → List (Op P R) → Prop
  | _, [] => True
  | s, op :: ops =>
    (match op with
     | .removeParam p => ∀ r ∈ s.residuals, p ∈ blocks r → ∀ q ∈ blocks r, q = p
     | _ => True) ∧ PrivateFrom blocks (step blocks s op) ops

end Yac.Solver.Spec
