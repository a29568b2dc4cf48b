import Verif.Solver.CovModel
import Verif.Solver.Props

/-!
# What a covariance estimate is supposed to be (independent of the code)
-/

namespace Yac.Solver
open Finset

variable {P : Type} [DecidableEq P]

/-- The derivative of residual component `k` of `f` with respect to component `i` of `p`: zero if
`f` does not depend on `p`. -/
noncomputable def deriv (f : Res ℝ P) (p : P) (k i : Nat) : ℝ :=
  (f.blocks.map (fun b => if b.1 = p then b.2 k i else 0)).sum

/-- The information matrix of all residuals, entry for component `i` of `p` and `j` of `q`. -/
noncomputable def infoEntry (fs : List (Res ℝ P)) (p : P) (i : Nat) (q : P) (j : Nat) : ℝ :=
  (fs.map (fun f => ∑ k ∈ range f.size, deriv f p k i * deriv f q k j)).sum

/-- The information matrix over the parameters `S` applied to `x`, component `i` of `p`. -/
noncomputable def applyInfo (info : P → ParamInfo) (fs : List (Res ℝ P)) (S : Finset P)
    (x : P → Nat → ℝ) (p : P) (i : Nat) : ℝ :=
  ∑ q ∈ S, ∑ j ∈ range (info q).size, infoEntry fs p i q j * x q j

/-- `x` is the column for component `j` of `q` of the inverse of the information matrix over the
parameters `S`. -/
def InverseColumn (info : P → ParamInfo) (fs : List (Res ℝ P)) (S : Finset P) (q : P) (j : Nat)
    (x : P → Nat → ℝ) : Prop :=
  ∀ p ∈ S, ∀ i < (info p).size, applyInfo info fs S x p i = if p = q ∧ i = j then 1 else 0

/-- The first row of parameter `p` in the result: the requested parameters that are not fixed, in
the given order. -/
def offset (info : P → ParamInfo) : List P → P → Nat
  | [], _ => 0
  | q :: l, p => if q = p then 0 else (if (info q).fixed then 0 else (info q).size) + offset info l p

/-- The result: `C` is the covariance of the requested parameters that are not fixed, i.e. their
rows and columns of the inverse of the information matrix of all optimised parameters `S`. -/
def IsCovariance (info : P → ParamInfo) (fs : List (Res ℝ P)) (S : Finset P) (params : List P)
    (C : Nat → Nat → ℝ) : Prop :=
  ∀ q ∈ params, (info q).fixed = false → ∀ j < (info q).size,
    ∃ x, InverseColumn info fs S q j x ∧
      ∀ p ∈ params, (info p).fixed = false → ∀ i < (info p).size,
        C (offset info params p + i) (offset info params q + j) = x p i

/-- `lam` is an eigenvalue of the information matrix of the parameters `S` alone. -/
def InfoEigenvalue (info : P → ParamInfo) (fs : List (Res ℝ P)) (S : Finset P) (lam : ℝ) : Prop :=
  ∃ v : P → Nat → ℝ, (∃ p ∈ S, ∃ i < (info p).size, v p i ≠ 0) ∧
    ∀ p ∈ S, ∀ i < (info p).size, applyInfo info fs S v p i = lam * v p i

/-- The setting of the property: `S` are the optimised parameters, the requested ones that are not
fixed are among them, none is requested twice, and the others are of a known type. -/
structure CovSetting (info : P → ParamInfo) (fs : List (Res ℝ P)) (params : List P)
    (S : Finset P) : Prop where
  opt : ∀ p, p ∈ S ↔ Optimised info fs p
  used : ∀ p ∈ params, (info p).fixed = false → p ∈ S
  nodup : params.Nodup
  kind : ∀ p ∈ S, p ∉ params → (info p).kind ≠ .other

end Yac.Solver
