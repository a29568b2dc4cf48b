import Verif.VI.Props
import Verif.VI.QueryModel

/-!
# Specification of the queries of `calib_vi_t`

Read this file to know what C87 to C90 say.
-/

namespace Yac.VI

open Yac.AprilGrid (Grid)

variable {K D : Type} [DecidableEq K]

/-- A user action: a call of `Props.lean` or `solve()` with the settings `enable_outlier_rejection`
and `outlier_threshold`, after which the residuals are `res`. -/
inductive Act (K D : Type) where
  | call (c : Call K D)
  | solve (rejection : Bool) (factor : ℝ) (res : Fid K → ℝ × ℝ)

/-- The effect of an action on the state and on the set of constant blocks of the solver
problem. -/
inductive Act.Does (env : VEnv K D) : Act K D → St K D → St K D → Prop where
  | call {c s t} : VI.call env s c = .ok t → Act.Does env (.call c) s t
  | solve {rej fac res c s t c' ks} : VI.solve rej fac res c s = .ok (t, c', ks) →
      Act.Does env (.solve rej fac res) s t

/-- A history from a new calibrator: `reset` is called only while there is no prior. -/
inductive Hist (env : VEnv K D) (s : St K D) : List (Act K D) → St K D → Prop
  | nil : Hist env s [] s
  | snoc {as t a u} : Hist env s as t → (a = .call .reset → t.marg = none) → a.Does env t u →
      Hist env s (as ++ [a]) u

/-- Half of the sum of the squares of the residuals in a list. -/
noncomputable def halfSquares (ev : Res K → Option (List ℝ)) (l : List (Res K)) : ℝ :=
  1 / 2 * (l.map (fun r => (((ev r).getD []).map (fun x => x ^ 2)).sum)).sum

/-- A measurement of the target taken in the newest view. -/
def Newest (s : St K D) (r : Res K) : Prop :=
  ∃ v f, s.views.getLast? = some v ∧ f ∈ v.fids ∧ r = .fid f

/-- The length of a reprojection error. -/
noncomputable def len (r : ℝ × ℝ) : ℝ := Real.sqrt (r.1 ^ 2 + r.2 ^ 2)

/-- The threshold for a view: the factor times the sample standard deviation of the lengths of
its reprojection errors; there is none for fewer than two errors. -/
def Limit (res : Fid K → ℝ × ℝ) (factor : ℝ) (v : View K) (t : ℝ) : Prop :=
  let e := v.fids.map (fun f => len (res f))
  2 ≤ e.length ∧
  ∃ μ, μ * e.length = e.sum ∧
    t = factor * Real.sqrt ((e.map (fun x => (x - μ) ^ 2)).sum / ((e.length : ℝ) - 1))

/-- One component of the error is above the limit. -/
def Above (res : Fid K → ℝ × ℝ) (factor : ℝ) (v : View K) (f : Fid K) : Prop :=
  ∃ t, Limit res factor v t ∧ ((res f).1 > t ∨ (res f).2 > t)

/-- The gaps between consecutive times. -/
def gaps : List Int → List Int
  | a :: b :: l => (b - a) :: gaps (b :: l)
  | _ => []

end Yac.VI
