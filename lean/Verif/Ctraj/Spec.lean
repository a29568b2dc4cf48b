import Verif.Ctraj.Model
import Verif.Residual.Motion

/-! What is assumed of the spline fit, and the notions used in the claims on trajectories. -/

namespace Yac.Ctraj
open Yac.Geom Yac.Residual Matrix

/-- What is assumed of `Eigen::SplineFitting<Spline3D>::Interpolate(.., 4, ..)` for at least five
points at increasing knots: the spline passes through the points, and between the first and the
last knot it is twice differentiable, with the derivatives it reports. -/
structure Interpolates (interp : List (Vec3 ℝ) → List ℝ → Spline) : Prop where
  through : ∀ data knots, 5 ≤ data.length → knots.length = data.length → knots.Pairwise (· < ·) →
    ∀ (i : Nat) (h : i < knots.length) (h' : i < data.length), (interp data knots).f knots[i] = data[i]
  smooth : ∀ data knots a b, 5 ≤ data.length → knots.length = data.length →
    knots.Pairwise (· < ·) → knots.head? = some a → knots.getLast? = some b →
    ∀ u, a < u → u < b → VDeriv (interp data knots).f ((interp data knots).d1 u) u ∧
      VDeriv (interp data knots).d1 ((interp data knots).d2 u) u

/-- The rotation about `v` by the angle `|v|`. -/
noncomputable def expRot (v : Vec3 ℝ) : Mat3 ℝ :=
  if v = 0 then 1 else (aaQuat (norm3 v) (normalized v)).toRot

/-- The timestamp is within `1e-4` of the duration of either end, where the pose is that of the
end. -/
def NearEnd (ts0 ts1 ts : ℤ) : Prop :=
  |(ts : ℝ) - ts0| ≤ ((ts1 : ℝ) - ts0) / 10000 ∨ |(ts : ℝ) - ts1| ≤ ((ts1 : ℝ) - ts0) / 10000

/-- The `i`-th of the `n` times at which poses are given. -/
noncomputable def knotTime (ts0 ts1 : ℤ) (n i : Nat) : ℤ := (linspaceTs ts0 ts1 n).getD i 0

end Yac.Ctraj
