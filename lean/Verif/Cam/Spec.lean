import Mathlib.Analysis.SpecialFunctions.Trigonometric.Arctan

/-!
# Specification of the camera geometry, from the textbook formulas

Written without reference to `Verif.Cam.Model`.
-/

namespace Yac.Cam.Spec

/-- Brown-Conrady distortion of a normalised image point, first coordinate. -/
def radtanX (k1 k2 p1 p2 x y : ℝ) : ℝ :=
  x * (1 + k1 * (x ^ 2 + y ^ 2) + k2 * (x ^ 2 + y ^ 2) ^ 2) + 2 * p1 * x * y +
    p2 * (3 * x ^ 2 + y ^ 2)

/-- Second coordinate: the roles of the axes and of `p1`, `p2` are exchanged. -/
def radtanY (k1 k2 p1 p2 x y : ℝ) : ℝ := radtanX k1 k2 p2 p1 y x

/-- Kannala-Brandt: the image radius of a ray at angle `θ` from the optical axis. -/
def kannala (k1 k2 k3 k4 θ : ℝ) : ℝ :=
  θ + k1 * θ ^ 3 + k2 * θ ^ 5 + k3 * θ ^ 7 + k4 * θ ^ 9

/-- Factor by which the equidistant model scales a normalised point at distance `r` of the
optical axis. -/
noncomputable def equiScale (k1 k2 k3 k4 r : ℝ) : ℝ := kannala k1 k2 k3 k4 (Real.arctan r) / r

/-- A pixel position lies in the half-open image rectangle. -/
def Inside (w h : ℤ) (u v : ℝ) : Prop := 0 ≤ u ∧ u < w ∧ 0 ≤ v ∧ v < h

/-- A pixel position lies in the closed image rectangle. -/
def InsideClosed (w h : ℤ) (u v : ℝ) : Prop := 0 ≤ u ∧ u ≤ w ∧ 0 ≤ v ∧ v ≤ h

end Yac.Cam.Spec
