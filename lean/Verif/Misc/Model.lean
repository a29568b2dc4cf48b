import Verif.Geom.Linear
import Verif.Geom.Rot
import Verif.Num.Model
import Mathlib.LinearAlgebra.Matrix.NonsingularInverse

/-!
# Model of the plane geometry, geodetic and checking helpers

yac/lib/util/core.cpp:386-412, 556-776 and yac/lib/util/data.cpp:677-731, in exact real
arithmetic.
-/

namespace Yac.Misc
open Matrix Yac.Geom

/-! ## Comparing matrices -/

/-- `check_jacobian`, data.cpp:677-731: the return value (`false` converts to 0; printing is
left out). -/
def checkJacobian {K : Type} [Field K] [LinearOrder K] (fdiff jac : DMat K) (threshold : K) : Int :=
  if jac.rows * jac.cols = 0 then 0
  else if fdiff.rows * fdiff.cols = 0 then 0
  else if fdiff.rows ≠ jac.rows then 0
  else if fdiff.cols ≠ jac.cols then 0
  else
    let failed := (List.range fdiff.rows).foldl (fun f i =>
      (List.range fdiff.cols).foldl (fun f j =>
        if |fdiff.e i j - jac.e i j| ≥ threshold then true else f) f) false
    if failed then -1 else 0

/-- `equals`, core.cpp:389-409. -/
def equals {K : Type} [Field K] [LinearOrder K] (A B : DMat K) : Bool :=
  if A.rows ≠ B.rows then false
  else if A.cols ≠ B.cols then false
  else (List.range A.rows).all (fun i => (List.range A.cols).all (fun j =>
    decide (Num.fltcmp (A.e i j) (B.e i j) = 0)))

/-! ## Lines and circles -/

/-- `vec2_t`. -/
abbrev P2 := Fin 2 → ℝ

/-- `cross_track_error`, core.cpp:602-619 (`none`: division by zero). -/
noncomputable def crossTrackError (p1 p2 pos : P2) : Option ℝ :=
  let x0 := pos 0
  let y0 := pos 1
  let x1 := p1 0
  let y1 := p1 0
  let x2 := p2 0
  let y2 := p2 0
  let n := (y2 - y1) * x0 - (x2 - x1) * y0 + x2 * y1 - y2 * x1
  let d := Real.sqrt ((y2 - y1) ^ 2 + (x2 - x1) ^ 2)
  if d = 0 then none else some (|n| / d)

/-- `point_left_right`, core.cpp:621-639. -/
noncomputable def pointLeftRight (a b c : P2) : Int :=
  let x := (b 0 - a 0) * (c 1 - a 1) - (b 1 - a 1) * (c 0 - a 0)
  if x > 0 then 1 else if x < 0 then 2 else if x = 0 then 0 else -1

/-- `closest_point`, core.cpp:641-658: the return value and the point written. -/
noncomputable def closestPoint (a b p : P2) : ℝ × P2 :=
  if Real.sqrt ((a 0 - b 0) ^ 2 + (a 1 - b 1) ^ 2) = 0 then (-1, a)
  else
    let v1 := p - a
    let v2 := b - a
    let t := (v1 0 * v2 0 + v1 1 * v2 1) / (v2 0 * v2 0 + v2 1 * v2 1)
    (t, a + t • v2)

/-- Row of the system built in `fit_circle`, core.cpp:686-692: the coefficients and the right
hand side. -/
def circleRow (p : P2) : (Fin 3 → ℝ) × ℝ :=
  (![-2 * p 0, -2 * p 1, 1], -(p 0 * p 0 + p 1 * p 1))

/-- `fit_circle`, core.cpp:660-702: centre and radius.  `solve` is `JacobiSVD::solve`. -/
noncomputable def fitCircle (solve : List ((Fin 3 → ℝ) × ℝ) → Fin 3 → ℝ) (points : List P2) :
    ℝ × ℝ × ℝ :=
  let x := solve (points.map circleRow)
  (x 0, x 1, Real.sqrt (x 0 * x 0 + x 1 * x 1 - x 2))

/-- `intersect_circles`, core.cpp:704-737.  `none` where the code divides by zero. -/
noncomputable def intersectCircles (cx0 cy0 r0 cx1 cy1 r1 : ℝ) : Option (List P2) :=
  let d := Real.sqrt ((cx0 - cx1) ^ 2 + (cy0 - cy1) ^ 2)
  if d > r0 + r1 then some []
  else if d < |r0 - r1| then some []
  else if d = 0 then none
  else
    let a := (r0 ^ 2 - r1 ^ 2 + d ^ 2) / (2 * d)
    let h := Real.sqrt (r0 ^ 2 - a ^ 2)
    let x3 := cx0 + a * (cx1 - cx0) / d
    let y3 := cy0 + a * (cy1 - cy0) / d
    if h < 1 / 10 ^ 10 then some [![x3, y3]]
    else some [![x3 + h * (cy1 - cy0) / d, y3 - h * (cx1 - cx0) / d],
               ![x3 - h * (cy1 - cy0) / d, y3 + h * (cx1 - cx0) / d]]

/-- `circle`, core.cpp:560-562. -/
noncomputable def circle (r theta : ℝ) : P2 := ![r * Real.cos theta, r * Real.sin theta]

/-- `sphere`, core.cpp:564-569. -/
noncomputable def sphere (rho theta phi : ℝ) : Vec3 ℝ :=
  ![rho * Real.sin theta * Real.cos phi, rho * Real.sin theta * Real.sin phi, rho * Real.cos theta]

/-! ## Looking at a point -/

/-- `lookat`, core.cpp:571-600; Eigen's 4x4 `inverse()` is the matrix inverse, `none` when the
matrix is singular (Eigen then divides by the zero determinant). -/
noncomputable def lookat (camPos target up : Vec3 ℝ) : Option (Mat4 ℝ) :=
  let dir := normalized (target - camPos)
  let right := normalized (cross3 up dir)
  let cup := cross3 dir right
  let A : Mat4 ℝ := !![right 0, right 1, right 2, 0; cup 0, cup 1, cup 2, 0;
    dir 0, dir 1, dir 2, 0; 0, 0, 0, 1]
  let B : Mat4 ℝ := !![1, 0, 0, -camPos 0; 0, 1, 0, -camPos 1; 0, 0, 1, -camPos 2; 0, 0, 0, 1]
  if (A * B).det = 0 then none else some (A * B)⁻¹

/-! ## Geodetic offsets -/

/-- `EARTH_RADIUS_M`, core.hpp:849. -/
def earthRadius : ℝ := 6378137

/-- `latlon_offset`, core.cpp:739-747. -/
noncomputable def latlonOffset (latRef lonRef offN offE : ℝ) : ℝ × ℝ :=
  (latRef + offE / earthRadius,
   lonRef + (offN / earthRadius) / Real.cos (Num.deg2rad latRef))

/-- `latlon_diff`, core.cpp:749-760: distances north and east. -/
noncomputable def latlonDiff (latRef lonRef lat lon : ℝ) : ℝ × ℝ :=
  let dLon := lon - lonRef
  let dLat := lat - latRef
  (Num.deg2rad dLat * earthRadius, Num.deg2rad dLon * earthRadius * Real.cos (Num.deg2rad lat))

/-- `latlon_dist`, core.cpp:762-770. -/
noncomputable def latlonDist (latRef lonRef lat lon : ℝ) : ℝ :=
  let d := latlonDiff latRef lonRef lat lon
  Real.sqrt (d.1 ^ 2 + d.2 ^ 2)

end Yac.Misc
