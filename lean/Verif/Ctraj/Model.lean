import Verif.Geom.Rot
import Verif.Num.Model
import Mathlib.Algebra.Order.Floor.Ring
import Mathlib.Analysis.SpecialFunctions.Trigonometric.Basic

/-! Continuous-time trajectories: yac/lib/util/core.cpp:1900-2069, core.hpp:1432-1470.

Numbers are exact reals, timestamps unbounded integers.  The spline through the given data
(`Eigen::SplineFitting<Spline3D>::Interpolate`) is an argument of the model. -/

namespace Yac.Ctraj
open Yac.Geom Matrix

/-- A spline and its first two derivatives (`spline(u)`, `spline.derivatives(u, k).col(k)`). -/
structure Spline where
  f : ℝ → Vec3 ℝ
  d1 : ℝ → Vec3 ℝ
  d2 : ℝ → Vec3 ℝ

/-- `ctraj_t`, core.hpp:1448-1466. -/
structure Traj where
  ts0 : ℤ
  ts1 : ℤ
  positions : List (Vec3 ℝ)
  orientations : List (Quat ℝ)
  pos : Spline
  rvec : Spline

/-- `ts2sec`, core.cpp:1532. -/
noncomputable def sec (ts : ℤ) : ℝ := (ts : ℝ) * (1 / 1000000000)

/-- `ts_normalize`, core.cpp:1911-1916.  For a trajectory of no duration the quotient is not a
number: `divZero`. -/
noncomputable def tsNormalize (ts0 ts1 ts : ℤ) : Except Fault ℝ :=
  if sec ts1 - sec ts0 = 0 then .error .divZero
  else .ok ((sec ts - sec ts0) / (sec ts1 - sec ts0))

/-- Conversion of a floating point number to an integer: towards zero. -/
noncomputable def truncZ (x : ℝ) : ℤ := if 0 ≤ x then ⌊x⌋ else ⌈x⌉

/-- `linspace<timestamp_t>`, core.hpp:279-298 (used in core.cpp:1924): the points between are
computed as floating point numbers and truncated. -/
noncomputable def linspaceTs (ts0 ts1 : ℤ) (n : Nat) : List ℤ :=
  if n = 0 then []
  else if n = 1 then [ts0]
  else
    let delta := (((ts1 - ts0 : ℤ) : ℝ)) / ((n : ℝ) - 1)
    ((List.range (n - 1)).map fun (i : Nat) => truncZ (ts0 + delta * i)) ++ [ts1]

/-- `Eigen::AngleAxis(q)` and `aa.angle() * aa.axis()`, core.cpp:1938-1944.  (Eigen's
`AngleAxis::operator=`: `n = vec.norm()`; if it is not zero the angle is `2 atan2(n, |w|)`, the
axis `vec / n` with the sign of `w`, otherwise angle zero.) -/
noncomputable def toRvec (q : Quat ℝ) : Vec3 ℝ :=
  let v : Vec3 ℝ := ![q.x, q.y, q.z]
  let n := norm3 v
  if n ≠ 0 then
    let angle := 2 * atan2 n |q.w|
    let n' := if q.w < 0 then -n else n
    fun i => angle * (v i / n')
  else 0

/-- core.cpp:1947-1951: the loop that shortens the step between two rotation vectors; at most
`fuel` iterations. -/
noncomputable def unwrap : Nat → Vec3 ℝ → Except Fault (Vec3 ℝ)
  | 0, d => if dot3 d d > Real.pi * Real.pi then .error .diverge else .ok d
  | fuel + 1, d =>
    if dot3 d d > Real.pi * Real.pi then unwrap fuel (d - (2 * Real.pi) • normalized d)
    else .ok d

/-- core.cpp:1941-1955: the remaining columns of `rvec`, given the previous one. -/
noncomputable def rvecLoop (fuel : Nat) : Vec3 ℝ → List (Quat ℝ) → Except Fault (List (Vec3 ℝ))
  | _, [] => .ok []
  | prev, q :: qs =>
    match unwrap fuel (toRvec q - prev) with
    | .error e => .error e
    | .ok d =>
      match rvecLoop fuel (prev + d) qs with
      | .error e => .error e
      | .ok l => .ok ((prev + d) :: l)

/-- core.cpp:1936-1955: all columns of `rvec`; without orientations element zero is out of
bounds. -/
noncomputable def rvecs (fuel : Nat) : List (Quat ℝ) → Except Fault (List (Vec3 ℝ))
  | [] => .error .oob
  | q :: qs =>
    match rvecLoop fuel (toRvec q) qs with
    | .error e => .error e
    | .ok l => .ok (toRvec q :: l)

/-- core.cpp:1925-1928: the normalised knots. -/
noncomputable def normAll (ts0 ts1 : ℤ) : List ℤ → Except Fault (List ℝ)
  | [] => .ok []
  | t :: ts =>
    match tsNormalize ts0 ts1 t with
    | .error e => .error e
    | .ok u => match normAll ts0 ts1 ts with
      | .error e => .error e
      | .ok us => .ok (u :: us)

/-- The constructor and `ctraj_init`, core.cpp:1900-1962; `interp data knots` is the spline of
degree four through the data (core.cpp:1958-1961). -/
noncomputable def init (interp : List (Vec3 ℝ) → List ℝ → Spline) (fuel : Nat) (ts0 ts1 : ℤ)
    (positions : List (Vec3 ℝ)) (orientations : List (Quat ℝ)) : Except Fault Traj :=
  if positions.length ≠ orientations.length then .error .fatal
  else
    match normAll ts0 ts1 (linspaceTs ts0 ts1 positions.length) with
    | .error e => .error e
    | .ok knots =>
      match rvecs fuel orientations with
      | .error e => .error e
      | .ok rv =>
        .ok { ts0 := ts0, ts1 := ts1, positions := positions, orientations := orientations,
              pos := interp positions knots, rvec := interp rv knots }

/-- `quat_t{angle_axis_t{angle, axis}}`, core.cpp:1985-1986. -/
noncomputable def aaQuat (angle : ℝ) (axis : Vec3 ℝ) : Quat ℝ :=
  ⟨Real.cos (angle / 2), Real.sin (angle / 2) * axis 0, Real.sin (angle / 2) * axis 1,
    Real.sin (angle / 2) * axis 2⟩

/-- `ctraj_get_pose`, core.cpp:1964-1989. -/
noncomputable def getPose (T : Traj) (ts : ℤ) : Except Fault (Mat4 ℝ) :=
  match tsNormalize T.ts0 T.ts1 ts with
  | .error e => .error e
  | .ok u =>
    if Num.fltcmp u 0 = 0 then
      match T.orientations.head?, T.positions.head? with
      | some q, some r => .ok (tfQuat q r)
      | _, _ => .error .oob
    else if Num.fltcmp u 1 = 0 then
      match T.orientations.getLast?, T.positions.getLast? with
      | some q, some r => .ok (tfQuat q r)
      | _, _ => .error .oob
    else
      let r := T.pos.f u
      let rv := T.rvec.f u
      if norm3 rv < 1 / 1000000000000 then .ok (tf 1 r)
      else .ok (tfQuat (aaQuat (norm3 rv) (normalized rv)) r)

/-- `ts_s_gap`, core.cpp:1906. -/
noncomputable def gap (T : Traj) : ℝ := sec T.ts1 - sec T.ts0

/-- `ctraj_get_velocity`, core.cpp:1991-1999. -/
noncomputable def getVelocity (T : Traj) (ts : ℤ) : Except Fault (Vec3 ℝ) :=
  if ts < T.ts0 then .error .fatal
  else if T.ts1 < ts then .error .fatal
  else match tsNormalize T.ts0 T.ts1 ts with
    | .error e => .error e
    | .ok u => .ok ((1 / gap T) • T.pos.d1 u)

/-- `ctraj_get_acceleration`, core.cpp:2001-2009. -/
noncomputable def getAcceleration (T : Traj) (ts : ℤ) : Except Fault (Vec3 ℝ) :=
  if ts < T.ts0 then .error .fatal
  else if T.ts1 < ts then .error .fatal
  else match tsNormalize T.ts0 T.ts1 ts with
    | .error e => .error e
    | .ok u => .ok (((1 / gap T) ^ 2) • T.pos.d2 u)

/-- core.cpp:2028-2033: the angular velocity of a moving rotation vector. -/
noncomputable def angVel (rv rvd : Vec3 ℝ) : Vec3 ℝ :=
  let n := norm3 rv
  let S := skew (normalized rv)
  ((1 : Mat3 ℝ) + ((1 - Real.cos n) / n) • S + ((n - Real.sin n) / n) • (S * S)) *ᵥ rvd

/-- `ctraj_get_angular_velocity`, core.cpp:2011-2036. -/
noncomputable def getAngularVelocity (T : Traj) (ts : ℤ) : Except Fault (Vec3 ℝ) :=
  if ts < T.ts0 then .error .fatal
  else if T.ts1 < ts then .error .fatal
  else match tsNormalize T.ts0 T.ts1 ts with
    | .error e => .error e
    | .ok u =>
      let rv := T.rvec.f u
      let rvd := (1 / gap T) • T.rvec.d1 u
      if norm3 rv < 1 / 1000000000000 then .ok rvd else .ok (angVel rv rvd)

/-- One line of the file written by `ctraj_save`, core.cpp:2053-2065. -/
structure Row where
  ts : ℤ
  r : Vec3 ℝ
  q : Quat ℝ
  v : Vec3 ℝ

/-- core.cpp:2052-2066: the loop over the knots; index `i` counts from the front. -/
noncomputable def saveLoop (T : Traj) : List ℤ → Nat → Except Fault (List Row)
  | [], _ => .ok []
  | t :: ts, i =>
    match getVelocity T t with
    | .error e => .error e
    | .ok v => match T.positions[i]?, T.orientations[i]? with
      | some r, some q => match saveLoop T ts (i + 1) with
        | .error e => .error e
        | .ok l => .ok (⟨t, r, q, v⟩ :: l)
      | _, _ => .error .oob

/-- `ctraj_save`, core.cpp:2038-2070, the rows (numbers are not formatted here). -/
noncomputable def save (T : Traj) : Except Fault (List Row) :=
  saveLoop T (linspaceTs T.ts0 T.ts1 T.positions.length) 0

end Yac.Ctraj
