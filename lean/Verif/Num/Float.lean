import Mathlib.Data.Rat.Floor
import Mathlib.Algebra.Order.Field.Rat
import Mathlib.Algebra.Order.Floor.Ring

/-!
# IEEE-754 rounding, as far as it is needed

Round to nearest, ties to even, with `p` bits of precision and an unbounded exponent range
(overflow and subnormals are not modelled).  Used only where the text of a property depends
on rounding; elsewhere numbers are exact.
-/

namespace Yac.Num

/-- Round a rational to the nearest integer, ties to even. -/
def rneInt (x : ℚ) : ℤ :=
  let f := x.floor
  let d := x - f
  if d < 1 / 2 then f
  else if 1 / 2 < d then f + 1
  else if f % 2 = 0 then f else f + 1

/-- `2 ^ e` for an integer `e`. -/
def pow2 (e : ℤ) : ℚ := if 0 ≤ e then ((2 ^ e.toNat : Nat) : ℚ) else 1 / ((2 ^ (-e).toNat : Nat) : ℚ)

/-- The exponent of the last of `p` significant bits of `x`, up to an error of one. -/
def expo (p : Nat) (x : ℚ) : ℤ :=
  let e : ℤ := (Nat.log2 x.num.natAbs : ℤ) - (Nat.log2 x.den : ℤ)
  -- 2 ^ (e-1) < |x| < 2 ^ (e+1)
  if |x| < pow2 e then e - 1 - ((p : ℤ) - 1) else e - ((p : ℤ) - 1)

/-- Rounding to `p` significant bits. -/
def rne (p : Nat) (x : ℚ) : ℚ :=
  if x = 0 then 0 else (rneInt (x / pow2 (expo p x)) : ℚ) * pow2 (expo p x)

/-- Conversion to `double`. -/
def f64 (x : ℚ) : ℚ := rne 53 x
/-- Conversion to `float`. -/
def f32 (x : ℚ) : ℚ := rne 24 x

/-- Conversion of a floating-point value to an integer type (truncation). -/
def truncQ (x : ℚ) : ℤ := if 0 ≤ x then x.floor else - (-x).floor

end Yac.Num
