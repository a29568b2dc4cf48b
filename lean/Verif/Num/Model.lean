import Verif.Basic
import Verif.Num.Float
import Mathlib.Data.Real.Sqrt
import Mathlib.Analysis.SpecialFunctions.Trigonometric.Basic
import Mathlib.Data.List.Sort
import Mathlib.Algebra.Order.Field.Basic
import Mathlib.Algebra.Order.Floor.Ring

/-!
# Model of the small numeric utilities

yac/lib/util/core.{hpp,cpp} and yac/lib/util/data.cpp.  Numbers are exact (a linearly ordered
field, or the reals where a square root is taken) unless a rounding function is named.
-/

namespace Yac.Num

/-! ## Byte decoding, data.cpp:9-33

`data[k] << n` is computed in a 32-bit `int`; values that do not fit are taken modulo
`2 ^ 32` (what every compiler does, and what C++20 demands). -/

/-- `data[k]`, reading outside the buffer is undefined. -/
def byteAt (data : List (BitVec 8)) (k : Nat) : Except Fault (BitVec 8) :=
  match data[k]? with
  | some b => .ok b
  | none => .error .oob

/-- Integral promotion of an unsigned byte to `int`. -/
def promote (b : BitVec 8) : BitVec 32 := b.setWidth 32

/-- `int8`, data.cpp:9-11 (the bit pattern of the result). -/
def int8 (data : List (BitVec 8)) (off : Nat) : Except Fault (BitVec 8) := byteAt data off
/-- `uint8`, data.cpp:13-15. -/
def uint8 (data : List (BitVec 8)) (off : Nat) : Except Fault (BitVec 8) := byteAt data off

/-- `int16`, data.cpp:17-19. -/
def int16 (data : List (BitVec 8)) (off : Nat) : Except Fault (BitVec 16) := do
  let b1 ← byteAt data (off + 1)
  let b0 ← byteAt data off
  pure (((promote b1 <<< 8) ||| promote b0).setWidth 16)

/-- `uint16`, data.cpp:21-23. -/
def uint16 (data : List (BitVec 8)) (off : Nat) : Except Fault (BitVec 16) := do
  let b1 ← byteAt data (off + 1)
  let b0 ← byteAt data off
  pure (((promote b1 <<< 8) ||| promote b0).setWidth 16)

/-- `sint32`, data.cpp:25-28. -/
def sint32 (data : List (BitVec 8)) (off : Nat) : Except Fault (BitVec 32) := do
  let b3 ← byteAt data (off + 3)
  let b2 ← byteAt data (off + 2)
  let b1 ← byteAt data (off + 1)
  let b0 ← byteAt data off
  pure ((((promote b3 <<< 24) ||| (promote b2 <<< 16)) ||| (promote b1 <<< 8)) ||| promote b0)

/-- `uint32`, data.cpp:30-33. -/
def uint32 (data : List (BitVec 8)) (off : Nat) : Except Fault (BitVec 32) := do
  let b3 ← byteAt data (off + 3)
  let b2 ← byteAt data (off + 2)
  let b1 ← byteAt data (off + 1)
  let b0 ← byteAt data off
  pure ((((promote b3 <<< 24) ||| (promote b2 <<< 16)) ||| (promote b1 <<< 8)) ||| promote b0)

/-! ## Timestamps, core.cpp:1530-1541 -/

/-- `tsdecomp`, core.cpp:1534-1537.  `fl` is whatever rounding the conversions and products
do: it is applied to the conversion of `ts`, to the constant, and to each product. -/
def tsdecomp (fl : ℚ → ℚ) (ts : ℤ) : ℤ × ℤ :=
  let sec := truncQ (fl (fl ts * fl (1 / 1000000000)))
  let nsec := ts - truncQ (fl (fl sec * fl 1000000000))
  (sec, nsec)

/-- `tsform`, core.cpp:1539-1541. -/
def tsform (fl : ℚ → ℚ) (sec nsec : ℤ) : ℤ := truncQ (fl (fl sec * fl 1000000000)) + nsec

/-- `sec2ts`, core.cpp:1530. -/
def sec2ts (fl : ℚ → ℚ) (sec : ℚ) : ℤ := truncQ (fl (sec * fl 1000000000))

/-- `ts2sec` and `ns2sec`, core.cpp:1532, 1543. -/
def ts2sec (fl : ℚ → ℚ) (ts : ℤ) : ℚ := fl (fl ts * fl (1 / 1000000000))

/-! ## `binomial`, core.cpp:28-34

The arguments are `double`s; the recursion has no other base case than `k = 0` and `k = n`,
so a bound on the recursion depth is passed and `none` means that it was reached. -/

/-- `binomial`, core.cpp:28-34. -/
def binomial {K : Type} [Ring K] [DecidableEq K] : Nat → K → K → Option K
  | 0, _, _ => none
  | depth + 1, n, k =>
    if k = 0 ∨ k = n then some 1
    else
      match binomial depth (n - 1) (k - 1), binomial depth (n - 1) k with
      | some a, some b => some (a + b)
      | _, _ => none

/-- `randi`, core.cpp:819: `rand() % lb + ub`, `r` is the result of `rand()`. -/
def randi (r : Nat) (ub lb : ℤ) : Except Fault ℤ :=
  if lb = 0 then .error .divZero else .ok ((r : ℤ).tmod lb + ub)

section field
variable {K : Type} [Field K] [LinearOrder K]

/-- `linspace`, core.hpp:279-298. -/
def linspace (start stop : K) (num : ℤ) : List K :=
  if num = 0 then []
  else if num = 1 then [start]
  else
    let delta := (stop - start) / ((num - 1 : ℤ) : K)
    (List.range (num - 1).toNat).map (fun (i : Nat) => start + delta * (i : K)) ++ [stop]

/-- `fltcmp`, core.cpp:18-26. -/
def fltcmp (a b : K) : ℤ :=
  if |a - b| ≤ 1 / 10000 then 0 else if a > b then 1 else -1

/-- `sign`, core.cpp:9-16. -/
def sign (x : K) : ℤ := if fltcmp x 0 = 0 then 0 else if x < 0 then -1 else 1

/-- `randf`, core.cpp:821-824; `r` is the result of `rand()` and `randMax` is `RAND_MAX`. -/
def randf (randMax r : Nat) (ub lb : K) : K :=
  let f := (r : K) / (randMax : K)
  lb + f * (ub - lb)

/-! ## Statistics, core.cpp:826-958 -/

/-- `sum`, core.cpp:826-834. -/
def sum (x : List K) : K := x.foldl (fun s a => s + a) 0

/-- `median`, core.cpp:836-852; `std::sort` returns the sorted permutation. -/
def median (v : List K) : Except Fault K :=
  let s := v.insertionSort (· ≤ ·)
  if s.length % 2 = 1 then
    match s[s.length / 2]? with
    | some a => .ok a
    | none => .error .oob
  else if s.length = 0 then .error .oob   -- index 0 and index size_t(-1)
  else
    match s[s.length / 2]?, s[s.length / 2 - 1]? with
    | some a, some b => .ok ((a + b) / 2)
    | _, _ => .error .oob

/-- `max`, core.cpp:854-862. -/
def max (x : List K) : Except Fault K :=
  match x with
  | [] => .error .oob
  | a :: l => .ok ((a :: l).foldl (fun m b => if b > m then b else m) a)

/-- `mean`, core.cpp:864-872; `none` is NaN (`0.0 / 0`). -/
def mean (x : List K) : Option K :=
  if x.length = 0 then none else some (sum x / (x.length : K))

/-- `var`, core.cpp:896-906; `none` is NaN. -/
def var (x : List K) : Option K :=
  match mean x with
  | none => none
  | some mu =>
    if x.length = 1 then none
    else some (x.foldl (fun s a => s + (a - mu) ^ 2) 0 / ((x.length : K) - 1))

end field

/-- `mean(vec2s_t)` and `mean(vec3s_t)`, core.cpp:874-894, one coordinate.  `1.0f / x.size()`
is a `float`: `recip n` is its value. -/
def meanVec {K : Type} [Field K] (recip : Nat → K) (x : List K) : K :=
  x.foldl (fun s a => s + a) 0 * recip x.length

/-- `stddev`, core.cpp:935. -/
noncomputable def stddev (x : List ℝ) : Option ℝ := (var x).map Real.sqrt

/-- `rmse`, core.cpp:947-956. -/
noncomputable def rmse (x : List ℝ) : Option ℝ :=
  if x.length = 0 then none
  else some (Real.sqrt (x.foldl (fun s a => s + a * a) 0 / (x.length : ℝ)))

/-! ## Angles, core.cpp:536-558 -/

section wrap
variable {K : Type} [Field K] [LinearOrder K] [FloorRing K]

/-- The C library function `fmod(x, y)` for `y > 0`: the remainder with the sign of `x`. -/
def fmod (x y : K) : K :=
  if 0 ≤ x then x - y * ⌊x / y⌋ else x - y * ⌈x / y⌉

/-- `wrap180`, core.cpp:544-546. -/
def wrap180 (a : K) : K := fmod (a + 180) 360 - 180

/-- `wrap360`, core.cpp:548-554. -/
def wrap360 (a : K) : K := if a > 0 then fmod a 360 else fmod (a + 360) 360

end wrap

/-- `deg2rad`, core.cpp:536. -/
noncomputable def deg2rad (d : ℝ) : ℝ := d * (Real.pi / 180)
/-- `rad2deg`, core.cpp:540. -/
noncomputable def rad2deg (r : ℝ) : ℝ := r * (180 / Real.pi)
/-- `wrapPi`, core.cpp:556. -/
noncomputable def wrapPi (r : ℝ) : ℝ := deg2rad (wrap180 (rad2deg r))
/-- `wrap2Pi`, core.cpp:558. -/
noncomputable def wrap2Pi (r : ℝ) : ℝ := deg2rad (wrap360 (rad2deg r))

end Yac.Num
