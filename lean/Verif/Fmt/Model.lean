import Verif.Text.Model
import Mathlib.Data.Int.Log
import Mathlib.Data.List.DropRight

/-!
# Model of how results are printed and read back

Numbers are printed with `operator<<` at a given precision (`vec2str` and `mat2str`, util/core.cpp:234-258 and 280-297;
17 digits if `max_digits`, six otherwise), with `%e` and with `%f` (`Text.fmtF`), and read by `YAML::Node::as<double>`.
Infinities, NaN, the sign of zero and the limits of the exponent are not modelled.
-/

namespace Yac.Fmt
open Yac.Num Yac.Text

/-- `P` significant decimal digits of `x`, as an integer, and the exponent of the first of them (C library). -/
def sig (P : ℕ) (x : ℚ) : ℕ × ℤ :=
  let e := Int.log 10 |x|
  let u := (rneInt (|x| * 10 ^ ((P : ℤ) - 1 - e))).natAbs
  if u = 10 ^ P then (10 ^ (P - 1), e + 1) else (u, e)

/-- The exponent of a number: a sign and at least two digits (C library). -/
def expText (e : ℤ) : List Char :=
  (if e < 0 then '-' else '+') :: (if e.natAbs < 10 then ['0'] else []) ++ natText e.natAbs

/-- The sign of a number. -/
def minus (x : ℚ) : List Char := if x < 0 then ['-'] else []

/-- `printf("%.Pe")`; `%e` is `P = 6` (C library). -/
def fmtE (P : ℕ) (x : ℚ) : List Char :=
  let s := sig (P + 1) x
  minus x ++ natText (s.1 / 10 ^ P) ++ '.' :: fixedDigits P (s.1 % 10 ^ P) ++ 'e' :: expText s.2

/-- Decimals without the zeros at the end, and without the point if nothing is left. -/
def fraction (ds : List Char) : List Char :=
  let t := ds.rdropWhile (fun c => c = '0')
  if t = [] then [] else '.' :: t

/-- `operator<<(std::ostream &, double)` at precision `P`, that is `%.Pg` (C library). -/
def fmtG (P : ℕ) (x : ℚ) : List Char :=
  let s := sig P x
  if s.2 < -4 ∨ (P : ℤ) ≤ s.2 then
    minus x ++ natText (s.1 / 10 ^ (P - 1)) ++ fraction (fixedDigits (P - 1) (s.1 % 10 ^ (P - 1))) ++ 'e' :: expText s.2
  else
    let w := ((P : ℤ) - 1 - s.2).toNat
    minus x ++ natText (s.1 / 10 ^ w) ++ fraction (fixedDigits w (s.1 % 10 ^ w))

/-- The exponent of a number that is read, if there is one, and the rest. -/
def exponent : List Char → ℤ × List Char
  | c :: r =>
    if c = 'e' ∨ c = 'E' then
      let s := sign r
      let ds := s.2.takeWhile isDig
      if ds = [] then (0, c :: r) else (if s.1 then -(natOf ds : ℤ) else natOf ds, s.2.dropWhile isDig)
    else (0, c :: r)
  | [] => (0, [])

/-- The decimals of a number that is read, and the rest. -/
def decimals : List Char → List Char × List Char
  | '.' :: r => (r.takeWhile isDig, r.dropWhile isDig)
  | r => ([], r)

/-- `strtod` on decimal numbers with or without exponent: the nearest double, and the rest. -/
def strtod (l : List Char) : Option (ℚ × List Char) :=
  let s := sign l
  let ip := s.2.takeWhile isDig
  let fp := decimals (s.2.dropWhile isDig)
  if ip = [] ∧ fp.1 = [] then none
  else
    let ex := exponent fp.2
    some (f64 (signed s.1 (((natOf ip : ℚ) + (natOf fp.1 : ℚ) / 10 ^ fp.1.length) * 10 ^ ex.1)), ex.2)

/-- `YAML::Node::as<double>` for a scalar (not `.inf`, `.nan`): a number and nothing but white space after it. -/
def asDouble (l : List Char) : Option ℚ :=
  match strtod l with
  | some (x, r) => if r.all isSpace then some x else none
  | none => none

/-- The separator between the numbers of `vec2str`. -/
def commaJoin : List (List Char) → List Char
  | [] => []
  | [a] => a
  | a :: b :: t => a ++ ", ".toList ++ commaJoin (b :: t)

/-- The precision of `vec2str`: `max_digits10` or the default. -/
def precision (maxDigits : Bool) : ℕ := if maxDigits then 17 else 6

/-- `vec2str`, util/core.cpp:234-258. -/
def vec2str (v : List ℚ) (brackets maxDigits : Bool) : List Char :=
  (if brackets then ['['] else []) ++ commaJoin (v.map (fmtG (precision maxDigits))) ++ (if brackets then [']'] else [])

/-- `mat2str`, util/core.cpp:280-297. -/
def mat2str (indent : List Char) (maxDigits : Bool) : List (List ℚ) → List Char
  | [] => []
  | [r] => indent ++ vec2str r false maxDigits
  | r :: r' :: t => indent ++ vec2str r false maxDigits ++ ",\n".toList ++ mat2str indent maxDigits (r' :: t)

/-- `arr2str`, util/core.cpp:260-278. -/
def arr2str (v : List ℚ) (brackets : Bool) : List Char :=
  (if brackets then ['['] else []) ++ commaJoin (v.map fmtF) ++ (if brackets then [']'] else [])

end Yac.Fmt
