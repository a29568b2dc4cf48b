import Verif.Text.Lemmas

/-!
# Model of the console output of yac/lib/util/core.cpp and data.cpp

`print_vector`, `print_matrix`, `print_array`, `timestamp_print`, `array2str` (core.cpp), `print_progress`, `all_true`
(data.cpp).  Numbers are exact; `%f` is `Text.fmtF`.
-/

namespace Yac.Print
open Yac.Text

/-- The numbers of a row, each followed by ", " but the last, core.cpp:60-65 and 86-91. -/
def rowText : List ℚ → List Char
  | [] => []
  | [x] => fmtF x
  | x :: y :: l => fmtF x ++ (',' :: ' ' :: rowText (y :: l))

/-- `print_vector`, core.cpp:58-67 (and 69-77). -/
def vectorText (name : List Char) (v : List ℚ) : List Char := name ++ (':' :: ' ' :: (rowText v ++ ['\n']))

/-- `print_matrix`, core.cpp:79-94; the matrix is the list of its rows. -/
def matrixText (name indent : List Char) (m : List (List ℚ)) : List Char :=
  name ++ (':' :: '\n' :: (m.flatMap (fun r => indent ++ (rowText r ++ ['\n'])) ++ ['\n']))

/-- `timestamp_print`, core.cpp:1519-1528. -/
def timestampText (ts : Nat) (pre : List Char) : List Char :=
  if pre ≠ [] then pre ++ (':' :: ' ' :: (natText ts ++ ['\n'])) else natText ts ++ ['\n']

/-- `array2str`, core.cpp:101-109: `g` is how `operator<<` writes a number.  `size - 1` is unsigned: an empty array is read far
beyond its end. -/
def array2str (g : ℚ → List Char) (a : List ℚ) : Except Fault (List Char) :=
  match a.getLast? with
  | none => .error .oob
  | some z => .ok (a.dropLast.flatMap (fun x => g x ++ [' ']) ++ g z)

/-- Conversion of a double to `int` (in range). -/
def toInt (x : ℚ) : ℤ := if x < 0 then -⌊-x⌋ else ⌊x⌋

/-- `printf("%*s", w, "")`: a negative width means left-adjusted. -/
def blanks (w : ℤ) : List Char := List.replicate w.natAbs ' '

/-- `printf("%.*s", p, s)`: a negative precision is taken as if it were omitted. -/
def prefixOf (p : ℤ) (s : List Char) : List Char := if p < 0 then s else s.take p.toNat

/-- `printf("%3d")`. -/
def fmt3d (n : ℤ) : List Char := List.replicate (3 - (fmtLd n).length) ' ' ++ fmtLd n

/-- `print_progress`, data.cpp:451-465. -/
def progressText (p : ℚ) : List Char :=
  let lpad := toInt (p * 60)
  let rpad := 60 - lpad
  '\r' :: (fmt3d (toInt (p * 100)) ++ "% [".toList ++ prefixOf lpad (List.replicate 60 '|') ++ blanks rpad ++ [']'] ++
    (if |p - 1| < 1 / 10 ^ 10 then ['\n'] else []))

/-- `all_true`, data.cpp:467-475. -/
def allTrue : List Bool → Bool
  | [] => true
  | b :: l => if b = false then false else allTrue l

end Yac.Print
