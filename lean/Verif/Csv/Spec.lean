import Verif.Csv.Model

/-! # C130: what a CSV file says (specification) -/

namespace Yac.Csv
open Yac.Text Yac.Fmt Yac.Geom Matrix

/-- The parts of a text between the separators `d`. -/
def split (d : Char) : List Char → List (List Char)
  | [] => [[]]
  | c :: cs => if c = d then [] :: split d cs else
      match split d cs with
      | [] => [[c]]
      | h :: t => (c :: h) :: t

/-- The cells of every line of a file. -/
def sheet (file : List Char) : List (List (List Char)) := ((split '\n' file).dropLast).map (split ',')

/-- The file ends at the end of a line. -/
def Finished (file : List Char) : Prop := (split '\n' file).getLast? = some []

/-- A cell read as an integer. -/
def readInt (c : List Char) : Option ℤ :=
  match parseInt c with
  | some (neg, n, []) => some (if neg then -(n : ℤ) else n)
  | _ => none

/-- The cell says `n`. -/
def IntCell (n : ℤ) (c : List Char) : Prop := readInt c = some n

/-- The cell says `x` to six digits. -/
def SixCell (x : ℚ) (c : List Char) : Prop := ∃ y, asDouble c = some y ∧ |y - x| ≤ 5.0001 / 10 ^ 6 * |x|

/-- The cell says `x` to six decimals. -/
def FixCell (x : ℚ) (c : List Char) : Prop := ∃ y, asDouble c = some y ∧ |y - x| ≤ 5.0001 / 10 ^ 7 + |x| / 2 ^ 53

/-- A row consists of cells with these meanings. -/
abbrev RowIs (meanings : List (List Char → Prop)) (row : List (List Char)) : Prop := List.Forall₂ (fun m c => m c) meanings row

/-- The file has just these rows. -/
def FileIs (file : List Char) (rows : List (List (List Char → Prop))) : Prop := Finished file ∧ List.Forall₂ RowIs rows (sheet file)

/-- Cells of three numbers. -/
def six3 (v : Vec3 ℚ) : List (List Char → Prop) := [SixCell (v 0), SixCell (v 1), SixCell (v 2)]
def fix3 (v : Vec3 ℚ) : List (List Char → Prop) := [FixCell (v 0), FixCell (v 1), FixCell (v 2)]

/-- A text that is not a number, such as the name of a column. -/
def Named (name : String) (c : List Char) : Prop := c = name.toList

end Yac.Csv
