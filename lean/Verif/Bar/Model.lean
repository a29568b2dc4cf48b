import Verif.Text.Model

/-!
# Model of the progress bar (yac/lib/util/progressbar.hpp) and of the line of the terminal that it writes on

The symbols are the default ones, which nothing in the code changes.
-/

namespace Yac.Bar
open Yac.Text

/-- `progressbar`, progressbar.hpp:78-84. -/
structure Bar where
  progress : Int
  cycles : Int
  lastPerc : Int
  showBar : Bool
  called : Bool
  deriving DecidableEq

/-- The constructor, progressbar.hpp:97-100 (with 0: the default one, 92-95). -/
def Bar.new (n : Int) (showBar : Bool) : Bar := ⟨0, n, 0, showBar, false⟩

/-- `reset`, progressbar.hpp:102-106. -/
def Bar.reset (b : Bar) : Bar := { b with progress := 0, called := false, lastPerc := 0 }

/-- `set_niter`, progressbar.hpp:108-114. -/
def Bar.setNiter (b : Bar) (n : Int) : Except Fault Bar :=
  if n ≤ 0 then .error .exn else .ok { b with cycles := n }

/-- Some backspaces. -/
def backs (n : Nat) : List Char := List.replicate n '\x08'

/-- A number as `std::cout` writes it. -/
def intText (z : Int) : List Char := if z < 0 then '-' :: natText z.natAbs else natText z.natAbs

/-- What is written first, progressbar.hpp:121-130. -/
def opening (b : Bar) : List Char :=
  if b.called then []
  else if b.showBar then '[' :: (List.replicate 50 ' ' ++ "] 0%".toList)
  else "0%".toList

/-- The percentage, progressbar.hpp:138-144. -/
def percText (last perc : Int) : List Char :=
  if perc = last + 1 then
    if perc ≤ 10 then backs 2 ++ intText perc ++ ['%']
    else if perc < 100 then backs 3 ++ intText perc ++ ['%']
    else if perc = 100 then backs 3 ++ intText perc ++ ['%']
    else []
  else []

/-- The bar, progressbar.hpp:147-176. -/
def barText (showBar : Bool) (perc : Int) : List Char :=
  if showBar = true ∧ perc.tmod 2 = 0 then
    backs 1 ++
    (if perc < 10 then backs 3 else if perc < 100 then backs 4 else if perc = 100 then backs 5 else []) ++
    backs (50 - (perc - 1).tdiv 2).toNat ++
    (if perc = 0 then [' '] else ['#']) ++
    List.replicate (50 - (perc - 1).tdiv 2 - 1).toNat ' ' ++
    "] ".toList ++ intText perc ++ ['%']
  else []

/-- `update`, progressbar.hpp:116-182: the bar and what is written.  The quotient of doubles is cut to an integer; it never rounds
to an integer that the exact quotient does not have, since numerator and denominator are less than 2³⁸.  With one cycle it is 0/0,
whose conversion is undefined. -/
def update (b : Bar) : Except Fault (Bar × List Char) :=
  if b.cycles = 0 then .error .exn
  else if b.cycles = 1 then .error .divZero
  else
    let perc := (b.progress * 100).tdiv (b.cycles - 1)
    if perc < b.lastPerc then .ok ({ b with called := true }, opening b)
    else .ok ({ b with called := true, lastPerc := perc, progress := b.progress + 1 },
      opening b ++ percText b.lastPerc perc ++ barText b.showBar perc)

/-- The line of a terminal: the cells left of the cursor (last first) and the others. -/
structure Line where
  left : List Char
  right : List Char
  deriving DecidableEq

/-- A character on a terminal: backspace moves the cursor, everything else is written over the cell under it. -/
def Line.put (l : Line) (c : Char) : Line :=
  if c = '\x08' then
    match l.left with
    | [] => l
    | x :: rest => ⟨rest, x :: l.right⟩
  else ⟨c :: l.left, l.right.tail⟩

/-- A text on a terminal. -/
def Line.puts (l : Line) (s : List Char) : Line := s.foldl Line.put l

/-- What is to be seen. -/
def Line.shown (l : Line) : List Char := l.left.reverse ++ l.right

/-- A number of updates on an empty line. -/
def updates (b : Bar) : Nat → Except Fault (Bar × Line)
  | 0 => .ok (b, ⟨[], []⟩)
  | k + 1 =>
    updates b k >>= fun s =>
    update s.1 >>= fun r =>
    .ok (r.1, s.2.puts r.2)

end Yac.Bar
