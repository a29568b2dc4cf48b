import Verif.AprilGrid.Model
import Verif.Misc.Model
import Verif.Num.Model
import Mathlib.Analysis.Real.Pi.Bounds

/-!
# Model of `focal_init` (yac/lib/calib_params.cpp:310-406)

Exact real arithmetic; the linear solver inside `fit_circle` is a parameter.
-/

namespace Yac.Setup
open Yac.AprilGrid Yac.Misc

/-- `grid.keypoint(tag_id, corner)` as a point. -/
def kp (g : Grid ℝ) (tag corner : Int) : Except Fault P2 :=
  keypoint g tag corner >>= fun p => .ok ![p.1, p.2]

/-- The two points of a tag pushed into `points`, calib_params.cpp:342-343 and 360-361. -/
def pushTwo (g : Grid ℝ) (c0 c1 : Int) (points : List P2) (tag : Int) : Except Fault (List P2) :=
  kp g tag c0 >>= fun p => kp g tag c1 >>= fun q => .ok (points ++ [p, q])

/-- The points of row `i` (axis 0), calib_params.cpp:338-345. -/
def rowPoints (g : Grid ℝ) (i : Nat) : Except Fault (List P2) :=
  (List.range g.tagCols).foldlM (fun points (j : Nat) =>
    pushTwo g 0 1 points ((i * g.tagCols + j : Nat) : Int)) []

/-- The points of column `j` (axis 1), calib_params.cpp:356-363. -/
def colPoints (g : Grid ℝ) (j : Nat) : Except Fault (List P2) :=
  (List.range g.tagRows).foldlM (fun points (i : Nat) =>
    pushTwo g 0 3 points ((j + i * g.tagCols : Nat) : Int)) []

/-- All lines, calib_params.cpp:337-374. -/
def lines (g : Grid ℝ) (axis : Int) : Except Fault (List (List P2)) :=
  if axis = 0 then (List.range g.tagRows).mapM (rowPoints g)
  else if axis = 1 then (List.range g.tagCols).mapM (colPoints g)
  else .error .fatal

/-- The pairs `i < j`, calib_params.cpp:379-380. -/
def pairs {α : Type} : List α → List (α × α)
  | [] => []
  | a :: l => l.map (fun b => (a, b)) ++ pairs l

/-- One pair of circles, calib_params.cpp:381-397.  `divZero`: equal circles, the guess is NaN and
`std::sort` in `median` undefined. -/
noncomputable def guess (ab : (ℝ × ℝ × ℝ) × (ℝ × ℝ × ℝ)) : Except Fault (Option ℝ) :=
  match intersectCircles ab.1.1 ab.1.2.1 ab.1.2.2 ab.2.1 ab.2.2.1 ab.2.2.2 with
  | none => .error .divZero
  | some [p, q] => .ok (some (Real.sqrt ((p 0 - q 0) ^ 2 + (p 1 - q 1) ^ 2) / Real.pi))
  | some _ => .ok none

/-- `focal_init`, calib_params.cpp:310-406.  `none`: the return value is -1. -/
noncomputable def focalInit (solve : List ((Fin 3 → ℝ) × ℝ) → Fin 3 → ℝ) (g : Grid ℝ) (axis : Int) :
    Except Fault (Option ℝ) :=
  if g.nbDetections < (g.tagRows * g.tagCols * 4 : Nat) then .ok none
  else
    lines g axis >>= fun ls =>
    (pairs (ls.map (fitCircle solve))).mapM guess >>= fun gs =>
    let guesses := gs.filterMap id
    if guesses = [] then .ok none
    else Num.median guesses >>= fun f => .ok (some f)

end Yac.Setup
