import Verif.Containers.Model
import Mathlib.Order.Defs.LinearOrder

/-! Independent specification vocabulary for the container helpers. -/

namespace Yac.Spec
variable {α : Type}

/-- Strictly ascending, hence duplicate free: the iteration order of a `std::set`. -/
def Ascending [LinearOrder α] (l : List α) : Prop := l.Pairwise (· < ·)

/-- Distinct values of a list in order of first occurrence. -/
def firsts [DecidableEq α] : List α → List α
  | [] => []
  | x :: xs => x :: (firsts xs).filter (· ≠ x)

/-- The values inserted since the last `clear`, in call order. -/
def insertedSinceClear (ops : List (OrderedSet.Op α)) : List α :=
  ops.foldl (fun acc op => match op with
    | .insert x => acc ++ [x]
    | .clear => []) []

end Yac.Spec
