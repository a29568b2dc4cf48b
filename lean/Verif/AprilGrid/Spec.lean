import Verif.AprilGrid.Model

/-! Independent specification of an AprilGrid: a partial map from (tag, corner) to keypoint. -/

namespace Yac.AprilGrid.Spec
variable {K : Type}

/-- What a user thinks a grid is: which corners have been seen, and where. -/
abbrev CMap (K : Type) := Int → Int → Option (K × K)

/-- Nothing seen. -/
def none_ : CMap K := fun _ _ => none

/-- Effect of a call on the map. -/
def step (m : CMap K) : Op K → CMap K
  | .add t c kp => fun t' c' => if t' = t ∧ c' = c then some kp else m t' c'
  | .remove t c => fun t' c' => if t' = t ∧ c' = c then none else m t' c'
  | .removeTag t => fun t' c' => if t' = t then none else m t' c'
  | .clear => none_

/-- The map after a history of calls. -/
def run (ops : List (Op K)) : CMap K := ops.foldl step none_

/-- A valid (tag, corner) pair of an `rows x cols` grid. -/
def Valid (rows cols : Nat) (t c : Int) : Prop := 0 ≤ t ∧ t < rows * cols ∧ 0 ≤ c ∧ c < 4

/-- A call with valid arguments. -/
def OpValid (rows cols : Nat) : Op K → Prop
  | .add t c _ => Valid rows cols t c
  | .remove t c => Valid rows cols t c
  | .removeTag t => 0 ≤ t ∧ t < rows * cols
  | .clear => True

/-- All corners of the grid in (tag, corner) order. -/
def allCorners (rows cols : Nat) : List (Int × Int) :=
  (List.range (rows * cols)).flatMap (fun (t : Nat) =>
    [((t : Int), (0 : Int)), ((t : Int), 1), ((t : Int), 2), ((t : Int), 3)])

/-- The corners held by a map, in (tag, corner) order, with their keypoints. -/
def held (rows cols : Nat) (m : CMap K) : List ((Int × Int) × (K × K)) :=
  (allCorners rows cols).filterMap (fun tc => (m tc.1 tc.2).map (fun kp => (tc, kp)))

/-- Number of corners held. -/
def size (rows cols : Nat) (m : CMap K) : Nat := (held rows cols m).length

/-- Effect of a call on the map together with the number of `add` calls since the last
`clear` that hit a corner already held. -/
def trackStep (s : CMap K × Nat) (op : Op K) : CMap K × Nat :=
  (step s.1 op, match op with
    | .add t c _ => if (s.1 t c).isSome then s.2 + 1 else s.2
    | .clear => 0
    | .remove _ _ => s.2
    | .removeTag _ => s.2)

/-- Number of `add` calls since the last `clear` that hit a corner already held. -/
def overwrites (ops : List (Op K)) : Nat := (ops.foldl trackStep (none_, 0)).2

/-- Ideal position of a corner on the board: tags are squares of side `size`, their
lower-left corners are `size*(1+spacing)` apart, tag ids run row by row from the
lower-left tag, corners run anticlockwise from the lower left. -/
def boardPoint [Field K] (cols : Nat) (size spacing : K) (t c : Nat) : K × K × K :=
  let pitch := size * (1 + spacing)
  let dx : K := if c = 1 ∨ c = 2 then size else 0
  let dy : K := if c = 2 ∨ c = 3 then size else 0
  (((t % cols : Nat) : K) * pitch + dx, ((t / cols : Nat) : K) * pitch + dy, 0)

end Yac.AprilGrid.Spec
