import Verif.Basic
import Mathlib.Algebra.Order.Field.Basic
import Mathlib.Algebra.Order.Field.Rat
import Mathlib.Tactic.Ring
import Mathlib.Tactic.Linarith

/-!
# Model of the matrix and array conversions

yac/lib/util/core.cpp.  A dynamic Eigen matrix is its dimensions and its entries as a
function of two indices; entries outside the dimensions have no meaning, and an access
outside them (an Eigen assertion) is the outcome `oob`.  An array is a list.
-/

namespace Yac.Geom

/-- `matx_t`. -/
structure DMat (K : Type) where
  rows : Nat
  cols : Nat
  e : Nat → Nat → K

namespace DMat
variable {K : Type}

/-- `y(i, j) = v`. -/
def set (y : DMat K) (i j : Nat) (v : K) : DMat K :=
  { y with e := fun a b => if a = i ∧ b = j then v else y.e a b }

/-- Inner loop (over `j`, the row) of `load_matrix(x, rows, cols, y)`, core.cpp:421-424:
`n` iterations from row `j`, returning the matrix and `idx`. -/
def loadCol (x : List K) (i : Nat) : Nat → Nat → (DMat K × Nat) → Except Fault (DMat K × Nat)
  | 0, _, s => .ok s
  | n + 1, j, (y, idx) =>
    match x[idx]? with
    | none => .error .oob
    | some v => loadCol x i n (j + 1) (y.set j i v, idx + 1)

/-- Outer loop (over `i`, the column), core.cpp:420-425. -/
def loadCols (x : List K) (rows : Nat) : Nat → Nat → (DMat K × Nat) → Except Fault (DMat K × Nat)
  | 0, _, s => .ok s
  | n + 1, i, s => do loadCols x rows n (i + 1) (← loadCol x i rows 0 s)

/-- `load_matrix(x, rows, cols, y)`, core.cpp:410-427.  `init` is the (unspecified) content
of the matrix after `resize`. -/
def load (init : Nat → Nat → K) (x : List K) (rows cols : Nat) : Except Fault (DMat K) := do
  let (y, _) ← loadCols x rows cols 0 (⟨rows, cols, init⟩, 0)
  pure y

/-- `load_matrix(A, x)`, core.cpp:429-435: values are appended to `x`. -/
def store (A : DMat K) (x : List K) : List K :=
  (List.range A.cols).foldl (fun x i =>
    (List.range A.rows).foldl (fun x j => x ++ [A.e j i]) x) x

/-- `mat2array`, core.cpp:127-138 and 158-166: row after row. -/
def toArray (A : DMat K) : List K :=
  (List.range A.rows).foldl (fun x i =>
    (List.range A.cols).foldl (fun x j => x ++ [A.e i j]) x) []

/-- `mat2vec`, core.cpp:168-182. -/
def toVecs (A : DMat K) (rowWise : Bool) : List (List K) :=
  if rowWise then (List.range A.rows).map (fun i => (List.range A.cols).map (fun j => A.e i j))
  else (List.range A.cols).map (fun j => (List.range A.rows).map (fun i => A.e i j))

/-- `mat2vec3` (`n = 3`, core.cpp:184-200) and `mat2vec2` (`n = 2`, core.cpp:202-218): the
assertion on the dimension, then as `mat2vec`. -/
def toVecsN (n : Nat) (A : DMat K) (rowWise : Bool) : Except Fault (List (List K)) :=
  if (if rowWise then A.cols else A.rows) = n then .ok (A.toVecs rowWise) else .error .fatal

/-- `vecs2mat`, core.cpp:218-232: one column `(x, y, z, 1)` per point. -/
def ofVecs [Zero K] [One K] (vs : List (K × K × K)) : DMat K :=
  ⟨4, vs.length, fun i j => match vs[j]? with
    | none => 0
    | some v => if i = 0 then v.1 else if i = 1 then v.2.1 else if i = 2 then v.2.2 else 1⟩

/-- `hstack`, core.cpp:330-334 (Eigen's comma initialiser asserts that the heights agree). -/
def hstack (A B : DMat K) : Except Fault (DMat K) :=
  if A.rows = B.rows then
    .ok ⟨A.rows, A.cols + B.cols, fun i j => if j < A.cols then A.e i j else B.e i (j - A.cols)⟩
  else .error .fatal

/-- `vstack`, core.cpp:336-340. -/
def vstack (A B : DMat K) : Except Fault (DMat K) :=
  if A.cols = B.cols then
    .ok ⟨A.rows + B.rows, A.cols, fun i j => if i < A.rows then A.e i j else B.e (i - A.rows) j⟩
  else .error .fatal

/-- `dstack`, core.cpp:342-347: two block assignments into a zero matrix. -/
def dstack [Zero K] (A B : DMat K) : DMat K :=
  let C : Nat → Nat → K := fun _ _ => 0
  let C := fun i j => if i < A.rows ∧ j < A.cols then A.e i j else C i j
  let C := fun i j =>
    if A.rows ≤ i ∧ i < A.rows + B.rows ∧ A.cols ≤ j ∧ j < A.cols + B.cols then
      B.e (i - A.rows) (j - A.cols) else C i j
  ⟨A.rows + B.rows, A.cols + B.cols, C⟩

/-- One element step of `enforce_psd`, core.cpp:370-378. -/
def psdStep [Field K] [LinearOrder K] (A : DMat K) (i j : Nat) (P : DMat K) : DMat K :=
  if i = j then P.set i j |A.e i j|
  else
    let x := (1 / 2) * (A.e i j + A.e j i)
    (P.set i j x).set j i x

/-- `enforce_psd`, core.cpp:364-382, for a square matrix (the assignment to `(j, i)` is out of
range otherwise). -/
def enforcePsd [Field K] [LinearOrder K] (init : Nat → Nat → K) (A : DMat K) :
    Except Fault (DMat K) :=
  if A.rows = A.cols then
    .ok ((List.range A.rows).foldl (fun P i =>
      (List.range A.cols).foldl (fun P j => psdStep A i j P) P) ⟨A.rows, A.cols, init⟩)
  else .error .oob

end DMat

/-- `vec2array`, core.cpp:118-124 and 152-156. -/
def vec2array {K : Type} (v : List K) : List K := v.foldl (fun a x => a ++ [x]) []

/-- `quat2array`, core.cpp:140-149, from `(w, x, y, z)`. -/
def quat2array {K : Type} (w x y z : K) : List K := [x, y, z, w]

/-- `array2vec`, core.cpp:111-116: the vector is a by-value parameter, so the caller's vector
(`y`, the result here) is left as it was.  (The header declares a by-reference overload which
is defined nowhere.) -/
def array2vec {K : Type} (_x : List K) (_size : Nat) (y : List K) : List K := y

end Yac.Geom
