import Verif.Basic
import Mathlib.Algebra.Order.Floor.Ring
import Mathlib.Data.Rat.Floor
import Mathlib.Algebra.Order.Field.Rat

/-! Feature grids and matrix conversions: yac/lib/util/cv.cpp:5-112, 413-574.

The two detectors (`cv::FAST`, `cv::goodFeaturesToTrack`), `cv::sortIdx` and the pixel values are
arguments of the model; what is assumed of them is stated in `Verif/Cv/Spec.lean`.  Coordinates and
responses are exact rationals (the code has 32-bit floats); image sizes are natural numbers, the
other integers are unbounded. -/

namespace Yac.Cv

/-- The fields of `cv::KeyPoint` the code reads (cv.cpp:69, 500-503). -/
structure KP where
  x : ℚ
  y : ℚ
  resp : ℚ
deriving DecidableEq, Repr

/-- Conversion of a floating point number to `int` (cv.cpp:69): towards zero. -/
def trunc (q : ℚ) : ℤ := if 0 ≤ q then ⌊q⌋ else ⌈q⌉

/-- cv.cpp:78-84: the loop that copies the keypoints in sorted order and stops when the output has
exactly `limit` elements (so never for `limit = 0`); an index outside of the input is out of
bounds. -/
def copyLoop (kps : List KP) (limit : Nat) : List Nat → List KP → Except Fault (List KP)
  | [], acc => .ok acc
  | i :: is, acc =>
    match kps[i]? with
    | none => .error .oob
    | some k =>
      if (acc ++ [k]).length = limit then .ok (acc ++ [k]) else copyLoop kps limit is (acc ++ [k])

/-- cv.cpp:59-86 `sort_keypoints`; the responses are stored in a vector of `int`. -/
def sortKeypoints (sortIdx : List ℤ → List Nat) (kps : List KP) (limit : Nat) :
    Except Fault (List KP) :=
  if kps.length = 0 then .ok []
  else copyLoop kps limit (sortIdx (kps.map fun k => trunc k.resp)) []

/-- cv.cpp:484, 485 and 541, 542: the loop header `for (int x = 0; x < n; x += d)`; the values
taken by the counter.  `fuel` bounds the iterations (`n + 1` are enough for `0 < d`). -/
def starts : Nat → Nat → Nat → Nat → List Nat
  | 0, _, _, _ => []
  | fuel + 1, n, d, x => if x < n then x :: starts fuel n d (x + d) else []

/-- A region of interest (`cv::Rect`), cv.cpp:491 and 548. -/
structure Roi where
  x : Nat
  y : Nat
  w : Nat
  h : Nat
deriving DecidableEq, Repr

/-- cv.cpp:486-491 and 543-548: the region of the cell that starts at `(x, y)`. -/
def cell (W H dx dy x y : Nat) : Roi :=
  { x := x, y := y,
    w := if x + dx > W then W - x else dx,
    h := if y + dy > H then H - y else dy }

/-- cv.cpp:471-476 and 528-533: the cell size and the limit per cell.  A division by zero is
`divZero`; a negative limit is out of the range of `size_t` (`oob`). -/
def gridParams (W H : Nat) (maxKps rows cols : ℤ) : Except Fault (ℤ × ℤ × Nat) :=
  if cols = 0 then .error .divZero
  else if rows = 0 then .error .divZero
  else
    let dx := (W : ℤ).tdiv cols
    let dy := (H : ℤ).tdiv rows
    let m := ⌈(maxKps : ℚ) / ((rows * cols : ℤ) : ℚ)⌉
    if m < 0 then .error .oob else .ok (dx, dy, m.toNat)

/-- cv.cpp:484-491 and 541-548: the cells visited.  An empty image has none.  A zero step never
leaves the loop; a negative one asks for a region of negative size, which OpenCV rejects. -/
def gridCells (W H : Nat) (dx dy : ℤ) : Except Fault (List Roi) :=
  if W = 0 then .ok []
  else if H = 0 then (if dx ≤ 0 then .error .diverge else .ok [])
  else if dx < 0 ∨ dy < 0 then .error .exn
  else if dx = 0 ∨ dy = 0 then .error .diverge
  else .ok ((starts (W + 1) W dx.toNat 0).flatMap fun x =>
    (starts (H + 1) H dy.toNat 0).map fun y => cell W H dx.toNat dy.toNat x y)

/-- cv.cpp:498-508 and 562-571: shift the keypoints of one cell, stopping after the one that makes
the counter reach the limit. -/
def pushLoop (x y lim : Nat) : List KP → Nat → List (ℚ × ℚ)
  | [], _ => []
  | k :: ks, c =>
    (k.x + x, k.y + y) :: (if c + 1 ≥ lim then [] else pushLoop x y lim ks (c + 1))

/-- cv.cpp:493-509: one cell of `grid_fast`. -/
def fastCell (fast : Roi → List KP) (sortIdx : List ℤ → List Nat) (lim : Nat) (r : Roi) :
    Except Fault (List (ℚ × ℚ)) :=
  match sortKeypoints sortIdx (fast r) 0 with
  | .error e => .error e
  | .ok s => .ok (pushLoop r.x r.y lim s 0)

/-- Run one function on every cell in turn, collecting the points (`keypoints_all`,
cv.cpp:482, 505 and 539, 566). -/
def overCells (f : Roi → Except Fault (List (ℚ × ℚ))) : List Roi → Except Fault (List (ℚ × ℚ))
  | [] => .ok []
  | r :: rs =>
    match f r with
    | .error e => .error e
    | .ok a => match overCells f rs with
      | .error e => .error e
      | .ok b => .ok (a ++ b)

/-- cv.cpp:460-511 `grid_fast`; `fast r` is what `cv::FAST` finds in the region `r` of the grey
image, in coordinates of the region. -/
def gridFast (fast : Roi → List KP) (sortIdx : List ℤ → List Nat) (W H : Nat)
    (maxKps rows cols : ℤ) : Except Fault (List (ℚ × ℚ)) :=
  match gridParams W H maxKps rows cols with
  | .error e => .error e
  | .ok (dx, dy, lim) =>
    match gridCells W H dx dy with
    | .error e => .error e
    | .ok cs => overCells (fastCell fast sortIdx lim) cs

/-- A mask image: its size and which of its pixels are set. -/
structure Mask where
  rows : Nat
  cols : Nat
  on : ℤ → ℤ → Bool

/-- cv.cpp:549: the part of the mask under the region, `none` for "no mask".  A region that leaves
the mask is rejected by OpenCV. -/
def subMask (m : Mask) (r : Roi) : Except Fault (Option (ℤ → ℤ → Bool)) :=
  if m.rows = 0 then .ok none
  else if r.x + r.w ≤ m.cols ∧ r.y + r.h ≤ m.rows then
    .ok (some fun u v => m.on (u + r.x) (v + r.y))
  else .error .exn

/-- cv.cpp:546-572: one cell of `grid_good`. -/
def goodCell (good : Roi → ℤ → Option (ℤ → ℤ → Bool) → List KP) (maxKps : ℤ) (m : Mask)
    (lim : Nat) (r : Roi) : Except Fault (List (ℚ × ℚ)) :=
  match subMask m r with
  | .error e => .error e
  | .ok sm => .ok (pushLoop r.x r.y lim (good r maxKps sm) 0)

/-- cv.cpp:513-574 `grid_good`; `good r n sm` is what `cv::goodFeaturesToTrack` finds in region `r`
when asked for `n` corners under the mask `sm`. -/
def gridGood (good : Roi → ℤ → Option (ℤ → ℤ → Bool) → List KP) (m : Mask) (W H : Nat)
    (maxKps rows cols : ℤ) : Except Fault (List (ℚ × ℚ)) :=
  match gridParams W H maxKps rows cols with
  | .error e => .error e
  | .ok (dx, dy, lim) =>
    match gridCells W H dx dy with
    | .error e => .error e
    | .ok cs => overCells (goodCell good maxKps m lim) cs

/-- cv.cpp:425-443 `draw_grid_features`: the abscissae of the vertical and the ordinates of the
horizontal lines.  A negative step leads the counter down until it overflows: undefined, here
`diverge` as for a zero step. -/
def gridLines (W H : Nat) (rows cols : ℤ) : Except Fault (List Nat × List Nat) :=
  if cols = 0 then .error .divZero
  else if rows = 0 then .error .divZero
  else
    let dx := (W : ℤ).tdiv cols
    let dy := (H : ℤ).tdiv rows
    if (dx < W ∧ dx ≤ 0) ∨ (dy < H ∧ dy ≤ 0) then .error .diverge
    else .ok (starts (W + 1) W dx.toNat dx.toNat, starts (H + 1) H dy.toNat dy.toNat)

/-! ### Matrices -/

/-- What the code uses of `cv::Mat` (cv.cpp:5-57): size, number of dimensions, channels, element
type (is it `CV_64F`?), elements. -/
structure CvMat (α : Type) where
  rows : Nat
  cols : Nat
  dims : Nat
  channels : Nat
  isF64 : Bool
  el : Nat → Nat → α

/-- `matx_t`. -/
structure EMat (α : Type) where
  rows : Nat
  cols : Nat
  el : Nat → Nat → α

/-- `cv::Mat::empty`. -/
def CvMat.empty {α : Type} (m : CvMat α) : Bool := m.rows = 0 ∨ m.cols = 0

/-- cv.cpp:5-25 `is_equal`; `ne` is the element comparison of `cv::compare(.., CMP_NE)`.
`cv::compare` and `cv::countNonZero` reject operands of different type and matrices of more than
one channel. -/
def isEqual {α : Type} (ne : α → α → Bool) (a b : CvMat α) : Except Fault Bool :=
  if a.empty ∧ b.empty then .ok true
  else if a.cols ≠ b.cols then .ok false
  else if a.rows ≠ b.rows then .ok false
  else if a.dims ≠ b.dims then .ok false
  else if a.channels ≠ b.channels ∨ a.isF64 ≠ b.isF64 ∨ a.channels ≠ 1 then .error .exn
  else .ok (!(List.range a.rows).any fun i => (List.range a.cols).any fun j =>
    ne (a.el i j) (b.el i j))

/-- cv.cpp:27-35, 47-51 `convert(cv::Mat)`: reads the elements as doubles; in a matrix of another
element type that reads beyond the element. -/
def toEigen {α : Type} (m : CvMat α) : Except Fault (EMat α) :=
  if m.rows = 0 ∨ m.cols = 0 then .ok ⟨m.rows, m.cols, m.el⟩
  else if m.isF64 ∧ m.channels = 1 then .ok ⟨m.rows, m.cols, m.el⟩
  else .error .oob

/-- cv.cpp:37-45, 53-57 `convert(matx_t)`. -/
def toCv {α : Type} (m : EMat α) : CvMat α :=
  ⟨m.rows, m.cols, 2, 1, true, m.el⟩

/-- cv.cpp:88-100 `gray2rgb` and 102-112 `rgb2gray`: the number of channels of the result;
`cv::cvtColor` is not modelled further. -/
def gray2rgbChannels (c : Nat) : Nat := if c = 1 then 3 else c

/-- cv.cpp:102-112. -/
def rgb2grayChannels (c : Nat) : Nat := if c = 3 then 1 else c

end Yac.Cv
