import Verif.Containers.Model
import Verif.Containers.SMap
import Mathlib.Algebra.Field.Basic
import Mathlib.Order.Nat
import Mathlib.Algebra.Order.Ring.Int

/-!
# Model of `aprilgrid_t`, yac/lib/util/aprilgrid.{hpp,cpp}

Numbers are elements of an arbitrary field `K` (the code uses `double`; the arithmetic is
idealised to exact field arithmetic).  `int` is `Int` (no overflow modelled).  The flag
column of the data matrix only ever holds 0 and 1; it is kept as an `Int` because the
code tests it in three different ways (`> 0`, `<= 0`, `!= 0`).  Every access to the data
matrix outside its rows is the outcome `oob`.

Where the code throws (`FATAL`) after having already changed fields, the model returns
only the fault (the object is not used further).
-/

namespace Yac.AprilGrid

variable {K : Type}

/-- One row of `data`: `[flag, kp_x, kp_y, p_x, p_y, p_z]`, aprilgrid.cpp:187-191. -/
structure Row (K : Type) where
  flag : Int
  kx : K
  ky : K
  px : K
  py : K
  pz : K
  deriving DecidableEq, Repr

/-- `aprilgrid_t`, aprilgrid.hpp:31-48.  `tag_rows` and `tag_cols` are `int`s in the code;
a negative value trips Eigen's assertion in `zeros(...)`, so they are `Nat` here. -/
structure Grid (K : Type) where
  init : Bool
  timestamp : Int
  tagRows : Nat
  tagCols : Nat
  tagSize : K
  tagSpacing : K
  detected : Bool
  nbDetections : Int
  data : List (Row K)
  deriving DecidableEq, Repr

/-- The four output vectors filled by `get_measurements` and `sample`. -/
structure Meas (K : Type) where
  tagIds : List Int
  corners : List Int
  keypoints : List (K × K)
  points : List (K × K × K)
  deriving DecidableEq, Repr

/-- Empty output vectors. -/
def Meas.empty : Meas K := ⟨[], [], [], []⟩

/-- `push_back` on the four vectors. -/
def Meas.push (m : Meas K) (t c : Int) (kp : K × K) (p : K × K × K) : Meas K :=
  ⟨m.tagIds ++ [t], m.corners ++ [c], m.keypoints ++ [kp], m.points ++ [p]⟩

section access

/-- Read of row `i` of a matrix (`data(i, _)`). -/
def readRow (data : List (Row K)) (i : Int) : Except Fault (Row K) :=
  if i < 0 then .error .oob else
    match data[i.toNat]? with
    | some r => .ok r
    | none => .error .oob

/-- Write of row `i` of a matrix. -/
def writeRow (data : List (Row K)) (i : Int) (r : Row K) : Except Fault (List (Row K)) :=
  if i < 0 then .error .oob else
    if i.toNat < data.length then .ok (data.set i.toNat r) else .error .oob

/-- `for (int i = 0; i < n; i++) { ... data(i, _) ... }` with a body that only reads. -/
def forRows {β : Type} (data : List (Row K)) (n : Nat) (b : β) (f : β → Nat → Row K → β) :
    Except Fault β :=
  (List.range n).foldlM (fun acc (i : Nat) => do let r ← readRow data (i : Int); pure (f acc i r)) b

end access

variable [Field K]

/-- A row of zeros (`setZero`). -/
def zeroRow : Row K := ⟨0, 0, 0, 0, 0, 0⟩

/-- Default constructor, aprilgrid.hpp:36-48, 50: not initialised, 0x0 data. -/
def default : Grid K := ⟨false, 0, 0, 0, 0, 0, false, 0, []⟩

/-- Constructor, aprilgrid.cpp:14-21. -/
def new (ts : Int) (rows cols : Nat) (size spacing : K) : Grid K :=
  ⟨true, ts, rows, cols, size, spacing, false, 0, List.replicate (rows * cols * 4) zeroRow⟩

/-- `clear`, aprilgrid.cpp:23-27. -/
def clear (g : Grid K) : Grid K :=
  { g with detected := false, nbDetections := 0, data := g.data.map (fun _ => zeroRow) }

/-- `fully_observable`, aprilgrid.cpp:29-32. -/
def fullyObservable (g : Grid K) : Except Fault Bool :=
  if g.init then .ok (g.nbDetections == (g.tagRows * g.tagCols * 4 : Nat)) else .error .fatal

/-- `has`, aprilgrid.cpp:34-42. -/
def has (g : Grid K) (tag corner : Int) : Except Fault Bool :=
  if g.init then do
    let r ← readRow g.data (tag * 4 + corner)
    pure (if r.flag ≤ 0 then false else true)
  else .error .fatal

/-- `center`, aprilgrid.cpp:44-56. -/
def center (g : Grid K) : K × K :=
  ((g.tagCols / 2) * g.tagSize + ((g.tagCols / 2) - 1) * g.tagSpacing * g.tagSize
      + (1 / 2) * g.tagSpacing * g.tagSize,
   (g.tagRows / 2) * g.tagSize + ((g.tagRows / 2) - 1) * g.tagSpacing * g.tagSize
      + (1 / 2) * g.tagSpacing * g.tagSize)

/-- `grid_index`, aprilgrid.cpp:58-69: returns `(i, j)`.  C++ `/` and `%` on the
nonnegative `tag_id`. -/
def gridIndex (g : Grid K) (tag : Int) : Except Fault (Int × Int) :=
  if tag > (g.tagRows * g.tagCols : Nat) then .error .fatal
  else if tag < 0 then .error .fatal
  else if g.tagCols = 0 then .error .divZero
  else .ok (tag.tdiv g.tagCols, tag.tmod g.tagCols)

/-- `object_point`, aprilgrid.cpp:71-105. -/
def objectPoint (g : Grid K) (tag corner : Int) : Except Fault (K × K × K) := do
  let (i, j) ← gridIndex g tag
  let x : K := j * (g.tagSize + g.tagSize * g.tagSpacing)
  let y : K := i * (g.tagSize + g.tagSize * g.tagSpacing)
  if corner = 0 then pure (x, y, 0)
  else if corner = 1 then pure (x + g.tagSize, y, 0)
  else if corner = 2 then pure (x + g.tagSize, y + g.tagSize, 0)
  else if corner = 3 then pure (x, y + g.tagSize, 0)
  else .error .fatal

/-- `object_points`, aprilgrid.cpp:107-118. -/
def objectPoints (g : Grid K) : Except Fault (List (K × K × K)) :=
  forRows g.data (g.tagRows * g.tagCols * 4) []
    (fun acc _ r => if r.flag > 0 then acc ++ [(r.px, r.py, r.pz)] else acc)

/-- `keypoint`, aprilgrid.cpp:120-130. -/
def keypoint (g : Grid K) (tag corner : Int) : Except Fault (K × K) := do
  let r ← readRow g.data (tag * 4 + corner)
  if r.flag > 0 then pure (r.kx, r.ky) else .error .fatal

/-- `keypoints`, aprilgrid.cpp:132-143. -/
def keypoints (g : Grid K) : Except Fault (List (K × K)) :=
  forRows g.data (g.tagRows * g.tagCols * 4) []
    (fun acc _ r => if r.flag > 0 then acc ++ [(r.kx, r.ky)] else acc)

/-- `get_measurements`, aprilgrid.cpp:145-163; `out` are the caller's vectors. -/
def getMeasurements (g : Grid K) (out : Meas K) : Except Fault (Meas K) :=
  if g.detected = false then .ok out else
    forRows g.data (g.tagRows * g.tagCols * 4) out
      (fun acc i r => if r.flag > 0 then
        acc.push ((i / 4 : Nat) : Int) ((i % 4 : Nat) : Int) (r.kx, r.ky) (r.px, r.py, r.pz)
        else acc)

/-- `tag_ids`, aprilgrid.cpp:165-175. -/
def tagIds (g : Grid K) : Except Fault (List Int) :=
  forRows g.data (g.tagRows * g.tagCols * 4) []
    (fun acc i r => if r.flag ≠ 0 then setInsert ((i / 4 : Nat) : Int) acc else acc)

/-- `add`, aprilgrid.cpp:177-192. -/
def add (g : Grid K) (tag corner : Int) (kp : K × K) : Except Fault (Grid K) := do
  let p ← objectPoint g tag corner
  let data ← writeRow g.data (tag * 4 + corner) ⟨1, kp.1, kp.2, p.1, p.2.1, p.2.2⟩
  pure { g with detected := true, nbDetections := g.nbDetections + 1, data := data }

/-- `remove(tag_id, corner_idx)`, aprilgrid.cpp:194-205. -/
def remove (g : Grid K) (tag corner : Int) : Except Fault (Grid K) := do
  let r ← readRow g.data (tag * 4 + corner)
  if r.flag > 0 then do
    let data ← writeRow g.data (tag * 4 + corner) zeroRow
    let nb := max (g.nbDetections - 1) 0
    pure { g with data := data, nbDetections := nb,
                  detected := if nb = 0 then false else true }
  else pure g

/-- `remove(tag_id)`, aprilgrid.cpp:207-214. -/
def removeTag (g : Grid K) (tag : Int) : Except Fault (Grid K) := do
  let g ← remove g tag 0
  let g ← remove g tag 1
  let g ← remove g tag 2
  remove g tag 3

/-- One line of the CSV file written by `save` (aprilgrid.cpp:319-330) and read by `load`
(356-391).  The text is modelled as its fields. -/
structure Line (K : Type) where
  ts : Int
  rows : Nat
  cols : Nat
  size : K
  spacing : K
  kx : K
  ky : K
  px : K
  py : K
  pz : K
  tag : Int
  corner : Int
  deriving DecidableEq, Repr

/-- `save`, aprilgrid.cpp:279-343: the data lines after the header.  `p6` and `p10` are
the values read back after printing with `%f` and `%.10f` (arbitrary functions: nothing
about rounding is assumed).  The loop runs over all rows of `data`. -/
def save (p6 p10 : K → K) (g : Grid K) : Except Fault (List (Line K)) :=
  if g.detected then
    forRows g.data g.data.length []
      (fun acc i r => if r.flag > 0 then
        acc ++ [⟨g.timestamp, g.tagRows, g.tagCols, p6 g.tagSize, p6 g.tagSpacing,
          p10 r.kx, p10 r.ky, p6 r.px, p6 r.py, p6 r.pz,
          ((i / 4 : Nat) : Int), ((i % 4 : Nat) : Int)⟩]
        else acc)
  else .ok []

/-- Loop body of `load`, aprilgrid.cpp:364-418, for a line that parses completely.  The
test `data.rows() == 0 && data.cols() == 0` is modelled as "no rows" (they differ only for
a grid constructed with zero tags). -/
def loadLine (g : Grid K) (l : Line K) : Except Fault (Grid K) := do
  let data0 := if g.data.isEmpty then List.replicate (l.rows * l.cols * 4) zeroRow else g.data
  let data ← writeRow data0 (l.tag * 4 + l.corner) ⟨1, l.kx, l.ky, l.px, l.py, l.pz⟩
  pure { g with timestamp := l.ts, tagRows := l.rows, tagCols := l.cols, tagSize := l.size,
                tagSpacing := l.spacing, data := data, detected := true,
                nbDetections := g.nbDetections + 1 }

/-- `load`, aprilgrid.cpp:345-426, on a file whose data lines all parse: `clear()`, then
every line. -/
def load (g : Grid K) (file : List (Line K)) : Except Fault (Grid K) := do
  let g ← file.foldlM loadLine (clear g)
  pure { g with init := true }

/-- Zero row `i` and decrement the counter if the row's flag is positive
(aprilgrid.cpp:606-609 and 611-614). -/
def dropRowPos (g : Grid K) (i : Int) : Except Fault (Grid K) := do
  let r ← readRow g.data i
  if r.flag > 0 then do
    let data ← writeRow g.data i zeroRow
    pure { g with data := data, nbDetections := g.nbDetections - 1 }
  else pure g

/-- Zero row `i` and decrement the counter if the row's flag is not zero
(aprilgrid.cpp:650-653). -/
def dropRowNz (g : Grid K) (i : Int) : Except Fault (Grid K) := do
  let r ← readRow g.data i
  if r.flag ≠ 0 then do
    let data ← writeRow g.data i zeroRow
    pure { g with data := data, nbDetections := g.nbDetections - 1 }
  else pure g

/-- `intersect(aprilgrid_t &grid1)`, aprilgrid.cpp:592-616: the new values of `*this` and
`grid1` (two different objects). -/
def intersect (g0 g1 : Grid K) : Except Fault (Grid K × Grid K) := do
  let rows0 ← forRows g0.data (g0.tagRows * g0.tagCols * 4) []
    (fun acc i r => if r.flag ≠ 0 then acc ++ [(i : Int)] else acc)
  let rows1 ← forRows g1.data (g0.tagRows * g0.tagCols * 4) []
    (fun acc i r => if r.flag ≠ 0 then acc ++ [(i : Int)] else acc)
  (setSymDiff rows0 rows1).foldlM
    (fun (g : Grid K × Grid K) i => do
      let a ← dropRowPos g.1 i
      let b ← dropRowPos g.2 i
      pure (a, b)) (g0, g1)

/-- `row_counter[i] = row_counter[i] + 1` (missing entries start at 0),
aprilgrid.cpp:629-635. -/
def countRows (counter : List (Int × Int)) (g : Grid K) : Except Fault (List (Int × Int)) :=
  forRows g.data (g.tagRows * g.tagCols * 4) counter
    (fun c i r => if r.flag ≠ 0 then
      SMap.set (i : Int) (((SMap.find (i : Int) c).getD 0) + 1) c else c)

/-- `intersect(std::vector<aprilgrid_t *> &grids)`, aprilgrid.cpp:618-656: the new values
of the (pairwise different) grids. -/
def intersectAll (grids : List (Grid K)) : Except Fault (List (Grid K)) := do
  let first ← match grids with
    | [] => .error .oob
    | g :: _ => .ok g
  let counter0 := (List.range (first.tagRows * first.tagCols * 4)).foldl
    (fun c (i : Nat) => SMap.set (i : Int) (0 : Int) c) []
  let counter ← grids.foldlM countRows counter0
  let remove := counter.filterMap (fun kv => if kv.2 ≠ (grids.length : Int) then some kv.1 else none)
  grids.mapM (fun g => remove.foldlM dropRowNz g)

/-- State of the sampling loop: outputs, the set of sample ids already drawn and the number
of `rand()` calls so far.  The string id `"<tag>-<corner>"` is modelled as the pair (the
corner has one digit, so the string determines the pair). -/
structure SampleState (K : Type) where
  out : Meas K
  seen : List (Int × Int)
  calls : Nat

/-- One iteration of the `while` loop of `sample`, aprilgrid.cpp:670-692.
`randi(0, n)` is `rand() % n + 0` (core.cpp:819): a remainder by zero if `n = 0`.
`rand k` is the value of the `k`-th call of `rand()`. -/
def sampleStep (g : Grid K) (rand : Nat → Nat) (tags : List Int) (s : SampleState K) :
    Except Fault (SampleState K) :=
  if tags.length = 0 then .error .divZero else do
    let tag ← match tags[rand s.calls % tags.length]? with
      | some t => .ok t
      | none => .error .oob
    let corner : Int := ((rand (s.calls + 1) % 4 : Nat) : Int)
    if (tag, corner) ∈ s.seen then pure { s with calls := s.calls + 2 } else do
      let r ← readRow g.data (tag * 4 + corner)
      pure { out := if r.flag ≠ 0 then s.out.push tag corner (r.kx, r.ky) (r.px, r.py, r.pz)
                    else s.out,
             seen := (tag, corner) :: s.seen, calls := s.calls + 2 }

/-- `sample_tag_ids.size() < std::min((size_t)nb_detections, n)`, aprilgrid.cpp:669
(a negative counter would become a huge `size_t`). -/
def sampleTarget (g : Grid K) (n : Nat) : Nat :=
  if g.nbDetections < 0 then n else min g.nbDetections.toNat n

/-- The `while` loop of `sample` with at most `fuel` iterations. -/
def sampleLoop (g : Grid K) (rand : Nat → Nat) (tags : List Int) (n : Nat) :
    Nat → SampleState K → Except Fault (SampleState K)
  | fuel, s =>
    if s.out.tagIds.length < sampleTarget g n then
      match fuel with
      | 0 => .error .diverge
      | fuel + 1 => do
        let s ← sampleStep g rand tags s
        sampleLoop g rand tags n fuel s
    else .ok s

/-- `sample`, aprilgrid.cpp:658-693, called with empty output vectors. -/
def sample (g : Grid K) (rand : Nat → Nat) (fuel n : Nat) : Except Fault (Meas K) :=
  if g.init then
    if g.nbDetections = 0 then .ok Meas.empty else do
      let tags ← tagIds g
      let s ← sampleLoop g rand tags n fuel ⟨Meas.empty, [], 0⟩
      pure s.out
  else .error .fatal

/-- Outputs of `common_measurements`. -/
structure Common (K : Type) where
  tagIds : List Int
  corners : List Int
  kpsI : List (K × K)
  kpsJ : List (K × K)
  points : List (K × K × K)
  deriving DecidableEq, Repr

/-- `common_measurements`, aprilgrid.cpp:695-719; `out` are the caller's vectors. -/
def commonMeasurements (gi gj : Grid K) (out : Common K) : Except Fault (Common K) :=
  if gi.detected = false ∨ gj.detected = false then .ok out
  else if gi.data.length ≠ gj.data.length then .error .fatal
  else (List.range gi.data.length).foldlM (fun acc (i : Nat) => do
    let ri ← readRow gi.data (i : Int)
    let rj ← readRow gj.data (i : Int)
    pure (if ri.flag ≠ 0 ∧ rj.flag ≠ 0 then
      ⟨acc.tagIds ++ [((i / 4 : Nat) : Int)], acc.corners ++ [((i % 4 : Nat) : Int)],
        acc.kpsI ++ [(ri.kx, ri.ky)], acc.kpsJ ++ [(rj.kx, rj.ky)],
        acc.points ++ [(ri.px, ri.py, ri.pz)]⟩
      else acc)) out

/-- Squared difference of two rows, summand of `(data - grid1.data).squaredNorm()`. -/
def rowDist (a b : Row K) : K :=
  ((a.flag : K) - b.flag) ^ 2 + (a.kx - b.kx) ^ 2 + (a.ky - b.ky) ^ 2 + (a.px - b.px) ^ 2
    + (a.py - b.py) ^ 2 + (a.pz - b.pz) ^ 2

/-- `equal`, aprilgrid.cpp:547-590.  `norm() < 1e-6` is stated on the squared norm. -/
def equal [LinearOrder K] (g g1 : Grid K) : Except Fault Bool :=
  if g.init = false then .error .fatal
  else if g.timestamp ≠ g1.timestamp ∨ g.tagRows ≠ g1.tagRows ∨ g.tagCols ≠ g1.tagCols ∨
    g.tagSize ≠ g1.tagSize ∨ g.tagSpacing ≠ g1.tagSpacing ∨ g.detected ≠ g1.detected ∨
    g.nbDetections ≠ g1.nbDetections then .ok false
  else if g.data.length ≠ g1.data.length then .error .fatal
  else .ok (decide (((g.data.zip g1.data).map (fun p => rowDist p.1 p.2)).sum
    < (1 / 1000000) ^ 2))

/-- A call that changes the grid. -/
inductive Op (K : Type) where
  | add (tag corner : Int) (kp : K × K)
  | remove (tag corner : Int)
  | removeTag (tag : Int)
  | clear

/-- One call. -/
def step (g : Grid K) : Op K → Except Fault (Grid K)
  | .add t c kp => add g t c kp
  | .remove t c => remove g t c
  | .removeTag t => removeTag g t
  | .clear => .ok (clear g)

/-- A history of calls. -/
def run (g : Grid K) (ops : List (Op K)) : Except Fault (Grid K) := ops.foldlM step g

/-- `fiducial_corners_t(target)`, yac/lib/calib_params.cpp:237-266: the table
`data[tag_id][corner_idx]` of corner positions, in (tag, corner) order.  Runs only when
`tag_rows*tag_cols > 0`, so the division by `tag_cols` is defined. -/
def fiducialCorners (rows cols : Nat) (size spacing : K) : List ((Nat × Nat) × (K × K × K)) :=
  (List.range (rows * cols)).flatMap (fun tag =>
    let x : K := ((tag % cols : Nat) : K) * (size + size * spacing)
    let y : K := ((tag / cols : Nat) : K) * (size + size * spacing)
    [((tag, 0), (x, y, 0)), ((tag, 1), (x + size, y, 0)),
     ((tag, 2), (x + size, y + size, 0)), ((tag, 3), (x, y + size, 0))])

end Yac.AprilGrid
