import Verif.AprilGrid.Model
import Mathlib.Algebra.Field.Rat
import Mathlib.Algebra.Order.Field.Rat
import Mathlib.Data.List.FinRange

/-!
# Model of the AprilGrid detector, yac/lib/util/aprilgrid.cpp:761-1067

The tag detector itself (`extractTags`, `apriltag_detector_detect`), the subpixel refinement `cv::cornerSubPix` and the
order in which `std::sort` leaves tags with equal ids are parameters: whatever they deliver.  Pixels are rationals (finite
floats); the distance moved is compared exactly, by squares.
-/

namespace Yac.AprilGrid

/-- `AprilTags::TagDetection`: the fields read. -/
structure Tag where
  id : Int
  good : Bool
  p : Fin 4 → ℚ × ℚ

/-- `cv::Mat`: what is read besides the pixels. -/
structure Image where
  channels : Nat
  rows : Nat
  cols : Nat

/-- `bad_tag`: too close to the border, aprilgrid.cpp:813-826 and 965-978. -/
def nearBorder (im : Image) (t : Tag) : Bool :=
  (List.finRange 4).any fun i =>
    decide ((t.p i).1 < 4) || decide ((t.p i).1 > (im.cols : ℚ) - 4) ||
    decide ((t.p i).2 < 4) || decide ((t.p i).2 > (im.rows : ℚ) - 4)

/-- `dist > max_subpix_disp`, aprilgrid.cpp:845-850 and 997-1003. -/
def movedFar (a b : ℚ × ℚ) : Bool :=
  decide ((a.1 - b.1) * (a.1 - b.1) + (a.2 - b.2) * (a.2 - b.2) > 3 / 2)

/-- A corner to be added. -/
abbrev Corner := Int × Int × (ℚ × ℚ)

/-- The corners `aprilgrid_detector_t::detect` takes from a tag, aprilgrid.cpp:954-1011. -/
def tagCorners (rows cols : Nat) (im : Image) (sub : Tag → Fin 4 → ℚ × ℚ) (t : Tag) : List Corner :=
  if t.good = false then []
  else if t.id ≥ (rows * cols : Nat) then []
  else if nearBorder im t then []
  else (List.finRange 4).filterMap fun i =>
    if movedFar (t.p i) (sub t i) then none else some (t.id, (i.val : Int), sub t i)

/-- The corners `aprilgrid_detect_thread` takes from a tag, aprilgrid.cpp:802-864. -/
def tagCornersAll (rows cols : Nat) (im : Image) (sub : Tag → Fin 4 → ℚ × ℚ) (t : Tag) : List Corner :=
  if t.good = false then []
  else if t.id ≥ (rows * cols : Nat) then []
  else if nearBorder im t then []
  else if (List.finRange 4).any (fun i => movedFar (t.p i) (sub t i)) then []
  else (List.finRange 4).map fun i => (t.id, (i.val : Int), sub t i)

/-- The loop that adds corners to the grid, aprilgrid.cpp:869-872 and 1017-1020. -/
def addAll (g : Grid ℚ) (ms : List Corner) : Except Fault (Grid ℚ) :=
  ms.foldlM (fun g m => add g m.1 m.2.1 m.2.2) g

/-- The board a detector is made for. -/
structure Board where
  rows : Nat
  cols : Nat
  size : ℚ
  spacing : ℚ

/-- `min_tags_threshold`, aprilgrid.cpp:882-883. -/
def minTags (b : Board) : Nat := max b.rows b.cols + 1

/-- `aprilgrid_detector_t::detect(ts, image, false)`, aprilgrid.cpp:897-1024.  `srt` is `std::sort` by id. -/
def detect (b : Board) (srt : List Tag → List Tag) (sub : Tag → Fin 4 → ℚ × ℚ) (ts : Int) (im : Image)
    (tags : List Tag) : Except Fault (Grid ℚ) :=
  let grid := new ts b.rows b.cols b.size b.spacing
  if im.channels ≠ 1 then .error .fatal
  else if tags.length < minTags b then .ok grid
  else
    let ms := (srt tags).flatMap (tagCorners b.rows b.cols im sub)
    if ms.length < 4 * minTags b then .ok grid else addAll grid ms

/-- `aprilgrid_detector_t::detect(ts, image, true)`, aprilgrid.cpp:918-939: AprilTags 3. -/
def detectV3 (b : Board) (ts : Int) (im : Image) (tags : List Tag) : Except Fault (Grid ℚ) :=
  if im.channels ≠ 1 then .error .fatal
  else addAll (new ts b.rows b.cols b.size b.spacing)
    (tags.flatMap fun t => (List.finRange 4).map fun i => (t.id, (i.val : Int), t.p i))

/-- `aprilgrid_detect_thread`, aprilgrid.cpp:761-875. -/
def detectThread (b : Board) (srt : List Tag → List Tag) (sub : Tag → Fin 4 → ℚ × ℚ) (ts : Int) (im : Image)
    (tags : List Tag) : Except Fault (Grid ℚ) :=
  let grid := new ts b.rows b.cols b.size b.spacing
  if im.channels ≠ 1 then .error .fatal
  else if tags.length < 4 then .ok grid
  else
    let ms := (srt tags).flatMap (tagCornersAll b.rows b.cols im sub)
    if ms.length < 4 * 4 then .ok grid else addAll grid ms

/-- One camera's image and what the tag detector and the refinement deliver for it. -/
structure Shot where
  ts : Int
  im : Image
  tags : List Tag
  sub : Tag → Fin 4 → ℚ × ℚ

/-- `grid_buffer` after one thread, aprilgrid.cpp:1060-1063. -/
def collect (out : List (Int × Grid ℚ)) (cam : Int) (g : Grid ℚ) : List (Int × Grid ℚ) :=
  if g.detected then SMap.set cam g out else out

/-- `aprilgrid_detector_t::detect(img_buffer)`, aprilgrid.cpp:1026-1067.  Every thread has its own data, so the order in
which they run does not matter; they are joined in the order of the cameras.  A throwing thread ends the program. -/
def detectAll (b : Board) (srt : List Tag → List Tag) (buf : List (Int × Shot)) : Except Fault (List (Int × Grid ℚ)) :=
  buf.foldlM (fun out (e : Int × Shot) =>
    detectThread b srt e.2.sub e.2.ts e.2.im e.2.tags >>= fun g => .ok (collect out e.1 g)) []

end Yac.AprilGrid
