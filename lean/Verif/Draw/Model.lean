import Verif.AprilGrid.Props
import Verif.Text.Model

/-!
# Model of the drawing helpers (yac/lib/util/cv.cpp:335-411, yac/lib/util/aprilgrid.cpp:216-247)

The picture is the list of the marks drawn, in order; rasterisation by OpenCV is not modelled.  Coordinates are exact
(`cv::Point2f` rounds them to `float`).
-/

namespace Yac.Draw
open Yac.AprilGrid Yac.Text

variable {K : Type}

/-- What is drawn: `cv::circle` with its radius, `cv::line`, `cv::putText`. -/
inductive Mark (K : Type) where
  | circle (p : K × K) (r : Int)
  | line (p q : K × K)
  | text (s : List Char) (p : K × K)
  deriving DecidableEq, Repr

/-- `v[i]` of a `std::vector`: no check. -/
def at' {α : Type} (v : List α) (i : Nat) : Except Fault α :=
  match v[i]? with
  | some x => .ok x
  | none => .error .oob

/-- The loop of `draw_tracks`, cv.cpp:340-350, from index `i` on. -/
def tracksFrom (p0 p1 : List (K × K)) : Nat → List Nat → Except Fault (List (Mark K))
  | _, [] => .ok []
  | i, s :: l =>
    if s = 0 then tracksFrom p0 p1 (i + 1) l
    else
      match at' p0 i, at' p1 i with
      | .ok a, .ok b =>
        match tracksFrom p0 p1 (i + 1) l with
        | .ok m => .ok (.circle a 1 :: .circle b 1 :: .line a b :: m)
        | .error e => .error e
      | _, _ => .error .oob

/-- `draw_tracks`, cv.cpp:335-353. -/
def drawTracks (p0 p1 : List (K × K)) (status : List Nat) : Except Fault (List (Mark K)) := tracksFrom p0 p1 0 status

variable [Field K]

/-- `p1.y += img0.rows`, cv.cpp:372 and 401. -/
def below (rows : Nat) (p : K × K) : K × K := (p.1, p.2 + rows)

/-- The loop of `draw_matches`, cv.cpp:365-379, from index `i` on. -/
def matchesFrom (rows : Nat) (k0 k1 : List (K × K)) : Nat → List Nat → Except Fault (List (Mark K))
  | _, [] => .ok []
  | i, s :: l =>
    if s ≠ 0 then
      match at' k0 i, at' k1 i with
      | .ok a, .ok b =>
        match matchesFrom rows k0 k1 (i + 1) l with
        | .ok m => .ok (.circle a 2 :: .circle (below rows b) 2 :: .line a (below rows b) :: m)
        | .error e => .error e
      | _, _ => .error .oob
    else matchesFrom rows k0 k1 (i + 1) l

/-- `draw_matches`, cv.cpp:355-382: the height of the picture and the marks.  `cv::vconcat` needs images of the same width
(`exn`). -/
def drawMatches (rows0 cols0 rows1 cols1 : Nat) (k0 k1 : List (K × K)) (status : List Nat) :
    Except Fault (Nat × List (Mark K)) :=
  if cols0 ≠ cols1 then .error .exn
  else
    match matchesFrom rows0 k0 k1 0 status with
    | .ok m => .ok (rows0 + rows1, m)
    | .error e => .error e

/-- `draw_matches` for matches given by index, cv.cpp:384-411. -/
def drawPairs (rows : Nat) (k0 k1 : List (K × K)) : List (Nat × Nat) → Except Fault (List (Mark K))
  | [] => .ok []
  | (i, j) :: l =>
    match at' k0 i, at' k1 j with
    | .ok a, .ok b =>
      match drawPairs rows k0 k1 l with
      | .ok m => .ok (.circle a 2 :: .circle (below rows b) 2 :: .line a (below rows b) :: m)
      | .error e => .error e
    | _, _ => .error .oob

/-- The loop of `aprilgrid_t::draw`, aprilgrid.cpp:230-244. -/
def labels (radius : Int) : List Int → List (K × K) → Except Fault (List (Mark K))
  | [], _ => .ok []
  | _ :: _, [] => .error .oob
  | t :: ts, p :: ps =>
    match labels radius ts ps with
    | .ok m => .ok (.circle p radius :: .text (fmtLd t) p :: m)
    | .error e => .error e

/-- `aprilgrid_t::draw`, aprilgrid.cpp:216-247. -/
def drawGrid (g : Grid K) (radius : Int) : Except Fault (List (Mark K)) :=
  match getMeasurements g Meas.empty with
  | .error e => .error e
  | .ok m => labels radius m.tagIds m.keypoints

end Yac.Draw
