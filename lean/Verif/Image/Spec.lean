import Verif.Image.Model

/-!
# Specification for C119: the latest image of every camera
-/

namespace Yac.Image

open Yac.AprilGrid (Grid Shot has keypoint objectPoint)

/-- The last image of a camera in a sequence of images. -/
def lastOf (h : List (Int × Shot)) (cam : Int) : Option Shot :=
  ((h.filter fun e => e.1 = cam).getLast?).map Prod.snd

variable {D : Type}

/-- Whether an IMU sample has arrived since the last reset, after one more call. -/
def startStep (b : Bool) : Call D → Bool
  | .imu _ _ _ => true
  | .reset => false
  | _ => b

/-- Whether an IMU sample has arrived since the start or the last reset. -/
def started (h : List (Call D)) : Bool := h.foldl startStep false

/-- The images that count, after one more call. -/
def takeStep (p : Bool × List (Int × Shot)) (c : Call D) : Bool × List (Int × Shot) :=
  (startStep p.1 c, match c with
    | .image cam sh => if p.1 then p.2 ++ [(cam, sh)] else p.2
    | _ => p.2)

/-- The images that count: those that arrive after the first IMU sample (since the start or the last reset). -/
def taken (h : List (Call D)) : List (Int × Shot) := (h.foldl takeStep (false, [])).2

/-- `g` is `g0` with every keypoint divided by `k`, and nothing else changed. -/
structure Scaled (k : ℚ) (g0 g : Grid ℚ) : Prop where
  init : g.init = g0.init
  stamp : g.timestamp = g0.timestamp
  rows : g.tagRows = g0.tagRows
  cols : g.tagCols = g0.tagCols
  size : g.tagSize = g0.tagSize
  spacing : g.tagSpacing = g0.tagSpacing
  detected : g.detected = g0.detected
  count : g.nbDetections = g0.nbDetections
  held : ∀ t c, has g t c = has g0 t c
  pixel : ∀ t c x y, keypoint g0 t c = .ok (x, y) → keypoint g t c = .ok (x / k, y / k)

/-- The image the detector is given: the image itself when the scale is 1 (to 0.0001), otherwise the resized one. -/
def given (c : Cfg) (sh : Shot) : Shot :=
  if |c.scale - 1| ≤ 1 / 10000 then sh else { c.resize c.scale sh with ts := sh.ts }

/-- What the pixels of the detection are divided by. -/
def factor (c : Cfg) : ℚ := if |c.scale - 1| ≤ 1 / 10000 then 1 else c.scale

/-- The grid found in a shot. -/
def Finds (c : Cfg) (sh : Shot) (g : Grid ℚ) : Prop :=
  AprilGrid.detectThread c.board c.srt sh.sub sh.ts sh.im sh.tags = .ok g

end Yac.Image
