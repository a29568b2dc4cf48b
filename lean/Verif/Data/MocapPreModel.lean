import Verif.Data.PreModel
import Verif.Disk.Model

/-!
# Model of `calib_mocap_t::_preprocess`, yac/lib/calib_mocap.cpp:322-374, and of
`load_aprilgrids`, yac/lib/util/aprilgrid.cpp:741-759

The directory listing is that of the model of `list_dir`.  The grid files are a function from paths
to files as in the model of `calib_data_preprocess`; saving a grid is taken to succeed (the
directory can be made, C131).  The detector, applied to the image at a path, is an arbitrary
function.  Printing is left out.
-/

namespace Yac.Data

open Yac.AprilGrid (Grid Line)
open Yac.Text (natText parseInt)

variable {K : Type} [Field K]

/-- `std::stoull`: leading blanks, a sign and digits; a minus sign negates modulo 2^64; no digits,
or a number that does not fit, is an exception. -/
def stoull (s : List Char) : Except Fault Nat :=
  match parseInt s with
  | none => .error .exn
  | some (neg, n, _) =>
    if n < 2 ^ 64 then .ok (if neg then (2 ^ 64 - n) % 2 ^ 64 else n) else .error .exn

/-- The conversion of an unsigned to a signed 64 bit number (`timestamp_t`). -/
def signed64 (u : Nat) : Int := if u < 2 ^ 63 then (u : Int) else (u : Int) - 2 ^ 64

/-- `grid_csv_path`, calib_mocap.cpp:346-347. -/
def csvPath (gridPath : List Char) (u : Nat) : List Char :=
  gridPath ++ '/' :: (natText u ++ ".csv".toList)

/-- The target, the detector applied to a timestamp and the path of an image, and print-and-parse
functions as in `AprilGrid.save`. -/
structure MPre (K : Type) where
  rows : Nat
  cols : Nat
  size : K
  spacing : K
  shot : Int → List Char → Grid K
  p6 : K → K
  p10 : K → K

/-- calib_mocap.cpp:352-358. -/
def MPre.fill (m : MPre K) (ts : Int) (g : Grid K) : Grid K :=
  if g.detected = false then withTarget g ts m.rows m.cols m.size m.spacing else g

/-- The body of the loop, calib_mocap.cpp:343-369: the files and the grids so far. -/
def mocapStep (m : MPre K) (camPath gridPath : List Char) (acc : FileSys K × List (Grid K))
    (name : List Char) : Except Fault (FileSys K × List (Grid K)) :=
  Fs.pathsJoin camPath name >>= fun image =>
  stoull (Fs.parseFname image) >>= fun u =>
  match acc.1 (csvPath gridPath u) with
  | some f => loadFile false f >>= fun g => .ok (acc.1, acc.2 ++ [m.fill (signed64 u) g])
  | none =>
    AprilGrid.save m.p6 m.p10 (m.shot (signed64 u) image) >>= fun ls =>
    .ok (put acc.1 (csvPath gridPath u) (.csv ls), acc.2 ++ [m.shot (signed64 u) image])

/-- `_preprocess`, calib_mocap.cpp:322-374. -/
def mocapPre (m : MPre K) (readdir : Disk.Path → List Disk.Name) (d : Disk.Disk)
    (camPath gridPath : List Char) (fs : FileSys K) : Except Fault (FileSys K × List (Grid K)) :=
  let r := Disk.listDir readdir d camPath []
  if r.1 ≠ 0 then .error .fatal
  else (Disk.sortNames r.2).foldlM (mocapStep m camPath gridPath) (fs, [])

/-- The constructor from a file, aprilgrid.cpp:5-12: a file that cannot be opened leaves the grid
as it is. -/
def gridFrom (v2 : Bool) (fs : FileSys K) (path : List Char) : Except Fault (Grid K) :=
  match fs path with
  | none => .ok { (AprilGrid.default : Grid K) with init := true }
  | some f => loadFile v2 f >>= fun g => .ok { g with init := true }

/-- The body of the loop of `load_aprilgrids`, aprilgrid.cpp:750-755. -/
def loadStep (v2 : Bool) (fs : FileSys K) (dir : List Char) (acc : List (Grid K))
    (name : List Char) : Except Fault (List (Grid K)) :=
  gridFrom v2 fs (dir ++ '/' :: name) >>= fun g =>
  .ok (if g.detected then acc ++ [g] else acc)

/-- `load_aprilgrids`, aprilgrid.cpp:741-759; `names` is what `list_dir` yields (`none`: it fails). -/
def loadGrids (v2 : Bool) (fs : FileSys K) (dir : List Char) (names : Option (List (List Char))) :
    Except Fault (List (Grid K)) :=
  match names with
  | none => .error .fatal
  | some ns => (Disk.sortNames ns).foldlM (loadStep v2 fs dir) []

end Yac.Data
