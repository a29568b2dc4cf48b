import Verif.AprilGrid.Model
import Verif.Text.Model

/-!
# Model of `calib_data_preprocess`, yac/lib/calib_data.cpp:147-240

The images of a camera are worked on by the threads of an OpenMP loop.  A schedule says, step
by step, which image is worked on: looking for a saved grid, loading it, creating the file,
writing one line, and appending the grid to the result (a critical section) are steps; a crash
is the end of a schedule.  A file system is a function from paths to files.  The text of a file
is its lines (`AprilGrid.Line`); a crash leaves whole lines.  The detector, applied to the image
with a given file name, is an arbitrary function.  Showing the images is left out.
-/

namespace Yac.Data

open Yac.AprilGrid (Grid Line Row zeroRow writeRow)
open Yac.Text (isDig natOf fmtLd)

variable {K : Type} [Field K]

/-- A line of corners in format 2, aprilgrid.cpp:505-515. -/
structure V2Line (K : Type) where
  tag : Int
  corner : Int
  kx : K
  ky : K
  px : K
  py : K
  pz : K

/-- A file in format 2, aprilgrid.cpp:477-520. -/
structure V2 (K : Type) where
  ts : Int
  rows : Nat
  cols : Nat
  size : K
  spacing : K
  corners : Nat
  lines : List (V2Line K)

/-- A file in the directory of the grids. -/
inductive File (K : Type) where
  | csv (lines : List (Line K))
  | v2 (f : V2 K)

/-- One line of the loop of `loadv2`, aprilgrid.cpp:500-538, for a line that parses. -/
def loadLine2 (g : Grid K) (l : V2Line K) : Except Fault (Grid K) :=
  writeRow (if g.data.isEmpty then List.replicate (g.tagRows * g.tagCols * 4) zeroRow else g.data)
      (l.tag * 4 + l.corner) ⟨1, l.kx, l.ky, l.px, l.py, l.pz⟩ >>= fun data =>
    .ok { g with data := data, detected := true, nbDetections := g.nbDetections + 1 }

/-- The timestamp and the target of a grid are set, aprilgrid.cpp:486-490 and
calib_data.cpp:213-217. -/
def withTarget (g : Grid K) (ts : Int) (rows cols : Nat) (size spacing : K) : Grid K :=
  { g with timestamp := ts, tagRows := rows, tagCols := cols, tagSize := size, tagSpacing := spacing }

/-- `loadv2`, aprilgrid.cpp:477-545.  The first line of a file in the other format has another
key, which is fatal (line 456); so are missing lines (line 521).  `init` is not set. -/
def loadv2 (g : Grid K) : File K → Except Fault (Grid K)
  | .csv _ => .error .fatal
  | .v2 f =>
    (f.lines.take f.corners).foldlM loadLine2 (withTarget g f.ts f.rows f.cols f.size f.spacing) >>= fun g =>
    if f.lines.length < f.corners then .error .fatal else .ok g

/-- Loading into a default grid, calib_data.cpp:205-210.  The second line of a file in format 2
does not parse as a line of the first format: the grid stays cleared. -/
def loadFile (v2 : Bool) (f : File K) : Except Fault (Grid K) :=
  if v2 then loadv2 AprilGrid.default f
  else match f with
    | .csv ls => AprilGrid.load AprilGrid.default ls
    | .v2 _ => .ok (AprilGrid.clear AprilGrid.default)

/-- The parameters of the call: the target, `format_v2`, the detector applied to the image with
a file name, and print-and-parse functions as in `AprilGrid.save`. -/
structure Pre (K : Type) where
  rows : Nat
  cols : Nat
  size : K
  spacing : K
  v2 : Bool
  shot : List Char → Grid K
  p6 : K → K
  p10 : K → K

/-- `ts_str`, calib_data.cpp:191. -/
def tsStr (name : List Char) : List Char := name.take 19

/-- calib_data.cpp:192. -/
def isTs (name : List Char) : Bool := (tsStr name).all isDig

/-- `std::stoull(ts_str)` as a signed 64 bit number, calib_data.cpp:196 (19 digits fit into 64
bits). -/
def tsOf (name : List Char) : Int :=
  if natOf (tsStr name) < 2 ^ 63 then natOf (tsStr name) else (natOf (tsStr name) : Int) - 2 ^ 64

/-- `cam_grid_path`, calib_data.cpp:170-173. -/
def gridDir (gridsPath : List Char) (cam : Int) : Except Fault (List Char) :=
  match gridsPath.getLast? with
  | none => .error .oob
  | some c => .ok (gridsPath ++ (if c = '/' then [] else ['/']) ++ ['c', 'a', 'm'] ++ fmtLd cam)

/-- `grid_path`, calib_data.cpp:197-198. -/
def gridPath (dir name : List Char) : List Char := dir ++ '/' :: (tsStr name ++ ['.', 'c', 's', 'v'])

/-- calib_data.cpp:212-218: a grid without corners is given the target and the timestamp. -/
def complete (e : Pre K) (name : List Char) (g : Grid K) : Grid K :=
  if g.detected = false then
    withTarget g (tsOf name) e.rows e.cols e.size e.spacing
  else g

/-- Where the work on an image is. -/
inductive Pc (K : Type) where
  | start
  | reading
  | opening (g : Grid K) (lines : List (Line K))
  | writing (g : Grid K) (lines : List (Line K))
  | pushing (g : Grid K)
  | fin

abbrev FileSys (K : Type) := List Char → Option (File K)

/-- A file is written. -/
def put (fs : FileSys K) (path : List Char) (f : File K) : FileSys K :=
  fun p => if p = path then some f else fs p

/-- A line is appended; only the file this writer created is ever appended to. -/
def append (fs : FileSys K) (path : List Char) (l : Line K) : FileSys K :=
  put fs path (.csv ((match fs path with | some (.csv ls) => ls | _ => []) ++ [l]))

/-- One step of the work on an image, calib_data.cpp:188-229 and aprilgrid.cpp:279-343: the file
system, where the work is afterwards, and what is appended to the result. -/
def stepPc (e : Pre K) (path name : List Char) (fs : FileSys K) :
    Pc K → Except Fault (FileSys K × Pc K × List (Grid K))
  | .start =>
    if isTs name = false then .ok (fs, .fin, [])
    else if name = [] then .error .exn
    else match fs path with
      | some _ => .ok (fs, .reading, [])
      | none => AprilGrid.save e.p6 e.p10 (e.shot name) >>= fun ls => .ok (fs, .opening (e.shot name) ls, [])
  | .reading =>
    match fs path with
    | none => .ok (fs, .pushing (complete e name AprilGrid.default), [])
    | some f => loadFile e.v2 f >>= fun g => .ok (fs, .pushing (complete e name g), [])
  | .opening g ls => .ok (put fs path (.csv []), .writing g ls, [])
  | .writing g [] => .ok (fs, .pushing g, [])
  | .writing g (l :: ls) => .ok (append fs path l, .writing g ls, [])
  | .pushing g => .ok (fs, .fin, [g])
  | .fin => .ok (fs, .fin, [])

/-- The file system, where the work on each image is, and `cam_grids[cam_idx]`. -/
structure St (K : Type) where
  fs : FileSys K
  pcs : List (Pc K)
  out : List (Grid K)

/-- Before the loop calib_data.cpp:187. -/
def St.init (fs : FileSys K) (names : List (List Char)) : St K :=
  ⟨fs, names.map (fun _ => .start), []⟩

/-- The thread that works on image `k` makes a step. -/
def step (e : Pre K) (dir : List Char) (names : List (List Char)) (s : St K) (k : Nat) :
    Except Fault (St K) :=
  match names[k]?, s.pcs[k]? with
  | some name, some pc =>
    stepPc e (gridPath dir name) name s.fs pc >>= fun r =>
      .ok ⟨r.1, s.pcs.set k r.2.1, s.out ++ r.2.2⟩
  | _, _ => .ok s

/-- The loop calib_data.cpp:186-236 over the images of one camera, up to the end of a schedule. -/
def run (e : Pre K) (dir : List Char) (names : List (List Char)) (sched : List Nat) (s : St K) :
    Except Fault (St K) :=
  sched.foldlM (step e dir names) s

/-- All images have been worked on. -/
def Pc.done : Pc K → Bool
  | .fin => true
  | _ => false

/-- One camera of the loop calib_data.cpp:167-237 with its images and the schedule of the
threads, from the file system and `cam_grids`.  The end of the parallel loop waits for all
threads: with a schedule in which some image is not worked on to the end it does not return. -/
def camStep (e : Pre K) (gridsPath : List Char) (acc : FileSys K × List (Int × List (Grid K)))
    (c : Int × List (List Char) × List Nat) :
    Except Fault (FileSys K × List (Int × List (Grid K))) :=
  gridDir gridsPath c.1 >>= fun dir =>
  run e dir c.2.1 c.2.2 (St.init acc.1 c.2.1) >>= fun s =>
  if s.pcs.all Pc.done = false then .error .diverge
  else .ok (s.fs, if s.out.isEmpty then acc.2 else acc.2 ++ [(c.1, s.out)])

/-- `calib_data_preprocess`, calib_data.cpp:147-240, for cameras in ascending order
(`std::map`); a camera without grids has no entry. -/
def preprocess (e : Pre K) (gridsPath : List Char) (fs : FileSys K)
    (cams : List (Int × List (List Char) × List Nat)) :
    Except Fault (FileSys K × List (Int × List (Grid K))) :=
  cams.foldlM (camStep e gridsPath) (fs, [])

end Yac.Data
