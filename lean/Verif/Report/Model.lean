import Verif.Text.Model
import Verif.Fmt.Model
import Verif.Containers.SMap
import Mathlib.Data.List.OfFn

/-!
# Model of the tables that calibrators print

calib_camera.cpp:1682-1694 (`_track_estimates`), 2039-2069 (`print_poses`), 2071-2102 (`print_camera_convergence`),
2104-2140 (`print_extrinsics_convergence`), 2142-2202 (`print_convergence`), 2204-2262 (`print_reproj_errors`);
calib_mocap.cpp:689-719 (`print_mocap_poses`).

Doubles are rationals.  A pose is printed as its position and quaternion, which are given here.  The rmse, mean, median and
standard deviation of a list of errors are a parameter (C29 says what they are).
-/

namespace Yac.Report
open Yac.Text Yac.Fmt

abbrev Str := List Char

/-- A printed table: the numbers of rows and columns that it announces, and the text between `[` and `]`. -/
structure Table where
  rows : ℕ
  cols : ℕ
  data : Str

/-- What a call of `_track_estimates` sees: the time, whether the view was accepted, the parameters and the extrinsics
(position, quaternion) of every camera, information, entropy and reprojection errors. -/
structure Snap where
  ts : ℤ
  accepted : Bool
  cams : List (ℤ × List ℚ)
  exts : List (ℤ × (Fin 7 → ℚ))
  info : ℚ
  entropy : ℚ
  errs : List ℚ

/-- The history of a camera calibrator, calib_camera.hpp:142-148. -/
structure Hist where
  times : List ℤ
  cams : List (ℤ × List (ℤ × List ℚ))
  exts : List (ℤ × List (ℤ × (Fin 7 → ℚ)))
  info : List (ℤ × ℚ)
  entropy : List (ℤ × ℚ)
  errs : List (ℤ × List ℚ)
  accepted : List (ℤ × Bool)

/-- The history of a new calibrator, calib_camera.hpp:142-148. -/
def Hist.empty : Hist := ⟨[], [], [], [], [], [], []⟩

/-- `m[ts][idx] = v`, calib_camera.cpp:1687-1688. -/
def put {V : Type} (ts : ℤ) (m : List (ℤ × List (ℤ × V))) (e : ℤ × V) : List (ℤ × List (ℤ × V)) :=
  SMap.set ts (SMap.set e.1 e.2 ((SMap.find ts m).getD [])) m

/-- `_track_estimates`, calib_camera.cpp:1682-1694. -/
def track (h : Hist) (s : Snap) : Hist where
  times := h.times ++ [s.ts]
  cams := s.cams.foldl (put s.ts) h.cams
  exts := s.exts.foldl (put s.ts) h.exts
  info := SMap.set s.ts s.info h.info
  entropy := SMap.set s.ts s.entropy h.entropy
  errs := SMap.set s.ts s.errs h.errs
  accepted := SMap.set s.ts s.accepted h.accepted

/-- `m.at(k)`: throws when there is no such key. -/
def atKey {V : Type} (m : List (ℤ × V)) (k : ℤ) : Except Fault V :=
  match SMap.find k m with
  | some v => .ok v
  | none => .error .exn

/-- `%d` of a `bool`. -/
def flagText (b : Bool) : Str := if b then "1".toList else "0".toList

/-- Cells with a comma between them. -/
def csv : List Str → Str
  | [] => []
  | [a] => a
  | a :: b :: t => a ++ ",".toList ++ csv (b :: t)

/-- Rows as the `while` loops print them: `",\n"` after a row unless it is the last, calib_camera.cpp:2060-2064,
2093-2097, 2130-2134, 2194-2198, 2250-2254. -/
def glue : List Str → Str
  | [] => []
  | [a] => a ++ "\n".toList
  | a :: b :: t => a ++ ",\n".toList ++ glue (b :: t)

/-- The text between the brackets: `"data: [\n"`, the rows, `"  ]\n"`. -/
def body (text : Str) : Str := "\n".toList ++ text ++ "  ".toList

/-- A row of a pose, calib_camera.cpp:2055-2058, calib_mocap.cpp:703-706. -/
def poseRow (e : ℤ × (Fin 7 → ℚ)) : Str := "    ".toList ++ csv (fmtLd e.1 :: List.ofFn (fun i => fmtF (e.2 i)))

/-- `calib_camera_t::print_poses`, calib_camera.cpp:2039-2069, and `calib_mocap_t::print_mocap_poses`,
calib_mocap.cpp:689-719: `views` is the number of views. -/
def posesTable (views : ℕ) (poses : List (ℤ × (Fin 7 → ℚ))) : Table := ⟨views, 8, body (glue (poses.map poseRow))⟩

/-- A row of the camera convergence, calib_camera.cpp:2085-2090. -/
def camRow (h : Hist) (idx ts : ℤ) : Except Fault Str :=
  atKey h.cams ts >>= fun m => atKey m idx >>= fun p => atKey h.accepted ts >>= fun a =>
    .ok ("    ".toList ++ fmtLd ts ++ ",".toList ++ flagText a ++ ",".toList ++ vec2str p false false)

/-- The table of a camera, calib_camera.cpp:2073-2100; `*calib_timestamps.begin()` of an empty vector is no element. -/
def camTable (h : Hist) (idx : ℤ) : Except Fault Table :=
  match h.times with
  | [] => .error .oob
  | t0 :: _ => atKey h.cams t0 >>= fun m => atKey m idx >>= fun p =>
      h.times.mapM (camRow h idx) >>= fun rows => .ok ⟨h.times.length, p.length + 2 + 1, body (glue rows)⟩

/-- `print_camera_convergence`, calib_camera.cpp:2071-2102, for the cameras `idxs`. -/
def camTables (h : Hist) (idxs : List ℤ) : Except Fault (List (ℤ × Table)) :=
  idxs.mapM (fun i => camTable h i >>= fun t => .ok (i, t))

/-- A row of the extrinsics convergence, calib_camera.cpp:2120-2127. -/
def extRow (h : Hist) (idx ts : ℤ) : Except Fault Str :=
  atKey h.exts ts >>= fun m => atKey m idx >>= fun v => atKey h.accepted ts >>= fun a =>
    .ok ("    ".toList ++ csv (fmtLd ts :: flagText a :: List.ofFn (fun i => fmtF (v i))))

/-- The table of a camera, calib_camera.cpp:2110-2138. -/
def extTable (h : Hist) (idx : ℤ) : Except Fault Table :=
  h.times.mapM (extRow h idx) >>= fun rows => .ok ⟨h.times.length, 9, body (glue rows)⟩

/-- `print_extrinsics_convergence`, calib_camera.cpp:2104-2140: not for camera 0. -/
def extTables (h : Hist) (idxs : List ℤ) : Except Fault (List (ℤ × Table)) :=
  (idxs.filter (fun i => decide (i ≠ 0))).mapM (fun i => extTable h i >>= fun t => .ok (i, t))

/-- Rmse, mean, median and standard deviation of errors, or -1, calib_camera.cpp:2181-2191. -/
def statCells (stats : List ℚ → Fin 4 → ℚ) (errs : List ℚ) : List Str :=
  if errs.length ≠ 0 then List.ofFn (fun i => fmtF (stats errs i)) else List.replicate 4 "-1.0".toList

/-- A row of the convergence, calib_camera.cpp:2169-2191. -/
def convRow (stats : List ℚ → Fin 4 → ℚ) (h : Hist) (e : ℤ × ℕ) : Except Fault Str :=
  atKey h.accepted e.1 >>= fun a => atKey h.info e.1 >>= fun i => atKey h.entropy e.1 >>= fun n => atKey h.errs e.1 >>= fun r =>
    .ok ("    ".toList ++ csv ([natText e.2, fmtLd e.1, flagText a, fmtF i, fmtF n] ++ statCells stats r))

/-- `print_convergence`, calib_camera.cpp:2142-2202: nothing without a history. -/
def convTable (stats : List ℚ → Fin 4 → ℚ) (h : Hist) : Except Fault (Option Table) :=
  if h.times.length = 0 then .ok none
  else h.times.zipIdx.mapM (convRow stats h) >>= fun rows => .ok (some ⟨h.times.length, 9, body (glue rows)⟩)

/-- A reprojection residual: tag, corner, measured keypoint, whether the corner is projected into the image, and what the
projection writes (calib_residuals.cpp:386-409). -/
structure Corner where
  tag : ℤ
  corner : ℤ
  z : ℚ × ℚ
  ok : Bool
  written : Option (ℚ × ℚ)

/-- `z_hat` after `get_residual`, calib_camera.cpp:2236-2238. -/
def Corner.zhat (c : Corner) : ℚ × ℚ := c.written.getD (-1, -1)

/-- `r` after `get_residual`, calib_camera.cpp:2237-2238, calib_residuals.cpp:401-406. -/
def Corner.res (c : Corner) : ℚ × ℚ := if c.ok then (c.z.1 - c.zhat.1, c.z.2 - c.zhat.2) else (-1, -1)

/-- A row of the reprojection errors, calib_camera.cpp:2240-2248. -/
def errRow (cam ts : ℤ) (a : Bool) (c : Corner) : Str :=
  "    ".toList ++ fmtLd cam ++ ", ".toList ++ fmtLd ts ++ ", ".toList ++ flagText a ++ ",".toList ++ fmtLd c.tag ++
    ", ".toList ++ fmtLd c.corner ++ ", ".toList ++ fmtF c.z.1 ++ ", ".toList ++ fmtF c.z.2 ++ ", ".toList ++
    fmtF c.zhat.1 ++ ", ".toList ++ fmtF c.zhat.2 ++ ", ".toList ++ fmtF c.res.1 ++ ", ".toList ++ fmtF c.res.2

/-- The rows of a camera of a view, calib_camera.cpp:2228-2256. -/
def errGroup (h : Hist) (ts cam : ℤ) (cs : List Corner) : Except Fault Str :=
  cs.mapM (fun c => atKey h.accepted ts >>= fun a => .ok (errRow cam ts a c)) >>= fun rows => .ok (glue rows)

/-- `print_reproj_errors`, calib_camera.cpp:2204-2262; `views` maps times to cameras to residuals.  The announced number of
rows is that of `get_all_reproj_errors`, where corners that are not projected are left out (calib_camera.cpp:258-271). -/
def errTable (h : Hist) (views : List (ℤ × List (ℤ × List Corner))) : Except Fault Table :=
  (views.flatMap (fun v => v.2.map (fun c => (v.1, c)))).mapM (fun g => errGroup h g.1 g.2.1 g.2.2) >>= fun texts =>
    .ok ⟨((views.flatMap (fun v => v.2.flatMap Prod.snd)).filter Corner.ok).length, 11, body texts.flatten⟩

end Yac.Report
