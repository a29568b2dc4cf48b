import Verif.Save.CamModel
import Verif.Data.PreModel
import Verif.Setup.InspectModel
import Verif.VI.QueryModel

/-!
# Model of the programs calib_camera, calib_vi, calib_mocap and calib_inspect (yac/demo)

The file system holds the results; what the constructors, `load_data` and `solve` do is modelled elsewhere (C51-C53, C117, C118,
C126-C128) and is a parameter here.  The outcome of a program is the file system and the exit status, or the fault that ends it.
-/

namespace Yac.Tool.Prog
open Yac.Save Yac.Config
open Yac.AprilGrid (Grid)

/-- A file of results: complete, or what had been printed when the program ended. -/
inductive File (Y : Type) where
  | doc (y : Y)
  | broken

abbrev Disk (Y : Type) := List Char → Option (File Y)

/-- A file is written. -/
def put {Y : Type} (d : Disk Y) (path : List Char) (f : File Y) : Disk Y := fun p => if p = path then some f else d p

/-- What a program does to the calibrator before the results are saved, and the document of the results. -/
structure Steps (C Y : Type) where
  /-- The constructor, given the files, the configuration file and (calib_mocap only) the data directory. -/
  make : Disk Y → List Char → List Char → Except Fault C
  load : Disk Y → List Char → C → Except Fault C
  solve : C → Except Fault C
  doc : C → Except Fault Y

/-- `save_results`, calib_camera.cpp:2290-2314, calib_vi.cpp:1708-1729 and calib_mocap.cpp:732-751: `fopen` empties the file
before anything is computed or printed.  `w`: the paths that can be opened. -/
def saveResults {Y : Type} (w : List Char → Bool) (path : List Char) (doc : Except Fault Y) (d : Disk Y) : Disk Y × Except Fault Int :=
  if w path = false then (d, .ok (-1))
  else match doc with
    | .ok y => (put d path (.doc y), .ok 0)
    | .error f => (put d path .broken, .error f)

/-- The end of `main`: the return value of `save_results` is dropped; calib_camera.cpp:16-18, calib_vi.cpp:16-18 and
calib_mocap.cpp:62-64 (yac/demo). -/
def finish {C Y : Type} (s : Steps C Y) (w : List Char → Bool) (path : List Char) (d : Disk Y) : Except Fault C → Disk Y × Except Fault Int
  | .error f => (d, .error f)
  | .ok c =>
    match saveResults w path (s.doc c) d with
    | (d', .ok _) => (d', .ok 0)
    | (d', .error f) => (d', .error f)

/-- `main`, demo/calib_camera.cpp:3-19; `args` is `argv`. -/
def cameraMain {C Y : Type} (s : Steps C Y) (w : List Char → Bool) (args : List (List Char)) (d : Disk Y) : Disk Y × Except Fault Int :=
  match args with
  | [_, config, data] =>
    finish s w (data ++ "/calib_camera-results.yaml".toList) d
      (s.make d config data >>= fun c => s.load d data c >>= fun c => s.solve c)
  | _ => (d, .ok (-1))

/-- `main`, demo/calib_vi.cpp:3-19. -/
def viMain {C Y : Type} (s : Steps C Y) (w : List Char → Bool) (args : List (List Char)) (d : Disk Y) : Disk Y × Except Fault Int :=
  match args with
  | [_, config, data] =>
    finish s w (data ++ "/calib_vi-results.yaml".toList) d
      (s.make d config data >>= fun c => s.load d data c >>= fun c => s.solve c)
  | _ => (d, .ok (-1))

/-- `main`, demo/calib_mocap.cpp:50-65: the constructor loads the data. -/
def mocapMain {C Y : Type} (s : Steps C Y) (w : List Char → Bool) (args : List (List Char)) (d : Disk Y) : Disk Y × Except Fault Int :=
  match args with
  | [_, config, data] =>
    finish s w (data ++ "/calib_mocap-results.yaml".toList) d (s.make d config data >>= fun c => s.solve c)
  | _ => (d, .ok (-1))

/-! ### calib_inspect -/

/-- `load_dataset`, demo/calib_inspect.cpp:11-18: two cameras, and the default target (calib_data.hpp:29-33), whatever the
configuration says.  `images`: the names of the images in a directory and the schedule of the threads; `shot` the detector for a
target. -/
def loadDataset {K : Type} [Field K] (p6 p10 : K → K) (shot : Nat → Nat → K → K → List Char → Grid K)
    (images : List Char → List (List Char) × List Nat) (data : List Char) (fs : Data.FileSys K) :
    Except Fault (Data.FileSys K × List (Int × List (Grid K))) :=
  Data.preprocess ⟨6, 6, 88 / 1000, 3 / 10, false, shot 6 6 (88 / 1000) (3 / 10), p6, p10⟩ (data ++ "/mav0/grid0".toList) fs
    [(0, images (data ++ "/mav0/cam0/data".toList)), (1, images (data ++ "/mav0/cam1/data".toList))]

/-- The parts of `main` of calib_inspect that are parameters: the constructors, given the configuration file, `load_data` of
`calib_vi_t`, and the residuals of its fiducials. -/
structure Insp (K V D : Type) where
  camera : List Char → Except Fault (Calib.Cal ℝ V)
  env : Setup.InspEnv V
  vi : List Char → Except Fault (VI.St K D × (VI.Par → Bool))
  load : List Char → VI.St K D → Except Fault (VI.St K D)
  factor : ℝ
  res : VI.Fid K → ℝ × ℝ

/-- What calib_inspect reports: the error of the camera calibration, or the calibrator the statistics are printed for. -/
inductive Report (K D : Type) where
  | usage
  | camera (e : ℝ)
  | vi (s : VI.St K D) (calls : List (VI.SolveCall K))

/-- `main`, demo/calib_inspect.cpp:20-50.  The exit status is -1 for `usage` and 0 for the rest. -/
noncomputable def inspectMain {K V D : Type} [DecidableEq K] (i : Insp K V D) (dataset : List Char → Except Fault (List (Int × List (Grid ℝ))))
    (args : List (List Char)) : Except Fault (Report K D × Int) :=
  match args with
  | [_, mode, config, data] =>
    if mode = "camera".toList then
      dataset data >>= fun valid => i.camera config >>= fun c => Setup.inspect i.env c valid >>= fun e => .ok (.camera e, 0)
    else if mode = "camera-imu".toList then
      i.vi config >>= fun c => i.load data c.1 >>= fun s => VI.solve false i.factor i.res c.2 s >>= fun o => .ok (.vi o.1 o.2.2, 0)
    else .error .fatal
  | _ => .ok (.usage, -1)

end Yac.Tool.Prog
