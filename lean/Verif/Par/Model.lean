import Verif.Calib.CameraModel

/-!
# Model of the parallel loop of `find_nbv_fast` (yac/lib/calib_camera.cpp:1280-1303)

The loop over the cameras is shared between threads by `#pragma omp parallel for`; every thread works on the cameras of its part
one after the other.  The score of a candidate is a function of the candidate alone (`nbv_evaluator_t::eval`, 2590-2704, writes no
member; its model is `Info.NbvModel`).  `nbv_scores` is shared without a lock.
-/

namespace Yac.Par
open Yac.Calib

variable {K V : Type} [Field K] [LinearOrder K]

/-- A thread: the candidates (camera, index, pose) that are left, and the score of the first of them if it has been computed
(calib_camera.cpp:1287-1291). -/
structure Worker (K V : Type) where
  todo : List (Int × Nat × V)
  hold : Option K

/-- `nbv_scores` and the threads. -/
structure St (K V : Type) where
  table : List (Int × List (Nat × K))
  workers : List (Worker K V)

/-- The candidates of some cameras in the order of the loops, calib_camera.cpp:1283-1288. -/
def tasks (cams : List (Int × List V)) : List (Int × Nat × V) :=
  cams.flatMap (fun cp => ((List.range cp.2.length).zip cp.2).map (fun iT => (cp.1, iT.1, iT.2)))

/-- The start of the loop, calib_camera.cpp:1280-1282: `teams` are the cameras of each thread. -/
def St.init (teams : List (List (Int × List V))) : St K V := ⟨[], teams.map (fun cams => ⟨tasks cams, none⟩)⟩

/-- `nbv_scores[nbv_cam_idx][i] = nbv_score`, calib_camera.cpp:1291. -/
def store (table : List (Int × List (Nat × K))) (cam : Int) (i : Nat) (v : K) : List (Int × List (Nat × K)) :=
  SMap.set cam (SMap.set i v ((SMap.find cam table).getD [])) table

/-- A step of a thread: it computes a score or stores it, calib_camera.cpp:1289-1291. -/
def work (score : V → K) (table : List (Int × List (Nat × K))) (w : Worker K V) :
    List (Int × List (Nat × K)) × Worker K V :=
  match w.todo, w.hold with
  | [], _ => (table, w)
  | (_, _, T) :: _, none => (table, { w with hold := some (score T) })
  | (c, i, _) :: rest, some v => (store table c i v, ⟨rest, none⟩)

/-- Thread `k` makes a step. -/
def step (score : V → K) (s : St K V) (k : Nat) : St K V :=
  match s.workers[k]? with
  | none => s
  | some w => ⟨(work score s.table w).1, s.workers.set k (work score s.table w).2⟩

/-- The loop up to the end of a schedule. -/
def run (score : V → K) (sched : List Nat) (s : St K V) : St K V := sched.foldl (step score) s

/-- All threads have reached the end of the loop. -/
def St.done (s : St K V) : Bool := s.workers.all (fun w => w.todo.isEmpty)

/-- What the next step of a thread does to the outer map of `nbv_scores`: nothing, or `operator[]`, which only reads when the
camera has an entry and inserts one otherwise. -/
inductive Access | nothing | reads | inserts
  deriving DecidableEq

/-- The access of `nbv_scores[nbv_cam_idx]`, calib_camera.cpp:1291. -/
def access (table : List (Int × List (Nat × K))) (w : Worker K V) : Access :=
  match w.todo, w.hold with
  | (c, _, _) :: _, some _ => if (SMap.find c table).isSome then .reads else .inserts
  | _, _ => .nothing

/-- `nbv_scores[cam][i]` in the scan; `operator[]` makes a zero of a missing entry, calib_camera.cpp:1299-1302. -/
def readScore (table : List (Int × List (Nat × K))) (cam : Int) (i : Nat) : K :=
  (SMap.find i ((SMap.find cam table).getD [])).getD 0

/-- The scan, calib_camera.cpp:1294-1305. -/
def scan (table : List (Int × List (Nat × K))) (cands : List (Int × List V)) : Best K :=
  cands.foldl (fun b cp =>
    (List.range cp.2.length).foldl (fun b i => b.update cp.1 i (some (readScore table cp.1 i))) b) ⟨0, 0, 0⟩

/-- `find_nbv_fast`, calib_camera.cpp:1251-1313, with the part of each thread and the schedule.  The end of the parallel loop
waits for all threads. -/
def findNbvPar (env : Env K V) (score : V → K) (s : Cal K V) (cands : List (Int × List V))
    (teams : List (List (Int × List V))) (sched : List Nat) : Except Fault (Option (NbvResult K)) :=
  if cands = [] then .error .fatal
  else if nbViews s = 0 then .error .fatal
  else match env.info s with
    | none => .ok none
    | some (info, _) =>
      if (List.range cands.length).all (fun i => (SMap.find (i : Int) cands).isSome) then
        if (run score sched (St.init teams)).done then
          .ok (some (nbvResult s.threshold info (scan (run score sched (St.init teams)).table cands)))
        else .error .diverge
      else .error .exn

/-! ### Specification -/

/-- Two threads are about to use the outer map at the same time and one of them inserts: a data race, undefined in C++. -/
def Race (s : St K V) : Prop :=
  ∃ (j k : Nat) (u v : Worker K V), j ≠ k ∧ s.workers[j]? = some u ∧ s.workers[k]? = some v ∧
    access s.table u = .inserts ∧ access s.table v ≠ .nothing

/-- The threads share the cameras between them. -/
def Shares (teams : List (List (Int × List V))) (cands : List (Int × List V)) : Prop := teams.flatten.Perm cands

/-- A thread has a candidate to score. -/
def Busy (cams : List (Int × List V)) : Prop := ∃ cp ∈ cams, cp.2 ≠ []

end Yac.Par
