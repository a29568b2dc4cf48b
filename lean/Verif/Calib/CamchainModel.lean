import Verif.Basic
import Verif.Containers.SMap
import Verif.Geom.Rot

/-!
# Model of `camchain_t` (yac/lib/calib_camera.cpp:5-150)

`std::map` is an ascending association list.  Transforms are 4x4 matrices over a commutative
ring; `grid.estimate` (OpenCV `solvePnP`) is an oracle.
-/

namespace Yac.Calib
open Matrix Yac.Geom

variable {K : Type} [CommRing K]

/-- `camchain_t`, calib_camera.hpp: the adjacency lists and the pairwise extrinsics. -/
structure Camchain (K : Type) where
  adj : List (Int × List Int) := []
  exts : List (Int × List (Int × Mat4 K)) := []

/-- `map[k]` of a nested `std::map` (default constructs an absent entry). -/
def subMap {V : Type} (k : Int) (m : List (Int × List V)) : List V := (SMap.find k m).getD []

/-- `camchain_t::contains`, calib_camera.cpp:84-86. -/
def Camchain.contains (c : Camchain K) (i j : Int) : Bool :=
  match SMap.find i c.exts with
  | none => false
  | some m => (SMap.find j m).isSome

/-- `exts[i][j] = T`. -/
def setExt (i j : Int) (T : Mat4 K) (e : List (Int × List (Int × Mat4 K))) :
    List (Int × List (Int × Mat4 K)) :=
  SMap.set i (SMap.set j T (subMap i e)) e

/-- `adj_list[i].push_back(j)`. -/
def pushAdj (i j : Int) (a : List (Int × List Int)) : List (Int × List Int) :=
  SMap.set i (subMap i a ++ [j]) a

/-- `camchain_t::insert`, calib_camera.cpp:71-82. -/
def Camchain.insert (c : Camchain K) (i j : Int) (T : Mat4 K) : Camchain K :=
  if c.contains i j then c
  else ⟨pushAdj j i (pushAdj i j c.adj), setExt j i (tfInv T) (setExt i j T c.exts)⟩

/-- The variables of the breadth first search, calib_camera.cpp:108-112. -/
structure Bfs where
  found : Bool := false
  queue : List Int := []
  visited : List (Int × Bool) := []
  path : List (Int × Int) := []

/-- `visited.at(k)`: throws `std::out_of_range` when the key is absent. -/
def visitedAt (v : List (Int × Bool)) (k : Int) : Except Fault Bool :=
  match SMap.find k v with
  | some b => .ok b
  | none => .error .exn

/-- The loop over the children, calib_camera.cpp:119-132. -/
def bfsChildren (target parent : Int) : List Int → Bfs → Except Fault Bfs
  | [], s => .ok s
  | ch :: l, s => do
    let seen ← visitedAt s.visited ch
    if seen then bfsChildren target parent l s
    else
      let s' : Bfs := { s with queue := s.queue ++ [ch], path := SMap.set ch parent s.path }
      if ch = target then .ok { s' with found := true }
      else bfsChildren target parent l s'

/-- The loop over the queue, calib_camera.cpp:115-133, for at most `fuel` iterations. -/
def bfsLoop (adj : List (Int × List Int)) (target : Int) : Nat → Bfs → Except Fault Bfs
  | 0, s => if s.queue = [] then .ok s else .error .diverge
  | fuel + 1, s =>
    match s.queue with
    | [] => .ok s
    | parent :: q => do
      let _ ← visitedAt s.visited parent
      let s := { s with queue := q, visited := SMap.set parent true s.visited }
      match SMap.find parent adj with
      | none => .error .exn
      | some l => do
        let s ← bfsChildren target parent l s
        bfsLoop adj target fuel s

/-- Chaining the transforms, calib_camera.cpp:141-148, for at most `fuel` iterations. -/
def chain (exts : List (Int × List (Int × Mat4 K))) (path : List (Int × Int)) :
    Nat → Int → Mat4 K → Except Fault (Mat4 K)
  | 0, child, T => if (SMap.find child path).isSome then .error .diverge else .ok T
  | fuel + 1, child, T =>
    match SMap.find child path with
    | none => .ok T
    | some parent =>
      match SMap.find child exts with
      | none => .error .exn
      | some m =>
        match SMap.find parent m with
        | none => .error .exn
        | some E => chain exts path fuel parent (T * E)

/-- `camchain_t::find`, calib_camera.cpp:88-150: the return code and the transform written
to the output argument (`none` when it is left untouched). -/
def Camchain.find (c : Camchain K) (fuel : Nat) (i j : Int) :
    Except Fault (Int × Option (Mat4 K)) :=
  if i = j then .ok (0, some 1)
  else if (SMap.find i c.exts).isNone || (SMap.find j c.exts).isNone then .ok (-1, none)
  else if c.contains i j then
    .ok (0, SMap.find j (subMap i c.exts))
  else do
    let s ← bfsLoop c.adj j fuel { queue := [i] }
    if s.found = false then .ok (-2, none)
    else
      let T ← chain c.exts s.path fuel j 1
      .ok (0, some (tfInv T))

/-! ## The constructor -/

/-- What the constructor reads of an `aprilgrid_t`: its two flags, and the pose that
`grid.estimate` computes for it (`none` when it fails). -/
structure ChainGrid (K : Type) where
  detected : Bool
  nbDetections : Int
  pose : Option (Mat4 K)

/-- `camchain_t::_get_aprilgrids`, calib_camera.cpp:54-69. -/
def getGrids (l : List (Int × ChainGrid K)) : List (Int × ChainGrid K) :=
  l.filter (fun p => !(p.2.detected == false && decide (p.2.nbDetections < 12)))

/-- The loop over the other cameras of one frame, calib_camera.cpp:31-50. -/
def chainFrame (base : Int) (g : ChainGrid K) :
    List (Int × ChainGrid K) → Camchain K → Except Fault (Camchain K)
  | [], c => .ok c
  | (cj, gj) :: l, c =>
    if c.contains base cj then chainFrame base g l c
    else
      match g.pose, gj.pose with
      | some Ti, some Tj => chainFrame base g l (c.insert base cj (Ti * tfInv Tj))
      | _, _ => .error .fatal

/-- `camchain_t::camchain_t`, calib_camera.cpp:7-52; `data` lists the frames in time order. -/
def Camchain.build : List (List (Int × ChainGrid K)) → Camchain K → Except Fault (Camchain K)
  | [], c => .ok c
  | frame :: rest, c =>
    match getGrids frame with
    | [] => Camchain.build rest c
    | [_] => Camchain.build rest c
    | (ci, gi) :: l => do
      let c ← chainFrame ci gi l c
      Camchain.build rest c

end Yac.Calib
