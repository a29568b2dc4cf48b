import Verif.Containers.Model
import Mathlib.Algebra.Order.Ring.Int

/-!
# Model of yac/lib/util/timeline.{hpp,cpp}

`std::set<timestamp_t>` is its ascending element list, `std::multimap` its list of
entries in iteration order (ascending keys, insertion order among equal keys, the C++11
contract of `insert`).  The event payload is left abstract (`E`): `Event` records which
`add` overload was called.
-/

namespace Yac.Timeline

/-- The five `add` overloads (timeline.cpp:13-47) with their payloads; frames, grids,
images and vectors are values of arbitrary types. -/
inductive Event (Str Img Vec Grid Quat : Type) where
  | cameraPath (camIdx : Int) (path : Str)
  | cameraImage (camIdx : Int) (img : Img)
  | imu (acc gyr : Vec)
  | aprilgrid (camIdx : Int) (grid : Grid)
  | mocap (name : Str) (q : Quat) (r : Vec)
  deriving DecidableEq, Repr

/-- `timeline_t`, timeline.hpp:81-83. -/
structure T (E : Type) where
  timestamps : List Int
  data : List (Int × E)
  deriving DecidableEq, Repr

variable {E : Type}

/-- Constructor, timeline.cpp:5. -/
def empty : T E := ⟨[], []⟩

/-- `std::multimap::insert`: after all entries whose key is not greater. -/
def mmInsert (ts : Int) (e : E) : List (Int × E) → List (Int × E)
  | [] => [(ts, e)]
  | (k, v) :: l => if ts < k then (ts, e) :: (k, v) :: l else (k, v) :: mmInsert ts e l

/-- `add`, timeline.cpp:13-47 (all five overloads have this shape).  Timestamps are
`int64_t`; no arithmetic is done on them, so `Int` is exact. -/
def add (t : T E) (ts : Int) (e : E) : T E :=
  ⟨setInsert ts t.timestamps, mmInsert ts e t.data⟩

/-- `equal_range(ts)`: the entries with key `ts`, in iteration order.  (Modelled as the
search for lower and upper bound in the ascending entry list.) -/
def equalRange (t : T E) (ts : Int) : List (Int × E) :=
  (t.data.dropWhile (fun p => p.1 < ts)).takeWhile (fun p => ¬ ts < p.1)

/-- `nb_events`, timeline.cpp:49-52. -/
def nbEvents (t : T E) (ts : Int) : Nat := (equalRange t ts).length

/-- `get_events`, timeline.cpp:54-63. -/
def getEvents (t : T E) (ts : Int) : List E := (equalRange t ts).map Prod.snd

/-- A history of `add` calls. -/
def run (adds : List (Int × E)) : T E := adds.foldl (fun t a => add t a.1 a.2) empty

end Yac.Timeline
