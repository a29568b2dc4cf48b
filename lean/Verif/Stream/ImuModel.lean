import Verif.Basic
import Mathlib.Data.List.Basic

/-!
# Model of the IMU buffer `imu_data_t` (yac/lib/util/core.hpp:1666-1835)

Three parallel `std::deque`s.  `V` stands for `vec3_t`.
-/

namespace Yac.Stream

/-- `imu_data_t`, core.hpp:1666-1670. -/
structure Imu (V : Type) where
  ts : List Int := []
  acc : List V := []
  gyr : List V := []
  deriving DecidableEq

variable {V : Type}

/-- `deque[k]`; outside the container the behaviour is undefined. -/
def at? {α : Type} (l : List α) (k : Nat) : Except Fault α :=
  match l[k]? with
  | some x => .ok x
  | none => .error .oob

/-- `imu_data_t::add`, core.hpp:1675-1679. -/
def Imu.add (b : Imu V) (t : Int) (a g : V) : Imu V := ⟨b.ts ++ [t], b.acc ++ [a], b.gyr ++ [g]⟩

/-- `imu_data_t::size`, core.hpp:1687. -/
def Imu.size (b : Imu V) : Nat := b.ts.length

/-- `imu_data_t::last_ts`, core.hpp:1691 (`back()` of an empty deque is undefined). -/
def Imu.lastTs (b : Imu V) : Except Fault Int :=
  match b.ts.getLast? with
  | some t => .ok t
  | none => .error .oob

/-- `imu_data_t::time_span`, core.hpp:1681-1685, in nanoseconds (`ts2sec` applied by the code
multiplies by 1e-9). -/
def Imu.timeSpan (b : Imu V) : Except Fault Int :=
  match b.ts.head?, b.ts.getLast? with
  | some f, some l => .ok (l - f)
  | _, _ => .error .oob

/-- `imu_data_t::clear`, core.hpp:1697-1701. -/
def Imu.clear (_ : Imu V) : Imu V := {}

/-- The three `push_back`s of sample `k` of `b`, core.hpp:1727-1729 and 1732-1734. -/
def pushSample (b : Imu V) (k : Nat) (new : Imu V) : Except Fault (Imu V) := do
  let t ← at? b.ts k
  let a ← at? b.acc k
  let g ← at? b.gyr k
  .ok (new.add t a g)

/-- Body of the loop of `trim`, core.hpp:1725-1735. -/
def trimStep (b : Imu V) (tend : Int) (new : Imu V) (k : Nat) : Except Fault (Imu V) := do
  let t ← at? b.ts k
  if tend ≤ t then do
    let new ← if 0 < k ∧ new.ts.length = 0 then pushSample b (k - 1) new else .ok new
    pushSample b k new
  else .ok new

/-- `imu_data_t::trim`, core.hpp:1703-1740. -/
def Imu.trim (b : Imu V) (tend : Int) : Except Fault (Imu V) :=
  match b.ts with
  | [] => .ok b
  | t0 :: _ =>
    if tend < t0 then .ok b
    else (List.range b.ts.length).foldlM (trimStep b tend) {}

/-- The loop of `extract`, core.hpp:1754-1800: the extracted samples and `remove_idx`.  Both
interpolation branches initialise a local constant from itself (lines 1772-1773 and 1787-1788),
which reads an uninitialised vector. -/
def extractLoop (b : Imu V) (t0 t1 : Int) : List Nat → Imu V → Nat → Except Fault (Imu V × Nat)
  | [], buf, rm => .ok (buf, rm)
  | k :: ks, buf, rm => do
    let tk ← at? b.ts k
    if tk < t0 then extractLoop b t0 t1 ks buf rm
    else do
      let a ← at? b.acc k
      let g ← at? b.gyr k
      if buf.ts.length = 0 ∧ t0 < tk then
        if k = 0 then .error .oob else .error .uninit
      else if t1 < tk then
        if k = 0 then .error .oob else .error .uninit
      else
        let buf := buf.add tk a g
        if tk = t1 then .ok (buf, rm)
        else extractLoop b t0 t1 ks buf k

/-- `imu_data_t::extract`, core.hpp:1742-1810: the returned samples and the buffer left behind. -/
def Imu.extract (b : Imu V) (t0 t1 : Int) : Except Fault (Imu V × Imu V) :=
  match b.ts.head?, b.ts.getLast? with
  | some f, some l =>
    if t0 < f then .error .fatal
    else if l < t1 then .error .fatal
    else do
      let (buf, rm) ← extractLoop b t0 t1 (List.range b.ts.length) {} 0
      .ok (buf, ⟨b.ts.drop rm, b.acc.drop rm, b.gyr.drop rm⟩)
  | _, _ => .error .oob

end Yac.Stream
