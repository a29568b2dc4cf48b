import Verif.Timeline.Model

/-!
# Model of the memory of timelines (yac/lib/util/timeline.hpp, timeline.cpp)

The events of a timeline are allocated by `add` and freed by the destructor; `get_events` hands out pointers to them.  `timeline_t`
declares a destructor and no other special member (timeline.hpp:80-101), so that copying copies the pointers, and there is no move.
Addresses are numbers that are not used again; using an address that has been freed is the fault `oob`.
-/

namespace Yac.Timeline.Own

variable {E : Type}

/-- The heap, and the timelines a program has by name. -/
structure Mem (E : Type) where
  store : Nat → Option E
  next : Nat
  vars : Nat → Option (T Nat)

/-- Nothing is allocated. -/
def Mem.init : Mem E := ⟨fun _ => none, 0, fun _ => none⟩

/-- An assignment to the variable `v`. -/
def setVar (m : Mem E) (v : Nat) (t : Option (T Nat)) : Nat → Option (T Nat) := fun w => if w = v then t else m.vars w

/-- The constructor, timeline.cpp:5; nothing happens if there is a timeline of that name. -/
def create (m : Mem E) (v : Nat) : Mem E :=
  match m.vars v with
  | some _ => m
  | none => { m with vars := setVar m v (some empty) }

/-- `add`, timeline.cpp:13-47: the event is allocated. -/
def addEvent (m : Mem E) (v : Nat) (ts : Int) (e : E) : Mem E :=
  match m.vars v with
  | none => m
  | some t => ⟨fun a => if a = m.next then some e else m.store a, m.next + 1, setVar m v (some (add t ts m.next))⟩

/-- `delete kv.second`, timeline.cpp:9. -/
def free (store : Nat → Option E) (p : Int × Nat) : Except Fault (Nat → Option E) :=
  match store p.2 with
  | none => .error .oob
  | some _ => .ok (fun a => if a = p.2 then none else store a)

/-- The destructor, timeline.cpp:7-11. -/
def destroy (m : Mem E) (v : Nat) : Except Fault (Mem E) :=
  match m.vars v with
  | none => .ok m
  | some t => t.data.foldlM free m.store >>= fun s => .ok { m with store := s, vars := setVar m v none }

/-- The implicit copy constructor: `timestamps` and `data` are copied, timeline.hpp:81-82. -/
def copy (m : Mem E) (v w : Nat) : Mem E :=
  match m.vars v, m.vars w with
  | some t, none => { m with vars := setVar m w (some t) }
  | _, _ => m

/-- An event is looked at, e.g. calib_vi.cpp:1284-1305. -/
def deref (store : Nat → Option E) (a : Nat) : Except Fault E :=
  match store a with
  | none => .error .oob
  | some e => .ok e

/-- The events of a time, timeline.cpp:54-63, are looked at. -/
def read (m : Mem E) (v : Nat) (ts : Int) : Except Fault (List E) :=
  match m.vars v with
  | none => .ok []
  | some t => (getEvents t ts).mapM (deref m.store)

/-- What a program does with timelines, other than copying. -/
inductive Op (E : Type) where
  | create (v : Nat)
  | add (v : Nat) (ts : Int) (e : E)
  | destroy (v : Nat)

/-- One operation. -/
def step (m : Mem E) : Op E → Except Fault (Mem E)
  | .create v => .ok (create m v)
  | .add v ts e => .ok (addEvent m v ts e)
  | .destroy v => destroy m v

/-- A history. -/
def exec (ops : List (Op E)) : Except Fault (Mem E) := ops.foldlM step Mem.init

end Yac.Timeline.Own
