import Verif.Basic
import Mathlib.Order.Defs.LinearOrder

/-!
# Model of the container helpers of yac/lib/util/data.hpp

`std::vector` is a `List`; `std::set` is the list of its elements in iteration
(ascending) order; `std::unordered_map` counters are association lists.
-/

namespace Yac

variable {α : Type}

/-- `pop_front(std::vector<T>&)`, yac/lib/util/data.hpp:141-146 (the second overload
150-155 has the same body).  `vec.front() = std::move(vec.back()); vec.pop_back()`:
the *last* element takes the place of the first one.  The empty vector trips the
`assert`. -/
def popFront : List α → Except Fault (List α)
  | [] => .error .fatal
  | [_] => .ok []
  | _ :: y :: ys => .ok ((y :: ys).getLast (by simp) :: (y :: ys).dropLast)

/-- `extend(x, add)`, yac/lib/util/data.hpp:161-164 (and 170-173): the new value of `x`. -/
def extend (x add : List α) : List α := x ++ add

/-- `slice(v, m, n)`, yac/lib/util/data.hpp:179-185 (and 191-197).  The iterators
`begin+m` and `begin+n+1` must delimit a valid range of the vector; anything else is
undefined behaviour in C++ and is the outcome `oob` here. -/
def slice (v : List α) (m n : Int) : Except Fault (List α) :=
  if 0 ≤ m ∧ m ≤ n + 1 ∧ n + 1 ≤ v.length then
    .ok ((v.drop m.toNat).take (n + 1 - m).toNat)
  else .error .oob

variable [LinearOrder α]

/-- `std::set<T>::insert`: the element list stays ascending, an equivalent element is
kept (library contract used by yac/lib/util/data.hpp:249, 299, 323). -/
def setInsert (a : α) : List α → List α
  | [] => [a]
  | b :: l => if a < b then a :: b :: l else if b < a then b :: setInsert a l else b :: l

/-- `set_union(s1, s2)`, yac/lib/util/data.hpp:246-251: copy of `s1`, then every
element of `s2` is inserted. -/
def setUnion (s1 s2 : List α) : List α := s2.foldl (fun acc x => setInsert x acc) s1

/-- The merge loop of `std::set_difference` on two ranges (libstdc++), called by
`set_diff`, yac/lib/util/data.hpp:256-265. -/
def setDiff : List α → List α → List α
  | [], _ => []
  | a :: as, [] => a :: as
  | a :: as, b :: bs =>
    if a < b then a :: setDiff as (b :: bs)
    else if b < a then setDiff (a :: as) bs
    else setDiff as bs
termination_by as bs => as.length + bs.length

/-- The merge loop of `std::set_symmetric_difference`, called by
`set_symmetric_diff`, yac/lib/util/data.hpp:270-279. -/
def setSymDiff : List α → List α → List α
  | [], bs => bs
  | a :: as, [] => a :: as
  | a :: as, b :: bs =>
    if a < b then a :: setSymDiff as (b :: bs)
    else if b < a then b :: setSymDiff (a :: as) bs
    else setSymDiff as bs
termination_by as bs => as.length + bs.length

/-- `counter[p] += 1` on the counter map of `intersection`,
yac/lib/util/data.hpp:288-293. -/
def bump (p : α) : List (α × Nat) → List (α × Nat)
  | [] => [(p, 1)]
  | (q, n) :: c => if q = p then (q, n + 1) :: c else (q, n) :: bump p c

/-- `intersection(vecs)`, yac/lib/util/data.hpp:285-304: count all occurrences over all
vectors, then collect into a `std::set` the keys whose count equals the number of
vectors.  (The hash map's iteration order is irrelevant: the result is a `std::set`.) -/
def intersection (vecs : List (List α)) : List α :=
  let counter := vecs.foldl (fun c vec => vec.foldl (fun c p => bump p c) c) []
  counter.foldl (fun acc el => if el.2 = vecs.length then setInsert el.1 acc else acc) []

/-- `ordered_set_t`, yac/lib/util/data.hpp:309-338: a vector and a set. -/
structure OrderedSet (α : Type) where
  vector : List α
  set : List α
  deriving DecidableEq, Repr

namespace OrderedSet

/-- Default constructor, yac/lib/util/data.hpp:334-337. -/
def empty : OrderedSet α := ⟨[], []⟩

/-- `insert`, yac/lib/util/data.hpp:322-325: push to the vector only if the set
insertion took place. -/
def insert (s : OrderedSet α) (x : α) : OrderedSet α :=
  if x ∈ s.set then s else ⟨s.vector ++ [x], setInsert x s.set⟩

/-- `clear`, yac/lib/util/data.hpp:329-332. -/
def clear (_ : OrderedSet α) : OrderedSet α := ⟨[], []⟩

/-- `count`, yac/lib/util/data.hpp:326. -/
def count (s : OrderedSet α) (x : α) : Nat := if x ∈ s.set then 1 else 0

/-- `size`, yac/lib/util/data.hpp:328. -/
def size (s : OrderedSet α) : Nat := s.set.length

/-- `empty`, yac/lib/util/data.hpp:327. -/
def isEmpty (s : OrderedSet α) : Bool := s.set.isEmpty

/-- `at(i)`, yac/lib/util/data.hpp:319: `std::vector::at` throws when out of range. -/
def get (s : OrderedSet α) (i : Nat) : Except Fault α :=
  match s.vector[i]? with
  | some x => .ok x
  | none => .error .exn

/-- Iteration (`begin`/`end`), yac/lib/util/data.hpp:315-318. -/
def toList (s : OrderedSet α) : List α := s.vector

/-- A call that changes the set. -/
inductive Op (α : Type) where
  | insert (x : α)
  | clear

/-- One call. -/
def step (s : OrderedSet α) : Op α → OrderedSet α
  | .insert x => s.insert x
  | .clear => s.clear

/-- A history of calls starting from the default constructor. -/
def run (ops : List (Op α)) : OrderedSet α := ops.foldl step OrderedSet.empty

end OrderedSet
end Yac
