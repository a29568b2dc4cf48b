import Verif.Stream.ImuModel
import Mathlib.Algebra.Field.Basic
import Mathlib.Algebra.Order.Field.Rat

/-!
# Model of the stream synchronisation functions (yac/lib/util/core.cpp:1635-1898)

Poses are an arbitrary type `P` with an interpolation function; time arithmetic is exact.
Sequences being read are consumed from the front, the part not yet read stands for the index.
-/

namespace Yac.Stream

section Poses
variable {P : Type}

/-- Loop of `interp_poses`, core.cpp:1650-1689.  `s` are the samples not yet visited, `rs` the
requested timestamps from `interp_idx` on, `t0`, `p0` the interpolation start point. -/
def interpLoop (interp : P → P → ℚ → P) (thr : ℚ) :
    List (Int × P) → List Int → Int → P → List P → Except Fault (List P)
  | [], _, _, _, out => .ok out
  | (t, p) :: s, rs, t0, p0, out =>
    match rs with
    | [] => .error .oob
    | r :: rs' =>
      let diff : ℚ := ((t - r : Int) : ℚ) * (1 / 10 ^ 9)
      if diff < thr then interpLoop interp thr s (r :: rs') t p out
      else if thr < diff then
        let num : ℚ := ((r - t0 : Int) : ℚ) * (1 / 10 ^ 9)
        let den : ℚ := ((t - t0 : Int) : ℚ) * (1 / 10 ^ 9)
        let out := out ++ [interp p0 p (num / den)]
        if rs' = [] then .ok out
        else interpLoop interp thr s rs' t p out
      else interpLoop interp thr s (r :: rs') t0 p0 out

/-- `interp_poses`, core.cpp:1635-1690: the poses appended to the result.  `idp` is the identity
pose.  Samples carry equally many timestamps and poses (the second assertion). -/
def interpPoses (interp : P → P → ℚ → P) (idp : P) (samples : List (Int × P)) (req : List Int)
    (thr : ℚ) : Except Fault (List P) :=
  match samples, req with
  | [], _ => .error .fatal
  | _, [] => .error .fatal
  | (t, p) :: s, r :: rs =>
    if t < r then interpLoop interp thr ((t, p) :: s) (r :: rs) 0 idp []
    else .error .fatal

/-- `fabs((a - b) * 1e-9)`. -/
def tdiff (a b : Int) : ℚ := |((a - b : Int) : ℚ) * (1 / 10 ^ 9)|

/-- Loop of `closest_poses`, core.cpp:1707-1732.  After the last target has been served the code
still reads `target_ts[target_idx]`. -/
def closestLoop : List (Int × P) → List Int → ℚ → P → List P → Except Fault (List P)
  | [], _, _, _, out => .ok out
  | (t, p) :: s, gs, dc, pc, out =>
    match gs with
    | [] => .error .oob
    | g :: gs' =>
      if tdiff t g < dc then closestLoop s (g :: gs') (tdiff t g) p out
      else if dc < tdiff t g then
        match gs' with
        | [] => .error .oob
        | g' :: gs'' => closestLoop s (g' :: gs'') (tdiff t g') p (out ++ [pc])
      else closestLoop s (g :: gs') dc pc out

/-- `closest_poses`, core.cpp:1692-1733. -/
def closestPoses (samples : List (Int × P)) (targets : List Int) : Except Fault (List P) :=
  match samples, targets with
  | [], _ => .error .fatal
  | _, [] => .error .fatal
  | (t, p) :: s, g :: gs =>
    if t < g then closestLoop s (g :: gs) (tdiff t g) p []
    else .error .fatal

end Poses

section Data
variable {K : Type} [Field K]

/-- `lerp`, core.hpp:1332-1335. -/
def lerpV (a b : Fin 3 → K) (t : K) : Fin 3 → K := fun i => a i * (1 - t) + b i * t

/-- A timestamped vector. -/
abbrev Pt (K : Type) := Int × (Fin 3 → K)

/-- The loop over the interpolation points, core.cpp:1789-1804: the points left over and the
extended result. -/
def lerpInner (t0 : Int) (v0 : Fin 3 → K) (t1 : Int) (v1 : Fin 3 → K) :
    List Int → List (Pt K) → List Int × List (Pt K)
  | [], out => ([], out)
  | r :: rs, out =>
    if t1 < r then (r :: rs, out)
    else
      let num : K := ((r - t0 : Int) : K) * (1 / 10 ^ 9)
      let den : K := ((t1 - t0 : Int) : K) * (1 / 10 ^ 9)
      lerpInner t0 v0 t1 v1 rs (out ++ [(r, lerpV v0 v1 (num / den))])

/-- The loop over the target signal, core.cpp:1778-1821. -/
def lerpLoop (keepOld : Bool) :
    List (Pt K) → List Int → Int → (Fin 3 → K) → List (Pt K) → Except Fault (List (Pt K))
  | [], _, _, _, out => .ok out
  | (t, d) :: s, rs, t0, v0, out =>
    match rs with
    | [] => .error .oob
    | r :: rs' =>
      if 0 < t - r then
        let q := lerpInner t0 v0 t d (r :: rs') out
        lerpLoop keepOld s q.1 t d (if keepOld then q.2 ++ [(t, d)] else q.2)
      else lerpLoop keepOld s (r :: rs') t0 v0 (if keepOld then out ++ [(t, d)] else out)

/-- `lerp_data` against given interpolation points, core.cpp:1764-1824: the new target signal. -/
def lerpData (lerpTs : List Int) (target : List (Pt K)) (keepOld : Bool) :
    Except Fault (List (Pt K)) :=
  match target with
  | [] => .error .oob
  | (t0, v0) :: s => lerpLoop keepOld s lerpTs t0 v0 []

/-- `lerp_timestamps`, core.cpp:1735-1762. -/
def lerpTimestamps (t0 t1 : List Int) : Except Fault (List Int) :=
  let long := if t0.length > t1.length then t0 else t1
  let short := if t0.length > t1.length then t1 else t0
  match short.head?, short.getLast? with
  | some a, some b => .ok (long.filter (fun t => decide (a ≤ t ∧ t ≤ b)))
  | _, _ => .error .oob

/-- `align_front`, core.cpp:1851-1863. -/
def alignFront (front : Int) : List (Pt K) → Except Fault (List (Pt K))
  | [] => .error .oob
  | p :: l => if p.1 < front then alignFront front l else .ok (p :: l)

/-- `align_back`, core.cpp:1865-1877, on the reversed sequence. -/
def alignBackRev (back : Int) : List (Pt K) → Except Fault (List (Pt K))
  | [] => .error .oob
  | p :: l => if back < p.1 then alignBackRev back l else .ok (p :: l)

/-- `align_back`, core.cpp:1865-1877. -/
def alignBack (back : Int) (l : List (Pt K)) : Except Fault (List (Pt K)) := do
  let r ← alignBackRev back l.reverse
  .ok r.reverse

/-- `reference.front()` / `reference.back()`. -/
def endOf (o : Option Int) : Except Fault Int :=
  match o with
  | some t => .ok t
  | none => .error .oob

/-- `lerp_data` of two signals, core.cpp:1879-1898. -/
def syncData (s0 s1 : List (Pt K)) : Except Fault (List (Pt K) × List (Pt K)) := do
  let lerpTs ← lerpTimestamps (s0.map (·.1)) (s1.map (·.1))
  let s1' ← if s0.length > s1.length then lerpData lerpTs s1 false else .ok s1
  let s0' ← if s0.length > s1.length then .ok s0 else lerpData lerpTs s0 false
  let f ← endOf lerpTs.head?
  let b ← endOf lerpTs.getLast?
  let s1' ← alignFront f s1'
  let s0' ← alignFront f s0'
  let s1' ← alignBack b s1'
  let s0' ← alignBack b s0'
  .ok (s0', s1')

end Data

end Yac.Stream
