import Verif.Basic
import Mathlib.Algebra.Order.Ring.Int

/-!
# Model of `lerp_body_poses`, yac/lib/calib_data.cpp:7-64

The grids and the samples of the body are arbitrary: a grid has a timestamp `ts`, a sample is
a timestamp and a pose, and `lerp` stands for `lerp_pose` (`Stream.lerpPose`).  The sizes of
`body_timestamps` and `body_poses` are taken to agree (assertion at line 24); timestamps are
unbounded integers.
-/

namespace Yac.Data

variable {P Q G : Type}

/-- The local variables of the second loop, calib_data.cpp:26-31, and `lerped_poses`; `t1`
and `pose1` are always written before they are read. -/
structure LerpState (P Q : Type) where
  t0 : Int
  pose0 : P
  idx : Nat
  out : List Q

/-- The first loop, calib_data.cpp:14-21: the grids between the first and the last sample. -/
def between (ts : G → Int) (grids : List G) (body : List (Int × P)) : Except Fault (List G) :=
  match body.head?, body.getLast? with
  | some f, some l => .ok (grids.filter (fun g => decide (ts g > f.1) && decide (ts g < l.1)))
  | _, _ => if grids = [] then .ok [] else .error .oob

/-- One iteration of the second loop, calib_data.cpp:32-63.  `grid_timestamps.size() - 1` is
unsigned: without grids the loop does not stop and reads past the end. -/
def lerpStep (lerp : Int → P → Int → P → Int → Q) (offset : Int) (gts : List Int)
    (s : LerpState P Q) (b : Int × P) : Except Fault (LerpState P Q) :=
  if gts ≠ [] ∧ s.idx > gts.length - 1 then .ok s
  else
    let now := b.1 + offset
    match gts[s.idx]? with
    | none => .error .oob
    | some t =>
      let s := if now < t then { s with t0 := now, pose0 := b.2 } else s
      if now > t then
        .ok ⟨now, b.2, s.idx + 1, s.out ++ [lerp s.t0 s.pose0 now b.2 t]⟩
      else .ok s

/-- `lerp_body_poses`, calib_data.cpp:7-64: `lerped_grids` and `lerped_poses`; `one` is the
identity. -/
def lerpBodyPoses (lerp : Int → P → Int → P → Int → Q) (one : P) (ts : G → Int) (grids : List G)
    (body : List (Int × P)) (offset : Int) : Except Fault (List G × List Q) :=
  between ts grids body >>= fun kept =>
  body.foldlM (lerpStep lerp offset (kept.map ts)) ⟨0, one, 0, []⟩ >>= fun s =>
  .ok (kept, s.out)

end Yac.Data
