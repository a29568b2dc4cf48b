import Verif.Basic
import Mathlib.Data.List.Dedup

/-!
# Model of the memory of the camera calibrator (yac/lib/calib_camera.cpp, solver.cpp)

The calibrator owns its parameters and views through smart pointers and `delete`; the problem holds plain pointers to the parameters and
the residuals, and takes no ownership (solver.cpp:967-969).  The model keeps who owns what, and what the problem points to.  Addresses
are numbers that are not used again.  Not modelled: the numbers in the parameters, so that every check that depends on them (outliers,
information gain) is an operation of the history; the fiducial corners, which live as long as the calibrator; FATALs that end the program
because a pose cannot be estimated.
-/

namespace Yac.CamMem

/-- The heap, what the calibrator owns, and what the problem points to. -/
structure St where
  /-- The parameters that are allocated. -/
  par : Nat → Bool
  /-- The residuals that are allocated, with the parameters they point to, calib_residuals.hpp:20. -/
  res : Nat → Option (List Nat)
  next : Nat
  /-- `cam_params` and `cam_exts`. -/
  cams : Int → Option (Nat × Nat)
  /-- `poses`, calib_camera.hpp:166. -/
  poses : Int → Option Nat
  /-- `calib_views`, calib_camera.hpp:171: the residuals that a view owns. -/
  views : Int → Option (List Nat)
  /-- `marg_residual`, calib_camera.hpp:158. -/
  marg : Option Nat
  /-- The residuals that `marg_residual` owns. -/
  kept : List Nat
  /-- The parameters of the problem. -/
  pp : List Nat
  /-- The residuals of the problem. -/
  pr : List Nat

/-- A new calibrator. -/
def St.new : St := ⟨fun _ => false, fun _ => none, 0, fun _ => none, fun _ => none, fun _ => none, none, [], [], []⟩

/-- An entry of a map is set. -/
def put {A : Type} (f : Int → Option A) (k : Int) (v : Option A) : Int → Option A := fun j => if j = k then v else f j

/-- Allocated parameters after `a` and `b` have been freed. -/
def freed (par : Nat → Bool) : Option (Nat × Nat) → Nat → Bool
  | none => par
  | some (a, b) => fun x => if x = a ∨ x = b then false else par x

/-- `add_camera`, calib_camera.cpp:846-880: new parameters take the place of those of the same index, which nobody else owns. -/
def addCamera (m : St) (i : Int) : St :=
  { m with
    par := fun x => if x = m.next ∨ x = m.next + 1 then true else freed m.par (m.cams i) x
    next := m.next + 2
    cams := put m.cams i (some (m.next, m.next + 1))
    pp := m.next :: (m.next + 1) :: m.pp }

/-- `add_pose`, calib_camera.cpp:970-1004, if there is none for that time: lines 1032-1034. -/
def addPose (m : St) (ts : Int) : St :=
  match m.poses ts with
  | some _ => m
  | none => { m with
      par := fun x => if x = m.next then true else m.par x
      next := m.next + 1
      poses := put m.poses ts (some m.next)
      pp := m.next :: m.pp }

/-- `add_param` unless `has_param`, calib_camera.cpp:1035-1037. -/
def addParam (m : St) (p : Nat) : St := if p ∈ m.pp then m else { m with pp := p :: m.pp }

/-- The residual of one corner, calib_camera.cpp:175-204; cameras that were not added are left out. -/
def addResidual (p : Nat) (s : St × List Nat) (i : Int) : St × List Nat :=
  match s.1.cams i with
  | none => s
  | some (a, b) =>
    ({ s.1 with
        res := fun r => if r = s.1.next then some [p, b, a] else s.1.res r
        next := s.1.next + 1
        pr := s.1.next :: s.1.pr }, s.2 ++ [s.1.next])

/-- `add_view`, calib_camera.cpp:1006-1052, with the camera of every corner seen.  A view that was there is not deleted. -/
def addView (m : St) (ts : Int) (corners : List Int) : Except Fault St :=
  let m1 := addPose m ts
  match m1.poses ts with
  | none => .error .oob
  | some p =>
    let s := corners.foldl (addResidual p) (addParam m1 p, [])
    .ok { s.1 with views := put s.1.views ts (some s.2) }

/-- `remove_param`, solver.cpp:1047-1070: with it go the residuals that point to it. -/
def removeParam (m : St) (p : Nat) : Except Fault St :=
  if p ∈ m.pp then
    .ok { m with pp := m.pp.filter (fun x => decide (x ≠ p)), pr := m.pr.filter (fun r => decide (p ∉ (m.res r).getD [])) }
  else .error .fatal

/-- `remove_residual`, solver.cpp:1072-1096. -/
def removeResidual (m : St) (r : Nat) : Except Fault St :=
  if r ∈ m.pr then .ok { m with pr := m.pr.filter (fun x => decide (x ≠ r)) } else .error .fatal

/-- A residual is freed. -/
def freeRes (m : St) (r : Nat) : Except Fault St :=
  match m.res r with
  | none => .error .oob
  | some _ => .ok { m with res := fun x => if x = r then none else m.res x }

/-- A parameter is freed. -/
def freePar (m : St) (p : Nat) : Except Fault St :=
  if m.par p then .ok { m with par := fun x => if x = p then false else m.par x } else .error .oob

/-- The pose of a time is removed, calib_camera.cpp:1092-1099. -/
def removePose (m : St) (ts : Int) : Except Fault St :=
  match m.poses ts with
  | none => .ok m
  | some p => (if p ∈ m.pp then removeParam m p else .ok m) >>= fun m1 => freePar m1 p >>= fun m2 => .ok { m2 with poses := put m2.poses ts none }

/-- The view of a time is deleted with its residuals, calib_camera.cpp:1101-1111. -/
def deleteView (m : St) (ts : Int) : Except Fault St :=
  match m.views ts with
  | none => .ok m
  | some l => l.foldlM freeRes m >>= fun m1 => .ok { m1 with views := put m1.views ts none }

/-- `remove_view`, calib_camera.cpp:1090-1112. -/
def removeView (m : St) (ts : Int) : Except Fault St := removePose m ts >>= fun m1 => deleteView m1 ts

/-- One outlier is taken out of a view, calib_camera.cpp:307-327: the `k`-th residual, if there is one. -/
def dropOutlier (m : St) (ts : Int) (k : Nat) : Except Fault St :=
  match (m.views ts).bind (fun l => l[k]?) with
  | none => .ok m
  | some r => removeResidual m r >>= fun m1 => freeRes { m1 with views := put m1.views ts ((m1.views ts).map (fun l => l.erase r)) } r

/-- A residual is evaluated: it is read, and the parameters it points to. -/
def evalRes (m : St) (r : Nat) : Except Fault Unit :=
  match m.res r with
  | none => .error .oob
  | some ps => if ps.all m.par then .ok () else .error .oob

/-- The problem is solved, solver.cpp:1186-1202: every parameter and every residual is used. -/
def solve (m : St) : Except Fault St :=
  if m.pp.all m.par then m.pr.forM (evalRes m) >>= fun _ => .ok m else .error .oob

/-- The previous marginalisation residual leaves the problem, calib_camera.cpp:1146-1153. -/
def dropMarg (m : St) : Except Fault St :=
  match m.marg with
  | none => .ok m
  | some g => removeResidual m g

/-- `calib_view_t::marginalize`, calib_camera.cpp:346-375, for the view with residuals `l` and pose `p`: the new marginalisation residual owns
them and points to what they and the previous one point to, except for the pose (calib_residuals.cpp:1530-1640, simplified). -/
def margView (m : St) (l : List Nat) (p : Nat) : Except Fault St :=
  let rs := l ++ m.marg.toList
  rs.forM (evalRes m) >>= fun _ =>
  let ps := (rs.flatMap (fun r => (m.res r).getD [])).dedup
  (if p ∈ ps then removeParam m p else .ok m) >>= fun m1 =>
  .ok { m1 with
    res := fun r => if r = m1.next then some (ps.filter (fun x => decide (x ≠ p))) else m1.res r
    next := m1.next + 1
    marg := some m1.next
    kept := m1.kept ++ rs
    pr := m1.next :: m1.pr }

/-- `marginalize`, calib_camera.cpp:1134-1164, for the view at `ts`, which in the code is the oldest; it is only called if there is a view
(line 1747). -/
def marginalize (m : St) (ts : Int) : Except Fault St :=
  match m.views ts with
  | none => .ok m
  | some l =>
    match m.poses ts with
    | none => .error .oob
    | some p => dropMarg m >>= fun m1 => margView m1 l p >>= fun m2 => removeView { m2 with views := put m2.views ts (some []) } ts

/-- What is done with a calibrator. -/
inductive Op where
  | camera (i : Int)
  | view (ts : Int) (corners : List Int)
  | remove (ts : Int)
  | outlier (ts : Int) (k : Nat)
  | marginalize (ts : Int)
  | solve

/-- One operation. -/
def step (m : St) : Op → Except Fault St
  | .camera i => .ok (addCamera m i)
  | .view ts c => addView m ts c
  | .remove ts => removeView m ts
  | .outlier ts k => dropOutlier m ts k
  | .marginalize ts => Yac.CamMem.marginalize m ts
  | .solve => Yac.CamMem.solve m

/-- A history. -/
def exec (ops : List Op) : Except Fault St := ops.foldlM step St.new

end Yac.CamMem
