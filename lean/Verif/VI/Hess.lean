import Verif.Solver.Model

/-! `calib_vi_t::eval_residuals` and `calib_vi_t::form_hessian`, yac/lib/calib_vi.cpp:1115-1252. -/

namespace Yac.VI.Hess
open Yac.Solver

variable {K P R : Type} [DecidableEq P]

/-- The residuals of a view: its IMU factor and its fiducial residuals, of all cameras in turn. -/
structure HView (R : Type) where
  imu : Option R
  fids : List R

/-- `res_fns`, calib_vi.cpp:1119-1140, in some order: the container is an `unordered_set` of pointers.  Views
without an IMU factor are skipped. -/
def collect (views : List (HView R)) (marg : Option R) : List R :=
  views.flatMap (fun v => match v.imu with
    | none => []
    | some r => v.fids ++ [r]) ++ marg.toList

/-- `res_fn->eval()` of all residuals in the order given, calib_vi.cpp:1143-1150. -/
def evalAll (evaluate : R → Option (Res K P)) (rs : List R) : Except Fault (List (Res K P)) :=
  rs.mapM fun r => match evaluate r with
    | some f => .ok f
    | none => .error .fatal

/-- `param_order` and `params_length`, calib_vi.cpp:1152-1205. -/
def viOrder (info : P → ParamInfo) (blocks : List (List P)) : List (P × Nat) × Nat :=
  let t := track info blocks
  (assign info 0 (t.ext ++ t.pose ++ t.sb ++ t.cam ++ t.fid), t.len)

/-- `form_hessian`, calib_vi.cpp:1208-1252: `param_order`, the number of rows and columns, and `H`. -/
def formHessian [CommRing K] (info : P → ParamInfo) (evaluate : R → Option (Res K P)) (rs : List R) :
    Except Fault (List (P × Nat) × Nat × Mat K) :=
  evalAll evaluate rs >>= fun fs =>
  let on := viOrder info (fs.map (fun f => f.blocks.map Prod.fst))
  let Hb := fs.foldl (fun (Hb : Mat K × (Nat → K)) f =>
    hessBlocks info (col on.1) f.size f.r Hb.1 Hb.2 f.blocks) (fun _ _ => 0, fun _ => 0)
  .ok (touchAll info on.1 (fs.flatMap (fun f => f.blocks.map Prod.fst)), on.2, Hb.1)

end Yac.VI.Hess
