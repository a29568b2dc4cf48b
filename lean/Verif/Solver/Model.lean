import Verif.Basic
import Mathlib.Algebra.Ring.Defs
import Mathlib.Algebra.Order.Group.Defs
import Mathlib.Algebra.Field.Defs

/-!
# Model of the normal equations and of the Gauss-Newton and Levenberg-Marquardt loops

yac/lib/solver.cpp.  A dense Eigen matrix is a function of two indices (its dimensions are
kept beside it); `unordered_set` iteration order is the order of the given list.
-/

namespace Yac.Solver

variable {K P : Type} [DecidableEq P]

/-- `param_t::type` as far as the solver distinguishes it, solver.cpp:336-346. -/
inductive Kind where
  | pose | sb | camera | extrinsics | fiducial | other
  deriving DecidableEq, Repr

/-- `param_t`: the fields read by the solver. -/
structure ParamInfo where
  fixed : Bool
  kind : Kind
  size : Nat      -- local_size
  deriving DecidableEq, Repr

/-- An evaluated residual block (`res_fn->residuals`, `res_fn->param_blocks` with
`res_fn->min_jacobian_blocks`). -/
structure Res (K P : Type) where
  size : Nat
  r : Nat → K
  blocks : List (P × (Nat → Nat → K))

/-- The loop state of "Track unique parameters", solver.cpp:313-349. -/
structure Track (P : Type) where
  seen : List P
  pose : List P
  sb : List P
  cam : List P
  ext : List P
  fid : List P
  len : Nat
  deriving DecidableEq, Repr

/-- Body of the tracking loop for one parameter block, solver.cpp:325-347. -/
def trackStep (info : P → ParamInfo) (t : Track P) (p : P) : Track P :=
  if p ∈ t.seen then t
  else
    let t := { t with seen := p :: t.seen }
    if (info p).fixed then t
    else
      let t := match (info p).kind with
        | .pose => { t with pose := t.pose ++ [p] }
        | .sb => { t with sb := t.sb ++ [p] }
        | .camera => { t with cam := t.cam ++ [p] }
        | .extrinsics => { t with ext := t.ext ++ [p] }
        | .fiducial => { t with fid := t.fid ++ [p] }
        | .other => t
      { t with len := t.len + (info p).size }

/-- The tracking loop over the evaluated residuals, solver.cpp:323-349. -/
def track (info : P → ParamInfo) (blocks : List (List P)) : Track P :=
  blocks.foldl (fun t bs => bs.foldl (trackStep info) t) ⟨[], [], [], [], [], [], 0⟩

/-- "Determine parameter block column indices", solver.cpp:352-369: entries of
`param_order` for a list of parameters starting at column `idx`. -/
def assign (info : P → ParamInfo) : Nat → List P → List (P × Nat)
  | _, [] => []
  | idx, p :: ps => (p, idx) :: assign info (idx + (info p).size) ps

/-- `_eval_residuals`, solver.cpp:297-374 (when all residuals evaluate): `param_order` and
`params_length`.  `marg_idx = param_order[cam_ptrs[0]]` reads `cam_ptrs[0]`, which is out of
range when no camera parameter is optimised. -/
def evalOrder (info : P → ParamInfo) (blocks : List (List P)) :
    Except Fault (List (P × Nat) × Nat) :=
  let t := track info blocks
  match t.cam with
  | [] => .error .oob
  | _ :: _ => .ok (assign info 0 (t.pose ++ t.sb ++ t.cam ++ t.ext ++ t.fid), t.len)

/-- `param_order[param]`, `unordered_map::operator[]`: a missing entry is created with
value 0. -/
def col (order : List (P × Nat)) (p : P) : Nat :=
  match order.find? (fun e => e.1 = p) with
  | some e => e.2
  | none => 0

/-- The entries `operator[]` adds to `param_order` while the matrices are filled: the
optimised parameters without a column get column 0. -/
def touchAll (info : P → ParamInfo) (order : List (P × Nat)) (ps : List P) : List (P × Nat) :=
  ps.foldl (fun o p => if (info p).fixed then o
    else if (o.find? (fun e => e.1 = p)).isSome then o else o ++ [(p, 0)]) order

/-- A matrix. -/
abbrev Mat (K : Type) := Nat → Nat → K

/-- `M.block(i, j, m, n) = B`. -/
def setBlock (M : Mat K) (i j m n : Nat) (B : Mat K) : Mat K :=
  fun a b => if i ≤ a ∧ a < i + m ∧ j ≤ b ∧ b < j + n then B (a - i) (b - j) else M a b

section ring
variable [CommRing K]

/-- `M.block(i, j, m, n) += B`. -/
def addBlock (M : Mat K) (i j m n : Nat) (B : Mat K) : Mat K :=
  fun a b => if i ≤ a ∧ a < i + m ∧ j ≤ b ∧ b < j + n then M a b + B (a - i) (b - j) else M a b

/-- `v.segment(i, m) += w`. -/
def addSeg (v : Nat → K) (i m : Nat) (w : Nat → K) : Nat → K :=
  fun a => if i ≤ a ∧ a < i + m then v a + w (a - i) else v a

/-- Sum over the first `n` indices (the inner product of Eigen's products). -/
def sumN : Nat → (Nat → K) → K
  | 0, _ => 0
  | n + 1, f => sumN n f + f n

/-- `J_i.transpose() * J_j` for blocks with `n` rows. -/
def tMul (n : Nat) (A B : Mat K) : Mat K := fun a b => sumN n (fun k => A k a * B k b)

/-- `_form_jacobian`, solver.cpp:402-420: the loop over the blocks of one residual. -/
def jacRes (info : P → ParamInfo) (c : P → Nat) (row n : Nat) (J : Mat K)
    (blocks : List (P × Mat K)) : Mat K :=
  blocks.foldl (fun J b =>
    if (info b.1).fixed then J else setBlock J row (c b.1) n (info b.1).size b.2) J

/-- `_form_jacobian`, solver.cpp:402-420: the loop over the residuals. -/
def jacAll (info : P → ParamInfo) (c : P → Nat) :
    Nat → Mat K → (Nat → K) → List (Res K P) → Mat K × (Nat → K)
  | _, J, r, [] => (J, r)
  | row, J, r, f :: fs =>
    jacAll info c (row + f.size) (jacRes info c row f.size J f.blocks)
      (fun a => if row ≤ a ∧ a < row + f.size then f.r (a - row) else r a) fs

/-- `residuals_length`. -/
def resLen : List (Res K P) → Nat
  | [] => 0
  | f :: fs => f.size + resLen fs

/-- `_form_jacobian`, solver.cpp:388-421: `param_order`, `params_length`, `J` and `r`. -/
def formJacobian (info : P → ParamInfo) (fs : List (Res K P)) :
    Except Fault (List (P × Nat) × Nat × Mat K × (Nat → K)) := do
  let (order, len) ← evalOrder info (fs.map (fun f => f.blocks.map Prod.fst))
  let (J, r) := jacAll info (col order) 0 (fun _ _ => 0) (fun _ => 0) fs
  pure (touchAll info order (fs.flatMap (fun f => f.blocks.map Prod.fst)), len, J, r)

/-- `_form_hessian`, inner loop over `j` for a fixed optimised `i`, solver.cpp:450-470:
the block pair `(i, i)` is handled by `hessBlocks`, `j > i` here. -/
def hessInner (info : P → ParamInfo) (c : P → Nat) (n : Nat) (bi : P × Mat K) (H : Mat K)
    (rest : List (P × Mat K)) : Mat K :=
  rest.foldl (fun H bj =>
    if (info bj.1).fixed then H
    else
      let B := tMul n bi.2 bj.2
      let H := addBlock H (c bi.1) (c bj.1) (info bi.1).size (info bj.1).size B
      addBlock H (c bj.1) (c bi.1) (info bj.1).size (info bi.1).size (fun a b => B b a)) H

/-- `_form_hessian`, loop over `i`, solver.cpp:442-473. -/
def hessBlocks (info : P → ParamInfo) (c : P → Nat) (n : Nat) (r : Nat → K) :
    Mat K → (Nat → K) → List (P × Mat K) → Mat K × (Nat → K)
  | H, b, [] => (H, b)
  | H, b, bi :: rest =>
    if (info bi.1).fixed then hessBlocks info c n r H b rest
    else
      let H := addBlock H (c bi.1) (c bi.1) (info bi.1).size (info bi.1).size (tMul n bi.2 bi.2)
      let H := hessInner info c n bi H rest
      let b := addSeg b (c bi.1) (info bi.1).size (fun a => sumN n (fun k => - bi.2 k a * r k))
      hessBlocks info c n r H b rest

/-- `_form_hessian`, solver.cpp:423-474: `param_order`, `params_length`, `H` and `b`. -/
def formHessian (info : P → ParamInfo) (fs : List (Res K P)) :
    Except Fault (List (P × Nat) × Nat × Mat K × (Nat → K)) := do
  let (order, len) ← evalOrder info (fs.map (fun f => f.blocks.map Prod.fst))
  let (H, b) := fs.foldl (fun (Hb : Mat K × (Nat → K)) f =>
    hessBlocks info (col order) f.size f.r Hb.1 Hb.2 f.blocks) (fun _ _ => 0, fun _ => 0)
  pure (touchAll info order (fs.flatMap (fun f => f.blocks.map Prod.fst)), len, H, b)

end ring

/-- `dx.segment(idx, size)`. -/
def segment (dx : Nat → K) (idx size : Nat) : List K :=
  (List.range size).map (fun (i : Nat) => dx (idx + i))

/-- Parameter values, `param->param` of every parameter. -/
abbrev Vals (P V : Type) := P → V

/-- `_update`, solver.cpp:488-492: `param->plus(segment)` for every entry of `param_order`. -/
def update {V : Type} (info : P → ParamInfo) (plus : P → V → List K → V) (order : List (P × Nat))
    (dx : Nat → K) (σ : Vals P V) : Vals P V :=
  order.foldl (fun σ e => fun q =>
    if q = e.1 then plus e.1 (σ e.1) (segment dx e.2 (info e.1).size) else σ q) σ

/-- `_cache_params`, solver.cpp:145-150. -/
def cacheParams {V : Type} (params : List P) (σ : Vals P V) : List (P × V) :=
  params.map (fun p => (p, σ p))

/-- `_restore_params`, solver.cpp:152-157. -/
def restoreParams {V : Type} (cache : List (P × V)) (σ : Vals P V) : Vals P V :=
  cache.foldl (fun σ e => fun q => if q = e.1 then e.2 else σ q) σ

/-! ## Costs as floating-point numbers -/

/-- A `double` as far as comparisons care: a number, an infinity or NaN. -/
inductive Flt (K : Type) where
  | nan | negInf | posInf
  | fin (x : K)
  deriving DecidableEq, Repr

/-- `a < b` (false if either is NaN). -/
def Flt.lt [LT K] [DecidableLT K] : Flt K → Flt K → Bool
  | .nan, _ => false
  | _, .nan => false
  | .fin x, .fin y => decide (x < y)
  | .negInf, .negInf => false
  | .negInf, _ => true
  | _, .negInf => false
  | .posInf, _ => false
  | .fin _, .posInf => true

/-- `a - b`. -/
def Flt.sub [Sub K] : Flt K → Flt K → Flt K
  | .nan, _ => .nan
  | _, .nan => .nan
  | .fin x, .fin y => .fin (x - y)
  | .posInf, .posInf => .nan
  | .negInf, .negInf => .nan
  | .posInf, _ => .posInf
  | _, .posInf => .negInf
  | .negInf, _ => .negInf
  | .fin _, .negInf => .posInf

/-- What the solver loops use of the problem: the registered parameters, the parameter
blocks of every residual, the residual evaluation status, `_calculate_cost`, and the linear
solver.  The last three are arbitrary functions: nothing is assumed about them. -/
structure Prob (K P V : Type) where
  params : List P
  info : P → ParamInfo
  blocks : List (List P)
  plus : P → V → List K → V
  evalOk : Vals P V → Bool
  cost : Vals P V → Flt K
  solve : Vals P V → K → Nat → (Nat → K)

/-- One update of the parameters: evaluate (`FATAL` on failure), order the parameters, ask
the linear solver for `dx`, add it.  solver.cpp:297-311 with 388-475 and 488-492. -/
def trial {V : Type} (pb : Prob K P V) (lam : K) (iter : Nat) (σ : Vals P V) :
    Except Fault (Vals P V) :=
  if pb.evalOk σ = false then .error .fatal
  else do
    let (order, _) ← evalOrder pb.info pb.blocks
    pure (update pb.info pb.plus (touchAll pb.info order pb.blocks.flatten) (pb.solve σ lam iter) σ)

section lm
variable {V : Type} [Field K] [LT K] [DecidableLT K]

/-- One iteration of `_solve_lm`, solver.cpp:835-932: parameters, `cost_km1`, `lambda_k`. -/
def lmStep (pb : Prob K P V) (iter : Nat) (s : Vals P V × Flt K × K) :
    Except Fault (Vals P V × Flt K × K) := do
  let (σ, costKm1, lam) := s
  let cache := cacheParams pb.params σ
  let σ' ← trial pb lam iter σ
  let costK := pb.cost σ'
  let dcost := Flt.sub costK costKm1
  if Flt.lt dcost (.fin 0) then pure (σ', costK, lam / 10)
  else pure (restoreParams cache σ', costKm1, lam * 10)

/-- `for (iter = 1; iter < max_iter; iter++)`: `n` iterations starting with number `iter`. -/
def lmLoop (pb : Prob K P V) : Nat → Nat → (Vals P V × Flt K × K) →
    Except Fault (Vals P V × Flt K × K)
  | 0, _, s => .ok s
  | n + 1, iter, s => do lmLoop pb n (iter + 1) (← lmStep pb iter s)

/-- `_solve_lm`, solver.cpp:800-949. -/
def solveLM (pb : Prob K P V) (lambda : K) (maxIter : Nat) (σ : Vals P V) :
    Except Fault (Vals P V) := do
  let (σ', _, _) ← lmLoop pb (maxIter - 1) 1 (σ, pb.cost σ, lambda)
  pure σ'

/-- `n` iterations of `_solve_gn`, solver.cpp:755-785: parameters and `cost_k`. -/
def gnLoop (pb : Prob K P V) : Nat → Nat → (Vals P V × Flt K) → Except Fault (Vals P V × Flt K)
  | 0, _, s => .ok s
  | n + 1, iter, s => do
    let σ' ← trial pb 0 iter s.1
    gnLoop pb n (iter + 1) (σ', pb.cost σ')

/-- `_solve_gn`, solver.cpp:728-799. -/
def solveGN (pb : Prob K P V) (maxIter : Nat) (σ : Vals P V) : Except Fault (Vals P V) := do
  let cache := cacheParams pb.params σ
  let costInit := pb.cost σ
  let (σ', costK) ← gnLoop pb (maxIter - 1) 1 (σ, .fin 0)
  if Flt.lt costInit costK then pure (restoreParams cache σ') else pure σ'

/-- `yac_solver_t::solve`, solver.cpp:951-962. -/
def solve (pb : Prob K P V) (algorithm : String) (lambda : K) (maxIter : Nat) (σ : Vals P V) :
    Except Fault (Vals P V) :=
  if algorithm = "LEVENBERG-MARQUARDT" then solveLM pb lambda maxIter σ
  else if algorithm = "GAUSS-NEWTON" then solveGN pb maxIter σ
  else .error .fatal

end lm
end Yac.Solver
