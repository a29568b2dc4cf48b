import Verif.Basic
import Mathlib.Data.List.Basic
import Mathlib.Data.List.Nodup

/-!
# Model of the problem bookkeeping of `solver_t` and `ceres_solver_t`

yac/lib/solver.{hpp,cpp}.  Parameters and residuals are identified by values of arbitrary
types `P` and `R` (their addresses).  `params` is keyed by the data pointer in the code; a
parameter's data pointer is its own, so the key is the parameter itself here.
`unordered_set` is a duplicate-free list (its order never influences the outcome),
`unordered_map` a function to `Option`.  `blocks r` is `res_fn->param_blocks`.
-/

namespace Yac.Solver

variable {P R : Type} [DecidableEq P] [DecidableEq R]

/-- `std::unordered_set::insert` on a duplicate-free list. -/
def insSet {α : Type} [DecidableEq α] (a : α) (l : List α) : List α :=
  if a ∈ l then l else l ++ [a]

/-- The bookkeeping fields of `solver_t`, solver.hpp:33-39. -/
structure Book (P R : Type) where
  resFns : List R
  params : List P
  param2res : P → Option (List R)
  res2param : R → Option (List P)

/-- `map[k] = v` / `map.erase(k)`. -/
def upd {κ ν : Type} [DecidableEq κ] (f : κ → Option ν) (k : κ) (v : Option ν) : κ → Option ν :=
  fun x => if x = k then v else f x

/-- A new solver. -/
def Book.empty : Book P R := ⟨[], [], fun _ => none, fun _ => none⟩

/-- `clear`, solver.cpp:494-503 (`params_cache`, `tsolver` and `marg_idx` are not part of
this model). -/
def Book.clear (_ : Book P R) : Book P R := Book.empty

/-- `num_residuals`, solver.cpp:75. -/
def Book.numResiduals (s : Book P R) : Nat := s.resFns.length
/-- `has_param`, solver.cpp:77. -/
def Book.hasParam (s : Book P R) (p : P) : Bool := decide (p ∈ s.params)
/-- `num_params`, solver.cpp:79. -/
def Book.numParams (s : Book P R) : Nat := s.params.length

/-- `add_param`, solver.cpp:81. -/
def Book.addParam (s : Book P R) (p : P) : Book P R := { s with params := insSet p s.params }

/-- `param2res[param].insert(res_fn)` for each block, solver.cpp:94-96. -/
def linkParams (r : R) (f : P → Option (List R)) (bs : List P) : P → Option (List R) :=
  bs.foldl (fun f p => upd f p (some (insSet r ((f p).getD [])))) f

/-- `res2param[res_fn].insert(param)` for each block, solver.cpp:99-101. -/
def linkRes (r : R) (f : R → Option (List P)) (bs : List P) : R → Option (List P) :=
  bs.foldl (fun f p => upd f r (some (insSet p ((f r).getD [])))) f

/-- `param2res[param].erase(res_fn)` for each block, solver.cpp:136-138 and 1074-1076. -/
def unlinkParams (r : R) (f : P → Option (List R)) (bs : List P) : P → Option (List R) :=
  bs.foldl (fun f p => upd f p (some (((f p).getD []).erase r))) f

/-- `solver_t::add_residual`, solver.cpp:83-103. -/
def Book.addResidual (blocks : R → List P) (s : Book P R) (r : R) : Except Fault (Book P R) :=
  if r ∈ s.resFns then .error .fatal
  else .ok { s with resFns := s.resFns ++ [r], param2res := linkParams r s.param2res (blocks r),
                    res2param := linkRes r s.res2param (blocks r) }

/-- Body of the loop of `solver_t::remove_param`, solver.cpp:116-122. -/
def Book.dropResidual (s : Book P R) (r : R) : Except Fault (Book P R) :=
  if r ∈ s.resFns then
    .ok { s with resFns := s.resFns.erase r, res2param := upd s.res2param r none }
  else .error .fatal

/-- `solver_t::remove_param`, solver.cpp:105-124 (used by `yac_solver_t`). -/
def Book.removeParam (s : Book P R) (p : P) : Except Fault (Book P R) :=
  if p ∈ s.params then
    let s := { s with params := s.params.erase p }
    match s.param2res p with
    | none => .ok s
    | some rs => do
      let s ← rs.foldlM Book.dropResidual s
      pure { s with param2res := upd s.param2res p none }
  else .error .fatal

/-- `solver_t::remove_residual`, solver.cpp:126-143. -/
def Book.removeResidual (blocks : R → List P) (s : Book P R) (r : R) : Except Fault (Book P R) :=
  if r ∈ s.resFns then
    .ok { s with resFns := s.resFns.erase r, param2res := unlinkParams r s.param2res (blocks r),
                 res2param := upd s.res2param r none }
  else .error .fatal

/-- The calls that change the problem. -/
inductive Op (P R : Type) where
  | addParam (p : P)
  | addResidual (r : R)
  | removeParam (p : P)
  | removeResidual (r : R)
  | clear

/-- One call on a `yac_solver_t`. -/
def Book.step (blocks : R → List P) (s : Book P R) : Op P R → Except Fault (Book P R)
  | .addParam p => .ok (s.addParam p)
  | .addResidual r => s.addResidual blocks r
  | .removeParam p => s.removeParam p
  | .removeResidual r => s.removeResidual blocks r
  | .clear => .ok s.clear

/-- A history of calls on a `yac_solver_t`. -/
def Book.run (blocks : R → List P) (ops : List (Op P R)) : Except Fault (Book P R) :=
  ops.foldlM (Book.step blocks) Book.empty

/-! ## `ceres_solver_t`

`ceres::Problem` is modelled by its documented contract: the set of parameter blocks, the
list of residual blocks (id, cost function), and a counter for fresh ids.
`AddResidualBlock` aborts on repeated parameter blocks and adds missing ones;
`RemoveResidualBlock` aborts on an unknown id; `RemoveParameterBlock` aborts on an unknown
block and removes the residual blocks that use it. -/

/-- `ceres::Problem`. -/
structure Problem (P R : Type) where
  pblocks : List P
  rblocks : List (Nat × R)
  next : Nat

/-- `ceres_solver_t`: the base fields, the problem, and `res2id` (solver.hpp:117-121). -/
structure CBook (P R : Type) where
  base : Book P R
  prob : Problem P R
  res2id : R → Option Nat

/-- Constructor, solver.cpp:966-972. -/
def CBook.empty : CBook P R := ⟨Book.empty, ⟨[], [], 0⟩, fun _ => none⟩

/-- `num_residuals`, solver.cpp:976. -/
def CBook.numResiduals (s : CBook P R) : Nat := s.prob.rblocks.length
/-- `num_params`, solver.cpp:978. -/
def CBook.numParams (s : CBook P R) : Nat := s.prob.pblocks.length
/-- `has_param`, solver.cpp:980-982. -/
def CBook.hasParam (s : CBook P R) (p : P) : Bool := decide (p ∈ s.prob.pblocks)

/-- `add_param`, solver.cpp:984-1010 (constness and manifold do not affect the
bookkeeping). -/
def CBook.addParam (s : CBook P R) (p : P) : CBook P R :=
  { s with base := s.base.addParam p, prob := { s.prob with pblocks := insSet p s.prob.pblocks } }

/-- `add_residual`, solver.cpp:1012-1036. -/
def CBook.addResidual (blocks : R → List P) (s : CBook P R) (r : R) : Except Fault (CBook P R) := do
  let base ← s.base.addResidual blocks r
  if (blocks r).Nodup then
    pure { base := base,
           prob := ⟨(blocks r).foldl (fun l p => insSet p l) s.prob.pblocks,
             s.prob.rblocks ++ [(s.prob.next, r)], s.prob.next + 1⟩,
           res2id := upd s.res2id r (some s.prob.next) }
  else .error .fatal

/-- `remove_residual`, solver.cpp:1061-1084. -/
def CBook.removeResidual (blocks : R → List P) (s : CBook P R) (r : R) :
    Except Fault (CBook P R) :=
  if r ∈ s.base.resFns then
    match s.res2id r with
    | none => .error .fatal
    | some id =>
      if id ∈ s.prob.rblocks.map Prod.fst then
        .ok { base := { s.base with
                resFns := s.base.resFns.erase r,
                param2res := unlinkParams r s.base.param2res (blocks r),
                res2param := upd s.base.res2param r none },
              prob := { s.prob with rblocks := s.prob.rblocks.filter (fun b => b.1 ≠ id) },
              res2id := upd s.res2id r none }
      else .error .fatal
  else .error .fatal

/-- `remove_param`, solver.cpp:1038-1059: the residual set is copied before the loop. -/
def CBook.removeParam (blocks : R → List P) (s : CBook P R) (p : P) : Except Fault (CBook P R) :=
  if p ∈ s.base.params then do
    let s := { s with base := { s.base with params := s.base.params.erase p } }
    let s ← match s.base.param2res p with
      | none => pure s
      | some rs => do
        let s ← rs.foldlM (CBook.removeResidual blocks) s
        pure { s with base := { s.base with param2res := upd s.base.param2res p none } }
    if p ∈ s.prob.pblocks then
      pure { s with prob := { s.prob with
        pblocks := s.prob.pblocks.erase p,
        rblocks := s.prob.rblocks.filter (fun b => p ∉ blocks b.2) } }
    else .error .fatal
  else .error .fatal

/-- One call on a `ceres_solver_t`.  `solver_t::clear` is not virtual and leaves the
`ceres::Problem` as it is. -/
def CBook.step (blocks : R → List P) (s : CBook P R) : Op P R → Except Fault (CBook P R)
  | .addParam p => .ok (s.addParam p)
  | .addResidual r => s.addResidual blocks r
  | .removeParam p => s.removeParam blocks p
  | .removeResidual r => s.removeResidual blocks r
  | .clear => .ok { s with base := s.base.clear }

/-- A history of calls on a `ceres_solver_t`. -/
def CBook.run (blocks : R → List P) (ops : List (Op P R)) : Except Fault (CBook P R) :=
  ops.foldlM (CBook.step blocks) CBook.empty

end Yac.Solver
