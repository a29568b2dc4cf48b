import Verif.Solver.Book
import Verif.Solver.Model
import Mathlib.Data.Finset.Basic
import Mathlib.Algebra.Field.Rat
import Mathlib.Algebra.Order.Ring.Rat

/-!
# Model of `yac_solver_t` objects: copying, destroying and the cached factorisation

yac/lib/solver.{hpp,cpp}, yac/lib/suitesparse.{hpp,cpp}.  A program holds any number of
solvers, named by numbers in the order they are created.  The factorisation `factor_`
(suitesparse.hpp:89) is a heap object that `truncated_solver_t` allocates and frees by hand; it
is named by a number that is never used twice.  The bookkeeping of a solver is the model of
`Verif/Solver/Book.lean`.  The profiler and the three reported costs are left out.
-/

namespace Yac.SolverObj
open Yac.Solver

variable {P R : Type} [DecidableEq P] [DecidableEq R]

/-- The factorisations that are allocated and not freed, and the number of the next one. -/
structure Heap where
  live : Finset Nat
  next : Nat

/-- A `yac_solver_t`, solver.hpp:31-49, 97-98 and `tsolver.factor_`, suitesparse.hpp:89. -/
structure Obj (P R : Type) where
  book : Book P R
  algorithm : String
  margIdx : Nat
  lambda : ℚ
  factor : Option Nat

/-- `yac_solver_t() = default`, solver.hpp:31-49, 97-100. -/
def Obj.fresh : Obj P R := ⟨Book.empty, "LEVENBERG-MARQUARDT", 0, 1 / 10000, none⟩

/-- `solver_t(const solver_t *)`, solver.cpp:60-73, with `yac_solver_t(const solver_t *)`,
solver.cpp:726: the fields listed are copied, `tsolver` and `lambda` are not. -/
def Obj.copyOf (o : Obj P R) : Obj P R := { (Obj.fresh : Obj P R) with
  algorithm := o.algorithm, margIdx := o.margIdx, book := o.book }

/-- `SuiteSparseQR_free(&factor_)`: freeing what is not allocated is undefined. -/
def Heap.free (m : Heap) (f : Nat) : Except Fault Heap :=
  if f ∈ m.live then .ok { m with live := m.live.erase f } else .error .oob

/-- `truncated_solver_t::clear`, suitesparse.cpp:481-497. -/
def tclear (m : Heap) : Option Nat → Except Fault (Heap × Option Nat)
  | none => .ok (m, none)
  | some f => m.free f >>= fun m => .ok (m, none)

/-- `SuiteSparseQR_symbolic`, suitesparse.cpp:540-544, 690-694. -/
def talloc (m : Heap) : Heap × Option Nat := (⟨insert m.next m.live, m.next + 1⟩, some m.next)

/-- Every use of `factor_` (suitesparse.cpp:530-533, 554, 582-595, 704, 722): the functions it is
handed to do nothing with a null pointer; a freed one is undefined. -/
def ttouch (m : Heap) (f : Option Nat) : Except Fault (Heap × Option Nat) :=
  match f with
  | none => .ok (m, none)
  | some f => if f ∈ m.live then .ok (m, some f) else .error .oob

/-- `truncated_solver_t::solve`, suitesparse.cpp:519-597, as far as `factor_` goes; `same`: the
sizes of the matrix are those the factorisation was made for. -/
def tsolve (m : Heap) (f : Option Nat) (j : Nat) (same : Bool) : Except Fault (Heap × Option Nat) :=
  if 0 < j then
    ttouch m f >>= fun a =>
    (if same then .ok a else tclear a.1 a.2) >>= fun b =>
    let c := match b.2 with | none => talloc b.1 | some f => (b.1, some f)
    ttouch c.1 c.2
  else ttouch m f

/-- `truncated_solver_t::analyze_marginal`, suitesparse.cpp:672-730, as far as `factor_` goes. -/
def tanalyse (m : Heap) (f : Option Nat) (j : Nat) : Except Fault (Heap × Option Nat) :=
  if 0 < j then
    tclear m f >>= fun a =>
    let c := talloc a.1
    ttouch c.1 c.2
  else ttouch m f

/-- The linear solves of one call of `solve`: `marg_idx` and whether the sizes match. -/
def tsolves (m : Heap) (f : Option Nat) : List (Nat × Bool) → Except Fault (Heap × Option Nat)
  | [] => .ok (m, f)
  | c :: cs => tsolve m f c.1 c.2 >>= fun a => tsolves a.1 a.2 cs

/-- What a program does with solvers. -/
inductive Act (P R : Type) where
  | new
  | copy (h : Nat)                              -- `yac_solver_t b{&a}`
  | copyMembers (h : Nat)                       -- `yac_solver_t b = a`
  | book (h : Nat) (op : Op P R)
  | setLambda (h : Nat) (l : ℚ)
  | setAlgorithm (h : Nat) (s : String)
  | solve (h : Nat) (calls : List (Nat × Bool))
  | logDet (h : Nat) (j : Nat)
  | destroy (h : Nat)

/-- The program state. -/
structure World (P R : Type) where
  objs : Nat → Option (Obj P R)
  count : Nat
  heap : Heap

/-- Before anything is created. -/
def World.start : World P R := ⟨fun _ => none, 0, ⟨∅, 0⟩⟩

/-- `objs[h] = o`. -/
def World.put (w : World P R) (h : Nat) (o : Option (Obj P R)) (m : Heap) : World P R :=
  { w with objs := fun x => if x = h then o else w.objs x, heap := m }

/-- The solver `h`, which must exist. -/
def World.get (w : World P R) (h : Nat) : Except Fault (Obj P R) :=
  match w.objs h with
  | some o => .ok o
  | none => .error .uninit

/-- A new solver under the next name. -/
def World.push (w : World P R) (o : Obj P R) : World P R :=
  ⟨fun x => if x = w.count then some o else w.objs x, w.count + 1, w.heap⟩

/-- The last `marg_idx` of a solve, `_eval_residuals`, solver.cpp:297, 375. -/
def lastIdx (d : Nat) (calls : List (Nat × Bool)) : Nat := (calls.getLast?.map Prod.fst).getD d

/-- One action: construction solver.cpp:60-73, 726 and solver.hpp:97-102; bookkeeping
solver.cpp:75-143, 494-503; `solve` solver.cpp:951-962; `estimate_log_det_covar`
solver.cpp:676-711; destruction suitesparse.cpp:476-479. -/
def act (blocks : R → List P) (w : World P R) : Act P R → Except Fault (World P R)
  | .new => .ok (w.push Obj.fresh)
  | .copy h => w.get h >>= fun o => .ok (w.push o.copyOf)
  | .copyMembers h => w.get h >>= fun o => .ok (w.push o)
  | .book h .clear => w.get h >>= fun o => tclear w.heap o.factor >>= fun a =>
      .ok (w.put h (some { o with book := o.book.clear, margIdx := 0, factor := a.2 }) a.1)
  | .book h op => w.get h >>= fun o => Book.step blocks o.book op >>= fun b =>
      .ok (w.put h (some { o with book := b }) w.heap)
  | .setLambda h l => w.get h >>= fun o => .ok (w.put h (some { o with lambda := l }) w.heap)
  | .setAlgorithm h s => w.get h >>= fun o => .ok (w.put h (some { o with algorithm := s }) w.heap)
  | .solve h calls => w.get h >>= fun o => tclear w.heap o.factor >>= fun a => tsolves a.1 a.2 calls >>= fun b =>
      .ok (w.put h (some { o with factor := b.2, margIdx := lastIdx o.margIdx calls }) b.1)
  | .logDet h j => w.get h >>= fun o => tanalyse w.heap o.factor j >>= fun a =>
      .ok (w.put h (some { o with factor := a.2, margIdx := j }) a.1)
  | .destroy h => w.get h >>= fun o => tclear w.heap o.factor >>= fun a => .ok (w.put h none a.1)

/-- A program. -/
def run (blocks : R → List P) (w : World P R) : List (Act P R) → Except Fault (World P R)
  | [] => .ok w
  | a :: as => act blocks w a >>= fun w => run blocks w as

/-- The optimisation that `solve` of a solver runs over given parameter values: its registered
parameters, its residuals, its algorithm and its damping, solver.cpp:728-962. -/
def Obj.optimise {V : Type} (env : Prob ℚ P V) (blocks : R → List P) (o : Obj P R) (maxIter : Nat)
    (σ : Vals P V) : Except Fault (Vals P V) :=
  Solver.solve { env with params := o.book.params, blocks := o.book.resFns.map blocks }
    o.algorithm o.lambda maxIter σ

end Yac.SolverObj
