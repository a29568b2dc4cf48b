import Verif.Solver.Model
import Mathlib.Analysis.SpecialFunctions.Log.Base

/-!
# Model of the CHOLMOD converters, yac/lib/suitesparse.cpp:42-97 and 371-467

A sparse matrix in compressed-column form, the conversions from and to dense matrices, the column norm and the
functions of the singular values.  Exact real arithmetic.  Memory that `cholmod_l_allocate_sparse` does not
initialise has arbitrary content (`junk`).
-/

namespace Yac.Sparse
open Yac.Solver (Mat)

/-- `cholmod_sparse`: `p` are the starts of the columns, `i` the row numbers, `x` the values; `sym` is `stype != 0`. -/
structure CSC where
  nrow : ℕ
  ncol : ℕ
  p : List ℕ
  i : List ℕ
  x : List ℝ
  sym : Bool

/-- A write into an array. -/
def setAt {α : Type} (l : List α) (k : ℕ) (v : α) : Except Fault (List α) :=
  if k < l.length then .ok (l.set k v) else .error .oob

open Classical in
/-- `nzmax`, suitesparse.cpp:432-439: counted row by row. -/
noncomputable def countNz (eps : ℝ) (A : Mat ℝ) (m n : ℕ) : ℕ :=
  (List.range m).foldl (fun k r => (List.range n).foldl (fun k c => if |A r c| > eps then k + 1 else k) k) 0

/-- The arrays while they are filled: `values`, `row_ind`, `row_it`. -/
structure Fill where
  x : List ℝ
  i : List ℕ
  it : ℕ

open Classical in
/-- Body of the inner loop, suitesparse.cpp:456-461. -/
noncomputable def fillEntry (eps : ℝ) (A : Mat ℝ) (c : ℕ) (s : Fill) (r : ℕ) : Except Fault Fill :=
  if |A r c| > eps then
    setAt s.x s.it (A r c) >>= fun x => setAt s.i s.it r >>= fun i => .ok ⟨x, i, s.it + 1⟩
  else .ok s

/-- Body of the outer loop, suitesparse.cpp:455-464; `col_it` is `c + 1`. -/
noncomputable def fillCol (eps : ℝ) (A : Mat ℝ) (m : ℕ) (s : Fill × List ℕ) (c : ℕ) : Except Fault (Fill × List ℕ) :=
  (List.range m).foldlM (fillEntry eps A c) s.1 >>= fun f => setAt s.2 (c + 1) f.it >>= fun p => .ok (f, p)

open Classical in
/-- `cholmod_convert` of a dense matrix with `m` rows and `n` columns, suitesparse.cpp:426-467.  `fatal`: the
`CHECK` of `eps`. -/
noncomputable def ofDense (junk : ℕ → ℝ × ℕ) (eps : ℝ) (A : Mat ℝ) (m n : ℕ) : Except Fault CSC :=
  if eps > 0 then
    let nz := countNz eps A m n
    (List.range n).foldlM (fillCol eps A m)
      (⟨(List.range nz).map (fun k => (junk k).1), (List.range nz).map (fun k => (junk k).2), 0⟩, List.replicate (n + 1) 0)
      >>= fun s => .ok ⟨m, n, s.2, s.1.i, s.1.x, false⟩
  else .error .fatal

/-- `out(r, c) = v`. -/
def put (M : Mat ℝ) (r c : ℕ) (v : ℝ) : Mat ℝ := fun a b => if a = r ∧ b = c then v else M a b

/-- Body of the inner loop, suitesparse.cpp:384-387.  `oob`: an index outside of an array or of the matrix. -/
def putEntry (M : CSC) (c : ℕ) (out : Mat ℝ) (k : ℕ) : Except Fault (Mat ℝ) :=
  match M.i[k]?, M.x[k]? with
  | some r, some v =>
    if r < M.nrow ∧ c < M.ncol then
      if M.sym = true ∧ c ≠ r then
        if c < M.nrow ∧ r < M.ncol then .ok (put (put out r c v) c r v) else .error .oob
      else .ok (put out r c v)
    else .error .oob
  | _, _ => .error .oob

/-- Body of the outer loop, suitesparse.cpp:380-389. -/
def putCol (M : CSC) (out : Mat ℝ) (c : ℕ) : Except Fault (Mat ℝ) :=
  match M.p[c]?, M.p[c + 1]? with
  | some a, some b => (List.range' a (b - a)).foldlM (putEntry M c) out
  | _, _ => .error .oob

/-- `cholmod_convert` to a dense matrix, suitesparse.cpp:371-390. -/
def toDense (M : CSC) : Except Fault (Mat ℝ) := (List.range M.ncol).foldlM (putCol M) (fun _ _ => 0)

/-- Body of the loop of `colNorm`, suitesparse.cpp:54-56. -/
def normStep (M : CSC) (s : ℝ) (k : ℕ) : Except Fault ℝ :=
  match M.x[k]? with
  | some v => .ok (s + v * v)
  | none => .error .oob

/-- `colNorm`, suitesparse.cpp:42-59. -/
noncomputable def colNorm (M : CSC) (c : ℕ) : Except Fault ℝ :=
  match M.p[c]?, M.p[c + 1]? with
  | some a, some b => (List.range' a (b - a)).foldlM (normStep M) 0 >>= fun s => .ok (Real.sqrt s)
  | _, _ => .error .oob

open Classical in
/-- `estimateNumericalRank`, suitesparse.cpp:61-74. -/
noncomputable def numRank (s : ℕ → ℝ) (tol : ℝ) : ℕ → ℕ
  | 0 => 0
  | n + 1 => if s n > tol then n + 1 else numRank s tol n

/-- `rankTol`, suitesparse.cpp:76-78, for `n` singular values; `oob`: there is none. -/
noncomputable def rankTol (s : ℕ → ℝ) (n : ℕ) (eps : ℝ) : Except Fault ℝ :=
  if n = 0 then .error .oob else .ok (s 0 * eps * n)

open Classical in
/-- `svGap`, suitesparse.cpp:89-97; `none`: infinity, also as a quotient by zero. -/
noncomputable def svGap (s : ℕ → ℝ) (n rank : ℕ) : Option ℝ :=
  if rank = 0 then some 0
  else if rank < n then (if s rank = 0 then none else some (s (rank - 1) / s rank))
  else none

/-- `getSingularValuesLog2Sum`, suitesparse.cpp:502-507; rank `none`: -1, nothing has been analysed. -/
noncomputable def log2Sum (s : ℕ → ℝ) (rank : Option ℕ) : ℝ :=
  match rank with
  | none => 0
  | some r => ((List.range r).map (fun i => Real.log (s i))).sum / Real.log 2

end Yac.Sparse
