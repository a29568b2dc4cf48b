import Verif.Sparse.Model
import Verif.Marg.Model
import Mathlib.LinearAlgebra.Matrix.NonsingularInverse

/-!
# Model of `truncated_solver_t`, yac/lib/suitesparse.cpp:80-366 and 469-729

Exact real arithmetic.  `SuiteSparseQR` and `Eigen::JacobiSVD` are parameters; CHOLMOD's submatrix, transpose,
product, sum and scaling are those of matrices.  `Q` of a factorisation is applied as a whole, `R` and the column
permutation `E` are used by `SuiteSparseQR_solve`.
-/

namespace Yac.Sparse
open Matrix
open Yac.Solver (Mat)
open Yac.Marg (block)

/-- What `SuiteSparseQR_numeric` returns for a matrix with `m` rows and `n` columns. -/
structure Factor (m n : ℕ) where
  Q : Matrix (Fin m) (Fin m) ℝ
  R : Matrix (Fin n) (Fin n) ℝ
  E : Equiv.Perm (Fin n)

/-- `SuiteSparseQR_symbolic` and `SuiteSparseQR_numeric` with a tolerance. -/
abbrev Spqr := (tol : ℝ) → (m n : ℕ) → Matrix (Fin m) (Fin n) ℝ → Factor m n

/-- `Eigen::JacobiSVD` of a square matrix: `U`, the singular values, `V`. -/
abbrev Svd3 := (n : ℕ) → Matrix (Fin n) (Fin n) ℝ → Matrix (Fin n) (Fin n) ℝ × (Fin n → ℝ) × Matrix (Fin n) (Fin n) ℝ

/-- `trucated_solver_options_t`, suitesparse.hpp:75-83. -/
structure Opts where
  columnScaling : Bool
  epsNorm : ℝ
  epsSVD : ℝ
  epsQR : ℝ
  svdTol : ℝ
  qrTol : ℝ

/-- `std::numeric_limits<double>::epsilon()`. -/
noncomputable def macheps : ℝ := 2 ^ (-52 : ℤ)

/-- The default options, suitesparse.hpp:76-82. -/
noncomputable def defaults : Opts := ⟨true, macheps, macheps, macheps, -1, -1⟩

open Classical in
/-- `qrTolerance`, suitesparse.cpp:545-547 and 700-702, with `qrTol`, 80-87.  `fatal`: the `CHECK` of `eps`. -/
noncomputable def qrTolerance (o : Opts) : Except Fault ℝ :=
  if o.qrTol ≠ -1 then .ok o.qrTol else if o.epsQR > 0 then .ok macheps else .error .fatal

/-- The norm of a column, suitesparse.cpp:42-59 on the stored entries. -/
noncomputable def norm2 {m : ℕ} (v : Fin m → ℝ) : ℝ := Real.sqrt (∑ i, v i * v i)

open Classical in
/-- `columnScalingMatrix`, suitesparse.cpp:129-152. -/
noncomputable def scaling {m n : ℕ} (A : Matrix (Fin m) (Fin n) ℝ) (eps : ℝ) : Fin n → ℝ := fun c =>
  if norm2 (fun r => A r c) < Real.sqrt (m * eps) then 0 else 1 / norm2 (fun r => A r c)

/-- The scaling that is applied, suitesparse.cpp:521-524, 562-565 and 595-613: none is a scaling by one. -/
noncomputable def scale (o : Opts) {m n : ℕ} (A : Matrix (Fin m) (Fin n) ℝ) : Fin n → ℝ :=
  if o.columnScaling then scaling A o.epsNorm else fun _ => 1

/-- A symmetric matrix of which the upper triangle is stored, suitesparse.cpp:215 and 219 with 386-388. -/
def fromUpper {n : ℕ} (M : Matrix (Fin n) (Fin n) ℝ) : Matrix (Fin n) (Fin n) ℝ :=
  fun i j => if i ≤ j then M i j else M j i

/-- The first `n` columns, `columnSubmatrix(…, 0, n - 1)`, suitesparse.cpp:99-127.  `fatal`: a `CHECK`. -/
def firstCols {k m : ℕ} (W : Matrix (Fin k) (Fin m) ℝ) (n : ℕ) : Except Fault (Matrix (Fin k) (Fin n) ℝ) :=
  if h : n ≤ m then .ok (W.submatrix id (Fin.castLE h)) else .error .fatal

/-- The first `n` components, `rowSubmatrix(…, 0, n - 1)`, suitesparse.cpp:154-182. -/
def firstRows {m : ℕ} (v : Fin m → ℝ) (n : ℕ) : Except Fault (Fin n → ℝ) :=
  if h : n ≤ m then .ok (fun i => v (Fin.castLE h i)) else .error .fatal

/-- `reduceLeftHandSide`, suitesparse.cpp:184-230: `Omega` and `A_rtQ`. -/
def reduceLeft {m j k : ℕ} (f : Option (Factor m j)) (Ar : Matrix (Fin m) (Fin k) ℝ) :
    Except Fault (Matrix (Fin k) (Fin k) ℝ × Matrix (Fin k) (Fin j) ℝ) :=
  match f with
  | none => .ok (Arᵀ * Ar, 0)
  | some f => firstCols (Arᵀ * f.Q) j >>= fun W => .ok (fromUpper (Arᵀ * Ar - W * Wᵀ), W)

/-- `reduceRightHandSide`, suitesparse.cpp:232-295. -/
def reduceRight {m j k : ℕ} (f : Option (Factor m j)) (Ar : Matrix (Fin m) (Fin k) ℝ) (W : Matrix (Fin k) (Fin j) ℝ)
    (b : Fin m → ℝ) : Except Fault (Fin k → ℝ) :=
  match f with
  | none => .ok (Arᵀ *ᵥ b)
  | some f => firstRows (f.Qᵀ *ᵥ b) j >>= fun y => .ok (Arᵀ *ᵥ b - W *ᵥ y)

/-- `singularValues_`, `svdRank_`, `matrixU_`, `matrixV_`. -/
structure Analysis (k : ℕ) where
  U : Matrix (Fin k) (Fin k) ℝ
  s : Fin k → ℝ
  V : Matrix (Fin k) (Fin k) ℝ
  rank : ℕ

/-- A vector as a function of any index. -/
def ext {k : ℕ} (s : Fin k → ℝ) : ℕ → ℝ := fun i => if h : i < k then s ⟨i, h⟩ else 0

open Classical in
/-- `_analyze_svd`, suitesparse.cpp:634-658. -/
noncomputable def analyze (o : Opts) (svd : Svd3) {k : ℕ} (Omega : Matrix (Fin k) (Fin k) ℝ) : Except Fault (Analysis k) :=
  let d := svd k Omega
  (if o.svdTol ≠ -1 then .ok o.svdTol else rankTol (ext d.2.1) k o.epsSVD) >>= fun tol =>
    .ok ⟨d.1, d.2.1, d.2.2, numRank (ext d.2.1) tol k⟩

open Classical in
/-- `solveSVD`, suitesparse.cpp:297-312.  `divZero`: a singular value that is counted is zero. -/
noncomputable def solveSVD {k : ℕ} (a : Analysis k) (b : Fin k → ℝ) : Except Fault (Fin k → ℝ) :=
  if ∃ i : Fin k, i.val < a.rank ∧ a.s i = 0 then .error .divZero
  else .ok (a.V *ᵥ (fun i => if i.val < a.rank then (a.s i)⁻¹ * (a.Uᵀ *ᵥ b) i else 0))

/-- `SuiteSparseQR_solve(SPQR_RETX_EQUALS_B, …)`: `E * (R \ y)`. -/
noncomputable def backSolve {m j : ℕ} (f : Factor m j) (y : Fin j → ℝ) : Fin j → ℝ :=
  fun c => (f.R⁻¹ *ᵥ y) (f.E.symm c)

/-- `solveQR`, suitesparse.cpp:314-366. -/
noncomputable def solveQR {m j k : ℕ} (f : Factor m j) (b : Fin m → ℝ) (Ar : Matrix (Fin m) (Fin k) ℝ) (xr : Fin k → ℝ) :
    Except Fault (Fin j → ℝ) :=
  firstRows (f.Qᵀ *ᵥ (b - Ar *ᵥ xr)) j >>= fun y => .ok (backSolve f y)

/-- The places of the entries of the first `j` of the columns, i.e. what the symbolic factorisation is made of. -/
structure Pattern where
  m : ℕ
  n : ℕ
  places : List (ℕ × ℕ)
  deriving DecidableEq

open Classical in
/-- The pattern of a matrix. -/
noncomputable def patternOf (A : Mat ℝ) (m j : ℕ) : Pattern :=
  ⟨m, j, ((List.range j).flatMap (fun c => (List.range m).map (fun r => (r, c)))).filter (fun rc => A rc.1 rc.2 ≠ 0)⟩

/-- "Clear the cached symbolic QR-factorization if the matrix has changed", suitesparse.cpp:526-542: numbers of
rows, columns and entries are compared.  The result is the pattern that the numeric factorisation assumes. -/
def cached (cache : Option Pattern) (p : Pattern) : Pattern :=
  match cache with
  | none => p
  | some q => if q.m ≠ p.m ∨ q.n ≠ p.n ∨ q.places.length ≠ p.places.length then p else q

/-- The factorisation of the first `j` columns, suitesparse.cpp:516-557: the pattern that is remembered and the factor.
`oob`: the entries are not where the symbolic factorisation expects them.  `fatal`: `columnSubmatrix` with more
columns than there are. -/
noncomputable def factorize (o : Opts) (qr : Spqr) (cache : Option Pattern) (A : Mat ℝ) (m n j : ℕ) :
    Except Fault (Option Pattern × Option (Factor m j)) :=
  if j = 0 then .ok (none, none)
  else if j ≤ n then
    let Al := block A 0 0 m j
    let p := patternOf A m j
    qrTolerance o >>= fun tol =>
    if cached cache p = p then .ok (some p, some (qr tol m j (Al * diagonal (scale o Al)))) else .error .oob
  else .error .fatal

/-- A column of zeros that is not below the threshold either: `1.0 / norm` divides by zero, suitesparse.cpp:144-148. -/
def ZeroNorm (o : Opts) (A : Mat ℝ) (m n : ℕ) : Prop :=
  o.columnScaling = true ∧ ∃ c < n, norm2 (fun r : Fin m => A r c) = 0 ∧ ¬ 0 < Real.sqrt (m * o.epsNorm)

open Classical in
/-- `solve`, suitesparse.cpp:509-632, for `A` with `m` rows and `n` columns and a cached symbolic factorisation. -/
noncomputable def solve (o : Opts) (qr : Spqr) (svd : Svd3) (cache : Option Pattern) (A : Mat ℝ) (m n : ℕ) (b : Fin m → ℝ)
    (j : ℕ) : Except Fault (Option Pattern × (ℕ → ℝ)) :=
  if ZeroNorm o A m n then .error .divZero else
  factorize o qr cache A m n j >>= fun cf =>
  let Gl := scale o (block A 0 0 m j)
  if j < n then
    let Ar := block A 0 j m (n - j)
    let Gr := scale o Ar
    let As := Ar * diagonal Gr
    reduceLeft cf.2 As >>= fun OW =>
    analyze o svd OW.1 >>= fun a =>
    reduceRight cf.2 As OW.2 b >>= fun br =>
    solveSVD a br >>= fun xr =>
    match cf.2 with
    | none => .ok (cf.1, fun c => if c < j then 0 else ext (fun i => Gr i * xr i) (c - j))
    | some f => solveQR f b As xr >>= fun xl =>
      .ok (cf.1, fun c => if c < j then ext (fun i => Gl i * xl i) c else ext (fun i => Gr i * xr i) (c - j))
  else
    match cf.2 with
    | none => .ok (cf.1, fun _ => 0)
    | some f => solveQR (k := 0) f b 0 0 >>= fun xl => .ok (cf.1, ext (fun i => Gl i * xl i))

/-- `analyze_marginal`, suitesparse.cpp:673-729: the cache is cleared, no scaling; `none`: no column is left. -/
noncomputable def analyzeMarginal (o : Opts) (qr : Spqr) (svd : Svd3) (A : Mat ℝ) (m n j : ℕ) :
    Except Fault (Option (Analysis (n - j))) :=
  factorize { o with columnScaling := false } qr none A m n j >>= fun cf =>
  if j < n then
    reduceLeft cf.2 (block A 0 j m (n - j)) >>= fun OW => analyze o svd OW.1 >>= fun a => .ok (some a)
  else .ok none

/-- `covar_det`, solver.cpp:710-712. -/
noncomputable def covarDet {k : ℕ} (a : Analysis k) : ℝ :=
  -1 * ((List.range a.rank).map (fun i => Real.log (ext a.s i))).sum

/-- The part of `solver_t::estimate_log_det_covar` after the Jacobian is formed, solver.cpp:698-713, for `J` with `m`
rows and `n` columns and `marg_idx = j`. -/
noncomputable def logDetCovar (o : Opts) (qr : Spqr) (svd : Svd3) (junk : ℕ → ℝ × ℕ) (J : Mat ℝ) (m n j : ℕ) :
    Except Fault ℝ :=
  ofDense junk macheps J m n >>= fun M => toDense M >>= fun D =>
  analyzeMarginal o qr svd D m n j >>= fun a =>
  match a with
  | none => .ok 0
  | some a => .ok (covarDet a)

/-- The step of `_solve_gn`, solver.cpp:757-773: `dx` for the Jacobian `J` and the residual `r`. -/
noncomputable def gnStep (o : Opts) (qr : Spqr) (svd : Svd3) (junk : ℕ → ℝ × ℕ) (cache : Option Pattern) (J : Mat ℝ)
    (r : ℕ → ℝ) (m n j : ℕ) : Except Fault (Option Pattern × (ℕ → ℝ)) :=
  ofDense junk macheps J m n >>= fun M => toDense M >>= fun D =>
  solve o qr svd cache D m n (fun i => -1 * r i) j

end Yac.Sparse
