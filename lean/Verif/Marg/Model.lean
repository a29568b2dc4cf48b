import Verif.Solver.Model
import Verif.Geom.Pose
import Mathlib.Data.Matrix.Mul
import Mathlib.Analysis.SpecialFunctions.Pow.NNReal

/-!
# Model of `marg_residual_t` (yac/lib/calib_residuals.cpp:1798-2245) and of `schurs_complement`
(yac/lib/util/core.cpp:466-516)

Exact real arithmetic.  `Eigen::SelfAdjointEigenSolver` is a parameter `eig` returning
eigenvalues and eigenvectors.  The residual blocks come evaluated at the current values
(`Solver.Res`: residual and minimal Jacobians).  The debug output (`/tmp/*.csv`, warnings) is
not modelled.
-/

namespace Yac.Marg
open Matrix Yac.Geom Yac.Solver

/-- Eigenvalues and eigenvectors (in columns). -/
structure Eig (n : Nat) where
  vals : Fin n → ℝ
  vecs : Matrix (Fin n) (Fin n) ℝ

/-- `Eigen::SelfAdjointEigenSolver`. -/
abbrev EigSolver := (n : Nat) → Matrix (Fin n) (Fin n) ℝ → Eig n

/-! ### Schur complement -/

/-- `H.block(i, j, m, n)`. -/
def block (H : Mat ℝ) (i j m n : Nat) : Matrix (Fin m) (Fin n) ℝ := fun a b => H (i + a) (j + b)

/-- `b.segment(i, m)`. -/
def seg (b : Nat → ℝ) (i m : Nat) : Fin m → ℝ := fun a => b (i + a)

/-- `Hmm = 0.5 * (Hmm + Hmm.transpose())`, calib_residuals.cpp:2020. -/
noncomputable def symmetrise {m : Nat} (A : Matrix (Fin m) (Fin m) ℝ) : Matrix (Fin m) (Fin m) ℝ :=
  (0.5 : ℝ) • (A + Aᵀ)

/-- `(vals > thr).select(vals.inverse(), 0)`. -/
noncomputable def invAbove {n : Nat} (thr : ℝ) (vals : Fin n → ℝ) : Fin n → ℝ :=
  fun i => if vals i > thr then (vals i)⁻¹ else 0

/-- `Hmm_inv`, calib_residuals.cpp:2021-2026 and core.cpp:486-495. -/
noncomputable def pseudoInv (eig : EigSolver) {m : Nat} (A : Matrix (Fin m) (Fin m) ℝ) :
    Matrix (Fin m) (Fin m) ℝ :=
  (eig m A).vecs * diagonal (invAbove 1e-8 (eig m A).vals) * (eig m A).vecsᵀ

/-- `Hrr - Hrm * Hmm_inv * Hmr`, `brr - Hrm * Hmm_inv * bmm`, calib_residuals.cpp:2046-2052. -/
noncomputable def complement (H : Mat ℝ) (b : Nat → ℝ) (m r : Nat) (Hinv : Matrix (Fin m) (Fin m) ℝ) :
    Matrix (Fin r) (Fin r) ℝ × (Fin r → ℝ) :=
  (block H m m r r - block H m 0 r m * Hinv * block H 0 m m r,
    seg b m r - (block H m 0 r m * Hinv) *ᵥ seg b 0 m)

/-- `marg_residual_t::schurs_complement`, calib_residuals.cpp:1993-2055; the `assert` is
`fatal`. -/
noncomputable def schur (eig : EigSolver) (H : Mat ℝ) (b : Nat → ℝ) (m r : Nat) :
    Except Fault (Matrix (Fin r) (Fin r) ℝ × (Fin r → ℝ)) :=
  if m > 0 ∧ r > 0 then .ok (complement H b m r (pseudoInv eig (symmetrise (block H 0 0 m m))))
  else .error .fatal

/-- `schurs_complement`, core.cpp:466-516.  `none`: the return value is -1 and `H` and `b` are
left alone.  `assert(H.isZero() == false)` (on the whole matrix) is included. -/
noncomputable def schurUtil (eig : EigSolver) (H : Mat ℝ) (b : Nat → ℝ) (m r : Nat) (precond : Bool) :
    Except Fault (Option (Matrix (Fin r) (Fin r) ℝ × (Fin r → ℝ))) :=
  if ¬ (m > 0 ∧ r > 0) then .error .fatal
  else if block H 0 0 (m + r) (m + r) = 0 then .error .fatal
  else
    let Hmm := if precond then symmetrise (block H 0 0 m m) else block H 0 0 m m
    let Hinv := pseudoInv eig Hmm
    if |∑ i, ∑ j, (Hmm * Hinv - 1) i j| > 1e-4 then .ok none
    else .ok (some (complement H b m r Hinv))

/-! ### Linearisation -/

/-- `maxCoeff()`. -/
noncomputable def maxCoeff : {n : Nat} → (Fin n → ℝ) → ℝ
  | 0, _ => 0
  | _ + 1, v => (List.ofFn v).foldl max (v 0)

/-- `std::numeric_limits<double>::epsilon()`. -/
noncomputable def dblEps : ℝ := 2⁻¹ ^ 52

/-- `tol`, calib_residuals.cpp:2090. -/
noncomputable def tolOf {n : Nat} (vals : Fin n → ℝ) : ℝ := dblEps * n * maxCoeff vals

/-- `J`, calib_residuals.cpp:2091-2095. -/
noncomputable def linJ (eig : EigSolver) {n : Nat} (Hm : Matrix (Fin n) (Fin n) ℝ) :
    Matrix (Fin n) (Fin n) ℝ :=
  let e := eig n Hm
  diagonal (fun i => √(if e.vals i > tolOf e.vals then e.vals i else 0)) * e.vecsᵀ

/-- `r0_ = -J_inv * b_marg`, calib_residuals.cpp:2092-2096 and 2110. -/
noncomputable def linR (eig : EigSolver) {n : Nat} (Hm : Matrix (Fin n) (Fin n) ℝ)
    (bm : Fin n → ℝ) : Fin n → ℝ :=
  let e := eig n Hm
  (-(diagonal (fun i => √(invAbove (tolOf e.vals) e.vals i)) * e.vecsᵀ)) *ᵥ bm

/-! ### Assembly -/

variable {P : Type} [DecidableEq P]

/-- `param_t` as seen by `marg_residual_t`: the solver's fields, the flag `marginalize` and
`global_size`. -/
structure PInfo where
  base : ParamInfo
  marg : Bool
  gsize : Nat

/-- The parameter blocks in the order of first appearance (`params_seem`),
calib_residuals.cpp:1848-1858. -/
def seenParams (ps : List P) : List P :=
  ps.foldl (fun l p => if p ∈ l then l else l ++ [p]) []

/-- `marg_param_ptrs_`, calib_residuals.cpp:1861-1862. -/
def margParams (info : P → PInfo) (ps : List P) : List P :=
  (seenParams ps).filter (fun p => (info p).marg)

/-- One of the lists `remain_*_ptrs`, calib_residuals.cpp:1863-1873. -/
def remainKind (info : P → PInfo) (ps : List P) (k : Kind) : List P :=
  (seenParams ps).filter (fun p => !(info p).marg && decide ((info p).base.kind = k))

/-- `remain_param_ptrs_`, calib_residuals.cpp:1887-1907. -/
def remainParams (info : P → PInfo) (ps : List P) : List P :=
  (remainKind info ps .pose ++ remainKind info ps .sb ++ remainKind info ps .fiducial ++
    remainKind info ps .extrinsics ++ remainKind info ps .camera).filter
    (fun p => !(info p).base.fixed)

/-- The sum of the `local_size`. -/
def sizeSum (info : P → PInfo) (l : List P) : Nat := (l.map (fun p => (info p).base.size)).sum

/-- The state of a `marg_residual_t` after `form_hessian`. -/
structure Formed (P : Type) where
  m : Nat
  r : Nat
  margPs : List P
  remain : List P
  index : List (P × Nat)
  H : Mat ℝ
  b : Nat → ℝ

/-- `form_hessian`, calib_residuals.cpp:1834-1990, on a fresh object. -/
noncomputable def formHessian (info : P → PInfo) (fs : List (Res ℝ P)) : Formed P :=
  let ps := fs.flatMap (fun f => f.blocks.map Prod.fst)
  let mp := margParams info ps
  let rp := remainParams info ps
  let index := assign (fun p => (info p).base) 0 (mp ++ rp)
  let Hb := fs.foldl (fun (Hb : Mat ℝ × (Nat → ℝ)) f =>
    hessBlocks (fun p => (info p).base) (col index) f.size f.r Hb.1 Hb.2 f.blocks)
    (fun _ _ => 0, fun _ => 0)
  ⟨sizeSum info mp, sizeSum info rp, mp, rp, index, Hb.1, Hb.2⟩

/-- A marginalised `marg_residual_t`. -/
structure MargRes (P : Type) where
  m : Nat
  r : Nat
  remain : List P
  index : List (P × Nat)
  J0 : Matrix (Fin r) (Fin r) ℝ
  r0 : Fin r → ℝ
  x0 : P → Nat → ℝ

/-- `marginalize`, calib_residuals.cpp:2057-2126, on a fresh object with the residuals `fs`
evaluated at the values `x0`: the new residual and the marginalised parameters. -/
noncomputable def marginalize (eig : EigSolver) (info : P → PInfo) (x0 : P → Nat → ℝ)
    (fs : List (Res ℝ P)) : Except Fault (MargRes P × List P) :=
  let F := formHessian info fs
  schur eig F.H F.b F.m F.r >>= fun Hb =>
  .ok (⟨F.m, F.r, F.remain, F.index, linJ eig Hb.1, linR eig Hb.1 Hb.2, x0⟩, F.margPs)

/-! ### Evaluation -/

/-- The lambda `is_pose`, calib_residuals.cpp:2159-2168. -/
def isPose (i : PInfo) : Bool :=
  decide (i.base.kind = .pose) || decide (i.base.kind = .extrinsics) ||
    (decide (i.base.kind = .fiducial) && decide (i.gsize = 7))

/-- The minus of one parameter, calib_residuals.cpp:2180-2193. -/
noncomputable def minusOf (i : PInfo) (x x0 : Nat → ℝ) : List ℝ :=
  if isPose i then
    let q : Quat ℝ := ⟨x 6, x 3, x 4, x 5⟩
    let q0 : Quat ℝ := ⟨x0 6, x0 3, x0 4, x0 5⟩
    let dq := q.mul q0.inverse
    [x 0 - x0 0, x 1 - x0 1, x 2 - x0 2, 2 * dq.x, 2 * dq.y, 2 * dq.z]
  else (List.range i.gsize).map (fun a => x a - x0 a)

/-- `DeltaChi.segment(idx, size) = l`; a segment that does not fit is an Eigen assertion. -/
noncomputable def writeSeg (n : Nat) (v : Nat → Option ℝ) (idx : Nat) (l : List ℝ) :
    Except Fault (Nat → Option ℝ) :=
  if idx + l.length ≤ n then
    .ok (fun a => if idx ≤ a ∧ a < idx + l.length then l[a - idx]? else v a)
  else .error .oob

/-- `compute_delta_chi`, calib_residuals.cpp:2152-2195; `none` is an entry never written. -/
noncomputable def deltaChi (info : P → PInfo) (M : MargRes P) (x : P → Nat → ℝ) :
    Except Fault (Nat → Option ℝ) :=
  M.remain.foldlM (fun v p =>
    writeSeg M.r v (col M.index p - M.m) (minusOf (info p) (x p) (M.x0 p))) (fun _ => none)

/-- All entries of a vector that was written piece by piece. -/
noncomputable def readAll (n : Nat) (v : Nat → Option ℝ) : Except Fault (Fin n → ℝ) :=
  if ∀ a : Fin n, (v a).isSome then .ok (fun a => (v a).getD 0) else .error .uninit

/-- The residual, calib_residuals.cpp:2207-2209. -/
noncomputable def evaluate (info : P → PInfo) (M : MargRes P) (x : P → Nat → ℝ) :
    Except Fault (Fin M.r → ℝ) :=
  deltaChi info M x >>= fun v => readAll M.r v >>= fun d => .ok (M.r0 + M.J0 *ᵥ d)

/-- The minimal Jacobian of parameter `p`: `J0_.middleCols(index, local_size)`,
calib_residuals.cpp:2221-2223; columns outside are an Eigen assertion. -/
noncomputable def minJac (info : P → PInfo) (M : MargRes P) (p : P) :
    Except Fault (Matrix (Fin M.r) (Fin (info p).base.size) ℝ) :=
  if h : col M.index p - M.m + (info p).base.size ≤ M.r then
    .ok (fun i a => M.J0 i ⟨col M.index p - M.m + a, by omega⟩)
  else .error .oob

/-- The Jacobian of a pose parameter, calib_residuals.cpp:2229-2233: `tf(param->param)` are the
values stored in the parameter object, not the values the residual is evaluated at. -/
noncomputable def poseFullJac {r : Nat} (Jmin : Matrix (Fin r) (Fin 6) ℝ) (stored : Fin 7 → ℝ) :
    Matrix (Fin r) (Fin 7) ℝ :=
  Jmin * liftJac (tfParams stored)

end Yac.Marg
