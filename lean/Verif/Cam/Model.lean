import Verif.Basic
import Verif.Geom.Rot
import Mathlib.Analysis.SpecialFunctions.Trigonometric.Arctan
import Mathlib.Analysis.SpecialFunctions.Exp
import Mathlib.Analysis.SpecialFunctions.Log.Basic

/-!
# Model of the camera geometry and of the loss functions

yac/lib/util/cv.cpp:592-1103 and yac/lib/calib_loss.cpp, exact real arithmetic.  A quotient by
zero (an infinity or NaN in the code) is the explicit outcome `none`.
-/

namespace Yac.Cam
open Matrix Yac.Geom

abbrev Vec2 := Fin 2 → ℝ
abbrev Vec4 := Fin 4 → ℝ
/-- The parameter vector `(fx, fy, cx, cy, d0, d1, d2, d3)`. -/
abbrev Params := Fin 8 → ℝ

/-- `params.head(4)`. -/
def proj (k : Params) : Vec4 := ![k 0, k 1, k 2, k 3]
/-- `params.tail(4)`. -/
def dist (k : Params) : Vec4 := ![k 4, k 5, k 6, k 7]

/-! ## Radial-tangential distortion -/

/-- `radtan4_distort`, cv.cpp:594-618. -/
def radtan4Distort (d : Vec4) (p : Vec2) : Vec2 :=
  let x := p 0
  let y := p 1
  let k1 := d 0
  let k2 := d 1
  let p1 := d 2
  let p2 := d 3
  let x2 := x * x
  let y2 := y * y
  let r2 := x2 + y2
  let r4 := r2 * r2
  let radial := 1 + (k1 * r2) + (k2 * r4)
  let xd := x * radial
  let yd := y * radial
  let xy := x * y
  ![xd + (2 * p1 * xy + p2 * (r2 + 2 * x2)), yd + (2 * p2 * xy + p1 * (r2 + 2 * y2))]

/-- `radtan4_point_jacobian`, cv.cpp:642-681. -/
def radtan4PointJac (d : Vec4) (p : Vec2) : Matrix (Fin 2) (Fin 2) ℝ :=
  let x := p 0
  let y := p 1
  let k1 := d 0
  let k2 := d 1
  let p1 := d 2
  let p2 := d 3
  let x2 := x * x
  let y2 := y * y
  let r2 := x2 + y2
  let r4 := r2 * r2
  let j00 := 1 + k1 * r2 + k2 * r4 + (2 * p1 * y + 6 * p2 * x) + x * (2 * k1 * x + 4 * k2 * x * r2)
  let j10 := 2 * p1 * x + 2 * p2 * y + y * (2 * k1 * x + 4 * k2 * x * r2)
  let j11 := 1 + k1 * r2 + k2 * r4 + (6 * p1 * y + 2 * p2 * x) + y * (2 * k1 * y + 4 * k2 * y * r2)
  !![j00, j10; j10, j11]

/-- `radtan4_params_jacobian`, cv.cpp:683-707. -/
def radtan4ParamsJac (p : Vec2) : Matrix (Fin 2) (Fin 4) ℝ :=
  let x := p 0
  let y := p 1
  let xy := x * y
  let x2 := x * x
  let y2 := y * y
  let r2 := x2 + y2
  let r4 := r2 * r2
  !![x * r2, x * r4, 2 * xy, r2 + 2 * x2; y * r2, y * r4, r2 + 2 * y2, 2 * xy]

/-- Inverse of a 2x2 matrix as Eigen computes it (cofactors over the determinant); `none` if
the determinant is zero. -/
noncomputable def inv2 (A : Matrix (Fin 2) (Fin 2) ℝ) : Option (Matrix (Fin 2) (Fin 2) ℝ) :=
  let d := A 0 0 * A 1 1 - A 0 1 * A 1 0
  if d = 0 then none else some !![A 1 1 / d, -(A 0 1) / d; -(A 1 0) / d, A 0 0 / d]

/-- Loop of `radtan4_undistort`, cv.cpp:624-637: at most `n` Gauss-Newton steps. -/
noncomputable def undistortLoop (d : Vec4) (p0 : Vec2) : Nat → Vec2 → Option Vec2
  | 0, p => some p
  | n + 1, p =>
    let err : Vec2 := fun i => p0 i - radtan4Distort d p i
    let J := radtan4PointJac d p
    match inv2 (Jᵀ * J) with
    | none => none
    | some Hi =>
      let dp := (Hi * Jᵀ) *ᵥ err
      let p := fun i => p i + dp i
      if err 0 * err 0 + err 1 * err 1 < 1 / 10 ^ 15 then some p else undistortLoop d p0 n p

/-- `radtan4_undistort`, cv.cpp:620-640. -/
noncomputable def radtan4Undistort (d : Vec4) (p0 : Vec2) : Option Vec2 := undistortLoop d p0 5 p0

/-! ## Equidistant distortion -/

/-- `p.norm()`. -/
noncomputable def norm2 (p : Vec2) : ℝ := Real.sqrt (p 0 * p 0 + p 1 * p 1)

/-- `th * (1 + k1 th2 + k2 th4 + k3 th6 + k4 th8)`, cv.cpp:724-729. -/
def thetaD (d : Vec4) (th : ℝ) : ℝ :=
  let th2 := th * th
  let th4 := th2 * th2
  let th6 := th4 * th2
  let th8 := th4 * th4
  th * (1 + d 0 * th2 + d 1 * th4 + d 2 * th6 + d 3 * th8)

/-- `equi4_distort`, cv.cpp:711-733. -/
noncomputable def equi4Distort (d : Vec4) (p : Vec2) : Vec2 :=
  let r := norm2 p
  if r < 1 / 10 ^ 8 then p
  else
    let th := Real.arctan r
    let thd := thetaD d th
    ![(thd / r) * p 0, (thd / r) * p 1]

/-- One step of the iteration in `equi4_undistort`, cv.cpp:743-748. -/
noncomputable def equiStep (d : Vec4) (thd th : ℝ) : Option ℝ :=
  let th2 := th * th
  let th4 := th2 * th2
  let th6 := th4 * th2
  let th8 := th4 * th4
  let s := 1 + d 0 * th2 + d 1 * th4 + d 2 * th6 + d 3 * th8
  if s = 0 then none else some (thd / s)

/-- The loop, cv.cpp:742-749. -/
noncomputable def equiLoop (d : Vec4) (thd : ℝ) : Nat → ℝ → Option ℝ
  | 0, th => some th
  | n + 1, th => (equiStep d thd th).bind (equiLoop d thd n)

/-- `equi4_undistort`, cv.cpp:735-753; `none` where a divisor is zero. -/
noncomputable def equi4Undistort (d : Vec4) (p : Vec2) : Option Vec2 :=
  let thd := Real.sqrt (p 0 * p 0 + p 1 * p 1)
  match equiLoop d thd 20 thd with
  | none => none
  | some th =>
    if thd = 0 then none
    else
      let scaling := Real.tan th / thd
      some ![p 0 * scaling, p 1 * scaling]

/-- `equi4_point_jacobian`, cv.cpp:755-789; `none` at `r = 0` where the code divides zero by
zero. -/
noncomputable def equi4PointJac (d : Vec4) (p : Vec2) : Option (Matrix (Fin 2) (Fin 2) ℝ) :=
  let x := p 0
  let y := p 1
  let r := norm2 p
  if r = 0 then none
  else
    let th := Real.arctan r
    let th2 := th * th
    let th4 := th2 * th2
    let th6 := th4 * th2
    let th8 := th4 * th4
    let thd := th * (1 + d 0 * th2 + d 1 * th4 + d 2 * th6 + d 3 * th8)
    let s := thd / r
    let th_r := 1 / (r * r + 1)
    let thd_th := 1 + 3 * d 0 * th2 + 5 * d 1 * th4 + 7 * d 2 * th6 + 9 * d 3 * th8
    let s_r := thd_th * th_r / r - thd / (r * r)
    let r_x := 1 / r * x
    let r_y := 1 / r * y
    some !![s + x * s_r * r_x, x * s_r * r_y; y * s_r * r_x, s + y * s_r * r_y]

/-- `equi4_params_jacobian`, cv.cpp:791-816. -/
noncomputable def equi4ParamsJac (p : Vec2) : Option (Matrix (Fin 2) (Fin 4) ℝ) :=
  let x := p 0
  let y := p 1
  let r := norm2 p
  if r = 0 then none
  else
    let th := Real.arctan r
    let th3 := th * th * th
    let th5 := th3 * th * th
    let th7 := th5 * th * th
    let th9 := th7 * th * th
    some !![x * th3 / r, x * th5 / r, x * th7 / r, x * th9 / r;
            y * th3 / r, y * th5 / r, y * th7 / r, y * th9 / r]

/-! ## Projection -/

/-- `project_point`, cv.cpp:820-822; `none` at depth zero. -/
noncomputable def projectPoint (p : Vec3 ℝ) : Option Vec2 :=
  if p 2 = 0 then none else some ![p 0 / p 2, p 1 / p 2]

/-- `project_jacobian`, cv.cpp:824-840. -/
noncomputable def projectJac (p : Vec3 ℝ) : Option (Matrix (Fin 2) (Fin 3) ℝ) :=
  if p 2 = 0 then none
  else some !![1 / p 2, 0, -(p 0) / (p 2 * p 2); 0, 1 / p 2, -(p 1) / (p 2 * p 2)]

/-- `pinhole_focal`, cv.cpp:844-846. -/
noncomputable def pinholeFocal (size : ℤ) (fov : ℝ) : ℝ :=
  ((size : ℝ) / 2) / Real.tan (fov * (Real.pi / 180) / 2)

/-- `pinhole_K`, cv.cpp:848-857. -/
def pinholeK (fx fy cx cy : ℝ) : Mat3 ℝ := !![fx, 0, cx; 0, fy, cy; 0, 0, 1]

/-- Scaling and centring, cv.cpp:870-871. -/
def pixel (f : Vec4) (x : Vec2) : Vec2 := ![f 0 * x 0 + f 2, f 1 * x 1 + f 3]

/-- `pinhole_point_jacobian`, cv.cpp:882-888. -/
def pinholePointJac (f : Vec4) : Matrix (Fin 2) (Fin 2) ℝ := !![f 0, 0; 0, f 1]

/-- `pinhole_params_jacobian`, cv.cpp:890-899. -/
def pinholeParamsJac (x : Vec2) : Matrix (Fin 2) (Fin 4) ℝ := !![x 0, 0, 1, 0; 0, x 1, 0, 1]

/-- Result of a `project` call: the return code and what is written to `z_hat` (`none`: not
written, or written with an infinity or NaN). -/
structure ProjRes where
  code : ℤ
  zhat : Option Vec2

/-- `pinhole_project`, cv.cpp:859-880: closed upper bound. -/
noncomputable def pinholeProject (res : Fin 2 → ℤ) (f : Vec4) (p : Vec3 ℝ) : ProjRes :=
  match projectPoint p with
  | none => ⟨-1, none⟩
  | some x =>
    let z := pixel f x
    let xok := z 0 ≥ 0 ∧ z 0 ≤ res 0
    let yok := z 1 ≥ 0 ∧ z 1 ≤ res 1
    let zok := p 2 > 0
    open Classical in
    ⟨if xok ∧ yok ∧ zok then 0 else -1, some z⟩

/-- `pinhole_radtan4_project`, cv.cpp:903-928: half-open upper bound. -/
noncomputable def radtanProject (res : Fin 2 → ℤ) (k : Params) (p : Vec3 ℝ) : ProjRes :=
  match projectPoint p with
  | none => ⟨-1, none⟩
  | some x =>
    let z := pixel (proj k) (radtan4Distort (dist k) x)
    let xok := z 0 ≥ 0 ∧ z 0 < res 0
    let yok := z 1 ≥ 0 ∧ z 1 < res 1
    let zok := p 2 > 0
    open Classical in
    ⟨if xok ∧ yok ∧ zok then 0 else -1, some z⟩

/-- `pinhole_equi4_project`, cv.cpp:1004-1033: behind the camera nothing is written; at depth
zero the distorted point is NaN (infinity times zero) so the frame check fails. -/
noncomputable def equiProject (res : Fin 2 → ℤ) (k : Params) (p : Vec3 ℝ) : ProjRes :=
  if p 2 < 0 then ⟨-1, none⟩
  else
    match projectPoint p with
    | none => ⟨-2, none⟩
    | some x =>
      let z := pixel (proj k) (equi4Distort (dist k) x)
      let xok := z 0 ≥ 0 ∧ z 0 ≤ res 0
      let yok := z 1 ≥ 0 ∧ z 1 ≤ res 1
      open Classical in
      ⟨if xok ∧ yok then 0 else -2, some z⟩

/-- `pinhole_radtan4_project_jacobian`, cv.cpp:930-942. -/
noncomputable def radtanProjectJac (k : Params) (p : Vec3 ℝ) : Option (Matrix (Fin 2) (Fin 3) ℝ) := do
  let x ← projectPoint p
  let Jp ← projectJac p
  some (pinholePointJac (proj k) * radtan4PointJac (dist k) x * Jp)

/-- `pinhole_radtan4_params_jacobian`, cv.cpp:944-962. -/
noncomputable def radtanParamsJac (k : Params) (p : Vec3 ℝ) : Option (Matrix (Fin 2) (Fin 8) ℝ) := do
  let x ← projectPoint p
  let A := pinholeParamsJac (radtan4Distort (dist k) x)
  let B := pinholePointJac (proj k) * radtan4ParamsJac x
  some !![A 0 0, A 0 1, A 0 2, A 0 3, B 0 0, B 0 1, B 0 2, B 0 3;
          A 1 0, A 1 1, A 1 2, A 1 3, B 1 0, B 1 1, B 1 2, B 1 3]

/-- `pinhole_equi4_project_jacobian`, cv.cpp:1035-1046. -/
noncomputable def equiProjectJac (k : Params) (p : Vec3 ℝ) : Option (Matrix (Fin 2) (Fin 3) ℝ) := do
  let x ← projectPoint p
  let Jd ← equi4PointJac (dist k) x
  let Jp ← projectJac p
  some (pinholePointJac (proj k) * Jd * Jp)

/-- `pinhole_equi4_params_jacobian`, cv.cpp:1048-1065. -/
noncomputable def equiParamsJac (k : Params) (p : Vec3 ℝ) : Option (Matrix (Fin 2) (Fin 8) ℝ) := do
  let x ← projectPoint p
  let A := pinholeParamsJac (equi4Distort (dist k) x)
  let Jd ← equi4ParamsJac x
  let B := pinholePointJac (proj k) * Jd
  some !![A 0 0, A 0 1, A 0 2, A 0 3, B 0 0, B 0 1, B 0 2, B 0 3;
          A 1 0, A 1 1, A 1 2, A 1 3, B 1 0, B 1 1, B 1 2, B 1 3]

/-- Pixel to normalised coordinates, cv.cpp:971-973; `none` for a zero focal length. -/
noncomputable def unpixel (k : Params) (z : Vec2) : Option Vec2 :=
  if k 0 = 0 ∨ k 1 = 0 then none else some ![(z 0 - k 2) / k 0, (z 1 - k 3) / k 1]

/-- `pinhole_radtan4_back_project`, cv.cpp:964-981. -/
noncomputable def radtanBackProject (k : Params) (z : Vec2) : Option (Vec3 ℝ) := do
  let p ← unpixel k z
  let u ← radtan4Undistort (dist k) p
  some ![u 0, u 1, 1]

/-- `pinhole_radtan4_undistort`, cv.cpp:983-1000. -/
noncomputable def radtanUndistort (k : Params) (z : Vec2) : Option Vec2 := do
  let p ← unpixel k z
  let u ← radtan4Undistort (dist k) p
  some ![u 0 * k 0 + k 2, u 1 * k 1 + k 3]

/-- `pinhole_equi4_back_project`, cv.cpp:1067-1084. -/
noncomputable def equiBackProject (k : Params) (z : Vec2) : Option (Vec3 ℝ) := do
  let p ← unpixel k z
  let u ← equi4Undistort (dist k) p
  some ![u 0, u 1, 1]

/-- `pinhole_equi4_undistort`, cv.cpp:1086-1103. -/
noncomputable def equiUndistort (k : Params) (z : Vec2) : Option Vec2 := do
  let p ← unpixel k z
  let u ← equi4Undistort (dist k) p
  some ![u 0 * k 0 + k 2, u 1 * k 1 + k 3]

/-! ## Losses, calib_loss.cpp -/

/-- The three numbers a loss reports. -/
structure Rho where
  r0 : ℝ
  r1 : ℝ
  r2 : ℝ

/-- `BlakeZissermanLoss::Evaluate`, calib_loss.cpp:47-58; `tiny` is
`numeric_limits<double>::min()`, the smallest positive normal number. -/
noncomputable def blakeZisserman (tiny eps s : ℝ) : Rho :=
  let x := eps * Real.exp s + 1
  let x2 := x * x
  let x3 := x2 * x
  let r0 := -Real.log (eps + Real.exp (-s))
  let r1 := 1 / x
  let r2 := (x - x2) / x3
  ⟨r0, max tiny r1, max tiny r2⟩

/-- `ceres::HuberLoss(a)::Evaluate` (called by calib_loss.cpp:19-21). -/
noncomputable def huber (tiny a s : ℝ) : Rho :=
  let b := a * a
  if s > b then
    let r := Real.sqrt s
    let r1 := max tiny (a / r)
    ⟨2 * a * r - b, r1, -r1 / (2 * s)⟩
  else ⟨s, 1, 0⟩

/-- `ceres::CauchyLoss(a)::Evaluate` (called by calib_loss.cpp:35-37). -/
noncomputable def cauchy (tiny a s : ℝ) : Rho :=
  let b := a * a
  let c := 1 / b
  let sum := 1 + s * c
  let inv := 1 / sum
  ⟨b * Real.log sum, max tiny inv, -c * (inv * inv)⟩

end Yac.Cam
