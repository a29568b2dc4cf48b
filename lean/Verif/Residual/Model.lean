import Verif.Cam.Model
import Verif.Geom.Pose
import Mathlib.LinearAlgebra.Matrix.NonsingularInverse

/-!
# Model of the residual blocks (yac/lib/calib_residuals.cpp)

Exact real arithmetic.  The square root information matrix computed by the constructors is a
parameter `W`.  `none` stands for a value that is not a number or was never written.
-/

namespace Yac.Residual
open Matrix Yac.Geom Yac.Cam

abbrev Mat2 := Matrix (Fin 2) (Fin 2) ℝ

/-- `camera_geometry_t`, util/cv.hpp: the virtual functions the residuals call. -/
structure CamGeom where
  project : (Fin 2 → ℤ) → Params → Vec3 ℝ → ProjRes
  projectJac : Params → Vec3 ℝ → Option (Matrix (Fin 2) (Fin 3) ℝ)
  paramsJac : Params → Vec3 ℝ → Option (Matrix (Fin 2) (Fin 8) ℝ)

/-- `pinhole_radtan4_t`. -/
noncomputable def radtanGeom : CamGeom := ⟨radtanProject, radtanProjectJac, radtanParamsJac⟩
/-- `pinhole_equi4_t`. -/
noncomputable def equiGeom : CamGeom := ⟨equiProject, equiProjectJac, equiParamsJac⟩

/-- Two 2x3 blocks side by side (`J_min.block(0, 0, 2, 3)`, `J_min.block(0, 3, 2, 3)`). -/
def hcat (A B : Matrix (Fin 2) (Fin 3) ℝ) : Matrix (Fin 2) (Fin 6) ℝ :=
  !![A 0 0, A 0 1, A 0 2, B 0 0, B 0 1, B 0 2; A 1 0, A 1 1, A 1 2, B 1 0, B 1 1, B 1 2]

/-- The outcome for one parameter block: Jacobian (global size) and minimal Jacobian. -/
structure JacPair (m n : Nat) where
  full : Matrix (Fin 2) (Fin m) ℝ
  min : Matrix (Fin 2) (Fin n) ℝ

/-- A pose block whose two outputs are zeroed for an invalid projection. -/
noncomputable def poseJac (valid : Bool) (T : Mat4 ℝ) (J : Matrix (Fin 2) (Fin 6) ℝ) : JacPair 7 6 :=
  if valid then ⟨J * liftJac T, J⟩ else ⟨0, 0⟩

/-! ## `reproj_residual_t` -/

structure ReprojEval where
  /-- the weighted residual -/
  r : Option Vec2
  /-- Jacobians with respect to the camera extrinsics, the relative pose and the parameters -/
  jac : Option (JacPair 7 6 × JacPair 7 6 × JacPair 8 8)

/-- `p_CiFi`, calib_residuals.cpp:447-448. -/
noncomputable def reprojPoint (x0 x1 : Fin 7 → ℝ) (p : Vec3 ℝ) : Vec3 ℝ :=
  tfPoint (tfInv (tfParams x0) * tfParams x1) p

/-- `reproj_residual_t::EvaluateWithMinimalJacobians`, calib_residuals.cpp:433-515. -/
noncomputable def reprojEval (g : CamGeom) (cres : Fin 2 → ℤ) (W : Mat2) (z : Vec2) (p : Vec3 ℝ)
    (x0 x1 : Fin 7 → ℝ) (k : Params) : ReprojEval :=
  let T_C0Ci := tfParams x0
  let T_C0F := tfParams x1
  let T_CiC0 := tfInv T_C0Ci
  let pc := tfPoint (T_CiC0 * T_C0F) p
  let pr := g.project cres k pc
  let valid := decide (pr.code = 0)
  { r := pr.zhat.map fun zh => W *ᵥ (z - zh)
    jac :=
      match g.projectJac k pc, g.paramsJac k pc with
      | some Jh, some Jc =>
        let Jw := -(W * Jh)
        let C_CiC0 := tfRot T_CiC0
        let C_C0Ci := C_CiC0ᵀ
        let C_C0F := tfRot T_C0F
        let J0 := hcat (-(Jw * C_CiC0)) (-(Jw * C_CiC0 * -(skew (C_C0Ci *ᵥ pc))))
        let J1 := hcat (Jw * C_CiC0) (Jw * C_CiC0 * -(skew (C_C0F *ᵥ p)))
        let J2 := -(W * Jc)
        some (poseJac valid T_C0Ci J0, poseJac valid T_C0F J1,
          if valid then ⟨J2, J2⟩ else ⟨0, 0⟩)
      | _, _ => none }

/-- `reproj_residual_t::get_residual`, calib_residuals.cpp:386-410: the return code and the
residual, which is only written on success. -/
noncomputable def reprojResidual (g : CamGeom) (cres : Fin 2 → ℤ) (z : Vec2) (p : Vec3 ℝ)
    (x0 x1 : Fin 7 → ℝ) (k : Params) : ℤ × Option Vec2 :=
  let pr := g.project cres k (tfPoint (tfInv (tfParams x0) * tfParams x1) p)
  if pr.code ≠ 0 then (-1, none) else (0, pr.zhat.map fun zh => z - zh)

/-! ## `fiducial_residual_t` (FIDUCIAL_PARAMS_SIZE = 2) -/

/-- `T_WF` from the two fiducial parameters and the stored transform,
calib_residuals.cpp:622-629. -/
noncomputable def fiducialTf (T_WF : Mat4 ℝ) (rp : Fin 2 → ℝ) : Mat4 ℝ :=
  let yaw := quat2euler (tfQuatOf T_WF) 2
  tf (euler321 (rp 0) (rp 1) yaw) (tfTrans T_WF)

open Real in
/-- `J_x`, calib_residuals.cpp:686-690. -/
noncomputable def fiducialJx (p : Vec3 ℝ) (phi theta psi : ℝ) : Vec3 ℝ :=
  let y := p 1
  let z := p 2
  ![y * (sin phi * sin psi + sin theta * cos phi * cos psi) +
      z * (-sin phi * sin theta * cos psi + sin psi * cos phi),
    y * (-sin phi * cos psi + sin psi * sin theta * cos phi) +
      z * (-sin phi * sin psi * sin theta - cos phi * cos psi),
    y * cos phi * cos theta - z * sin phi * cos theta]

open Real in
/-- `J_y`, calib_residuals.cpp:691-695. -/
noncomputable def fiducialJy (p : Vec3 ℝ) (phi theta psi : ℝ) : Vec3 ℝ :=
  let x := p 0
  let y := p 1
  let z := p 2
  ![-x * sin theta * cos psi + y * sin phi * cos psi * cos theta + z * cos phi * cos psi * cos theta,
    -x * sin psi * sin theta + y * sin phi * sin psi * cos theta + z * sin psi * cos phi * cos theta,
    -x * cos theta - y * sin phi * sin theta - z * sin theta * cos phi]

/-- Two columns side by side. -/
def cols2 (a b : Fin 2 → ℝ) : Matrix (Fin 2) (Fin 2) ℝ := !![a 0, b 0; a 1, b 1]

structure FiducialEval where
  r : Option Vec2
  /-- fiducial, sensor pose, imu extrinsics, camera extrinsics, camera parameters -/
  jac : Option (JacPair 2 2 × JacPair 7 6 × JacPair 7 6 × JacPair 7 6 × JacPair 8 8)

/-- `fiducial_residual_t::EvaluateWithMinimalJacobians`, calib_residuals.cpp:615-826. For an
invalid projection the full Jacobians of the camera extrinsics and parameters are not zeroed
(lines 782-783, 795-796). Factors `I(3)` are left out. -/
noncomputable def fiducialEval (g : CamGeom) (cres : Fin 2 → ℤ) (W : Mat2) (z : Vec2) (p : Vec3 ℝ)
    (T_WF0 : Mat4 ℝ) (rp : Fin 2 → ℝ) (xs xi xc : Fin 7 → ℝ) (k : Params) : FiducialEval :=
  let T_WF := fiducialTf T_WF0 rp
  let yaw := quat2euler (tfQuatOf T_WF0) 2
  let T_WS := tfParams xs
  let T_BS := tfParams xi
  let T_BCi := tfParams xc
  let T_CiB := tfInv T_BCi
  let T_SW := tfInv T_WS
  let pc := tfPoint (T_CiB * T_BS * T_SW * T_WF) p
  let pr := g.project cres k pc
  let valid := decide (pr.code = 0)
  { r := pr.zhat.map fun zh => W *ᵥ (z - zh)
    jac :=
      match g.projectJac k pc, g.paramsJac k pc with
      | some Jh, some Jc =>
        let Jw := W * Jh
        -- T_WF
        let C_CiW := tfRot (T_CiB * T_BS * T_SW)
        let J0 := cols2 ((-(Jw * C_CiW)) *ᵥ fiducialJx p (rp 0) (rp 1) yaw)
          ((-(Jw * C_CiW)) *ᵥ fiducialJy p (rp 0) (rp 1) yaw)
        -- T_WS
        let C_CiS := tfRot (T_CiB * T_BS)
        let C_WS := tfRot T_WS
        let C_CiW' := C_CiS * C_WSᵀ
        let r_SFi := tfPoint (T_SW * T_WF) p
        let J1 := hcat (-Jw * -C_CiW') (-Jw * -C_CiW' * -(skew (C_WS *ᵥ r_SFi)))
        -- T_BS
        let C_CiB := tfRot T_CiB
        let C_BS := tfRot T_BS
        let J2 := hcat (-Jw * C_CiB) (-Jw * C_CiB * -(skew (C_BS *ᵥ r_SFi)))
        -- T_BCi
        let C_BCi := C_CiBᵀ
        let J3 := hcat (-Jw * -C_CiB) (-Jw * -C_CiB * -(skew (C_BCi *ᵥ pc)))
        let J4 := -(W * Jc)
        some (if valid then ⟨J0, J0⟩ else ⟨0, 0⟩, poseJac valid T_WS J1, poseJac valid T_BS J2,
          ⟨J3 * liftJac T_BCi, if valid then J3 else 0⟩, ⟨J4, if valid then J4 else 0⟩)
      | _, _ => none }

/-! ## `mocap_residual_t` -/

structure MocapEval where
  r : Option Vec2
  jac : Option (JacPair 7 6 × JacPair 7 6 × JacPair 7 6 × JacPair 8 8)

/-- `mocap_residual_t::EvaluateWithMinimalJacobians`, calib_residuals.cpp:910-999;
`T.inverse()` is the inverse of the 4x4 matrix. Factors `I(3)` are left out. -/
noncomputable def mocapEval (g : CamGeom) (cres : Fin 2 → ℤ) (W : Mat2) (z : Vec2) (p : Vec3 ℝ)
    (xf xm xc : Fin 7 → ℝ) (k : Params) : MocapEval :=
  let T_WF := tfParams xf
  let T_WM := tfParams xm
  let T_MC0 := tfParams xc
  let T_MW := T_WM⁻¹
  let T_C0M := T_MC0⁻¹
  let r_MFi := tfPoint (T_MW * T_WF) p
  let pc := tfPoint (T_C0M * T_MW * T_WF) p
  let pr := g.project cres k pc
  let valid := decide (pr.code = 0)
  { r := pr.zhat.map fun zh => W *ᵥ (z - zh)
    jac :=
      match g.projectJac k pc, g.paramsJac k pc with
      | some Jh, some Jc =>
        let Jw := W * Jh
        let C_C0W := tfRot (T_C0M * T_MW)
        let C_MC0 := tfRot T_MC0
        let C_C0M := C_MC0ᵀ
        let C_WF := tfRot T_WF
        let J0 := hcat (-Jw * C_C0W) (-Jw * C_C0W * -(skew (C_WF *ᵥ p)))
        let C_WM := tfRot T_WM
        let J1 := hcat (-Jw * -C_C0W) (-Jw * -C_C0W * -(skew (C_WM *ᵥ r_MFi)))
        let J2 := hcat (-Jw * -C_C0M) (-Jw * -C_C0M * -(skew (C_MC0 *ᵥ pc)))
        let J3 := -(W * Jc)
        some (poseJac valid T_WF J0, poseJac valid T_WM J1, poseJac valid T_MC0 J2,
          if valid then ⟨J3, J3⟩ else ⟨0, 0⟩)
      | _, _ => none }

/-! ## `prior_t` and `pose_prior_t` -/

/-- `prior_t::EvaluateWithMinimalJacobians`, calib_residuals.cpp:264-287: residual, Jacobian. -/
def priorEval {n : Nat} (W : Matrix (Fin n) (Fin n) ℝ) (meas x : Fin n → ℝ) :
    (Fin n → ℝ) × Matrix (Fin n) (Fin n) ℝ :=
  (W *ᵥ (meas - x), W * ((-1 : ℝ) • (1 : Matrix (Fin n) (Fin n) ℝ)))

/-- The unweighted error of `pose_prior_t`, calib_residuals.cpp:312-322. -/
noncomputable def posePriorErr (T_meas : Mat4 ℝ) (x : Fin 7 → ℝ) : Fin 6 → ℝ :=
  let T := tfParams x
  let dpose := T_meas * T⁻¹
  let dr := tfTrans T_meas - tfTrans T
  let dq := rotToQuat (tfRot dpose)
  ![dr 0, dr 1, dr 2, 2 * dq.x, 2 * dq.y, 2 * dq.z]

/-- `J_min` before weighting, calib_residuals.cpp:330-333. -/
noncomputable def posePriorJac (T_meas : Mat4 ℝ) (x : Fin 7 → ℝ) : Matrix (Fin 6) (Fin 6) ℝ :=
  let dq := rotToQuat (tfRot (T_meas * (tfParams x)⁻¹))
  let P := plusMat dq
  !![-1, 0, 0, 0, 0, 0;
     0, -1, 0, 0, 0, 0;
     0, 0, -1, 0, 0, 0;
     0, 0, 0, -(P 0 0), -(P 0 1), -(P 0 2);
     0, 0, 0, -(P 1 0), -(P 1 1), -(P 1 2);
     0, 0, 0, -(P 2 0), -(P 2 1), -(P 2 2)]

/-- `pose_prior_t::EvaluateWithMinimalJacobians`, calib_residuals.cpp:308-347: residual, minimal
Jacobian, lifted Jacobian. -/
noncomputable def posePriorEval (W : Matrix (Fin 6) (Fin 6) ℝ) (T_meas : Mat4 ℝ) (x : Fin 7 → ℝ) :
    (Fin 6 → ℝ) × Matrix (Fin 6) (Fin 6) ℝ × Matrix (Fin 6) (Fin 7) ℝ :=
  let J := W * posePriorJac T_meas x
  (W *ᵥ posePriorErr T_meas x, J, J * liftJac (tfParams x))

end Yac.Residual
