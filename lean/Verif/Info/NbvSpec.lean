import Verif.Info.NbvModel
import Verif.Solver.CovSpec
import Mathlib.Data.Matrix.Block

/-!
# What the score of a candidate view is supposed to be (independent of the code)
-/

namespace Yac.Info
open Matrix Yac.Marg Yac.Solver

variable {P : Type} [DecidableEq P]

/-- The components of the parameters `S`. -/
abbrev Comp (info : P → ParamInfo) (S : Finset P) := (p : S) × Fin (info p).size

/-- The information matrix `Σ JᵀJ`, rows for the components of `S`, columns for those of `T`. -/
noncomputable def infoBlock (info : P → ParamInfo) (fs : List (Res ℝ P)) (S T : Finset P) :
    Matrix (Comp info S) (Comp info T) ℝ :=
  fun a b => infoEntry fs a.1 a.2 b.1 b.2

/-- The information matrix of the calibration parameters `C` and the poses `Q`. -/
noncomputable def infoMatrix (info : P → ParamInfo) (fs : List (Res ℝ P)) (C Q : Finset P) :
    Matrix (Comp info C ⊕ Comp info Q) (Comp info C ⊕ Comp info Q) ℝ :=
  fromBlocks (infoBlock info fs C C) (infoBlock info fs C Q) (infoBlock info fs Q C)
    (infoBlock info fs Q Q)

/-- The covariance of the calibration parameters: their part of the inverse. -/
noncomputable def calibCovar (info : P → ParamInfo) (fs : List (Res ℝ P)) (C Q : Finset P) :
    Matrix (Comp info C) (Comp info C) ℝ :=
  ((infoMatrix info fs C Q)⁻¹).toBlocks₁₁

/-- The contract of `Eigen::JacobiSVD`: `A = U diag(s) Vᵀ` with `U`, `V` orthogonal, `s ≥ 0`. -/
def IsSvd (svd : Svd) : Prop :=
  ∀ n (A : Matrix (Fin n) (Fin n) ℝ), (∀ i, 0 ≤ svd n A i) ∧ ∃ U V : Matrix (Fin n) (Fin n) ℝ,
    Uᵀ * U = 1 ∧ Vᵀ * V = 1 ∧ A = U * diagonal (svd n A) * Vᵀ

/-- A calibration of the cameras `cams` with extrinsics `exts` and residuals `fs` over `views`
views, and a candidate view with pose `np` and residuals `new`.  `C` are the optimised calibration
parameters, `Q` the poses. -/
structure Scene (info : P → ParamInfo) (cams exts : List P) (views : Nat) (fs new : List (Res ℝ P))
    (np : P) (C Q : Finset P) : Prop where
  cams_nodup : cams.Nodup
  exts_nodup : exts.Nodup
  cam_kind : ∀ p ∈ cams, (info p).kind = .camera
  ext_kind : ∀ p ∈ exts, (info p).kind = .extrinsics
  /-- No camera is fixed. -/
  cam_free : ∀ p ∈ cams, (info p).fixed = false
  /-- Every camera was seen in some view already. -/
  cam_used : ∀ p ∈ cams, ∃ f ∈ fs, p ∈ f.blocks.map Prod.fst
  ext_used : ∀ p ∈ exts, (info p).fixed = false → ∃ f ∈ fs, p ∈ f.blocks.map Prod.fst
  /-- The optimised parameters are cameras, extrinsics and poses. -/
  known : ∀ p, Optimised info (fs ++ new) p →
    p ∈ cams ∨ p ∈ exts ∨ ((info p).kind = .pose ∧ (info p).size = 6)
  /-- The pose of the candidate is new, and the only pose of its residuals. -/
  np_pose : (info np).kind = .pose ∧ (info np).fixed = false ∧ (info np).size = 6
  np_new : ∀ f ∈ fs, np ∉ f.blocks.map Prod.fst
  new_pose : ∀ p, Optimised info new p → (info p).kind = .pose → p = np
  /-- There is a view already, and no more poses than views. -/
  some_view : ∃ p, Optimised info fs p ∧ (info p).kind = .pose
  few : ∀ S : Finset P, (∀ p ∈ S, Optimised info fs p ∧ (info p).kind = .pose) → S.card ≤ views
  calib : ∀ p, p ∈ C ↔ (p ∈ cams ∨ p ∈ exts) ∧ (info p).fixed = false
  poses : ∀ p, p ∈ Q ↔ Optimised info (fs ++ new) p ∧ (info p).kind = .pose

end Yac.Info
