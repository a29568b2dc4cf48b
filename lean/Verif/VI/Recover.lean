import Verif.Dense.Model
import Mathlib.LinearAlgebra.Matrix.NonsingularInverse

/-! `calib_vi_t::recover_calib_covar` and `recover_calib_info`, yac/lib/calib_vi.cpp:981-1067.  Exact real
arithmetic.  `ceres::Covariance` is a parameter. -/

namespace Yac.VI.Recover
open Matrix

/-- `ceres::Covariance` asked for the block of the IMU extrinsics: whether `Compute` succeeds, and what
`GetCovarianceBlockInTangentSpace` writes. -/
structure Cov where
  compute : Bool
  block : Matrix (Fin 6) (Fin 6) ℝ

/-- `recover_calib_covar`, calib_vi.cpp:981-1045; `none`: -1 is returned. -/
noncomputable def recoverCovar (c : Cov) : Option (Matrix (Fin 6) (Fin 6) ℝ) :=
  if c.compute = false then none
  else if Dense.rank c.block ≠ 6 then none
  else some c.block

/-- `recover_calib_info`, calib_vi.cpp:1047-1067. -/
noncomputable def recoverInfo (c : Cov) : Option (Matrix (Fin 6) (Fin 6) ℝ) :=
  match recoverCovar c with
  | none => none
  | some M => some M⁻¹

end Yac.VI.Recover
