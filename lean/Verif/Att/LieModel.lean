import Verif.Geom.QuatOfRot
import Verif.Basic

/-! The exponential map and its right Jacobian: `lie::Exp`, `lie::Jr`, yac/lib/util/core.cpp:776-813.
Numbers are exact reals. -/

namespace Yac.Lie
open Yac.Geom Matrix

/-- `lie::Exp`, core.cpp:778-793. -/
noncomputable def exp (phi : Vec3 ℝ) : Mat3 ℝ :=
  let norm := norm3 phi
  if norm < 1 / 1000 then 1 + skew phi
  else
    let S := skew phi
    1 + (Real.sin norm / norm) • S + ((1 - Real.cos norm) / (norm * norm)) • (S * S)

/-- `lie::Jr`, core.cpp:800-811; at zero the quotients are not numbers. -/
noncomputable def jr (psi : Vec3 ℝ) : Except Fault (Mat3 ℝ) :=
  let n := norm3 psi
  let n2 := n * n
  let n3 := n2 * n
  if n = 0 then .error .divZero
  else
    let S := skew psi
    .ok (1 - ((1 - Real.cos n) / n2) • S + ((n - Real.sin n) / n3) • (S * S))

end Yac.Lie
