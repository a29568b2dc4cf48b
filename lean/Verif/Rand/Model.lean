import Verif.Geom.Pose
import Verif.Num.Model
import Mathlib.Analysis.SpecialFunctions.Log.Basic

/-! Random numbers: `gauss_normal` and `tf_perturb`, yac/lib/util/core.cpp:992-1014, 1087-1104.  `rand ()` is
a stream of numbers up to `RAND_MAX`; real arithmetic is exact. -/

namespace Yac.Rand
open Yac.Geom

/-- The static variables of `gauss_normal`, core.cpp:993-994, and how many numbers of the stream have been
taken. -/
structure St where
  v1 : ℝ
  v2 : ℝ
  s : ℝ
  phase : Int
  pos : Nat

open Classical in
/-- The rejection loop, core.cpp:998-1005. -/
noncomputable def reject (randMax : Nat) (rand : Nat → Nat) : Nat → St → Except Fault St
  | 0, _ => .error .diverge
  | fuel + 1, st =>
    let u1 : ℝ := rand st.pos / randMax
    let u2 : ℝ := rand (st.pos + 1) / randMax
    let v1 := 2 * u1 - 1
    let v2 := 2 * u2 - 1
    let s := v1 * v1 + v2 * v2
    let st' : St := { st with v1 := v1, v2 := v2, s := s, pos := st.pos + 2 }
    if s ≥ 1 ∨ s = 0 then reject randMax rand fuel st' else .ok st'

/-- `gauss_normal`, core.cpp:992-1014. -/
noncomputable def gaussNormal (randMax : Nat) (rand : Nat → Nat) (fuel : Nat) (st : St) : Except Fault (ℝ × St) :=
  if st.phase = 0 then
    match reject randMax rand fuel st with
    | .error e => .error e
    | .ok st' => .ok (st'.v1 * Real.sqrt (-2 * Real.log st'.s / st'.s), { st' with phase := 1 - st'.phase })
  else
    .ok (st.v2 * Real.sqrt (-2 * Real.log st.s / st.s), { st with phase := 1 - st.phase })

/-- `tf_perturb`, core.cpp:1087-1104, with the six results of `rand ()`. -/
noncomputable def tfPerturb (randMax : Nat) (r : Fin 6 → Nat) (T : Mat4 ℝ) (dr drot : ℝ) : Mat4 ℝ :=
  let dx := Num.randf randMax (r 0) dr (-dr)
  let dy := Num.randf randMax (r 1) dr (-dr)
  let dz := Num.randf randMax (r 2) dr (-dr)
  let drotx := Num.randf randMax (r 3) drot (-drot)
  let droty := Num.randf randMax (r 4) drot (-drot)
  let drotz := Num.randf randMax (r 5) drot (-drot)
  let T1 := tfPerturbTrans T dx 0
  let T2 := tfPerturbTrans T1 dy 1
  let T3 := tfPerturbTrans T2 dz 2
  let T4 := tfPerturbRot T3 drotx 0
  let T5 := tfPerturbRot T4 droty 1
  tfPerturbRot T5 drotz 2

/-- `rmse (vec2s_t)`, core.cpp:957-967, and `rmse (vec3s_t)`, core.cpp:969-981: `n` components. -/
noncomputable def rmseVec {n : Nat} (vecs : List (Fin n → ℝ)) : Fin n → Option ℝ :=
  fun i => Num.rmse (vecs.map (fun v => v i))

end Yac.Rand
