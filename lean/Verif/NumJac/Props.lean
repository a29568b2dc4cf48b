import Verif.NumJac.Model
import Verif.Geom.PoseProps
import Verif.Misc.Props
import Verif.Geom.QuatOfRot
import Mathlib.Analysis.Calculus.Deriv.Slope
import Mathlib.Analysis.Calculus.Deriv.Comp

/-! C112: numerical Jacobians. -/

namespace Yac.NumJac
open Yac.Geom Matrix

theorem okb {α β : Type} (a : α) (f : α → Except Fault β) : ((Except.ok a : Except Fault α) >>= f) = f a := rfl

/-- Perturbing component `i` of `x` by `step` and by `-step` leads to `fwd i` and `bwd i`, and back; `E` tells
which values of the parameters count as the same. -/
structure Moves {X : Type} (E : X → X → Prop) (perturb : Perturb X) (localSize : ℕ) (step : ℝ) (x : X)
    (fwd bwd : ℕ → X) : Prop where
  refl : E x x
  out : ∀ i < localSize, ∀ x', E x x' → ∃ y, perturb i step x' = .ok y ∧ E (fwd i) y
  out' : ∀ i < localSize, ∀ x', E x x' → ∃ y, perturb i (-step) x' = .ok y ∧ E (bwd i) y
  back : ∀ i < localSize, ∀ y, E (fwd i) y → ∃ z, perturb i (-step) y = .ok z ∧ E x z
  back' : ∀ i < localSize, ∀ y, E (bwd i) y → ∃ z, perturb i step y = .ok z ∧ E x z

theorem numJac_spec {X ι : Type} {E : X → X → Prop} {perturb : Perturb X} {localSize : ℕ} {step : ℝ} {x : X}
    {fwd bwd : ℕ → X} (hm : Moves E perturb localSize step x fwd bwd) {eval : Evaluate X ι} {f : X → ι → ℝ}
    (hf : ∀ i < localSize, ∀ y, E (fwd i) y → ∀ r, eval y r = .ok (f (fwd i)))
    (hb : ∀ i < localSize, ∀ y, E (bwd i) y → ∀ r, eval y r = .ok (f (bwd i))) :
    ∃ J x', numJac eval perturb localSize step x = .ok (J, x') ∧ E x x' ∧
      (∀ r, ∀ i < localSize, J r i = (f (fwd i) r - f (bwd i) r) / (2 * step)) ∧
      (∀ n, localSize = n + 1 → ∃ y, E (bwd n) y ∧ perturb n step y = .ok x') := by
  have key : ∀ k, k ≤ localSize → ∃ s : St X ι,
      (List.range k).foldlM (numStep eval perturb step) ⟨x, fun _ => 0, fun _ => 0, fun _ _ => 0⟩ = .ok s ∧ E x s.x ∧
      (∀ r, ∀ i < k, s.J r i = (f (fwd i) r - f (bwd i) r) / (2 * step)) ∧
      (∀ n, k = n + 1 → ∃ y, E (bwd n) y ∧ perturb n step y = .ok s.x) := by
    intro k
    induction k with
    | zero => exact fun _ => ⟨_, rfl, hm.refl, fun r i hi => absurd hi (Nat.not_lt_zero _), fun n hn => by omega⟩
    | succ k ih =>
      intro hk
      obtain ⟨s, hs, hE, hJ, -⟩ := ih (by omega)
      obtain ⟨x1, h1, e1⟩ := hm.out k (by omega) s.x hE
      obtain ⟨x2, h2, e2⟩ := hm.back k (by omega) x1 e1
      obtain ⟨x3, h3, e3⟩ := hm.out' k (by omega) x2 e2
      obtain ⟨x4, h4, e4⟩ := hm.back' k (by omega) x3 e3
      have hstep : numStep eval perturb step s k = .ok ⟨x4, f (fwd k), f (bwd k),
          fun r c => if c = k then (f (fwd k) r - f (bwd k) r) / (2 * step) else s.J r c⟩ := by
        unfold numStep
        rw [h1, okb, hf k (by omega) x1 e1, okb, h2, okb, h3, okb, hb k (by omega) x3 e3, okb, h4, okb]
      refine ⟨⟨x4, f (fwd k), f (bwd k),
          fun r c => if c = k then (f (fwd k) r - f (bwd k) r) / (2 * step) else s.J r c⟩, ?_, e4, ?_, ?_⟩
      · rw [List.range_succ, List.foldlM_append, hs, okb, List.foldlM_cons, hstep]
        rfl
      · intro r i hi
        show (if i = k then _ else _) = _
        by_cases h : i = k
        · rw [if_pos h, h]
        · rw [if_neg h]
          exact hJ r i (by omega)
      · intro n hn
        have : n = k := by omega
        subst this
        exact ⟨x3, e3, h4⟩
  obtain ⟨s, hs, hE, hJ, hl⟩ := key localSize le_rfl
  refine ⟨s.J, s.x, ?_, hE, hJ, hl⟩
  unfold numJac
  rw [hs, okb]

/-- The point `p` with component `i` moved by `h`. -/
def shift {n : ℕ} (p : Fin n → ℝ) (i : ℕ) (h : ℝ) : Fin n → ℝ := fun j => if j.val = i then p j + h else p j

theorem moves_param {n : ℕ} (p : Fin n → ℝ) (step : ℝ) :
    Moves Eq (fun i h q => paramPerturb q i h) n step p (fun i => shift p i step) (fun i => shift p i (-step)) := by
  have hp : ∀ (q : Fin n → ℝ) (i : ℕ) (h : ℝ), i < n → paramPerturb q i h = .ok (shift q i h) := by
    intro q i h hi
    unfold paramPerturb
    rw [if_pos (by omega)]
    congr 1
    funext j
    by_cases hj : j.val = i
    · simp [shift, hj]
    · rw [if_neg (by omega), shift, if_neg hj]
  have hs : ∀ (i : ℕ) (h : ℝ), shift (shift p i h) i (-h) = p := by
    intro i h
    funext j
    by_cases hj : j.val = i <;> simp [shift, hj]
  refine ⟨rfl, ?_, ?_, ?_, ?_⟩
  · rintro i hi x' rfl
    exact ⟨_, hp _ _ _ hi, rfl⟩
  · rintro i hi x' rfl
    exact ⟨_, hp _ _ _ hi, rfl⟩
  · rintro i hi y rfl
    exact ⟨_, hp _ _ _ hi, (hs i step).symm⟩
  · rintro i hi y rfl
    refine ⟨_, hp _ _ _ hi, ?_⟩
    have := hs i (-step)
    rw [neg_neg] at this
    exact this.symm

/-- For a block of plain parameters of any size the numerical Jacobian holds, for each component, the central
difference quotient of the residuals, and the parameters are left as they were. -/
theorem C112_central {n : ℕ} {ι : Type} (p : Fin n → ℝ) (step : ℝ) {eval : Evaluate (Fin n → ℝ) ι}
    {f : (Fin n → ℝ) → ι → ℝ} (hf : ∀ q r, eval q r = .ok (f q)) :
    ∃ J, numJac eval (fun i h q => paramPerturb q i h) n step p = .ok (J, p) ∧
      ∀ r (i : Fin n), J r i = (f (Function.update p i (p i + step)) r - f (Function.update p i (p i - step)) r) /
        (2 * step) := by
  obtain ⟨J, x', h1, h2, h3, -⟩ := numJac_spec (moves_param p step) (eval := eval) (f := f)
    (fun i _ y hy r => by rw [← hy]; exact hf _ r) (fun i _ y hy r => by rw [← hy]; exact hf _ r)
  have hsh : ∀ (i : Fin n) (h : ℝ), shift p i h = Function.update p i (p i + h) := by
    intro i h
    funext j
    by_cases hj : j = i
    · subst hj; simp [shift]
    · rw [Function.update_of_ne hj, shift, if_neg (fun q => hj (Fin.ext q))]
  refine ⟨J, by rw [h1, h2], fun r i => ?_⟩
  rw [h3 r i.val i.isLt, hsh, hsh, sub_eq_add_neg (p i) step]

/-- The central difference quotient tends to the derivative. -/
theorem central_tendsto {g : ℝ → ℝ} {d : ℝ} (h : HasDerivAt g d 0) (ε : ℝ) (hε : 0 < ε) :
    ∃ δ > 0, ∀ s, s ≠ 0 → |s| < δ → |(g s - g (-s)) / (2 * s) - d| < ε := by
  have h1 := hasDerivAt_iff_tendsto_slope_zero.1 h
  rw [Metric.tendsto_nhdsWithin_nhds] at h1
  obtain ⟨δ, hδ, hd⟩ := h1 ε hε
  refine ⟨δ, hδ, fun s hs hs' => ?_⟩
  have a := hd (x := s) hs (by simpa using hs')
  have b := hd (x := -s) (neg_ne_zero.2 hs) (by simpa using hs')
  rw [Real.dist_eq] at a b
  simp only [zero_add, smul_eq_mul] at a b
  have e : (g s - g (-s)) / (2 * s) - d = ((s⁻¹ * (g s - g 0) - d) + ((-s)⁻¹ * (g (-s) - g 0) - d)) / 2 := by
    field_simp
    ring
  rw [e, abs_div, abs_of_pos (show (0 : ℝ) < 2 by norm_num), div_lt_iff₀ (by norm_num)]
  refine (abs_add_le _ _).trans_lt ?_
  linarith

/-- Wherever the residuals have a partial derivative, the numerical Jacobian is as close to it as wanted once the
step is small; of residuals that are quadratic along the component it is exact for every step. -/
theorem C112_converges {n : ℕ} {ι : Type} (p : Fin n → ℝ) {eval : Evaluate (Fin n → ℝ) ι}
    {f : (Fin n → ℝ) → ι → ℝ} (hf : ∀ q r, eval q r = .ok (f q)) (r : ι) (i : Fin n) :
    (∀ d, HasDerivAt (fun t => f (Function.update p i (p i + t)) r) d 0 → ∀ ε > 0, ∃ δ > 0, ∀ step, step ≠ 0 → |step| < δ →
      ∃ J, numJac eval (fun i h q => paramPerturb q i h) n step p = .ok (J, p) ∧ |J r i - d| < ε) ∧
    (∀ a b c, (∀ t, f (Function.update p i (p i + t)) r = a + b * t + c * t ^ 2) → ∀ step, step ≠ 0 →
      ∃ J, numJac eval (fun i h q => paramPerturb q i h) n step p = .ok (J, p) ∧ J r i = b) := by
  constructor
  · intro d hd ε hε
    obtain ⟨δ, hδ, h⟩ := central_tendsto hd ε hε
    refine ⟨δ, hδ, fun step h0 h1 => ?_⟩
    obtain ⟨J, hJ, hv⟩ := C112_central p step hf
    refine ⟨J, hJ, ?_⟩
    have := h step h0 h1
    rw [hv r i, sub_eq_add_neg (p i) step]
    exact this
  · intro a b c hq step h0
    obtain ⟨J, hJ, hv⟩ := C112_central p step hf
    refine ⟨J, hJ, ?_⟩
    rw [hv r i, sub_eq_add_neg (p i) step, hq, hq]
    field_simp
    ring

/-- Two stored poses that are the same rigid transform. -/
def SamePose (p q : Fin 7 → ℝ) : Prop := poseTf q = poseTf p ∧ (poseQuat q).normSq = 1

/-- The pose moved along (`i < 3`) or turned about (`3 ≤ i`) a fixed axis. -/
noncomputable def movedTf (p : Fin 7 → ℝ) (i : ℕ) (h : ℝ) : Mat4 ℝ :=
  if i < 3 then tf (tfRot (poseTf p)) (poseTrans p + axisStep (Fin.ofNat 3 i) h)
  else tf (rvec2rot (axisStep (Fin.ofNat 3 (i - 3)) h) (1 / 100000000) * tfRot (poseTf p)) (poseTrans p)

theorem pose_step {p : Fin 7 → ℝ} (hp : (poseQuat p).normSq = 1) {i : ℕ} (hi : i < 6) {h : ℝ} (hh : 1 / 100000000 ≤ |h|) :
    ∃ q, posePerturb p i h = .ok q ∧ (poseQuat q).normSq = 1 ∧ poseTf q = movedTf p i h ∧
      ∃ p', posePerturb q i (-h) = .ok p' ∧ SamePose p p' := by
  obtain ⟨h1, h2, -⟩ := C41_perturb_partial p hp h
  by_cases h3 : i < 3
  · obtain ⟨q, a, b, c, p', d, e, g⟩ := h1 ⟨i, h3⟩
    refine ⟨q, a, b, ?_, p', d, e, g⟩
    rw [c, movedTf, if_pos h3]
    congr 3
    exact Fin.ext (by simp [Nat.mod_eq_of_lt h3])
  · obtain ⟨q, a, b, c, p', d, e, g⟩ := h2 (.inr hh) ⟨i - 3, by omega⟩
    have hi' : ((i - 3 : ℕ) + 3 : ℕ) = i := by omega
    simp only [hi'] at a d
    refine ⟨q, a, b, ?_, p', d, e, g⟩
    rw [c, movedTf, if_neg h3]
    congr 3
    congr 1
    exact Fin.ext (by simp [Nat.mod_eq_of_lt (show i - 3 < 3 by omega)])

theorem movedTf_congr {p q : Fin 7 → ℝ} (h : poseTf q = poseTf p) (i : ℕ) (s : ℝ) : movedTf q i s = movedTf p i s := by
  have ht : poseTrans q = poseTrans p := by
    have := congrArg tfTrans h
    rwa [poseTf, poseTf, tfQuat, tfQuat, tfTrans_tf, tfTrans_tf] at this
  unfold movedTf
  rw [h, ht]

theorem pose_back {p q : Fin 7 → ℝ} (hp : (poseQuat p).normSq = 1) {i : ℕ} (hi : i < 6) {h : ℝ}
    (hh : 1 / 100000000 ≤ |h|) (hq : (poseQuat q).normSq = 1) (he : poseTf q = movedTf p i h) :
    ∃ p', posePerturb q i (-h) = .ok p' ∧ SamePose p p' := by
  obtain ⟨q1, -, b, c, p1, d, e, g⟩ := pose_step hp hi hh
  obtain ⟨q2, a2, b2, c2, -⟩ := pose_step hq hi (h := -h) (by rwa [abs_neg])
  obtain ⟨q3, a3, b3, c3, -⟩ := pose_step b hi (h := -h) (by rwa [abs_neg])
  refine ⟨q2, a2, ?_, b2⟩
  rw [c2, movedTf_congr (he.trans c.symm), ← c3]
  rw [d] at a3
  cases a3
  exact e

/-- For a pose with a unit quaternion and a step of at least 1e-8, each column of the numerical Jacobian is the
central difference of the residuals along, or about, one fixed axis, and the pose is afterwards the same rigid
transform, stored with the quaternion that the conversion from the rotation matrix gives. -/
theorem C112_pose_partial {ι : Type} {p : Fin 7 → ℝ} (hp : (poseQuat p).normSq = 1) {step : ℝ}
    (hs : 1 / 100000000 ≤ |step|) {eval : Evaluate (Fin 7 → ℝ) ι} {f : Mat4 ℝ → ι → ℝ}
    (hf : ∀ q r, (poseQuat q).normSq = 1 → eval q r = .ok (f (poseTf q))) :
    ∃ J p', numJac eval (fun i h q => posePerturb q i h) 6 step p = .ok (J, p') ∧ poseTf p' = poseTf p ∧
      poseQuat p' = rotToQuat (tfRot (poseTf p)) ∧
      ∀ r, ∀ i < 6, J r i = (f (movedTf p i step) r - f (movedTf p i (-step)) r) / (2 * step) := by
  classical
  have hs' : 1 / 100000000 ≤ |-step| := by rwa [abs_neg]
  have hfw : ∀ i : ℕ, ∃ q, i < 6 → posePerturb p i step = .ok q ∧ (poseQuat q).normSq = 1 ∧ poseTf q = movedTf p i step := by
    intro i
    by_cases hi : i < 6
    · obtain ⟨q, a, b, c, -⟩ := pose_step hp hi hs
      exact ⟨q, fun _ => ⟨a, b, c⟩⟩
    · exact ⟨p, fun h => absurd h hi⟩
  have hbw : ∀ i : ℕ, ∃ q, i < 6 → posePerturb p i (-step) = .ok q ∧ (poseQuat q).normSq = 1 ∧ poseTf q = movedTf p i (-step) := by
    intro i
    by_cases hi : i < 6
    · obtain ⟨q, a, b, c, -⟩ := pose_step hp hi hs'
      exact ⟨q, fun _ => ⟨a, b, c⟩⟩
    · exact ⟨p, fun h => absurd h hi⟩
  choose fwd hfwd using hfw
  choose bwd hbwd using hbw
  have hm : Moves SamePose (fun i h q => posePerturb q i h) 6 step p fwd bwd := by
    refine ⟨⟨rfl, hp⟩, ?_, ?_, ?_, ?_⟩
    · rintro i hi x' ⟨hx, hx'⟩
      obtain ⟨q, a, b, c, -⟩ := pose_step hx' hi hs
      exact ⟨q, a, by rw [c, movedTf_congr hx, (hfwd i hi).2.2], b⟩
    · rintro i hi x' ⟨hx, hx'⟩
      obtain ⟨q, a, b, c, -⟩ := pose_step hx' hi hs'
      exact ⟨q, a, by rw [c, movedTf_congr hx, (hbwd i hi).2.2], b⟩
    · rintro i hi y ⟨hy, hy'⟩
      exact pose_back hp hi hs hy' (by rw [hy, (hfwd i hi).2.2])
    · rintro i hi y ⟨hy, hy'⟩
      have := pose_back hp hi hs' hy' (by rw [hy, (hbwd i hi).2.2])
      rwa [neg_neg] at this
  obtain ⟨J, p', h1, h2, h3, h4⟩ := numJac_spec hm (eval := eval) (f := fun q => f (poseTf q))
    (fun i hi y hy r => by rw [hf y r hy.2, hy.1]) (fun i hi y hy r => by rw [hf y r hy.2, hy.1])
  refine ⟨J, p', h1, h2.1, ?_, ?_⟩
  · obtain ⟨y, hyE, hy⟩ := h4 5 rfl
    have e : posePerturb y 5 step = .ok (poseSetTrans (poseSetRot y (tfRot (tfPerturbRot (poseTf y) step 2)))
        (tfTrans (tfPerturbRot (poseTf y) step 2))) := by
      unfold posePerturb
      rw [if_neg (by omega), if_pos (by omega)]
      rfl
    have hy' : posePerturb y 5 step = .ok p' := hy
    rw [e] at hy'
    have hpe : p' = poseSetTrans (poseSetRot y (tfRot (tfPerturbRot (poseTf y) step 2)))
        (tfTrans (tfPerturbRot (poseTf y) step 2)) := (Except.ok.inj hy').symm
    have hq : poseQuat p' = rotToQuat (tfRot (tfPerturbRot (poseTf y) step 2)) := by
      rw [hpe]
      rfl
    have hR : IsRot (tfRot (tfPerturbRot (poseTf y) step 2)) := by
      have hyq : (poseQuat y).normSq = 1 := hyE.2
      have hR0 : IsRot (tfRot (poseTf y)) := by
        rw [poseTf, tfQuat, tfRot_tf]
        exact ⟨toRot_mul_transpose _ hyq, toRot_det _ hyq⟩
      unfold tfPerturbRot
      rw [tfRot_tf]
      have hn := norm3_axis 2 step
      exact (C34_rvec2rot_partial (axisStep 2 step) (1 / 100000000)
        (by rw [hn]; exact lt_of_lt_of_le (by norm_num) hs) (by rw [hn]; exact hs)).1.mul hR0
    have hrot : tfRot (poseTf p') = tfRot (tfPerturbRot (poseTf y) step 2) := by
      rw [poseTf, tfQuat, tfRot_tf, hq, (rotToQuat_spec hR).spec.2]
    rw [hq, ← hrot, h2.1]
  · intro r i hi
    rw [h3 r i hi, (hfwd i hi).2.2, (hbwd i hi).2.2]

end Yac.NumJac
