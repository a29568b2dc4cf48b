import Verif.Imu.Run
import Mathlib.Analysis.Calculus.MeanValue
import Mathlib.Analysis.Calculus.Deriv.MeanValue

/-!
# Rigid body motion with constant rate and specific force, and the trapezoidal rule
-/

namespace Yac.Imu
open Yac.Geom Yac.Stream Yac.Residual Matrix

/-- A body moves with constant angular rate `w` and specific force `a`, both in its own frame, under
gravity `g`: `R' = R [w]ₓ`, `v' = R a - g`, `r' = v`. -/
structure Flight (w a g : Vec3 ℝ) (R : ℝ → Mat3 ℝ) (v r : ℝ → Vec3 ℝ) : Prop where
  rot : ∀ t, MDeriv R (R t * skew w) t
  vel : ∀ t, VDeriv v (R t *ᵥ a - g) t
  pos : ∀ t, VDeriv r (v t) t

theorem const_of_deriv {f : ℝ → ℝ} (h : ∀ t, HasDerivAt f 0 t) (s t : ℝ) : f s = f t :=
  is_const_of_deriv_eq_zero (fun t => (h t).differentiableAt) (fun t => (h t).deriv) s t

theorem rotAt_comm (w : Vec3 ℝ) (t : ℝ) : rotAt w t * skew w = skew w * rotAt w t := by
  unfold rotAt expQuat
  simp only
  generalize Real.cos (norm3 w * t / 2) = c
  generalize Real.sin (norm3 w * t / 2) / norm3 w = k
  apply mat3_eq <;> simp [Quat.toRot, skew, Matrix.mul_apply, Fin.sum_univ_three] <;> ring

theorem flight_rot {w a g : Vec3 ℝ} {R : ℝ → Mat3 ℝ} {v r : ℝ → Vec3 ℝ} (h : Flight w a g R v r)
    (t : ℝ) : R t = R 0 * rotAt w t := by
  have hd : ∀ t, MDeriv (fun t => R t * (rotAt w t)ᵀ) 0 t := by
    intro t
    have h1 := (h.rot t).mul (rotAt_deriv w t).transpose
    have e : R t * skew w * (rotAt w t)ᵀ + R t * (skew w * rotAt w t)ᵀ = 0 := by
      rw [← rotAt_comm, transpose_mul, skew_transpose, Matrix.neg_mul, Matrix.mul_neg, Matrix.mul_assoc, add_neg_cancel]
    rw [e] at h1
    exact h1
  have hc : R t * (rotAt w t)ᵀ = R 0 := by
    ext i j
    have := const_of_deriv (fun t => hd t i j) t 0
    simp only [rotAt_zero, transpose_one, Matrix.mul_one] at this
    exact this
  have ht : (rotAt w t)ᵀ * rotAt w t = 1 := by
    have := (rotAt_isRot w t).1
    rwa [mul_eq_one_comm] at this
  rw [← hc, Matrix.mul_assoc, ht, Matrix.mul_one]

theorem grow {g g' B B' : ℝ → ℝ} (hg : ∀ x, HasDerivAt g (g' x) x) (hB : ∀ x, HasDerivAt B (B' x) x)
    (hb : ∀ x, 0 ≤ x → |g' x| ≤ B' x) (g0 : g 0 = 0) (B0 : B 0 = 0) {h : ℝ} (hh : 0 ≤ h) :
    |g h| ≤ B h := by
  have mono : ∀ (f f' : ℝ → ℝ), (∀ x, HasDerivAt f (f' x) x) → (∀ x, 0 ≤ x → 0 ≤ f' x) → f 0 ≤ f h := by
    intro f f' hf hf'
    apply (monotoneOn_of_deriv_nonneg (convex_Ici (0 : ℝ)) (fun x _ => (hf x).continuousAt.continuousWithinAt)
      (fun x _ => (hf x).differentiableAt.differentiableWithinAt) ?_) (Set.mem_Ici.mpr (le_refl _))
      (Set.mem_Ici.mpr hh) hh
    intro x hx
    rw [interior_Ici] at hx
    rw [(hf x).deriv]
    exact hf' x (le_of_lt hx)
  rw [abs_le]
  constructor
  · have := mono (fun x => B x + g x) (fun x => B' x + g' x) (fun x => (hB x).add (hg x))
      (fun x hx => by have := (abs_le.mp (hb x hx)).1; linarith)
    simp only [g0, B0] at this
    linarith
  · have := mono (fun x => B x - g x) (fun x => B' x - g' x) (fun x => (hB x).sub (hg x))
      (fun x hx => by have := (abs_le.mp (hb x hx)).2; linarith)
    simp only [g0, B0] at this
    linarith

theorem shift {f f' : ℝ → ℝ} (h : ∀ x, HasDerivAt f (f' x) x) (t x : ℝ) :
    HasDerivAt (fun x => f (t + x)) (f' (t + x)) x := by
  have := (h (t + x)).comp x ((hasDerivAt_id x).const_add t)
  refine HasDerivAt.congr_deriv this ?_
  rw [mul_one]

/-- Error of one trapezoid. -/
theorem trap1 {V f f1 f2 : ℝ → ℝ} (hV : ∀ x, HasDerivAt V (f x) x) (hf : ∀ x, HasDerivAt f (f1 x) x)
    (hf1 : ∀ x, HasDerivAt f1 (f2 x) x) {M : ℝ} (hM : ∀ x, |f2 x| ≤ M) (t : ℝ) {h : ℝ} (hh : 0 ≤ h) :
    |V (t + h) - V t - h / 2 * (f t + f (t + h))| ≤ M * h ^ 3 / 12 := by
  have key : ∀ x, 0 ≤ x → |(f (t + x) - f t) / 2 - x / 2 * f1 (t + x)| ≤ M * x ^ 2 / 4 := by
    intro x hx
    refine grow (g := fun x => (f (t + x) - f t) / 2 - x / 2 * f1 (t + x))
      (g' := fun x => -(x / 2 * f2 (t + x))) (B := fun x => M * x ^ 2 / 4) (B' := fun x => M * x / 2)
      ?_ ?_ ?_ ?_ ?_ hx
    · intro y
      have := (((shift hf t y).sub_const (f t)).div_const 2).sub
        (((hasDerivAt_id y).div_const 2).mul (shift hf1 t y))
      refine this.congr_deriv ?_
      simp only [id]; ring
    · intro y
      have := (((hasDerivAt_id y).pow 2).const_mul M).div_const 4
      refine this.congr_deriv ?_
      simp only [id]; ring
    · intro y hy
      rw [abs_neg, abs_mul, abs_of_nonneg (by linarith : 0 ≤ y / 2)]
      have := mul_le_mul_of_nonneg_left (hM (t + y)) (by linarith : 0 ≤ y / 2)
      linarith
    · simp
    · simp
  refine grow (g := fun h => V (t + h) - V t - h / 2 * (f t + f (t + h)))
      (g' := fun x => (f (t + x) - f t) / 2 - x / 2 * f1 (t + x)) (B := fun h => M * h ^ 3 / 12)
      (B' := fun x => M * x ^ 2 / 4) ?_ ?_ key ?_ ?_ hh
  · intro y
    have := ((shift hV t y).sub_const (V t)).sub
      (((hasDerivAt_id y).div_const 2).mul ((shift hf t y).const_add (f t)))
    refine this.congr_deriv ?_
    simp only [id]; ring
  · intro y
    have := (((hasDerivAt_id y).pow 3).const_mul M).div_const 12
    refine this.congr_deriv ?_
    simp only [id]; ring
  · simp
  · simp

/-- Error of one step of the double integral. -/
theorem trap2 {P V f f1 f2 : ℝ → ℝ} (hP : ∀ x, HasDerivAt P (V x) x) (hV : ∀ x, HasDerivAt V (f x) x)
    (hf : ∀ x, HasDerivAt f (f1 x) x) (hf1 : ∀ x, HasDerivAt f1 (f2 x) x) {M1 M2 : ℝ}
    (h1 : ∀ x, |f1 x| ≤ M1) (h2 : ∀ x, |f2 x| ≤ M2) (t : ℝ) {h : ℝ} (hh : 0 ≤ h) :
    |P (t + h) - P t - h * V t - h ^ 2 / 4 * (f t + f (t + h))| ≤ M2 * h ^ 4 / 48 + M1 * h ^ 3 / 12 := by
  refine grow (g := fun h => P (t + h) - P t - h * V t - h ^ 2 / 4 * (f t + f (t + h)))
      (g' := fun x => (V (t + x) - V t - x / 2 * (f t + f (t + x))) - x ^ 2 / 4 * f1 (t + x))
      (B := fun h => M2 * h ^ 4 / 48 + M1 * h ^ 3 / 12)
      (B' := fun x => M2 * x ^ 3 / 12 + M1 * x ^ 2 / 4) ?_ ?_ ?_ ?_ ?_ hh
  · intro y
    have := ((((shift hP t y).sub_const (P t)).sub ((hasDerivAt_id y).mul_const (V t)))).sub
      ((((hasDerivAt_id y).pow 2).div_const 4).mul ((shift hf t y).const_add (f t)))
    refine this.congr_deriv ?_
    simp only [id, Pi.pow_apply]; ring
  · intro y
    have := ((((hasDerivAt_id y).pow 4).const_mul M2).div_const 48).add
      ((((hasDerivAt_id y).pow 3).const_mul M1).div_const 12)
    refine this.congr_deriv ?_
    simp only [id]; ring
  · intro y hy
    refine (abs_sub _ _).trans (add_le_add (trap1 hV hf hf1 h2 t hy) ?_)
    rw [abs_mul, abs_of_nonneg (by positivity : 0 ≤ y ^ 2 / 4)]
    have := mul_le_mul_of_nonneg_left (h1 (t + y)) (by positivity : 0 ≤ y ^ 2 / 4)
    linarith
  · simp
  · simp

/-- What the increments are compared with: `V' = C₀ R a`, `P' = V`, both zero at the start. -/
structure Ideal (C0 : Mat3 ℝ) (w a : Vec3 ℝ) (V P : ℝ → Vec3 ℝ) : Prop where
  dV : ∀ t, VDeriv V ((C0 * rotAt w t) *ᵥ a) t
  dP : ∀ t, VDeriv P (V t) t
  V0 : V 0 = 0
  P0 : P 0 = 0

theorem flight_ideal {w a g : Vec3 ℝ} {R : ℝ → Mat3 ℝ} {v r : ℝ → Vec3 ℝ} (h : Flight w a g R v r) :
    Ideal (R 0) w a (fun t => v t - v 0 + t • g)
      (fun t => r t - r 0 - t • v 0 + (1 / 2 * t * t) • g) := by
  refine ⟨?_, ?_, by simp, by simp⟩
  · intro t i
    have := (((h.vel t i).sub_const (v 0 i)).add ((hasDerivAt_id t).mul_const (g i)))
    refine this.congr_deriv ?_
    rw [← flight_rot h t]
    simp
  · intro t i
    have := ((((h.pos t i).sub_const (r 0 i)).sub ((hasDerivAt_id t).mul_const (v 0 i)))).add
      ((((hasDerivAt_id t).const_mul (1 / 2)).mul (hasDerivAt_id t)).mul_const (g i))
    refine this.congr_deriv ?_
    simp only [id, Pi.sub_apply, Pi.add_apply, Pi.smul_apply, smul_eq_mul]; ring

theorem VDeriv.mulConst {A : ℝ → Mat3 ℝ} {A' : Mat3 ℝ} {t : ℝ} (h : MDeriv A A' t) (a : Vec3 ℝ) :
    VDeriv (fun t => A t *ᵥ a) (A' *ᵥ a) t := by
  have := h.mulVec (VDeriv.const a t)
  rw [mulVec_zero, add_zero] at this
  exact this

theorem MDeriv.constMul {A : ℝ → Mat3 ℝ} {A' : Mat3 ℝ} {t : ℝ} (C : Mat3 ℝ) (h : MDeriv A A' t) :
    MDeriv (fun t => C * A t) (C * A') t := by
  have := (MDeriv.const C t).mul h
  rw [Matrix.zero_mul, zero_add] at this
  exact this

theorem coord_le (x : Vec3 ℝ) (i : Fin 3) : |x i| ≤ norm3 x := by
  apply abs_le_of_sq_le_sq _ (norm3_nonneg' x)
  rw [pow_two (norm3 x), norm3_sq]
  simp only [dot3]
  fin_cases i <;> simp only [Fin.mk_zero, Fin.mk_one, Fin.reduceFinMk, Fin.isValue] <;>
    nlinarith [sq_nonneg (x 0), sq_nonneg (x 1), sq_nonneg (x 2)]

/-- Error of one step, in the world frame. -/
theorem step_errors {C0 : Mat3 ℝ} (h0 : IsRot C0) {w a : Vec3 ℝ} {V P : ℝ → Vec3 ℝ} (hI : Ideal C0 w a V P)
    (t : ℝ) {h : ℝ} (hh : 0 ≤ h) (i : Fin 3) :
    |V (t + h) i - V t i - h / 2 * (((C0 * rotAt w t) *ᵥ a) i + ((C0 * rotAt w (t + h)) *ᵥ a) i)|
      ≤ norm3 w ^ 2 * norm3 a * h ^ 3 / 12 ∧
    |P (t + h) i - P t i - h * V t i
      - h ^ 2 / 4 * (((C0 * rotAt w t) *ᵥ a) i + ((C0 * rotAt w (t + h)) *ᵥ a) i)|
      ≤ norm3 w ^ 2 * norm3 a * h ^ 4 / 48 + norm3 w * norm3 a * h ^ 3 / 12 := by
  have d1 : ∀ x, HasDerivAt (fun t => ((C0 * rotAt w t) *ᵥ a) i) (((C0 * (skew w * rotAt w x)) *ᵥ a) i) x :=
    fun x => VDeriv.mulConst (MDeriv.constMul C0 (rotAt_deriv w x)) a i
  have d2 : ∀ x, HasDerivAt (fun x => ((C0 * (skew w * rotAt w x)) *ᵥ a) i)
      (((C0 * (skew w * (skew w * rotAt w x))) *ᵥ a) i) x :=
    fun x => VDeriv.mulConst (MDeriv.constMul C0 (MDeriv.constMul (skew w) (rotAt_deriv w x))) a i
  have b1 : ∀ x, |((C0 * (skew w * rotAt w x)) *ᵥ a) i| ≤ norm3 w * norm3 a := by
    intro x
    refine (coord_le _ _).trans ?_
    rw [← Matrix.mulVec_mulVec, norm3_rot h0, ← Matrix.mulVec_mulVec]
    refine (norm3_skew_le _ _).trans ?_
    rw [norm3_rot (rotAt_isRot w x)]
  have b2 : ∀ x, |((C0 * (skew w * (skew w * rotAt w x))) *ᵥ a) i| ≤ norm3 w ^ 2 * norm3 a := by
    intro x
    refine (coord_le _ _).trans ?_
    rw [← Matrix.mulVec_mulVec, norm3_rot h0, ← Matrix.mulVec_mulVec, ← Matrix.mulVec_mulVec]
    refine (norm3_skew_le _ _).trans ?_
    rw [pow_two, mul_assoc]
    refine mul_le_mul_of_nonneg_left ?_ (norm3_nonneg' w)
    refine (norm3_skew_le _ _).trans ?_
    rw [norm3_rot (rotAt_isRot w x)]
  exact ⟨trap1 (fun x => hI.dV x i) d1 d2 b2 t hh,
    trap2 (fun x => hI.dP x i) (fun x => hI.dV x i) d1 d2 b1 b2 t hh⟩

/-- A step is short enough for the series of `sinc` not to be used, or there is no rotation. -/
def Plain (w : Vec3 ℝ) (l : List ℝ) : Prop := w = 0 ∨ ∀ h ∈ l, 2 / 1000000 < norm3 w * h

theorem integrate_q (re : Bool) (p : Params) (sb : SB) (I : Integ) {g : Seg} {w a : Vec3 ℝ} (hg : g.Const w a) :
    (integrate re p sb I g).q = I.q.mul (stepQuat (w - sb.bg) g.dt) := by
  obtain ⟨h1, h2, -, -⟩ := hg
  simp only [integrate, h1, h2, mean_self]

/-- Attitude of a run with constant rate. -/
theorem fold_q (re : Bool) (p : Params) (sb : SB) {w a : Vec3 ℝ} (l : List Seg) (I : Integ)
    (hp : ∀ g ∈ l, 0 < g.dt) (hc : ∀ g ∈ l, g.Const w a) (he : Plain (w - sb.bg) (l.map Seg.dt)) (t : ℝ)
    (hq : I.q = expQuat (w - sb.bg) t) :
    (l.foldl (integrate re p sb) I).q = expQuat (w - sb.bg) (t + (l.map Seg.dt).sum) := by
  induction l generalizing I t with
  | nil => simpa using hq
  | cons g l ih =>
    rw [List.foldl_cons, List.map_cons, List.sum_cons, ← add_assoc]
    apply ih
    · exact fun g' hg' => hp g' (List.mem_cons_of_mem _ hg')
    · exact fun g' hg' => hc g' (List.mem_cons_of_mem _ hg')
    · exact he.imp id (fun h x hx => h x (by rw [List.map_cons]; exact List.mem_cons_of_mem _ hx))
    · rw [integrate_q re p sb I (hc g List.mem_cons_self), hq, stepQuat_exact _ _ (hp g List.mem_cons_self),
        expQuat_mul]
      exact he.imp id (fun h => h g.dt (by rw [List.map_cons]; exact List.mem_cons_self))

/-- Attitude of a run with constant rate, whatever the step sizes. -/
theorem fold_q_close (re : Bool) (p : Params) (sb : SB) {w a : Vec3 ℝ} (l : List Seg) (I : Integ)
    (hp : ∀ g ∈ l, 0 < g.dt) (hc : ∀ g ∈ l, g.Const w a) (t : ℝ) (e : ℝ)
    (hq : ‖toH I.q - toH (expQuat (w - sb.bg) t)‖ ≤ e) :
    ‖toH (l.foldl (integrate re p sb) I).q - toH (expQuat (w - sb.bg) (t + (l.map Seg.dt).sum))‖
      ≤ (1 + e) * (1 + 1 / 10 ^ 24) ^ l.length - 1 := by
  induction l generalizing I t e with
  | nil => simpa using hq
  | cons g l ih =>
    rw [List.foldl_cons, List.map_cons, List.sum_cons, ← add_assoc, List.length_cons]
    have hstep : ‖toH (integrate re p sb I g).q - toH (expQuat (w - sb.bg) (t + g.dt))‖
        ≤ (1 + e) * (1 + 1 / 10 ^ 24) - 1 := by
      rw [integrate_q re p sb I (hc g List.mem_cons_self), ← expQuat_mul, toH_mul, toH_mul]
      have hs := stepQuat_close (w - sb.bg) g.dt (hp g List.mem_cons_self)
      have n1 : ∀ x, ‖toH (expQuat (w - sb.bg) x)‖ = 1 := by
        intro x
        have := norm_toH (expQuat (w - sb.bg) x)
        rw [expQuat_normSq] at this
        nlinarith [norm_nonneg (toH (expQuat (w - sb.bg) x))]
      set A := toH I.q
      set A0 := toH (expQuat (w - sb.bg) t)
      set B := toH (stepQuat (w - sb.bg) g.dt)
      set B0 := toH (expQuat (w - sb.bg) g.dt)
      have hsplit : A * B - A0 * B0 = (A - A0) * (B - B0) + (A - A0) * B0 + A0 * (B - B0) := by
        noncomm_ring
      rw [hsplit]
      have e0 : 0 ≤ e := (norm_nonneg _).trans hq
      calc ‖(A - A0) * (B - B0) + (A - A0) * B0 + A0 * (B - B0)‖
          ≤ ‖(A - A0) * (B - B0)‖ + ‖(A - A0) * B0‖ + ‖A0 * (B - B0)‖ := norm_add₃_le
        _ = ‖A - A0‖ * ‖B - B0‖ + ‖A - A0‖ + ‖B - B0‖ := by
            rw [norm_mul, norm_mul, norm_mul, n1, n1, mul_one, one_mul]
        _ ≤ e * (1 / 10 ^ 24) + e + 1 / 10 ^ 24 := by
            have := mul_le_mul hq hs (norm_nonneg _) e0
            linarith
        _ = (1 + e) * (1 + 1 / 10 ^ 24) - 1 := by ring
    have := ih (integrate re p sb I g) (fun g' hg' => hp g' (List.mem_cons_of_mem _ hg'))
      (fun g' hg' => hc g' (List.mem_cons_of_mem _ hg')) (t + g.dt) _ hstep
    refine this.trans (le_of_eq ?_)
    rw [pow_succ]; ring

/-- Velocity and position of a run with constant measurements, compared with the exact motion. -/
theorem fold_motion (re : Bool) (p : Params) (sb : SB) {C0 : Mat3 ℝ} (h0 : IsRot C0) {w a : Vec3 ℝ}
    {V P : ℝ → Vec3 ℝ} (hI : Ideal C0 (w - sb.bg) (a - sb.ba) V P) {H : ℝ} (l : List Seg) (I : Integ)
    (hp : ∀ g ∈ l, 0 < g.dt) (hH : ∀ g ∈ l, g.dt ≤ H) (hc : ∀ g ∈ l, g.Const w a)
    (he : Plain (w - sb.bg) (l.map Seg.dt)) (t : ℝ) (ht : 0 ≤ t)
    (hq : I.q = expQuat (w - sb.bg) t) (i : Fin 3)
    (hv : |V t i - (C0 *ᵥ I.acc_int) i| ≤ norm3 (w - sb.bg) ^ 2 * norm3 (a - sb.ba) * H ^ 2 * t / 12)
    (hr : |P t i - (C0 *ᵥ I.acc_dbl) i| ≤ norm3 (w - sb.bg) * norm3 (a - sb.ba) *
      (1 + norm3 (w - sb.bg) * (t + H / 4)) * H ^ 2 * t / 12) :
    |V (t + (l.map Seg.dt).sum) i - (C0 *ᵥ (l.foldl (integrate re p sb) I).acc_int) i| ≤
      norm3 (w - sb.bg) ^ 2 * norm3 (a - sb.ba) * H ^ 2 * (t + (l.map Seg.dt).sum) / 12 ∧
    |P (t + (l.map Seg.dt).sum) i - (C0 *ᵥ (l.foldl (integrate re p sb) I).acc_dbl) i| ≤
      norm3 (w - sb.bg) * norm3 (a - sb.ba) * (1 + norm3 (w - sb.bg) * (t + (l.map Seg.dt).sum + H / 4)) *
        H ^ 2 * (t + (l.map Seg.dt).sum) / 12 := by
  induction l generalizing I t with
  | nil => simpa using ⟨hv, hr⟩
  | cons g l ih =>
    rw [List.foldl_cons, List.map_cons, List.sum_cons, ← add_assoc]
    have hgp := hp g List.mem_cons_self
    have hgH := hH g List.mem_cons_self
    have hgc := hc g List.mem_cons_self
    have hq1 : (integrate re p sb I g).q = expQuat (w - sb.bg) (t + g.dt) := by
      rw [integrate_q re p sb I hgc, hq, stepQuat_exact _ _ hgp, expQuat_mul]
      exact he.imp id (fun h => h g.dt (by rw [List.map_cons]; exact List.mem_cons_self))
    have ha : (integrate re p sb I g).acc_int =
        I.acc_int + ((1 / 2 : ℝ) * g.dt) • ((I.q.toRot + (integrate re p sb I g).q.toRot) *ᵥ (a - sb.ba)) := by
      obtain ⟨-, -, h3, h4⟩ := hgc
      simp only [integrate, h3, h4, mean_self]
    have hb : (integrate re p sb I g).acc_dbl =
        I.acc_dbl + (g.dt • I.acc_int +
          ((1 / 4 : ℝ) * g.dt * g.dt) • ((I.q.toRot + (integrate re p sb I g).q.toRot) *ᵥ (a - sb.ba))) := by
      obtain ⟨-, -, h3, h4⟩ := hgc
      simp only [integrate, h3, h4, mean_self]
    rw [hq1, hq] at ha hb
    have hC : C0 *ᵥ (((expQuat (w - sb.bg) t).toRot + (expQuat (w - sb.bg) (t + g.dt)).toRot) *ᵥ (a - sb.ba)) =
        (C0 * rotAt (w - sb.bg) t) *ᵥ (a - sb.ba) + (C0 * rotAt (w - sb.bg) (t + g.dt)) *ᵥ (a - sb.ba) := by
      rw [Matrix.mulVec_mulVec, Matrix.mul_add, Matrix.add_mulVec]; rfl
    have hai : (C0 *ᵥ (integrate re p sb I g).acc_int) i = (C0 *ᵥ I.acc_int) i + g.dt / 2 *
        (((C0 * rotAt (w - sb.bg) t) *ᵥ (a - sb.ba)) i + ((C0 * rotAt (w - sb.bg) (t + g.dt)) *ᵥ (a - sb.ba)) i) := by
      rw [ha, mulVec_add, mulVec_smul, hC]
      simp only [Pi.add_apply, Pi.smul_apply, smul_eq_mul]; ring
    have hbi : (C0 *ᵥ (integrate re p sb I g).acc_dbl) i = (C0 *ᵥ I.acc_dbl) i + (g.dt * (C0 *ᵥ I.acc_int) i +
        g.dt ^ 2 / 4 * (((C0 * rotAt (w - sb.bg) t) *ᵥ (a - sb.ba)) i +
          ((C0 * rotAt (w - sb.bg) (t + g.dt)) *ᵥ (a - sb.ba)) i)) := by
      rw [hb, mulVec_add, mulVec_add, mulVec_smul, mulVec_smul, hC]
      simp only [Pi.add_apply, Pi.smul_apply, smul_eq_mul]; ring
    obtain ⟨s1, s2⟩ := step_errors h0 hI t hgp.le i
    have hW := norm3_nonneg' (w - sb.bg)
    have hA := norm3_nonneg' (a - sb.ba)
    refine ih (integrate re p sb I g) (fun g' h => hp g' (List.mem_cons_of_mem _ h))
      (fun g' h => hH g' (List.mem_cons_of_mem _ h)) (fun g' h => hc g' (List.mem_cons_of_mem _ h))
      (he.imp id (fun h x hx => h x (by rw [List.map_cons]; exact List.mem_cons_of_mem _ hx)))
      (t + g.dt) (by linarith) hq1 ?_ ?_
    · rw [hai]
      generalize ((C0 * rotAt (w - sb.bg) t) *ᵥ (a - sb.ba)) i = f0 at *
      generalize ((C0 * rotAt (w - sb.bg) (t + g.dt)) *ᵥ (a - sb.ba)) i = f1 at *
      generalize norm3 (w - sb.bg) = W at *
      generalize norm3 (a - sb.ba) = A at *
      have e : V (t + g.dt) i - ((C0 *ᵥ I.acc_int) i + g.dt / 2 * (f0 + f1)) =
          (V t i - (C0 *ᵥ I.acc_int) i) + (V (t + g.dt) i - V t i - g.dt / 2 * (f0 + f1)) := by ring
      rw [e]
      refine (abs_add_le _ _).trans ((add_le_add hv s1).trans ?_)
      have hk : g.dt ^ 3 ≤ H ^ 2 * g.dt := by
        have : g.dt ^ 2 ≤ H ^ 2 := pow_le_pow_left₀ hgp.le hgH 2
        nlinarith
      have := mul_le_mul_of_nonneg_left hk (by positivity : 0 ≤ W ^ 2 * A / 12)
      nlinarith
    · rw [hbi]
      generalize ((C0 * rotAt (w - sb.bg) t) *ᵥ (a - sb.ba)) i = f0 at *
      generalize ((C0 * rotAt (w - sb.bg) (t + g.dt)) *ᵥ (a - sb.ba)) i = f1 at *
      generalize norm3 (w - sb.bg) = W at *
      generalize norm3 (a - sb.ba) = A at *
      have e : P (t + g.dt) i - ((C0 *ᵥ I.acc_dbl) i + (g.dt * (C0 *ᵥ I.acc_int) i + g.dt ^ 2 / 4 * (f0 + f1))) =
          (P t i - (C0 *ᵥ I.acc_dbl) i) + g.dt * (V t i - (C0 *ᵥ I.acc_int) i) +
          (P (t + g.dt) i - P t i - g.dt * V t i - g.dt ^ 2 / 4 * (f0 + f1)) := by ring
      rw [e]
      have hv' : |g.dt * (V t i - (C0 *ᵥ I.acc_int) i)| ≤ g.dt * (W ^ 2 * A * H ^ 2 * t / 12) := by
        rw [abs_mul, abs_of_pos hgp]; exact mul_le_mul_of_nonneg_left hv hgp.le
      refine (abs_add_le _ _).trans ((add_le_add ((abs_add_le _ _).trans (add_le_add hr hv')) s2).trans ?_)
      have h2 : g.dt ^ 2 ≤ H ^ 2 := pow_le_pow_left₀ hgp.le hgH 2
      have hk3 : g.dt ^ 3 ≤ H ^ 2 * g.dt := by nlinarith
      have hk4 : g.dt ^ 4 ≤ H ^ 3 * g.dt := by
        have : g.dt ^ 3 ≤ H ^ 3 := pow_le_pow_left₀ hgp.le hgH 3
        nlinarith
      have j3 := mul_le_mul_of_nonneg_left hk3 (by positivity : 0 ≤ W * A / 12)
      have j4 := mul_le_mul_of_nonneg_left hk4 (by positivity : 0 ≤ W ^ 2 * A / 48)
      have j5 : 0 ≤ W ^ 2 * A * H ^ 2 * g.dt * t / 12 := by positivity
      have j6 : 0 ≤ W ^ 2 * A * H ^ 2 * g.dt ^ 2 / 12 := by positivity
      nlinarith

end Yac.Imu
