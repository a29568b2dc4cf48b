import Verif.Nbt.TrajLemmas
import Verif.AprilGrid.Lemmas

/-!
# C77: the simulated calibration trajectories
-/

namespace Yac.Nbt
open Matrix Yac.Geom Yac.Residual Yac.Imu
open Real (sin cos pi sqrt)

/-! ## Specification -/

/-- A closed figure over the unit parameter `θ`: side offset `ampX · width · sin (2π n θ)`, height
offset `ampY · height · sin (2π m θ)`, and the two angles away from straight down, as multiples of
the angles under which the offsets are seen from the radius. -/
structure Shape where
  ampX : ℝ
  n : ℕ
  yawGain : ℝ
  yawN : ℕ
  ampY : ℝ
  m : ℕ
  pitchGain : ℝ
  pitchN : ℕ

/-- The eight figures. -/
noncomputable def shape : String → Option Shape
  | "fig8-horiz" => some ⟨-0.3, 1, -1, 1, 0.3, 2, -1, 2⟩
  | "fig8-vert" => some ⟨-0.3, 2, -1, 2, 0.3, 1, -1, 1⟩
  | "s-horiz" => some ⟨-0.5, 1, -1, 1, 0.5, 3, -1, 0⟩
  | "s-vert" => some ⟨-0.55, 3, -1, 0, 0.55, 1, -1, 1⟩
  | "pan-vert" => some ⟨0.95, 0, 0, 1, 0.95, 1, -1, 1⟩
  | "pan-horiz" => some ⟨0.95, 1, 1, 1, 0.95, 0, 0, 1⟩
  | "diag0" => some ⟨0.6, 1, 1, 1, 0.6, 1, -1, 1⟩
  | "diag1" => some ⟨-0.6, 1, -1, 1, 0.6, 1, -1, 1⟩
  | _ => none

/-- Offsets from the centre of the target at parameter `θ`. -/
noncomputable def Shape.offset (s : Shape) (width height θ : ℝ) : ℝ × ℝ :=
  (s.ampX * width * sin (2 * pi * s.n * θ), s.ampY * height * sin (2 * pi * s.m * θ))

/-- Sensor pose in the frame of the target centre, at parameter `θ` on a sphere of radius `R`. -/
noncomputable def Shape.pose (s : Shape) (width height R θ : ℝ) : Mat4 ℝ :=
  let o := s.offset width height θ
  let pitch := s.pitchGain * atan2 (|s.ampY| * height) R * sin (2 * pi * s.pitchN * θ)
  let yaw := s.yawGain * atan2 (|s.ampX| * width) R * sin (2 * pi * s.yawN * θ)
  tf (euler321 (pi + pitch) yaw 0) ![o.1, o.2, sqrt (R ^ 2 - o.1 ^ 2 - o.2 ^ 2)]

/-! ## Lemmas -/

/-- A trajectory that follows a shape. -/
structure Follows (tr : Traj) (s : Shape) (ts : ℤ) (T_WF T_FO : Mat4 ℝ) (R width height T : ℝ) : Prop where
  hts : tr.ts_start = ts
  hWF : tr.T_WF = T_WF
  hFO : tr.T_FO = T_FO
  hR : tr.R = R
  hT : tr.T = T
  x : ∀ θ, tr.A * sin (tr.a * θ + tr.delta) = s.ampX * width * sin (2 * pi * s.n * θ)
  y : ∀ θ, tr.B * sin (tr.b * θ) = s.ampY * height * sin (2 * pi * s.m * θ)
  yb : tr.yaw_bound = s.yawGain * atan2 (|s.ampX| * width) R
  pb : tr.pitch_bound = s.pitchGain * atan2 (|s.ampY| * height) R
  ys : tr.yaw_scale = s.yawN
  ps : tr.pitch_scale = s.pitchN

theorem create_follows (name : String) (ts : ℤ) (T_WF T_FO : Mat4 ℝ) (R width height T : ℝ) :
    (∀ s, shape name = some s → ∃ tr, create name ts T_WF T_FO R width height T = .ok tr ∧
      Follows tr s ts T_WF T_FO R width height T) ∧
    (shape name = none → create name ts T_WF T_FO R width height T = .error .exn) := by
  constructor
  · intro s hs
    unfold shape at hs
    split at hs <;> cases hs
    all_goals
      refine ⟨_, by simp [create]; rfl, ?_⟩
      constructor <;>
      first
        | rfl
        | (intro θ; simp only [Real.sin_add_pi, add_zero]; push_cast; ring_nf; done)
        | (simp only [abs_neg, one_mul, neg_one_mul, zero_mul]; rw [abs_of_nonneg (by norm_num), mul_comm]; done)
        | (simp; done)
        | skip
  · intro hs
    unfold create
    unfold shape at hs
    split at hs <;> cases hs
    simp_all

/-- What the eight figures have in common. -/
theorem shape_cases {name : String} {s : Shape} (h : shape name = some s) :
    ((s.yawN = s.n ∧ 0 ≤ s.yawGain * s.ampX) ∨ s.yawN = 0 ∨ s.yawGain = 0) ∧
    ((s.pitchN = s.m ∧ s.pitchGain * s.ampY ≤ 0) ∨ s.pitchN = 0 ∨ s.pitchGain = 0) ∧
    (|s.yawGain| ≤ 1 ∧ |s.pitchGain| ≤ 1) ∧
    ((s.n = 0 ∨ s.m = 0) ∧ s.ampX ^ 2 ≤ 1 ∧ s.ampY ^ 2 ≤ 1 ∨ s.ampX ^ 2 + s.ampY ^ 2 ≤ 1) := by
  unfold shape at h
  split at h <;> cases h <;> norm_num

theorem sin_nat (n : ℕ) : sin (2 * pi * n * 1) = 0 := by
  rw [mul_one, mul_comm, ← mul_assoc]
  have := Real.sin_nat_mul_pi (n * 2)
  push_cast at this
  exact this

theorem poseAt_eq {tr : Traj} {s : Shape} {ts : ℤ} {T_WF T_FO : Mat4 ℝ} {R width height T : ℝ}
    (h : Follows tr s ts T_WF T_FO R width height T) (hT : T ≠ 0) (t : ℝ) :
    poseAt tr t = T_WF * T_FO * s.pose width height R (phase tr t) := by
  have hx : posX tr t = (s.offset width height (phase tr t)).1 := h.x _
  have hy : posY tr t = (s.offset width height (phase tr t)).2 := h.y _
  rw [poseAt, rotation_eq tr (by rw [h.hT]; exact hT), h.hWF, h.hFO, under, hx, hy, h.yb, h.pb, h.ys,
    h.ps, h.hR, Shape.pose]
  congr 5
  ring_nf

/-- Time inside the period. -/
theorem elapsed_ok {tr : Traj} {ts : ℤ} {t : ℝ} (h : elapsed tr ts = .ok t) :
    t = sec ts - sec tr.ts_start ∧ 0 ≤ t ∧ t ≤ tr.T ∧ tr.T ≠ 0 := by
  unfold elapsed at h
  simp only at h
  split_ifs at h with h1 h2
  · cases h
    push Not at h1
    exact ⟨rfl, h1.1, h1.2, h2⟩

theorem elapsed_iff (tr : Traj) (ts : ℤ) (hT : tr.T ≠ 0) :
    (0 ≤ sec ts - sec tr.ts_start ∧ sec ts - sec tr.ts_start ≤ tr.T →
      elapsed tr ts = .ok (sec ts - sec tr.ts_start)) ∧
    (¬ (0 ≤ sec ts - sec tr.ts_start ∧ sec ts - sec tr.ts_start ≤ tr.T) →
      elapsed tr ts = .error .fatal) := by
  constructor
  · intro h
    unfold elapsed
    simp only
    rw [if_neg (by push Not; exact h), if_neg hT]
  · intro h
    unfold elapsed
    simp only
    rw [if_pos]
    by_contra hc
    push Not at hc
    exact h hc

theorem sec_le (a b : ℤ) : sec a ≤ sec b ↔ a ≤ b := by
  unfold sec
  constructor
  · intro h
    have : (a : ℝ) ≤ b := by linarith
    exact_mod_cast this
  · intro h
    have : (a : ℝ) ≤ b := by exact_mod_cast h
    linarith

theorem phase_range (tr : Traj) (t : ℝ) : 0 ≤ phase tr t ∧ phase tr t ≤ 1 := by
  unfold phase
  refine ⟨sq_nonneg _, ?_⟩
  nlinarith [Real.sin_sq_add_cos_sq (0.25 * tr.w * t), sq_nonneg (cos (0.25 * tr.w * t))]

theorem phase_start (tr : Traj) : phase tr 0 = 0 := by simp [phase]

theorem phase_end (tr : Traj) (h : tr.T ≠ 0) : phase tr tr.T = 1 := by
  unfold phase
  have : 0.25 * tr.w * tr.T = pi / 2 := by rw [mul_assoc, wT tr h]; ring
  rw [this, Real.sin_pi_div_two]; norm_num

/-! ## Theorems -/

/-- C77: exactly eight names are accepted, and the pose reported at a time inside the period is the
sensor pose of that figure at the parameter `sin² (π/2 · t/T)`, which runs from 0 to 1, placed in
the frame of the target centre.  Every other name is rejected by an exception. -/
theorem C77_shape (name : String) (ts : ℤ) (T_WF T_FO : Mat4 ℝ) (R width height T : ℝ) (hT : T ≠ 0) :
    (∀ s, shape name = some s → ∃ tr, create name ts T_WF T_FO R width height T = .ok tr ∧
      ∀ k P, getPose tr k = .ok P →
        let t := ((k : ℝ) - ts) / 1000000000
        0 ≤ t ∧ t ≤ T ∧
        P = T_WF * T_FO * s.pose width height R (sin (pi / 2 * (t / T)) ^ 2)) ∧
    (shape name = none → create name ts T_WF T_FO R width height T = .error .exn) := by
  obtain ⟨h1, h2⟩ := create_follows name ts T_WF T_FO R width height T
  refine ⟨fun s hs => ?_, h2⟩
  obtain ⟨tr, htr, hf⟩ := h1 s hs
  refine ⟨tr, htr, fun k P hP => ?_⟩
  unfold getPose at hP
  cases he : elapsed tr k with
  | error e => rw [he] at hP; cases hP
  | ok t =>
    rw [he, AprilGrid.ok_bind] at hP
    split_ifs at hP
    cases hP
    obtain ⟨e1, e2, e3, -⟩ := elapsed_ok he
    have et : ((k : ℝ) - ts) / 1000000000 = t := by rw [e1, hf.hts]; unfold sec; ring
    simp only [et]
    rw [hf.hT] at e3
    refine ⟨e2, e3, ?_⟩
    rw [poseAt_eq hf hT, phase]
    have : 0.25 * tr.w * t = pi / 2 * (t / T) := by
      unfold Traj.w Traj.f; rw [hf.hT]; ring
    rw [this]

/-- The position in the frame of the target centre. -/
theorem posO_deriv (tr : Traj) (t : ℝ) (h : 0 < under tr t) :
    VDeriv (fun t => (![posX tr t, posY tr t, sqrt (under tr t)] : Vec3 ℝ)) (velO tr t) t := by
  intro i
  fin_cases i
  · exact posX_deriv tr t
  · exact posY_deriv tr t
  · refine (height_deriv tr t h).congr_deriv ?_
    simp only [num, under_eq]
    rfl

/-- The acceleration in the frame of the target centre. -/
theorem velO_deriv (tr : Traj) (t : ℝ) (h : 0 < under tr t) : VDeriv (velO tr) (accelO tr t) t := by
  have hs := s_deriv tr t
  have hc := c_deriv tr t
  have hx := lin_deriv tr tr.a tr.delta t
  have hy := (sq_deriv tr t).const_mul tr.b
  have hq : sqrt (under tr t) ≠ 0 := (Real.sqrt_pos.mpr h).ne'
  have hrad : under tr t ^ ((3.0 : ℝ) / 2.0) = under tr t * sqrt (under tr t) := by
    have : ((3.0 : ℝ) / 2.0) = 1 + 1 / 2 := by norm_num
    rw [this, Real.rpow_add h, Real.rpow_one, Real.sqrt_eq_rpow]
  have hsq : sqrt (under tr t) ^ 2 = under tr t := Real.sq_sqrt h.le
  intro i
  fin_cases i
  · refine (((hs.const_mul (0.5 * tr.A * tr.a * tr.w)).fun_mul hc).fun_mul hx.cos).congr_deriv ?_
    have e1 : cos (1.0 * t * tr.w) = 1 - 8 * sin (0.25 * t * tr.w) ^ 2 * cos (0.25 * t * tr.w) ^ 2 := by
      have : 1.0 * t * tr.w = 2 * (2 * (0.25 * t * tr.w)) := by norm_num; ring
      rw [this, Real.cos_two_mul', Real.cos_two_mul', Real.sin_two_mul]
      have := Real.sin_sq_add_cos_sq (0.25 * t * tr.w)
      generalize sin (0.25 * t * tr.w) = s at *
      generalize cos (0.25 * t * tr.w) = c at *
      linear_combination (s ^ 2 + c ^ 2 + 1) * this
    have e2 : -1.0 / 2.0 * tr.a * cos (0.5 * t * tr.w) + 1.0 / 2.0 * tr.a + tr.delta =
        tr.a * sin (0.25 * t * tr.w) ^ 2 + tr.delta := by
      have : 0.5 * t * tr.w = 2 * (0.25 * t * tr.w) := by norm_num; ring
      rw [this, Real.cos_two_mul']
      have := Real.sin_sq_add_cos_sq (0.25 * t * tr.w)
      generalize sin (0.25 * t * tr.w) = s at *
      generalize cos (0.25 * t * tr.w) = c at *
      norm_num
      linear_combination (-tr.a / 2) * this
    show _ = tr.A * tr.a * tr.w ^ 2 * _
    rw [e1, e2]
    ring
  · refine (((hs.const_mul (0.5 * tr.B * tr.b * tr.w)).fun_mul hy.cos).fun_mul hc).congr_deriv ?_
    show _ = -0.25 * tr.B * tr.b ^ 2 * tr.w ^ 2 * _ * _ * _ - _ + _
    ring
  · have hz := (num_deriv tr t).fun_div (height_deriv tr t h) hq
    have e : (fun t => velO tr t ((fun i => i) ⟨2, by decide⟩)) = fun t => num tr t / sqrt (under tr t) := by
      funext t; simp only [num, under_eq]; rfl
    refine (hz.congr_of_eventuallyEq (Filter.EventuallyEq.of_eq e)).congr_deriv ?_
    have e2 : accelO tr t ((fun i => i) ⟨2, by decide⟩) =
        num tr t * (-num tr t) / (under tr t * sqrt (under tr t)) + numDot tr t / sqrt (under tr t) := by
      rw [← hrad, under_eq, numDot]
      have : -num tr t = 0.5 * tr.A ^ 2 * tr.a * tr.w * sin (0.25 * t * tr.w)
      * sin (tr.a * sin (0.25 * t * tr.w) ^ 2 + tr.delta) * cos (0.25 * t * tr.w)
      * cos (tr.a * sin (0.25 * t * tr.w) ^ 2 + tr.delta)
    + 0.5 * tr.B ^ 2 * tr.b * tr.w * sin (tr.b * sin (0.25 * t * tr.w) ^ 2) * sin (0.25 * t * tr.w)
      * cos (tr.b * sin (0.25 * t * tr.w) ^ 2) * cos (0.25 * t * tr.w) := by rw [num]; ring
      rw [this, num]
      rfl
    refine Eq.trans ?_ e2.symm
    generalize hN : num tr t = N
    generalize under tr t = U at *
    rw [hsq]
    have hU : U ≠ 0 := h.ne'
    field_simp
    rw [hsq]
    ring

/-- C77: the reported velocity is the time derivative of the position in the reported pose, for any
two frames and wherever the position is strictly inside the sphere. -/
theorem C77_velocity (tr : Traj) (t : ℝ) (h : 0 < under tr t) :
    VDeriv (fun t => tfTrans (poseAt tr t)) (velocityAt tr t) t := by
  have h2 := ((MDeriv.const tr.rotWO t).mulVec (posO_deriv tr t h)).add
    (VDeriv.const (tfTrans (tr.T_WF * tr.T_FO)) t)
  have e : (fun t => tfTrans (poseAt tr t)) = fun t => tr.rotWO *ᵥ
      ![posX tr t, posY tr t, sqrt (under tr t)] + tfTrans (tr.T_WF * tr.T_FO) := by
    funext t; exact tfTrans_mul_tf _ _ _
  rw [e]
  intro i
  refine (h2 i).congr_deriv ?_
  rw [velocityAt]
  simp only [Matrix.zero_mulVec, zero_add, add_zero]

/-- C77: the reported acceleration is the time derivative of the reported velocity. -/
theorem C77_acceleration (tr : Traj) (t : ℝ) (h : 0 < under tr t) :
    VDeriv (velocityAt tr) (accelAt tr t) t := by
  have h2 := (MDeriv.const tr.rotWO t).mulVec (velO_deriv tr t h)
  intro i
  refine (h2 i).congr_deriv ?_
  rw [accelAt]
  simp only [Matrix.zero_mulVec, zero_add]

/-- C77: the reported quaternion is a unit quaternion, is the rotation of the reported pose in the
frame of the target centre, and the reported quaternion rate is its derivative. -/
theorem C77_quaternion (tr : Traj) (hT : tr.T ≠ 0) (t : ℝ) :
    (attitude tr t).normSq = 1 ∧
    tfRot (poseAt tr t) = tfRot (tr.T_WF * tr.T_FO) * (attitude tr t).toRot ∧
    QDeriv (attitude tr) (attitudeDot tr t) t := by
  refine ⟨attitude_unit tr t, ?_, attitude_deriv tr t⟩
  rw [attitude_rot tr hT, poseAt, tfRot_mul_tf]

theorem skew_rot {C : Mat3 ℝ} (hC : IsRot C) (v : Vec3 ℝ) : skew (C *ᵥ v) * C = C * skew v := by
  have h := hC.entries
  apply mat3_eq <;> simp only [mul_entry] <;>
    simp [skew, mulVec, dotProduct, Fin.sum_univ_three]
  · linear_combination v 1 * h.k02 - v 2 * h.k01
  · linear_combination v 2 * h.k00 - v 0 * h.k02
  · linear_combination v 0 * h.k01 - v 1 * h.k00
  · linear_combination v 1 * h.k12 - v 2 * h.k11
  · linear_combination v 2 * h.k10 - v 0 * h.k12
  · linear_combination v 0 * h.k11 - v 1 * h.k10
  · linear_combination v 1 * h.k22 - v 2 * h.k21
  · linear_combination v 2 * h.k20 - v 0 * h.k22
  · linear_combination v 0 * h.k21 - v 1 * h.k20

/-- The angular velocity of a curve of unit quaternions. -/
theorem turn_rate {q : ℝ → Quat ℝ} {q' : Quat ℝ} {t : ℝ} (hq : QDeriv q q' t) (hu : ∀ t, (q t).normSq = 1) :
    MDeriv (fun t => (q t).toRot) (skew ![2 * (q'.mul (q t).inverse).x, 2 * (q'.mul (q t).inverse).y,
      2 * (q'.mul (q t).inverse).z] * (q t).toRot) t := by
  have hi : (q t).inverse = (q t).conj := by
    unfold Quat.inverse
    simp only
    rw [hu t, if_pos one_pos]
    simp [Quat.conj]
  have hd : q'.w * (q t).w + q'.x * (q t).x + q'.y * (q t).y + q'.z * (q t).z = 0 := by
    have h := (((hq.w.fun_mul hq.w).fun_add (hq.x.fun_mul hq.x)).fun_add (hq.y.fun_mul hq.y)).fun_add
      (hq.z.fun_mul hq.z)
    have hc : HasDerivAt (fun t => (q t).w * (q t).w + (q t).x * (q t).x + (q t).y * (q t).y
        + (q t).z * (q t).z) 0 t := by
      have e : (fun t => (q t).w * (q t).w + (q t).x * (q t).x + (q t).y * (q t).y
        + (q t).z * (q t).z) = fun _ => (1 : ℝ) := by funext t; exact hu t
      rw [e]; exact hasDerivAt_const _ _
    have := h.unique hc
    linarith
  have hn : (q t).w * (q t).w + (q t).x * (q t).x + (q t).y * (q t).y + (q t).z * (q t).z = 1 := hu t
  apply toRot_moves q _ t (hu t)
  · refine hq.w.congr_deriv ?_
    rw [hi]; simp [Quat.mul, Quat.conj]
    linear_combination (-q'.w) * hn + (q t).w * hd
  · refine hq.x.congr_deriv ?_
    rw [hi]; simp [Quat.mul, Quat.conj]
    linear_combination (-q'.x) * hn + (q t).x * hd
  · refine hq.y.congr_deriv ?_
    rw [hi]; simp [Quat.mul, Quat.conj]
    linear_combination (-q'.y) * hn + (q t).y * hd
  · refine hq.z.congr_deriv ?_
    rw [hi]; simp [Quat.mul, Quat.conj]
    linear_combination (-q'.z) * hn + (q t).z * hd

/-- C77: the reported angular velocity is the one of the reported pose: the rotation `C` of the pose
changes at the rate `[ω]× C`. -/
theorem C77_angular_velocity (tr : Traj) (hT : tr.T ≠ 0) (hC : IsRot (tfRot (tr.T_WF * tr.T_FO))) (t : ℝ) :
    MDeriv (fun t => tfRot (poseAt tr t)) (skew (angVelAt tr t) * tfRot (poseAt tr t)) t := by
  have h := (MDeriv.const (tfRot (tr.T_WF * tr.T_FO)) t).mul
    (turn_rate (attitude_deriv tr t) (attitude_unit tr))
  have e : (fun t => tfRot (poseAt tr t)) = fun t => tfRot (tr.T_WF * tr.T_FO) * (attitude tr t).toRot := by
    funext t; exact (C77_quaternion tr hT t).2.1
  have e2 : tfRot (poseAt tr t) = tfRot (tr.T_WF * tr.T_FO) * (attitude tr t).toRot := congrFun e t
  rw [e2, e]
  intro i j
  refine (h i j).congr_deriv ?_
  simp only [angVelAt, Traj.rotWO]
  rw [← Matrix.mul_assoc (skew (tfRot (tr.T_WF * tr.T_FO) *ᵥ _)), skew_rot hC]
  simp only [Matrix.zero_mul, zero_add, Matrix.mul_assoc]

/-- C77: every trajectory starts and ends at rest in the same pose, above the middle of the target at
the given radius and looking straight down: at the start and at the end of the period the velocity
and the angular velocity are zero. -/
theorem C77_rest (name : String) (ts : ℤ) (T_WF T_FO : Mat4 ℝ) (R width height T : ℝ) (hT : T ≠ 0) (hR : 0 ≤ R)
    (tr : Traj) (htr : create name ts T_WF T_FO R width height T = .ok tr) (t : ℝ) (ht : t = 0 ∨ t = T) :
    poseAt tr t = T_WF * T_FO * tf !![1, 0, 0; 0, -1, 0; 0, 0, -1] ![0, 0, R] ∧
    velocityAt tr t = 0 ∧ angVelAt tr t = 0 := by
  obtain ⟨h1, h2⟩ := create_follows name ts T_WF T_FO R width height T
  cases hs : shape name with
  | none => rw [h2 hs] at htr; cases htr
  | some s =>
    obtain ⟨tr', htr', hf⟩ := h1 s hs
    rw [htr] at htr'
    cases htr'
    have hT' : tr.T ≠ 0 := by rw [hf.hT]; exact hT
    have hsc : sin (0.25 * t * tr.w) * cos (0.25 * t * tr.w) = 0 := by
      rcases ht with rfl | rfl
      · simp
      · have : 0.25 * t * tr.w = pi / 2 := by
          have := wT tr hT'
          rw [hf.hT] at this
          linear_combination 0.25 * this
        rw [this, Real.cos_pi_div_two, mul_zero]
    have hp : phase tr t = 0 ∨ phase tr t = 1 := by
      rcases ht with rfl | rfl
      · exact Or.inl (phase_start tr)
      · right; rw [← hf.hT]; exact phase_end tr hT'
    have hz : ∀ n : ℕ, sin (2 * pi * n * phase tr t) = 0 := by
      intro n
      rcases hp with e | e <;> rw [e]
      · simp
      · exact sin_nat n
    refine ⟨?_, ?_, ?_⟩
    · rw [poseAt_eq hf hT, Shape.pose, Shape.offset]
      simp only [hz, mul_zero, add_zero]
      congr 2
      · apply mat3_eq <;> simp [euler321]
      · apply vec3_ext <;> simp [Real.sqrt_sq hR]
    · have e : velO tr t = 0 := by
        apply vec3_ext
        · show 0.5 * tr.A * tr.a * tr.w * _ * _ * _ = 0
          linear_combination (0.5 * tr.A * tr.a * tr.w * cos (tr.a * sin (0.25 * t * tr.w) ^ 2 + tr.delta)) * hsc
        · show 0.5 * tr.B * tr.b * tr.w * _ * _ * _ = 0
          linear_combination (0.5 * tr.B * tr.b * tr.w * cos (tr.b * sin (0.25 * t * tr.w) ^ 2)) * hsc
        · show num tr t / _ = 0
          have : num tr t = 0 := by
            unfold num
            linear_combination (-0.5 * tr.A ^ 2 * tr.a * tr.w * sin (tr.a * sin (0.25 * t * tr.w) ^ 2 + tr.delta)
              * cos (tr.a * sin (0.25 * t * tr.w) ^ 2 + tr.delta)
              - 0.5 * tr.B ^ 2 * tr.b * tr.w * sin (tr.b * sin (0.25 * t * tr.w) ^ 2)
              * cos (tr.b * sin (0.25 * t * tr.w) ^ 2)) * hsc
          rw [this, zero_div]
      rw [velocityAt, e, mulVec_zero]
    · have e : attitudeDot tr t = ⟨0, 0, 0, 0⟩ := by
        unfold attitudeDot
        rcases mul_eq_zero.mp hsc with e | e <;> simp [e]
      rw [angVelAt, e]
      have : (![2 * (Quat.mul (⟨0, 0, 0, 0⟩ : Quat ℝ) (attitude tr t).inverse).x,
        2 * (Quat.mul (⟨0, 0, 0, 0⟩ : Quat ℝ) (attitude tr t).inverse).y,
        2 * (Quat.mul (⟨0, 0, 0, 0⟩ : Quat ℝ) (attitude tr t).inverse).z] : Vec3 ℝ) = 0 := by
        apply vec3_ext <;> simp [Quat.mul]
      simp only [this, mulVec_zero]

/-- A sine of a reduced angle has the sign of the factor. -/
theorem toward (α u c : ℝ) (h0 : 0 ≤ α) (h1 : α < pi / 2) (hu : |u| ≤ 1) (hc : 0 ≤ c) :
    0 ≤ sin (α * u) * (c * u) := by
  rw [abs_le] at hu
  rcases le_total 0 u with h | h
  · refine mul_nonneg (Real.sin_nonneg_of_nonneg_of_le_pi (mul_nonneg h0 h) ?_) (mul_nonneg hc h)
    nlinarith
  · refine mul_nonneg_of_nonpos_of_nonpos (Real.sin_nonpos_of_nonpos_of_neg_pi_le
      (mul_nonpos_of_nonneg_of_nonpos h0 h) ?_) (mul_nonpos_of_nonneg_of_nonpos hc h)
    nlinarith

theorem atan2_range (y x : ℝ) (hy : 0 ≤ y) (hx : 0 < x) : 0 ≤ atan2 y x ∧ atan2 y x < pi / 2 := by
  unfold atan2
  refine ⟨Complex.arg_nonneg_iff.mpr hy, ?_⟩
  have := (Complex.abs_arg_lt_pi_div_two_iff (z := ⟨x, y⟩)).mpr (Or.inl hx)
  exact (abs_lt.mp this).2

/-- The offsets of the eight figures stay inside a sphere of radius larger than the target. -/
theorem shape_inside {name : String} {s : Shape} (h : shape name = some s) (width height R θ : ℝ)
    (hw : 0 < width) (hh : 0 < height) (hR : max width height < R) :
    0 < R ^ 2 - (s.offset width height θ).1 ^ 2 - (s.offset width height θ).2 ^ 2 := by
  obtain ⟨-, -, -, hc⟩ := shape_cases h
  have hwR : width < R := lt_of_le_of_lt (le_max_left _ _) hR
  have hhR : height < R := lt_of_le_of_lt (le_max_right _ _) hR
  have sw : width ^ 2 < R ^ 2 := by nlinarith
  have sh : height ^ 2 < R ^ 2 := by nlinarith
  have key : ∀ amp l u : ℝ, l ^ 2 < R ^ 2 → (amp * l * sin u) ^ 2 ≤ amp ^ 2 * R ^ 2 := by
    intro amp l u hl
    have h1 : sin u ^ 2 ≤ 1 := by nlinarith [Real.sin_sq_add_cos_sq u, sq_nonneg (cos u)]
    have h2 : (amp * l * sin u) ^ 2 = amp ^ 2 * (l ^ 2 * sin u ^ 2) := by ring
    rw [h2]
    apply mul_le_mul_of_nonneg_left _ (sq_nonneg _)
    nlinarith [sq_nonneg l, sq_nonneg (sin u)]
  have kx := key s.ampX width (2 * pi * s.n * θ) sw
  have ky := key s.ampY height (2 * pi * s.m * θ) sh
  have strict : ∀ amp l u : ℝ, l ^ 2 < R ^ 2 → 0 ≤ amp ^ 2 → amp ^ 2 ≤ 1 → (amp * l * sin u) ^ 2 < R ^ 2 := by
    intro amp l u hl _ ha
    have h1 : sin u ^ 2 ≤ 1 := by nlinarith [Real.sin_sq_add_cos_sq u, sq_nonneg (cos u)]
    have h2 : (amp * l * sin u) ^ 2 = amp ^ 2 * (l ^ 2 * sin u ^ 2) := by ring
    rw [h2]
    have h3 : l ^ 2 * sin u ^ 2 ≤ l ^ 2 := by nlinarith [sq_nonneg l]
    have h4 : 0 ≤ l ^ 2 * sin u ^ 2 := by positivity
    nlinarith
  have hR2 : 0 < R ^ 2 := by nlinarith
  unfold Shape.offset
  simp only
  rcases hc with ⟨hnm, hax, hay⟩ | hc
  · rcases hnm with e | e
    · have := strict s.ampY height (2 * pi * s.m * θ) sh (sq_nonneg _) hay
      rw [e]; simp only [Nat.cast_zero, mul_zero, zero_mul, Real.sin_zero]
      nlinarith
    · have := strict s.ampX width (2 * pi * s.n * θ) sw (sq_nonneg _) hax
      rw [e]; simp only [Nat.cast_zero, mul_zero, zero_mul, Real.sin_zero]
      nlinarith
  · -- the sum of the squares of the amplitudes is at most one
    by_cases h0 : s.ampX = 0
    · have := strict s.ampY height (2 * pi * s.m * θ) sh (sq_nonneg _) (by nlinarith [sq_nonneg s.ampX])
      rw [h0]; nlinarith
    · have hp : 0 < s.ampX ^ 2 := by positivity
      have hx : (s.ampX * width * sin (2 * pi * s.n * θ)) ^ 2 < s.ampX ^ 2 * R ^ 2 := by
        have h1 : sin (2 * pi * s.n * θ) ^ 2 ≤ 1 := by
          nlinarith [Real.sin_sq_add_cos_sq (2 * pi * s.n * θ), sq_nonneg (cos (2 * pi * s.n * θ))]
        have h2 : (s.ampX * width * sin (2 * pi * s.n * θ)) ^ 2 =
          s.ampX ^ 2 * (width ^ 2 * sin (2 * pi * s.n * θ) ^ 2) := by ring
        rw [h2]
        apply mul_lt_mul_of_pos_left _ hp
        nlinarith [sq_nonneg width]
      nlinarith

theorem toward_gain (g α u amp l : ℝ) (hg : |g| ≤ 1) (h0 : 0 ≤ α) (h1 : α < pi / 2) (hu : |u| ≤ 1)
    (hl : 0 ≤ l) (hs : 0 ≤ g * amp) : 0 ≤ sin (g * α * u) * (amp * l * u) := by
  rw [abs_le] at hg
  rcases lt_trichotomy g 0 with h | h | h
  · have ha : amp ≤ 0 := by
      by_contra hc
      push Not at hc
      nlinarith [mul_pos hc (neg_pos.mpr h)]
    have := toward (-g * α) u (-amp * l) (mul_nonneg (by linarith) h0) (by nlinarith) hu (mul_nonneg (by linarith) hl)
    have e : sin (g * α * u) = -sin (-g * α * u) := by rw [← Real.sin_neg]; congr 1; ring
    rw [e]; nlinarith
  · rw [h]; simp
  · have ha : 0 ≤ amp := by
      by_contra hc
      push Not at hc
      nlinarith [mul_pos h (neg_pos.mpr hc)]
    exact toward (g * α) u (amp * l) (mul_nonneg h.le h0) (by nlinarith) hu (mul_nonneg ha hl)

theorem cos_gain (g α u : ℝ) (hg : |g| ≤ 1) (h0 : 0 ≤ α) (h1 : α < pi / 2) (hu : |u| ≤ 1) :
    0 < cos (g * α * u) := by
  have : |g * α * u| ≤ α := by
    rw [abs_mul, abs_mul, abs_of_nonneg h0]
    have h2 : |g| * α ≤ α := by nlinarith
    have h3 : 0 ≤ |g| * α := mul_nonneg (abs_nonneg _) h0
    nlinarith [abs_nonneg u]
  have := abs_le.mp this
  exact Real.cos_pos_of_mem_Ioo ⟨by linarith, by linarith⟩

theorem rot_preserves {C : Mat3 ℝ} (hC : IsRot C) {q r : Vec3 ℝ} (h : C *ᵥ q + r = 0) :
    (∀ j, q j = -(C 0 j * r 0 + C 1 j * r 1 + C 2 j * r 2)) ∧ dot3 q q = dot3 r r := by
  have e := hC.entries
  have h0 := congrFun h 0
  have h1 := congrFun h 1
  have h2 := congrFun h 2
  simp [mulVec, dotProduct, Fin.sum_univ_three] at h0 h1 h2
  have a0 : r 0 = -(C 0 0 * q 0 + C 0 1 * q 1 + C 0 2 * q 2) := by linarith
  have a1 : r 1 = -(C 1 0 * q 0 + C 1 1 * q 1 + C 1 2 * q 2) := by linarith
  have a2 : r 2 = -(C 2 0 * q 0 + C 2 1 * q 1 + C 2 2 * q 2) := by linarith
  constructor
  · intro j
    rw [a0, a1, a2]
    fin_cases j
    · show q 0 = -(C 0 0 * _ + C 1 0 * _ + C 2 0 * _)
      linear_combination (-q 0) * e.c00 - q 1 * e.c01 - q 2 * e.c02
    · show q 1 = -(C 0 1 * _ + C 1 1 * _ + C 2 1 * _)
      linear_combination (-q 0) * e.c01 - q 1 * e.c11 - q 2 * e.c12
    · show q 2 = -(C 0 2 * _ + C 1 2 * _ + C 2 2 * _)
      linear_combination (-q 0) * e.c02 - q 1 * e.c12 - q 2 * e.c22
  · unfold dot3
    rw [a0, a1, a2]
    linear_combination (-(q 0) ^ 2) * e.c00 - (q 1) ^ 2 * e.c11 - (q 2) ^ 2 * e.c22
      - 2 * q 0 * q 1 * e.c01 - 2 * q 0 * q 2 * e.c02 - 2 * q 1 * q 2 * e.c12

/-- The centre of the target in the sensor frame: in front of the sensor, at distance `R`. -/
theorem shape_faces {name : String} {s : Shape} (h : shape name = some s) (width height R θ : ℝ)
    (hw : 0 < width) (hh : 0 < height) (hR : max width height < R) (q : Vec3 ℝ)
    (hq : tfPoint (s.pose width height R θ) q = 0) : 0 < q 2 ∧ norm3 q = R := by
  have hin := shape_inside h width height R θ hw hh hR
  have hR0 : 0 < R := lt_trans hw (lt_of_le_of_lt (le_max_left _ _) hR)
  obtain ⟨hy, hp, ⟨gy, gp⟩, -⟩ := shape_cases h
  obtain ⟨y0, y1⟩ := atan2_range (|s.ampX| * width) R (mul_nonneg (abs_nonneg _) hw.le) hR0
  obtain ⟨p0, p1⟩ := atan2_range (|s.ampY| * height) R (mul_nonneg (abs_nonneg _) hh.le) hR0
  unfold Shape.pose at hq
  simp only at hq
  rw [tfPoint_tf] at hq
  have hrot := (C34_rotations (pi + s.pitchGain * atan2 (|s.ampY| * height) R * sin (2 * pi * s.pitchN * θ))
    (s.yawGain * atan2 (|s.ampX| * width) R * sin (2 * pi * s.yawN * θ)) 0 0).2.2.2.2
  obtain ⟨e1, e2⟩ := rot_preserves hrot hq
  have hx : 0 ≤ sin (s.yawGain * atan2 (|s.ampX| * width) R * sin (2 * pi * s.yawN * θ)) *
      (s.offset width height θ).1 := by
    rcases hy with ⟨hn, hg⟩ | hn | hg
    · rw [hn]
      exact toward_gain _ _ _ _ _ gy y0 y1 (Real.abs_sin_le_one _) hw.le hg
    · rw [hn]; simp
    · rw [hg]; simp
  have hyy : 0 ≤ -(sin (s.pitchGain * atan2 (|s.ampY| * height) R * sin (2 * pi * s.pitchN * θ)) *
      (s.offset width height θ).2) := by
    rcases hp with ⟨hn, hg⟩ | hn | hg
    · rw [hn]
      have := toward_gain (-s.pitchGain) (atan2 (|s.ampY| * height) R) (sin (2 * pi * s.m * θ)) s.ampY height
        (by rw [abs_neg]; exact gp) p0 p1 (Real.abs_sin_le_one _) hh.le (by linarith)
      have e : sin (-s.pitchGain * atan2 (|s.ampY| * height) R * sin (2 * pi * s.m * θ)) =
          -sin (s.pitchGain * atan2 (|s.ampY| * height) R * sin (2 * pi * s.m * θ)) := by
        rw [← Real.sin_neg]; congr 1; ring
      rw [e] at this
      simp only [Shape.offset]
      linarith
    · rw [hn]; simp
    · rw [hg]; simp
  have cy := cos_gain s.yawGain _ (sin (2 * pi * s.yawN * θ)) gy y0 y1 (Real.abs_sin_le_one _)
  have cp := cos_gain s.pitchGain _ (sin (2 * pi * s.pitchN * θ)) gp p0 p1 (Real.abs_sin_le_one _)
  have hz := Real.sqrt_pos.mpr hin
  have q2 := e1 2
  simp [euler321, Real.sin_add, Real.cos_add] at q2
  have hd : dot3 q q = R ^ 2 := by
    rw [e2]
    simp [dot3]
    have := Real.mul_self_sqrt hin.le
    linarith
  constructor
  · have h3 := mul_nonneg hx cp.le
    have h4 := mul_pos (mul_pos cy cp) hz
    rw [q2]
    nlinarith
  · rw [norm3, hd, Real.sqrt_sq hR0.le]

theorem fold_create (ts : ℤ) (T_WF T_FO : Mat4 ℝ) (R width height T : ℝ) (ns : List String)
    (hn : ∀ n ∈ ns, ∃ s, shape n = some s) (l : List Traj) :
    ∃ trs, ns.foldlM (fun (l : List Traj) (n : String) =>
      create n ts T_WF T_FO R width height T >>= fun tr => .ok (l ++ [tr])) l = .ok (l ++ trs) ∧
      List.Forall₂ (fun n tr => create n ts T_WF T_FO R width height T = .ok tr) ns trs := by
  induction ns generalizing l with
  | nil => exact ⟨[], by simp [pure, Except.pure], List.Forall₂.nil⟩
  | cons n ns ih =>
    obtain ⟨s, hs⟩ := hn n (List.mem_cons_self ..)
    obtain ⟨tr, htr, -⟩ := (create_follows n ts T_WF T_FO R width height T).1 s hs
    obtain ⟨trs, h1, h2⟩ := ih (fun m hm => hn m (List.mem_cons_of_mem _ hm)) (l ++ [tr])
    refine ⟨tr :: trs, ?_, List.Forall₂.cons htr h2⟩
    rw [List.foldlM_cons, htr, AprilGrid.ok_bind, AprilGrid.ok_bind, h1, List.append_assoc]
    rfl

theorem rigid_cancel {C D : Mat3 ℝ} (hC : IsRot C) {c r v q : Vec3 ℝ}
    (h : tfPoint (tf C r * tf 1 c * tf D v) q = tfPoint (tf C r) c) : tfPoint (tf D v) q = 0 := by
  rw [tf_mul, tf_mul, tfPoint_tf, tfPoint_tf, Matrix.mul_one] at h
  rw [tfPoint_tf]
  have h0 : C *ᵥ (D *ᵥ q + v) = 0 := by
    rw [mulVec_add, mulVec_mulVec]
    have : (C * D) *ᵥ q + C *ᵥ v + (C *ᵥ c + r) = 0 + (C *ᵥ c + r) := by
      rw [zero_add, add_assoc]; exact h
    exact add_right_cancel this
  have : Cᵀ *ᵥ (C *ᵥ (D *ᵥ q + v)) = D *ᵥ q + v := by
    rw [mulVec_mulVec, mul_eq_one_comm.mp hC.1, one_mulVec]
  rw [← this, h0, mulVec_zero]

/-- A target one can print: at least one tag, of positive size. -/
structure Printable (tg : Nbv.Target) : Prop where
  rows : 1 ≤ tg.rows
  cols : 1 ≤ tg.cols
  size : 0 < tg.size
  spacing : 0 ≤ tg.spacing

theorem Printable.pos {tg : Nbv.Target} (h : Printable tg) : 0 < tg.width ∧ 0 < tg.height := by
  have h1 : (1 : ℝ) ≤ tg.rows := by exact_mod_cast h.rows
  have h2 : (1 : ℝ) ≤ tg.cols := by exact_mod_cast h.cols
  have hs := h.size
  have hp := h.spacing
  unfold Nbv.Target.width Nbv.Target.height
  constructor
  · have : 0 ≤ ((tg.cols : ℝ) - 1) * tg.spacing * tg.size := by
      apply mul_nonneg (mul_nonneg (by linarith) hp) hs.le
    nlinarith
  · have : 0 ≤ ((tg.rows : ℝ) - 1) * tg.spacing * tg.size := by
      apply mul_nonneg (mul_nonneg (by linarith) hp) hs.le
    nlinarith

/-- The five readings of a trajectory at a time inside its period. -/
theorem getters (tr : Traj) (hT : tr.T ≠ 0) (hin : ∀ t, 0 < under tr t) (k : ℤ) :
    (0 ≤ sec k - sec tr.ts_start ∧ sec k - sec tr.ts_start ≤ tr.T →
      getPose tr k = .ok (poseAt tr (sec k - sec tr.ts_start)) ∧
      getQ tr k = .ok (attitude tr (sec k - sec tr.ts_start)) ∧
      getVelocity tr k = .ok (velocityAt tr (sec k - sec tr.ts_start)) ∧
      getAccel tr k = .ok (accelAt tr (sec k - sec tr.ts_start)) ∧
      getAngVel tr k = .ok (angVelAt tr (sec k - sec tr.ts_start))) ∧
    (¬ (0 ≤ sec k - sec tr.ts_start ∧ sec k - sec tr.ts_start ≤ tr.T) →
      getPose tr k = .error .fatal ∧ getQ tr k = .error .fatal ∧ getVelocity tr k = .error .fatal ∧
      getAccel tr k = .error .fatal ∧ getAngVel tr k = .error .fatal) := by
  obtain ⟨h1, h2⟩ := elapsed_iff tr k hT
  constructor
  · intro h
    have e := h1 h
    have hu := hin (sec k - sec tr.ts_start)
    refine ⟨?_, ?_, ?_, ?_, ?_⟩
    · rw [getPose, e, AprilGrid.ok_bind, if_neg (not_lt.mpr hu.le)]
    · rw [getQ, e, AprilGrid.ok_bind]
    · rw [getVelocity, e, AprilGrid.ok_bind, if_neg (not_le.mpr hu)]
    · rw [getAccel, e, AprilGrid.ok_bind, if_neg (not_le.mpr hu)]
    · rw [getAngVel, getQ, getQDot, e]; rfl
  · intro h
    have e := h2 h
    refine ⟨?_, ?_, ?_, ?_, ?_⟩
    · rw [getPose, e]; rfl
    · rw [getQ, e]; rfl
    · rw [getVelocity, e]; rfl
    · rw [getAccel, e]; rfl
    · rw [getAngVel, e]; rfl

/-- What the generator returns. -/
theorem generated_spec (ts te : ℤ) (hte : ts < te) (tg : Nbv.Target) (htg : Printable tg) (C : Mat3 ℝ)
    (hC : IsRot C) (r : Vec3 ℝ) (l : List Traj) :
    ∃ trs, lissajousTrajs ts te tg (tf C r) l = .ok (l ++ trs) ∧ trs.length = 8 ∧ ∀ tr ∈ trs,
      ∃ n s, shape n = some s ∧ Follows tr s ts (tf C r) (tf 1 ![tg.width / 2, tg.height / 2, 0])
        (max tg.width tg.height * 1.2) tg.width tg.height (sec te - sec ts) ∧
        max tg.width tg.height < max tg.width tg.height * 1.2 ∧ sec te - sec ts ≠ 0 ∧ tr.T ≠ 0 ∧
        (∀ t, 0 < under tr t) ∧ IsRot (tfRot (tr.T_WF * tr.T_FO)) := by
  have hn : ∀ n ∈ names, ∃ s, shape n = some s := by
    intro n hn
    simp [names] at hn
    rcases hn with rfl | rfl | rfl | rfl | rfl | rfl | rfl | rfl <;> exact ⟨_, rfl⟩
  obtain ⟨hw, hh⟩ := htg.pos
  obtain ⟨trs, h1, h2⟩ := fold_create ts (tf C r) (tf 1 ![tg.width / 2, tg.height / 2, 0])
    (max tg.width tg.height * 1.2) tg.width tg.height (sec te - sec ts) names hn l
  refine ⟨trs, h1, ?_, ?_⟩
  · rw [← h2.length_eq]; rfl
  intro tr htr
  obtain ⟨n, hnm, hcr⟩ : ∃ n ∈ names, create n ts (tf C r) (tf 1 ![tg.width / 2, tg.height / 2, 0])
      (max tg.width tg.height * 1.2) tg.width tg.height (sec te - sec ts) = .ok tr := by
    obtain ⟨i, hi, rfl⟩ := List.getElem_of_mem htr
    have hi' : i < names.length := by rw [h2.length_eq]; exact hi
    exact ⟨names[i], List.getElem_mem _, h2.get hi' hi⟩
  obtain ⟨s, hs⟩ := hn n hnm
  obtain ⟨tr', htr', hf⟩ := (create_follows n ts (tf C r) (tf 1 ![tg.width / 2, tg.height / 2, 0])
      (max tg.width tg.height * 1.2) tg.width tg.height (sec te - sec ts)).1 s hs
  rw [hcr] at htr'
  cases htr'
  have hmax : 0 < max tg.width tg.height := lt_of_lt_of_le hw (le_max_left _ _)
  have hR : max tg.width tg.height < max tg.width tg.height * 1.2 := by nlinarith
  have hTp : sec te - sec ts ≠ 0 := by
    intro h
    have : sec te ≤ sec ts := by linarith
    rw [sec_le] at this
    omega
  have hT : tr.T ≠ 0 := by rw [hf.hT]; exact hTp
  have hin : ∀ t, 0 < under tr t := by
    intro t
    have := shape_inside hs tg.width tg.height (max tg.width tg.height * 1.2) (phase tr t) hw hh hR
    have hx : posX tr t = (s.offset tg.width tg.height (phase tr t)).1 := hf.x _
    have hy : posY tr t = (s.offset tg.width tg.height (phase tr t)).2 := hf.y _
    rw [under, hx, hy, hf.hR]
    linarith
  have hrot : IsRot (tfRot (tr.T_WF * tr.T_FO)) := by
    rw [hf.hWF, hf.hFO, tf_mul, tfRot_tf, Matrix.mul_one]; exact hC
  exact ⟨n, s, hs, hf, hR, hTp, hT, hin, hrot⟩

/-- C77: the trajectories generated for a target.  Eight are appended; each can be read at every
timestamp from the start to the end and is rejected outside; the pose moves with the reported
velocity and angular velocity at all times, the velocity changes with the reported acceleration; and the
centre of the target is always in front of the sensor, at 1.2 times the larger side of the target. -/
theorem C77_generated (ts te : ℤ) (hte : ts < te) (tg : Nbv.Target) (htg : Printable tg) (C : Mat3 ℝ)
    (hC : IsRot C) (r : Vec3 ℝ) (l : List Traj) :
    ∃ trs, lissajousTrajs ts te tg (tf C r) l = .ok (l ++ trs) ∧ trs.length = 8 ∧ ∀ tr ∈ trs,
      (∀ t, Moves (fun t => tfRot (poseAt tr t)) (fun t => tfTrans (poseAt tr t)) (velocityAt tr t)
          (angVelAt tr t) t ∧ VDeriv (velocityAt tr) (accelAt tr t) t) ∧
      ∀ k,
        (ts ≤ k ∧ k ≤ te → ∃ t, t = ((k : ℝ) - ts) / 1000000000 ∧ getPose tr k = .ok (poseAt tr t) ∧
          getQ tr k = .ok (attitude tr t) ∧ getVelocity tr k = .ok (velocityAt tr t) ∧
          getAccel tr k = .ok (accelAt tr t) ∧ getAngVel tr k = .ok (angVelAt tr t) ∧
          ∀ q, tfPoint (poseAt tr t) q = tfPoint (tf C r) ![tg.width / 2, tg.height / 2, 0] →
            0 < q 2 ∧ norm3 q = 1.2 * max tg.width tg.height) ∧
        (¬ (ts ≤ k ∧ k ≤ te) → getPose tr k = .error .fatal ∧ getQ tr k = .error .fatal ∧
          getVelocity tr k = .error .fatal ∧ getAccel tr k = .error .fatal ∧
          getAngVel tr k = .error .fatal) := by
  obtain ⟨hw, hh⟩ := htg.pos
  obtain ⟨trs, h1, h2, h3⟩ := generated_spec ts te hte tg htg C hC r l
  refine ⟨trs, h1, h2, fun tr htr => ?_⟩
  obtain ⟨n, s, hs, hf, hR, hTp, hT, hin, hrot⟩ := h3 tr htr
  refine ⟨fun t => ⟨⟨C77_angular_velocity tr hT hrot t, C77_velocity tr t (hin t)⟩,
    C77_acceleration tr t (hin t)⟩, fun k => ?_⟩
  have hiff : (0 ≤ sec k - sec tr.ts_start ∧ sec k - sec tr.ts_start ≤ tr.T) ↔ (ts ≤ k ∧ k ≤ te) := by
    rw [hf.hts, hf.hT, ← sec_le ts k, ← sec_le k te]
    constructor
    · rintro ⟨a, b⟩; constructor <;> linarith
    · rintro ⟨a, b⟩; constructor <;> linarith
  obtain ⟨g1, g2⟩ := getters tr hT hin k
  rw [hiff] at g1 g2
  refine ⟨fun h => ?_, g2⟩
  obtain ⟨a1, a2, a3, a4, a5⟩ := g1 h
  refine ⟨sec k - sec tr.ts_start, by rw [hf.hts]; unfold sec; ring, a1, a2, a3, a4, a5, ?_⟩
  intro q hq
  rw [poseAt_eq hf hTp] at hq
  have hc : tfPoint (s.pose tg.width tg.height (max tg.width tg.height * 1.2)
      (phase tr (sec k - sec tr.ts_start))) q = 0 := by
    unfold Shape.pose at hq ⊢
    exact rigid_cancel hC hq
  have := shape_faces hs tg.width tg.height (max tg.width tg.height * 1.2)
      (phase tr (sec k - sec tr.ts_start)) hw hh hR q hc
  rw [mul_comm (1.2 : ℝ)]
  exact this

/-- C77 (limit): the class does not check the radius it is given.  With a radius smaller than the
amplitude the square root is taken of a negative number: at the middle of the period of a horizontal
pan at radius `1/2` in front of a target of width 1, the pose is NaN. -/
theorem C77_radius_refuted : ∃ tr, create "pan-horiz" 0 1 1 (1 / 2) 1 1 12 = .ok tr ∧
    getPose tr 4000000000 = .error .divZero := by
  obtain ⟨tr, htr, hf⟩ := (create_follows "pan-horiz" 0 1 1 (1 / 2) 1 1 12).1 _ rfl
  refine ⟨tr, htr, ?_⟩
  have hT : tr.T ≠ 0 := by rw [hf.hT]; norm_num
  have hsec : sec 4000000000 - sec tr.ts_start = 4 := by rw [hf.hts]; norm_num [sec]
  have he := (elapsed_iff tr 4000000000 hT).1 (by rw [hsec, hf.hT]; norm_num)
  rw [hsec] at he
  rw [getPose, he, AprilGrid.ok_bind, if_pos]
  have hph : phase tr 4 = 1 / 4 := by
    have : 0.25 * tr.w * 4 = pi / 6 := by unfold Traj.w Traj.f; rw [hf.hT]; ring
    rw [phase, this, Real.sin_pi_div_six]; norm_num
  have hx : posX tr 4 = 0.95 := by
    rw [posX, hph, hf.x]
    have : 2 * pi * ((1 : ℕ) : ℝ) * (1 / 4) = pi / 2 := by push_cast; ring
    simp only [this, Real.sin_pi_div_two]; norm_num
  rw [under, hx, hf.hR]
  nlinarith [mul_self_nonneg (posY tr 4)]

/-- C77 (limit): a period of zero is accepted and every reading is NaN. -/
theorem C77_period_refuted : ∃ tr, create "diag0" 0 1 1 2 1 1 0 = .ok tr ∧
    getPose tr 0 = .error .divZero := by
  refine ⟨_, by simp [create]; rfl, ?_⟩
  rw [getPose, elapsed]
  simp [sec]

/-- A printable target. -/
example : Printable ⟨6, 6, 0.088, 0.3⟩ := ⟨by norm_num, by norm_num, by norm_num, by norm_num⟩

/-- Inside the sphere the hypothesis of the derivative theorems holds, here in the middle of the
swing of a diagonal, where nothing vanishes. -/
example : ∃ tr t, create "diag0" 0 1 1 2 1 1 12 = .ok tr ∧ tr.T ≠ 0 ∧ 0 < under tr t ∧ velO tr t 0 < 0 := by
  obtain ⟨tr, htr, hf⟩ := (create_follows "diag0" 0 1 1 2 1 1 12).1 _ rfl
  have hw : 0.25 * tr.w * 6 = pi / 4 := by unfold Traj.w Traj.f; rw [hf.hT]; ring
  refine ⟨tr, 6, htr, by rw [hf.hT]; norm_num, ?_, ?_⟩
  · have h1 : ∀ x : ℝ, sin x * sin x ≤ 1 := fun x => by
      nlinarith [Real.sin_sq_add_cos_sq x, sq_nonneg (cos x)]
    rw [under, posX, posY, hf.x, hf.y, hf.hR]
    have := h1 (2 * pi * ((1 : ℕ) : ℝ) * phase tr 6)
    simp only
    generalize sin (2 * pi * ((1 : ℕ) : ℝ) * phase tr 6) = u at *
    norm_num
    linarith
  · have hd := posX_deriv tr 6
    have e : posX tr = fun t => 0.6 * 1 * sin (2 * pi * ((1 : ℕ) : ℝ) * phase tr t) := by
      funext t; exact hf.x _
    have hd2 := ((phase_deriv tr 6).const_mul (2 * pi * ((1 : ℕ) : ℝ))).sin.const_mul (0.6 * 1)
    rw [e] at hd
    have hv : velO tr 6 0 = _ := hd.unique hd2
    have hc : 0.25 * 6 * tr.w = pi / 4 := by rw [← hw]; ring
    have hph : phase tr 6 = 1 / 2 := by
      rw [phase, hw, Real.sin_pi_div_four, div_pow, Real.sq_sqrt (by norm_num)]; norm_num
    have hpi : 2 * pi * ((1 : ℕ) : ℝ) * (1 / 2) = pi := by push_cast; ring
    rw [hv, hc, hph, hpi, Real.cos_pi, Real.sin_pi_div_four, Real.cos_pi_div_four]
    have hw0 : 0 < tr.w := by
      have := Real.pi_pos
      linarith
    have h2 : 0 < sqrt 2 := Real.sqrt_pos.mpr (by norm_num)
    have := Real.pi_pos
    have hpos : 0 < 2 * pi * ((1 : ℕ) : ℝ) * (0.5 * tr.w * (sqrt 2 / 2) * (sqrt 2 / 2)) := by positivity
    nlinarith

/-- C77: the eight trajectories come in a fixed order, each made from its name. -/
theorem C77_catalogue (ts te : ℤ) (tg : Nbv.Target) (T_WF : Mat4 ℝ) (l : List Traj) :
    ∃ trs, lissajousTrajs ts te tg T_WF l = .ok (l ++ trs) ∧
      List.Forall₂ (fun n tr => create n ts T_WF (tf 1 ![tg.width / 2, tg.height / 2, 0])
        (max tg.width tg.height * 1.2) tg.width tg.height (sec te - sec ts) = .ok tr)
        ["fig8-horiz", "fig8-vert", "s-horiz", "s-vert", "pan-vert", "pan-horiz", "diag0", "diag1"]
        trs :=
  fold_create ts T_WF (tf 1 ![tg.width / 2, tg.height / 2, 0])
    (max tg.width tg.height * 1.2) tg.width tg.height (sec te - sec ts)
    ["fig8-horiz", "fig8-vert", "s-horiz", "s-vert", "pan-vert", "pan-horiz", "diag0", "diag1"] (by
      intro n hn
      simp at hn
      rcases hn with rfl | rfl | rfl | rfl | rfl | rfl | rfl | rfl <;> exact ⟨_, rfl⟩) l

end Yac.Nbt
