import Verif.VI.InitModel
import Verif.Residual.Props
import Verif.Geom.PoseProps
import Verif.Geom.RotProps
import Mathlib.Tactic.NormNum
import Mathlib.Tactic.Linarith

/-!
# C57: initialisation; C76: the fiducial parameter
-/

namespace Yac.VI
open Matrix Yac.Geom

/-- A proper rigid transform. -/
def IsTf (T : Mat4 ℝ) : Prop := ∃ C r, IsRot C ∧ T = tf C r

/-- The pose of the target in the camera that the estimates predict: the transform the
reprojection residual uses (calib_residuals.cpp:583-585). -/
noncomputable def predicted (T_BCi T_BS T_WS T_WF : Mat4 ℝ) : Mat4 ℝ :=
  T_BCi⁻¹ * T_BS * T_WS⁻¹ * T_WF

theorem isRot_one : IsRot (1 : Mat3 ℝ) := ⟨by simp, by simp⟩

theorem isRot_det {C : Mat3 ℝ} (h : IsRot C) : C.det ≠ 0 := by rw [h.2]; exact one_ne_zero

theorem IsTf.unit {T : Mat4 ℝ} (h : IsTf T) : IsUnit T.det := by
  obtain ⟨C, r, hC, rfl⟩ := h
  have h1 : tf C r * tf Cᵀ (-(Cᵀ *ᵥ r)) = 1 := by
    rw [tf_mul, hC.1]
    simp [Matrix.mulVec_neg, Matrix.mulVec_mulVec, hC.1, tf_one]
  exact isUnit_det_of_right_inverse h1

theorem IsTf.mul {S T : Mat4 ℝ} (hs : IsTf S) (ht : IsTf T) : IsTf (S * T) := by
  obtain ⟨C, r, hC, rfl⟩ := hs
  obtain ⟨D, s, hD, rfl⟩ := ht
  exact ⟨_, _, hC.mul hD, tf_mul ..⟩

theorem IsTf.inv {T : Mat4 ℝ} (h : IsTf T) : IsTf T⁻¹ := by
  obtain ⟨C, r, hC, rfl⟩ := h
  rw [Residual.tf_inverse _ _ (isRot_det hC), Residual.isRot_inv hC]
  exact ⟨_, _, hC.transpose, rfl⟩

theorem IsTf.eq {T : Mat4 ℝ} (h : IsTf T) : IsRot (tfRot T) ∧ tf (tfRot T) (tfTrans T) = T := by
  obtain ⟨C, r, hC, rfl⟩ := h
  rw [tfRot_tf, tfTrans_tf]
  exact ⟨hC, rfl⟩

/-! ## C76 -/

theorem euler321_rot (a b c : ℝ) : IsRot (euler321 a b c) := (C34_rotations a b c 0).2.2.2.2

/-- Yaw of a rotation matrix, read off the first column. -/
theorem yaw_eq {T : Mat4 ℝ} (h : IsTf T) :
    quat2euler (tfQuatOf T) = ![atan2 (tfRot T 2 1) (tfRot T 2 2), Real.arcsin (-(tfRot T 2 0)),
      atan2 (tfRot T 1 0) (tfRot T 0 0)] := by
  have hs := (rotToQuat_spec h.eq.1).spec
  rw [quat2euler_rot]
  unfold tfQuatOf
  rw [← (C33_sandwich _).2 hs.1, hs.2]


theorem atan2_mem (y x : ℝ) : -Real.pi < atan2 y x ∧ atan2 y x ≤ Real.pi :=
  Complex.arg_mem_Ioc _

theorem isTf_euler (a b c : ℝ) (r : Vec3 ℝ) : IsTf (tf (euler321 a b c) r) :=
  ⟨_, _, euler321_rot a b c, rfl⟩

/-- The yaw of an Euler rotation with the pitch in the open principal range. -/
theorem yaw_euler (a b c : ℝ) (r : Vec3 ℝ) (hb : 0 < Real.cos b) (h1 : -Real.pi < c)
    (h2 : c ≤ Real.pi) : quat2euler (tfQuatOf (tf (euler321 a b c) r)) 2 = c := by
  rw [yaw_eq (isTf_euler a b c r), tfRot_tf]
  simp [euler321]
  rw [mul_comm, mul_comm (Real.cos c)]
  exact atan2_polar _ _ hb h1 h2

theorem cos_pitch {b : ℝ} (h : |b| < Real.pi / 2) : 0 < Real.cos b :=
  Real.cos_pos_of_mem_Ioo (abs_lt.1 h)

/-- C76, new object: away from gimbal lock the estimate of a new fiducial parameter is the
transform it was made from, and stays so. -/
theorem C76_new_partial (T : Mat4 ℝ) (hT : IsTf T) (hg : |tfRot T 2 0| < 1) :
    (Fiducial.new T).estimate.2 = T ∧ (Fiducial.new T).estimate.1.T_WF = T ∧
    (Fiducial.new T).estimate.1.param = (Fiducial.new T).param := by
  have hq := (rotToQuat_spec hT.eq.1).spec
  have h20 : |2 * ((tfQuatOf T).y * (tfQuatOf T).w - (tfQuatOf T).x * (tfQuatOf T).z)| < 1 := by
    have : tfRot T 2 0 = -(2 * ((tfQuatOf T).y * (tfQuatOf T).w - (tfQuatOf T).x * (tfQuatOf T).z)) := by
      conv_lhs => rw [← hq.2]
      simp [Quat.toRot, tfQuatOf]; ring
    rw [this, abs_neg] at hg
    exact hg
  have he := C34_euler_of_quat (tfQuatOf T) hq.1 h20
  have hr : (tfQuatOf T).toRot = tfRot T := hq.2
  rw [hr] at he
  have hu : (Fiducial.new T).update.T_WF = T := by
    show tf (euler321 (quat2euler (tfQuatOf T) 0) (quat2euler (tfQuatOf T) 1)
      (quat2euler (tfQuatOf T) 2)) (tfTrans T) = T
    rw [he, hT.eq.2]
  refine ⟨?_, hu, rfl⟩
  unfold Fiducial.estimate
  rw [hu]
  show tf (euler321 (quat2euler (tfQuatOf T) 0) (quat2euler (tfQuatOf T) 1)
      (quat2euler (tfQuatOf T) 2)) (tfTrans T) = T
  rw [he, hT.eq.2]

/-- What a program can do with a fiducial parameter; `write` is the solver changing the
parameter array directly. -/
inductive FOp where
  | write (p : Fin 2 → ℝ)
  | plus (dx : Fin 2 → ℝ)
  | minus (dx : Fin 2 → ℝ)
  | perturb (i : ℤ) (h : ℝ)
  | estimate

noncomputable def FOp.apply (f : Fiducial) : FOp → Except Fault Fiducial
  | .write p => .ok { f with param := p }
  | .plus dx => .ok (f.plus dx)
  | .minus dx => .ok (f.minus dx)
  | .perturb i h => f.perturb i h
  | .estimate => .ok f.estimate.1

/-- Histories in which the pitch stays strictly between -90 and 90 degrees. -/
inductive FRun (f : Fiducial) : List FOp → Fiducial → Prop where
  | nil : FRun f [] f
  | snoc {ops g op h} : FRun f ops g → op.apply g = .ok h → |h.param 1| < Real.pi / 2 →
      FRun f (ops ++ [op]) h

structure Keeps (yaw : ℝ) (r : Vec3 ℝ) (f : Fiducial) : Prop where
  isTf : IsTf f.T_WF
  yaw : quat2euler (tfQuatOf f.T_WF) 2 = yaw
  trans : tfTrans f.T_WF = r

theorem Keeps.range {yaw : ℝ} {r : Vec3 ℝ} {f : Fiducial} (h : Keeps yaw r f) :
    -Real.pi < yaw ∧ yaw ≤ Real.pi := by
  rw [← h.yaw, yaw_eq h.isTf]
  exact atan2_mem _ _

theorem Keeps.update {yaw : ℝ} {r : Vec3 ℝ} {f : Fiducial} (h : Keeps yaw r f)
    (hp : |f.param 1| < Real.pi / 2) : Keeps yaw r f.update ∧
    f.update.T_WF = tf (euler321 (f.param 0) (f.param 1) yaw) r ∧
    f.update.param = f.param := by
  have hu : f.update.T_WF = tf (euler321 (f.param 0) (f.param 1) yaw) r := by
    unfold Fiducial.update
    rw [h.yaw, h.trans]
  refine ⟨⟨?_, ?_, ?_⟩, hu, rfl⟩
  · rw [hu]; exact isTf_euler ..
  · rw [hu, yaw_euler _ _ _ _ (cos_pitch hp) h.range.1 h.range.2]
  · rw [hu, tfTrans_tf]

theorem Keeps.estimate {yaw : ℝ} {r : Vec3 ℝ} {f : Fiducial} (h : Keeps yaw r f)
    (hp : |f.param 1| < Real.pi / 2) :
    f.estimate.2 = tf (euler321 (f.param 0) (f.param 1) yaw) r := by
  obtain ⟨h1, -, h3⟩ := h.update hp
  unfold Fiducial.estimate
  rw [h1.yaw, h1.trans, h3]

theorem Keeps.apply {yaw : ℝ} {r : Vec3 ℝ} {f g : Fiducial} {op : FOp} (h : Keeps yaw r f)
    (ha : op.apply f = .ok g) (hp : |g.param 1| < Real.pi / 2) : Keeps yaw r g := by
  cases op with
  | write p => injection ha with ha; subst ha; exact ⟨h.isTf, h.yaw, h.trans⟩
  | plus dx =>
    injection ha with ha; subst ha
    exact (Keeps.update (f := { f with param := paramPlus f.param dx }) ⟨h.isTf, h.yaw, h.trans⟩ hp).1
  | minus dx =>
    injection ha with ha; subst ha
    exact (Keeps.update (f := { f with param := paramMinus f.param dx }) ⟨h.isTf, h.yaw, h.trans⟩ hp).1
  | perturb i s =>
    have ha : (paramPerturb f.param i s >>= fun p =>
      Except.ok (Fiducial.update { f with param := p })) = .ok g := ha
    cases hq : paramPerturb f.param i s with
    | error e => rw [hq] at ha; cases ha
    | ok p =>
      rw [hq] at ha
      injection ha with ha; subst ha
      exact (Keeps.update (f := { f with param := p }) ⟨h.isTf, h.yaw, h.trans⟩ hp).1
  | estimate => injection ha with ha; subst ha; exact (h.update hp).1

theorem FRun.keeps {f g : Fiducial} {ops : List FOp} (h : FRun f ops g) (hf : IsTf f.T_WF) :
    Keeps (quat2euler (tfQuatOf f.T_WF) 2) (tfTrans f.T_WF) g := by
  induction h with
  | nil => exact ⟨hf, rfl, rfl⟩
  | snoc _ h2 h3 ih => exact ih.apply h2 h3

/-- **C76.**  In every history in which the pitch stays strictly between -90 and 90 degrees:
the estimate is the rotation with the current roll and pitch and the yaw and translation the
object started with; asking for it changes nothing; it is the transform the residual uses; and
a step forth and back restores it.  Missing: pitch outside that range (refuted below). -/
theorem C76_history_partial (T : Mat4 ℝ) (hT : IsTf T) (ops : List FOp) (f : Fiducial)
    (h : FRun (Fiducial.new T) ops f) (hp : |f.param 1| < Real.pi / 2) :
    (∃ yaw, yaw = quat2euler (tfQuatOf T) 2 ∧
      f.estimate.2 = tf (euler321 (f.param 0) (f.param 1) yaw) (tfTrans T)) ∧
    f.estimate.1.estimate.2 = f.estimate.2 ∧ f.estimate.1.param = f.param ∧
    f.estimate.2 = Residual.fiducialTf f.estimate.2 f.param ∧
    (∀ dx : Fin 2 → ℝ, |f.param 1 + dx 1| < Real.pi / 2 →
      ((f.plus dx).minus dx).param = f.param ∧ ((f.plus dx).minus dx).estimate.2 = f.estimate.2 ∧
      ((f.minus (-dx)).minus dx).estimate.2 = f.estimate.2 ∧
      (f.plus dx).estimate.2 = tf (euler321 (f.param 0 + dx 0) (f.param 1 + dx 1)
        (quat2euler (tfQuatOf T) 2)) (tfTrans T)) := by
  have hk := h.keeps hT
  have he := hk.estimate hp
  obtain ⟨h1, h2, h3⟩ := hk.update hp
  refine ⟨⟨_, rfl, he⟩, ?_, rfl, ?_, ?_⟩
  · rw [he]
    show f.update.estimate.2 = _
    rw [h1.estimate (by rw [h3]; exact hp), h3]
  · unfold Residual.fiducialTf
    rw [he, yaw_euler _ _ _ _ (cos_pitch hp) hk.range.1 hk.range.2, tfTrans_tf]
  · intro dx hd
    have hplus : Keeps (quat2euler (tfQuatOf T) 2) (tfTrans T) (f.plus dx) :=
      hk.apply (op := .plus dx) rfl hd
    have hpp : (f.plus dx).param = paramPlus f.param dx := rfl
    have hb : ((f.plus dx).minus dx).param = f.param := by
      show paramMinus (paramPlus f.param dx) dx = f.param
      ext i; simp [paramMinus, paramPlus]
    have hback : Keeps (quat2euler (tfQuatOf T) 2) (tfTrans T) ((f.plus dx).minus dx) :=
      hplus.apply (op := .minus dx) rfl (by rw [hb]; exact hp)
    have hm : f.minus (-dx) = f.plus dx := by
      unfold Fiducial.minus Fiducial.plus
      have : paramMinus f.param (-dx) = paramPlus f.param dx := by
        ext i; simp [paramMinus, paramPlus]
      rw [this]
    refine ⟨hb, ?_, ?_, ?_⟩
    · rw [hback.estimate (by rw [hb]; exact hp), he, hb]; rfl
    · rw [hm, hback.estimate (by rw [hb]; exact hp), he, hb]; rfl
    · rw [hplus.estimate hd]; rfl

/-- C76 witness: a level target with yaw 1 is tilted. -/
example : ∃ f, FRun (Fiducial.new (tf (euler321 0 0 1) ![1, 2, 3])) [.plus ![1/2, 1/4], .estimate] f ∧
    |f.param 1| < Real.pi / 2 ∧ f.param 0 = 1 / 2 := by
  have hpi := Real.pi_gt_three
  have h0 : (Fiducial.new (tf (euler321 0 0 1) ![1, 2, 3])).param = ![0, 0] := by
    unfold Fiducial.new
    rw [yaw_eq (isTf_euler ..), tfRot_tf]
    simp [euler321, atan2, Complex.arg]
  have h1 : ∀ g : Fiducial, g.param = ![0, 0] → (g.plus ![1/2, 1/4]).param = ![1/2, 1/4] := by
    intro g hg
    show paramPlus g.param _ = _
    rw [hg]; ext i; fin_cases i <;> simp [paramPlus]
  have hb : |(1/4 : ℝ)| < Real.pi / 2 := by rw [abs_lt]; constructor <;> linarith
  have e1 := h1 _ h0
  have key : ∀ f0 : Fiducial, f0.param = ![0, 0] → ∃ f, FRun f0 [.plus ![1/2, 1/4], .estimate] f ∧
      |f.param 1| < Real.pi / 2 ∧ f.param 0 = 1 / 2 := by
    intro f0 h0
    have e1 := h1 f0 h0
    have e2 : (f0.plus ![1/2, 1/4]).estimate.1.param = ![1/2, 1/4] := e1
    have r1 : FRun f0 ([] ++ [.plus ![1/2, 1/4]]) (f0.plus ![1/2, 1/4]) :=
      .snoc .nil rfl (by rw [e1]; simpa using hb)
    exact ⟨_, .snoc r1 rfl (by rw [e2]; simpa using hb), by rw [e2]; simpa using hb,
      by rw [e2]; simp⟩
  exact key _ h0

/-- C76 is false beyond a pitch of 90 degrees: whenever the pitch has a negative cosine, the
estimate is not the transform the residual uses, and two estimates in a row differ. -/
theorem C76_pitch_refuted (f : Fiducial) (hc : Real.cos (f.param 1) < 0) :
    f.estimate.2 ≠ Residual.fiducialTf f.T_WF f.param ∧
    f.estimate.1.estimate.2 ≠ f.estimate.2 := by
  set yaw := quat2euler (tfQuatOf f.T_WF) 2 with hy
  have hu : f.update.T_WF = tf (euler321 (f.param 0) (f.param 1) yaw) (tfTrans f.T_WF) := rfl
  -- the yaw read back is turned by 180 degrees
  have flip : ∀ (c : ℝ) (r : Vec3 ℝ),
      Real.cos (quat2euler (tfQuatOf (tf (euler321 (f.param 0) (f.param 1) c) r)) 2) = -Real.cos c ∧
      Real.sin (quat2euler (tfQuatOf (tf (euler321 (f.param 0) (f.param 1) c) r)) 2) = -Real.sin c := by
    intro c r
    rw [yaw_eq (isTf_euler ..), tfRot_tf]
    have e : ∃ c', (-Real.pi < c' ∧ c' ≤ Real.pi) ∧ Real.cos c' = -Real.cos c ∧ Real.sin c' = -Real.sin c := by
      refine ⟨toIocMod Real.two_pi_pos (-Real.pi) (c + Real.pi), ?_, ?_, ?_⟩
      · have := toIocMod_mem_Ioc Real.two_pi_pos (-Real.pi) (c + Real.pi)
        exact ⟨this.1, by linarith [this.2]⟩
      · rw [toIocMod, zsmul_eq_mul, Real.cos_sub_int_mul_two_pi, Real.cos_add_pi]
      · rw [toIocMod, zsmul_eq_mul, Real.sin_sub_int_mul_two_pi, Real.sin_add_pi]
    obtain ⟨c', ⟨a1, a2⟩, a3, a4⟩ := e
    have : atan2 (euler321 (f.param 0) (f.param 1) c 1 0) (euler321 (f.param 0) (f.param 1) c 0 0) = c' := by
      have := atan2_polar (-Real.cos (f.param 1)) c' (by linarith) a1 a2
      rw [a3, a4] at this
      simp only [euler321]
      simpa [mul_comm] using this
    simp only [Matrix.cons_val]
    rw [this]
    exact ⟨a3, a4⟩
  -- two transforms whose yaws differ by 180 degrees differ
  have diff : ∀ (c c' : ℝ) (r r' : Vec3 ℝ), Real.cos c' = -Real.cos c → Real.sin c' = -Real.sin c →
      tf (euler321 (f.param 0) (f.param 1) c') r' ≠ tf (euler321 (f.param 0) (f.param 1) c) r := by
    intro c c' r r' h1 h2 h
    have h := congrArg tfRot h
    rw [tfRot_tf, tfRot_tf] at h
    have e0 := congrFun (congrFun h 0) 0
    have e1 := congrFun (congrFun h 1) 0
    simp only [euler321] at e0 e1
    simp [h1, h2] at e0 e1
    have f0 : Real.cos c * Real.cos (f.param 1) = 0 := by linarith
    have f1 : Real.sin c * Real.cos (f.param 1) = 0 := by linarith
    have g0 : Real.cos c = 0 := (mul_eq_zero.1 f0).resolve_right (ne_of_lt hc)
    have g1 : Real.sin c = 0 := (mul_eq_zero.1 f1).resolve_right (ne_of_lt hc)
    have := Real.sin_sq_add_cos_sq c
    rw [g0, g1] at this
    norm_num at this
  have he : f.estimate.2 = tf (euler321 (f.param 0) (f.param 1)
      (quat2euler (tfQuatOf f.update.T_WF) 2)) (tfTrans f.update.T_WF) := rfl
  have he2 : f.estimate.1.estimate.2 = tf (euler321 (f.param 0) (f.param 1)
      (quat2euler (tfQuatOf f.update.update.T_WF) 2)) (tfTrans f.update.update.T_WF) := rfl
  have hu2 : f.update.update.T_WF = tf (euler321 (f.param 0) (f.param 1)
      (quat2euler (tfQuatOf f.update.T_WF) 2)) (tfTrans f.update.T_WF) := rfl
  constructor
  · rw [he, hu]
    exact diff _ _ _ _ (flip _ _).1 (flip _ _).2
  · rw [he2, he, hu2]
    exact diff _ _ _ _ (flip _ _).1 (flip _ _).2

/-- C76 witness for the refutation: the solver writes a pitch of 180 degrees. -/
example : Real.cos ((Fiducial.mk ![0, Real.pi] 1).param 1) < 0 := by simp

/-- C76 is false in gimbal lock: for every transform pitched by 90 degrees with heading other
than that of the level one, the estimate of a new object is another transform. -/
theorem C76_gimbal_refuted (phi : ℝ) (hphi : Real.cos phi ≠ 1) (r : Vec3 ℝ) :
    IsTf (tf (euler321 phi (Real.pi / 2) 0) r) ∧
    (Fiducial.new (tf (euler321 phi (Real.pi / 2) 0) r)).estimate.2 ≠
      tf (euler321 phi (Real.pi / 2) 0) r := by
  refine ⟨isTf_euler .., ?_⟩
  have a0 : atan2 0 0 = 0 := by
    have : (⟨0, 0⟩ : ℂ) = 0 := rfl
    rw [atan2, this, Complex.arg_zero]
  have key : ∀ (phi : ℝ) r, quat2euler (tfQuatOf (tf (euler321 phi (Real.pi / 2) 0) r)) = ![0, Real.pi / 2, 0] := by
    intro phi r
    rw [yaw_eq (isTf_euler ..), tfRot_tf]
    simp [euler321, a0]
  have hu : (Fiducial.new (tf (euler321 phi (Real.pi / 2) 0) r)).update.T_WF =
      tf (euler321 0 (Real.pi / 2) 0) r := by
    unfold Fiducial.update Fiducial.new
    simp only
    rw [key, tfTrans_tf]
    simp
  have he : (Fiducial.new (tf (euler321 phi (Real.pi / 2) 0) r)).estimate.2 =
      tf (euler321 0 (Real.pi / 2) 0) r := by
    unfold Fiducial.estimate
    simp only
    rw [hu]
    have : (Fiducial.new (tf (euler321 phi (Real.pi / 2) 0) r)).update.param = ![0, Real.pi / 2] := by
      show (Fiducial.new _).param = _
      unfold Fiducial.new
      rw [key]; simp
    rw [this, key, tfTrans_tf]
    simp
  rw [he]
  intro h
  have h := congrFun (congrFun (congrArg tfRot h) 1) 1
  rw [tfRot_tf, tfRot_tf] at h
  simp [euler321] at h
  exact hphi h.symm

/-! ## C57 -/

/-- C57, first initialisation: the target is at the origin, the attitude is the one given, both
poses are proper, the sensor pose survives being stored as a parameter, and the observation of
the first camera is predicted exactly; with the target's estimate as well, away from gimbal
lock. -/
theorem C57_fresh (C_WS : Mat3 ℝ) (T_BC0 T_BS T_C0F : Mat4 ℝ) (hC : IsRot C_WS)
    (h0 : IsTf T_BC0) (hS : IsTf T_BS) (hF : IsTf T_C0F) (T_WS : Mat4 ℝ) (f : Fiducial)
    (h : initFresh C_WS T_BC0 T_BS T_C0F = (T_WS, f)) :
    tfTrans f.T_WF = 0 ∧ tfRot T_WS = C_WS ∧ IsTf T_WS ∧ IsTf f.T_WF ∧
    poseTf (poseOfTf T_WS) = T_WS ∧
    predicted T_BC0 T_BS T_WS f.T_WF = T_C0F ∧
    (|tfRot f.T_WF 2 0| < 1 → f.estimate.2 = f.T_WF ∧
      predicted T_BC0 T_BS (poseTf (poseOfTf T_WS)) f.estimate.2 = T_C0F) := by
  unfold initFresh at h
  simp only [Prod.mk.injEq] at h
  obtain ⟨rfl, rfl⟩ := h
  set T_WF := tf C_WS 0 * (T_BS⁻¹ * T_BC0) * T_C0F with hWF
  have hWS0 : IsTf (tf C_WS 0) := ⟨_, _, hC, rfl⟩
  have hT : IsTf T_WF := (hWS0.mul (hS.inv.mul h0)).mul hF
  obtain ⟨hR, hE⟩ := hT.eq
  have hpose := (C41_set_tf 0 C_WS (-tfTrans T_WF) hC ⟨1, 0, 0, 0⟩).2.1
  have hp : predicted T_BC0 T_BS (tf C_WS (-tfTrans T_WF)) (tf (tfRot T_WF) 0) = T_C0F := by
    have e1 : tf C_WS (-tfTrans T_WF) = tf 1 (-tfTrans T_WF) * tf C_WS 0 := by
      rw [tf_mul]; simp
    have e2 : tf (tfRot T_WF) 0 = tf 1 (-tfTrans T_WF) * T_WF := by
      have h := tf_mul (1 : Mat3 ℝ) (tfRot T_WF) (-tfTrans T_WF) (tfTrans T_WF)
      rw [hE] at h
      rw [h]; simp
    have hsh : IsTf (tf 1 (-tfTrans T_WF)) := ⟨_, _, isRot_one, rfl⟩
    unfold predicted
    rw [e1, e2, Matrix.mul_inv_rev]
    have u1 := hsh.unit
    have u2 := hWS0.unit
    have u3 := h0.unit
    have u4 := hS.unit
    generalize tf 1 (-tfTrans T_WF) = Sh at *
    rw [hWF]
    simp only [Matrix.mul_assoc]
    rw [Matrix.nonsing_inv_mul_cancel_left _ _ u1, Matrix.nonsing_inv_mul_cancel_left _ _ u2,
      Matrix.mul_nonsing_inv_cancel_left _ _ u4, Matrix.nonsing_inv_mul_cancel_left _ _ u3]
  refine ⟨tfTrans_tf _ _, tfRot_tf _ _, ⟨_, _, hC, rfl⟩, ⟨_, _, hR, rfl⟩, hpose, hp, fun hg => ?_⟩
  have he := (C76_new_partial (tf (tfRot T_WF) 0) ⟨_, _, hR, rfl⟩ hg).1
  exact ⟨he, by rw [hpose, he]; exact hp⟩

/-- C57, `estimate_sensor_pose`: the first detected camera decides; for the pose returned its
observation is exact. -/
theorem C57_sensor_pose (f : Fiducial) (T_BS : Mat4 ℝ) (hS : IsTf T_BS)
    (hf : IsTf f.estimate.2) (obs : List (Bool × Mat4 ℝ × Option (Mat4 ℝ)))
    (ho : ∀ o ∈ obs, IsTf o.2.1 ∧ ∀ T, o.2.2 = some T → IsTf T) :
    (∀ T_WS, estimateSensorPose f T_BS obs = .ok T_WS → ∃ pre T_BCi T_CiF post,
      obs = pre ++ (true, T_BCi, some T_CiF) :: post ∧ (∀ o ∈ pre, o.1 = false) ∧
      predicted T_BCi T_BS T_WS f.estimate.2 = T_CiF ∧ IsTf T_WS) ∧
    (estimateSensorPose f T_BS obs = .error .fatal ↔ (∀ o ∈ obs, o.1 = false) ∨
      ∃ pre T_BCi post, obs = pre ++ (true, T_BCi, none) :: post ∧ ∀ o ∈ pre, o.1 = false) := by
  have hsplit : ∀ o, obs.find? (fun o => o.1) = some o → ∃ pre post, obs = pre ++ o :: post ∧
      (∀ o ∈ pre, o.1 = false) ∧ o.1 = true := by
    intro o h
    rw [List.find?_eq_some_iff_append] at h
    obtain ⟨h1, pre, post, h2, h3⟩ := h
    exact ⟨pre, post, h2, fun x hx => by simpa using h3 x hx, h1⟩
  have hback : ∀ pre (o : Bool × Mat4 ℝ × Option (Mat4 ℝ)) post, obs = pre ++ o :: post →
      (∀ o ∈ pre, o.1 = false) → o.1 = true → obs.find? (fun o => o.1) = some o := by
    intro pre o post h1 h2 h3
    rw [List.find?_eq_some_iff_append]
    exact ⟨h3, pre, post, h1, fun x hx => by simp [h2 x hx]⟩
  constructor
  · intro T_WS h
    unfold estimateSensorPose at h
    rcases hfd : obs.find? (fun o => o.1) with _ | ⟨d, T_BCi, _ | T_CiF⟩
    · rw [hfd] at h; cases h
    · rw [hfd] at h; cases h
    · rw [hfd] at h
      injection h with h
      obtain ⟨pre, post, e1, e2, e3⟩ := hsplit _ hfd
      simp only at e3
      subst e3
      have hm := ho (true, T_BCi, some T_CiF) (by rw [e1]; simp)
      have hB := hm.1
      have hCF := hm.2 T_CiF rfl
      refine ⟨pre, T_BCi, T_CiF, post, e1, e2, ?_, ?_⟩
      · rw [← h]
        unfold predicted
        rw [Matrix.mul_inv_rev, Matrix.mul_inv_rev, Matrix.mul_inv_rev,
          Matrix.nonsing_inv_nonsing_inv _ hB.unit, Matrix.nonsing_inv_nonsing_inv _ hCF.unit]
        simp only [Matrix.mul_assoc]
        rw [Matrix.nonsing_inv_mul _ hf.unit, Matrix.mul_nonsing_inv_cancel_left _ _ hS.unit,
          Matrix.nonsing_inv_mul_cancel_left _ _ hB.unit, Matrix.mul_one]
      · rw [← h]
        exact (hf.mul hCF.inv).mul (hB.inv.mul hS)
  · unfold estimateSensorPose
    rcases hfd : obs.find? (fun o => o.1) with _ | ⟨d, T_BCi, _ | T_CiF⟩ <;> rw [hfd]
    · refine ⟨fun _ => Or.inl ?_, fun _ => rfl⟩
      intro o hm
      simpa using List.find?_eq_none.1 hfd o hm
    · refine ⟨fun _ => Or.inr ?_, fun _ => rfl⟩
      obtain ⟨pre, post, e1, e2, e3⟩ := hsplit _ hfd
      simp only at e3
      subst e3
      exact ⟨pre, T_BCi, post, e1, e2⟩
    · refine ⟨(fun h => nomatch h), ?_⟩
      rintro (h | ⟨pre, B, post, h1, h2⟩)
      · obtain ⟨pre, post, e1, -, e3⟩ := hsplit _ hfd
        have := h _ (by rw [e1]; exact List.mem_append_right _ List.mem_cons_self)
        rw [e3] at this; cases this
      · have := hback _ _ _ h1 h2 rfl
        rw [hfd] at this
        simp at this

/-- C57 is false for a second initialisation (after `reset`, or with a preset fiducial): the
predicted observation is turned by the inverse camera extrinsics, so it is exact only if the
first camera's extrinsics are the identity. -/
theorem C57_again_refuted (f : Fiducial) (T_BC0 T_BS T_C0F : Mat4 ℝ)
    (h0 : IsTf T_BC0) (hS : IsTf T_BS) (hF : IsTf T_C0F) (hf : IsTf f.estimate.2) :
    predicted T_BC0 T_BS (initAgain f T_BS T_C0F).1 f.estimate.2 = T_BC0⁻¹ * T_C0F ∧
    (predicted T_BC0 T_BS (initAgain f T_BS T_C0F).1 f.estimate.2 = T_C0F ↔ T_BC0 = 1) := by
  have e : predicted T_BC0 T_BS (initAgain f T_BS T_C0F).1 f.estimate.2 = T_BC0⁻¹ * T_C0F := by
    unfold predicted initAgain
    simp only
    rw [Matrix.mul_inv_rev, Matrix.mul_inv_rev, Matrix.nonsing_inv_nonsing_inv _ hF.unit]
    simp only [Matrix.mul_assoc]
    rw [Matrix.nonsing_inv_mul _ hf.unit, Matrix.mul_nonsing_inv_cancel_left _ _ hS.unit,
      Matrix.mul_one]
  refine ⟨e, ?_⟩
  rw [e]
  constructor
  · intro h
    have h2 : T_C0F = T_BC0 * T_C0F := by
      conv_rhs => rw [← h]
      rw [Matrix.mul_nonsing_inv_cancel_left _ _ h0.unit]
    have h3 := congrArg (· * T_C0F⁻¹) h2
    simp only [Matrix.mul_assoc] at h3
    rw [Matrix.mul_nonsing_inv _ hF.unit, Matrix.mul_one] at h3
    exact h3.symm
  · intro h
    rw [h]; simp


/-- C57, the fiducial after a further `initialize`: its position and yaw are unchanged, and its
transform has the roll and pitch of its parameters. -/
theorem C57_again_fiducial (f : Fiducial) (hf : IsTf f.T_WF) (T_BS T_C0F : Mat4 ℝ) :
    let g := (initAgain f T_BS T_C0F).2
    g.param = f.param ∧ tfTrans g.T_WF = tfTrans f.T_WF ∧
    tfRot g.T_WF = euler321 (f.param 0) (f.param 1) (atan2 (tfRot f.T_WF 1 0) (tfRot f.T_WF 0 0)) := by
  refine ⟨rfl, ?_, ?_⟩
  · show tfTrans f.update.T_WF = _
    unfold Fiducial.update
    exact tfTrans_tf _ _
  · show tfRot f.update.T_WF = _
    unfold Fiducial.update
    rw [tfRot_tf, yaw_eq hf]
    rfl

/-! ### Attitude -/

theorem sumAcc_eq (b : Stream.Imu (Vec3 ℝ)) (n : Nat) (h1 : n ≤ b.acc.length)
    (h2 : n ≤ b.gyr.length) : sumAcc b n = .ok (b.acc.take n).sum := by
  induction n with
  | zero => simp [sumAcc]
  | succ n ih =>
    have e1 : Stream.at? b.gyr n = .ok b.gyr[n] := by
      unfold Stream.at?; rw [List.getElem?_eq_getElem (by omega)]
    have e2 : Stream.at? b.acc n = .ok b.acc[n] := by
      unfold Stream.at?; rw [List.getElem?_eq_getElem (by omega)]
    unfold sumAcc
    rw [ih (by omega) (by omega), e1, e2]
    show Except.ok _ = _
    rw [List.take_add_one, List.sum_append, List.getElem?_eq_getElem (by omega)]
    simp

theorem up_normalized : normalized (-![0, 0, -9.81] : Vec3 ℝ) = ![0, 0, 1] := by
  have hd : dot3 (-![0, 0, -9.81] : Vec3 ℝ) (-![0, 0, -9.81]) = 9.81 * 9.81 := by
    simp [dot3]
  have hn : norm3 (-![0, 0, -9.81] : Vec3 ℝ) = 9.81 := by
    unfold norm3; rw [hd]; exact Real.sqrt_mul_self (by norm_num)
  have hpos : 0 < dot3 (-![0, 0, -9.81] : Vec3 ℝ) (-![0, 0, -9.81]) := by rw [hd]; norm_num
  have : normalized (-![0, 0, -9.81] : Vec3 ℝ) =
      fun i => (-![0, 0, -9.81] : Vec3 ℝ) i / norm3 (-![0, 0, -9.81] : Vec3 ℝ) := by
    unfold normalized; rw [if_pos hpos]; rfl
  rw [this, hn]
  ext i; fin_cases i <;> norm_num

/-- C57, attitude: for the mean of the measured accelerations, unless it is zero or points
straight down, the initial attitude is a proper rotation that turns its direction into the
upward vertical. -/
theorem C57_attitude_partial (b : Stream.Imu (Vec3 ℝ)) (ha : b.acc.length = b.ts.length)
    (hg : b.gyr.length = b.ts.length) (mean : Vec3 ℝ)
    (hm : mean = (1 / (b.ts.length : ℝ)) • b.acc.sum) (h0 : mean ≠ 0)
    (hd : normalized mean ≠ ![0, 0, -1]) :
    ∃ C, initialAttitude b none = .ok C ∧ IsRot C ∧ C *ᵥ normalized mean = ![0, 0, 1] := by
  have hn : b.ts.length ≠ 0 := by
    intro h
    apply h0
    rw [hm, h]; simp
  refine ⟨vecs2rot mean (-![0, 0, -9.81]), ?_, ?_⟩
  · unfold initialAttitude
    simp only [Option.getD_none]
    rw [sumAcc_eq b _ (by omega) (by omega)]
    show (if b.ts.length = 0 then _ else _) = _
    rw [if_neg hn, ← ha, List.take_length, hm, ha]
  · have hg0 : (-![0, 0, -9.81] : Vec3 ℝ) ≠ 0 := by
      intro h
      have : (-![0, 0, -9.81] : Vec3 ℝ) 2 = 0 := by rw [h]; rfl
      simp at this
      norm_num at this
    have hne : normalized (-![0, 0, -9.81] : Vec3 ℝ) ≠ -normalized mean := by
      rw [up_normalized]
      intro h
      apply hd
      have := congrArg (-·) h
      simp only [neg_neg] at this
      rw [← this]
      ext i; fin_cases i <;> simp
    have := C67_vecs2rot_partial mean _ h0 hg0 hne
    rw [up_normalized] at this
    exact this

/-- C57, attitude from the first `n` samples only. -/
theorem C57_attitude_limit_partial (b : Stream.Imu (Vec3 ℝ)) (n : Nat) (hn : 0 < n)
    (ha : n ≤ b.acc.length) (hg : n ≤ b.gyr.length) :
    initialAttitude b (some n) =
      .ok (vecs2rot ((1 / (n : ℝ)) • (b.acc.take n).sum) ![0, 0, 9.81]) := by
  unfold initialAttitude
  simp only [Option.getD_some]
  rw [sumAcc_eq b _ ha hg]
  show (if n = 0 then _ else _) = _
  rw [if_neg hn.ne']
  congr 2
  ext i; fin_cases i <;> simp

/-- C57 witness: two samples of a tilted sensor. -/
example : ∃ C, initialAttitude ⟨[0, 1], [![0, 3, 4], ![0, 3, 4]], [0, 0]⟩ none = .ok C ∧ IsRot C := by
  have hm : (![0, 3, 4] : Vec3 ℝ) = (1 / ((2 : ℕ) : ℝ)) • ([![0, 3, 4], ![0, 3, 4]] : List (Vec3 ℝ)).sum := by
    ext i; fin_cases i <;> norm_num
  have hn : norm3 (![0, 3, 4] : Vec3 ℝ) = 5 := by
    unfold norm3
    have : dot3 (![0, 3, 4] : Vec3 ℝ) ![0, 3, 4] = 5 * 5 := by simp [dot3]; norm_num
    rw [this]; exact Real.sqrt_mul_self (by norm_num)
  have h0 : (![0, 3, 4] : Vec3 ℝ) ≠ 0 := fun h => by simpa using congrFun h 1
  obtain ⟨-, h2, -⟩ := normalized_unit _ h0
  obtain ⟨C, h1, h3, -⟩ := C57_attitude_partial ⟨[0, 1], [![0, 3, 4], ![0, 3, 4]], [0, 0]⟩ rfl rfl
    ![0, 3, 4] hm h0 (by
      intro h
      rw [h] at h2
      simpa using congrFun h2 1)
  exact ⟨C, h1, h3⟩

/-- C57 is false for a sensor that is exactly upside down: the attitude is the zero matrix, so
that the sensor pose is not a rigid transform. -/
theorem C57_upside_down_refuted (b : Stream.Imu (Vec3 ℝ)) (ha : b.acc.length = b.ts.length)
    (hg : b.gyr.length = b.ts.length) (a : ℝ) (hpos : 0 < a)
    (hm : (1 / (b.ts.length : ℝ)) • b.acc.sum = ![0, 0, -a]) (T_BC0 T_BS T_C0F : Mat4 ℝ) :
    initialAttitude b none = .ok 0 ∧ ¬ IsTf (initFresh 0 T_BC0 T_BS T_C0F).1 := by
  have hn : b.ts.length ≠ 0 := by
    intro h
    rw [h] at hm
    have := congrFun hm 2
    simp at this
    linarith
  have hv : vecs2rot ![0, 0, -a] (-![0, 0, -9.81]) = 0 := by
    have na : normalized (![0, 0, -a] : Vec3 ℝ) = ![0, 0, -1] := by
      have hd : dot3 (![0, 0, -a] : Vec3 ℝ) ![0, 0, -a] = a * a := by simp [dot3]
      have : normalized (![0, 0, -a] : Vec3 ℝ) = fun i => (![0, 0, -a] : Vec3 ℝ) i / a := by
        unfold normalized
        rw [hd, if_pos (mul_pos hpos hpos), Real.sqrt_mul_self hpos.le]
      rw [this]
      ext i; fin_cases i <;> simp
      rw [neg_div, div_self hpos.ne']
    have cr : cross3 (![0, 0, -a] : Vec3 ℝ) (-![0, 0, -9.81]) = 0 := by
      ext i; fin_cases i <;> simp [cross3]
    have n0 : normalized 0 = 0 := by unfold normalized; simp [dot3]
    unfold vecs2rot
    rw [na, up_normalized, cr, n0]
    have : dot3 (![0, 0, -1] : Vec3 ℝ) ![0, 0, 1] = -1 := by simp [dot3]
    simp only [this]
    rw [show (1 : ℝ) / 2 * (1 + -1) = 0 by norm_num, Real.sqrt_zero]
    apply mat3_eq <;> simp [quat2rot]
  constructor
  · unfold initialAttitude
    simp only [Option.getD_none]
    rw [sumAcc_eq b _ (by omega) (by omega)]
    show (if b.ts.length = 0 then _ else _) = _
    rw [if_neg hn, ← ha, List.take_length, ha, hm, hv]
  · rintro ⟨C, r, hC, h⟩
    have h := congrArg tfRot h
    unfold initFresh at h
    simp only at h
    rw [tfRot_tf, tfRot_tf] at h
    have := hC.2
    rw [← h] at this
    simp at this

/-- C57 witness: a tilted sensor, an IMU rotated and displaced from the camera, and a target
not in gimbal lock. -/
example : IsRot (euler321 1 0 0) ∧ IsTf (tf (euler321 0 0 1) ![1, 2, 3]) ∧
    |tfRot (initFresh (euler321 1 0 0) 1 1 (tf 1 ![0, 0, 2])).2.T_WF 2 0| < 1 ∧
    tfTrans (initFresh (euler321 1 0 0) 1 1 (tf 1 ![0, 0, 2])).1 ≠ 0 ∧
    (1 : Mat4 ℝ) ≠ tf (euler321 0 0 1) ![1, 2, 3] := by
  have e : tf (euler321 1 0 0) (0 : Vec3 ℝ) * ((1 : Mat4 ℝ)⁻¹ * 1) * tf 1 ![0, 0, 2] =
      tf (euler321 1 0 0) (euler321 1 0 0 *ᵥ ![0, 0, 2]) := by
    simp only [inv_one, mul_one]
    rw [tf_mul]; simp
  refine ⟨euler321_rot .., isTf_euler .., ?_, ?_, ?_⟩
  · show |tfRot (tf (tfRot (tf (euler321 1 0 0) (0 : Vec3 ℝ) * ((1 : Mat4 ℝ)⁻¹ * 1) *
      tf 1 ![0, 0, 2])) 0) 2 0| < 1
    rw [e, tfRot_tf, tfRot_tf]
    simp [euler321]
  · show tfTrans (tf (euler321 1 0 0) (-tfTrans (tf (euler321 1 0 0) (0 : Vec3 ℝ) *
      ((1 : Mat4 ℝ)⁻¹ * 1) * tf 1 ![0, 0, 2]))) ≠ 0
    rw [e, tfTrans_tf, tfTrans_tf]
    intro h
    have h := congrFun h 2
    have hc := Real.cos_one_pos
    simp [euler321] at h
    linarith
  · intro h
    have h := congrFun (congrArg tfTrans h) 0
    rw [tfTrans_tf] at h
    simp [tfTrans] at h

end Yac.VI
