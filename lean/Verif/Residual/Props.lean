import Verif.Residual.Motion

/-!
# C43: the Jacobians of the residual blocks
-/

namespace Yac.Residual
open Matrix Yac.Geom Yac.Cam

/-- The camera geometry reports exact derivatives at parameters `k0` and point `p0`. -/
def Exact (g : CamGeom) (cres : Fin 2 → ℤ) (k0 : Params) (p0 : Vec3 ℝ) : Prop :=
  ∀ (k : ℝ → Params) (k' : Params) (p : ℝ → Vec3 ℝ) (p' : Vec3 ℝ) (t0 : ℝ),
    k t0 = k0 → p t0 = p0 → VDeriv k k' t0 → VDeriv p p' t0 →
    ∃ Jp Jk, g.projectJac k0 p0 = some Jp ∧ g.paramsJac k0 p0 = some Jk ∧
      ∃ z : ℝ → Vec2, (∀ᶠ t in nhds t0, (g.project cres (k t) (p t)).zhat = some (z t)) ∧
        VDeriv z (Jp *ᵥ p' + Jk *ᵥ k') t0

theorem radtan_exact (cres : Fin 2 → ℤ) (k0 : Params) (p0 : Vec3 ℝ) (h : p0 2 ≠ 0) :
    Exact radtanGeom cres k0 p0 := by
  intro k k' p p' t0 e1 e2 hk hp
  have := C37_radtan cres k k' p p' t0 hk hp (by rw [e2]; exact h)
  rw [e1, e2] at this
  exact this

theorem equi_exact (cres : Fin 2 → ℤ) (k0 : Params) (p0 : Vec3 ℝ) (h : 0 < p0 2)
    (hr : 1 / 10 ^ 8 < Real.sqrt ((p0 0 / p0 2) ^ 2 + (p0 1 / p0 2) ^ 2)) :
    Exact equiGeom cres k0 p0 := by
  intro k k' p p' t0 e1 e2 hk hp
  have := C37_equi_partial cres k k' p p' t0 hk hp (by rw [e2]; exact h) (by rw [e2]; exact hr)
  rw [e1, e2] at this
  exact this

theorem res_deriv {g : CamGeom} {cres : Fin 2 → ℤ} (W : Mat2) (z : Vec2) {k : ℝ → Params}
    {k' : Params} {p : ℝ → Vec3 ℝ} {p' : Vec3 ℝ} {t0 : ℝ} {k0 : Params} {p0 : Vec3 ℝ}
    (hg : Exact g cres k0 p0) (ek : k t0 = k0) (ep : p t0 = p0) (hk : VDeriv k k' t0)
    (hp : VDeriv p p' t0) :
    ∃ Jp Jk, g.projectJac k0 p0 = some Jp ∧ g.paramsJac k0 p0 = some Jk ∧
      ∃ r : ℝ → Vec2, (∀ᶠ t in nhds t0, ((g.project cres (k t) (p t)).zhat.map fun zh =>
        W *ᵥ (z - zh)) = some (r t)) ∧
        VDeriv r (-(W * Jp) *ᵥ p' + -(W * Jk) *ᵥ k') t0 := by
  obtain ⟨Jp, Jk, h1, h2, zt, hev, hd⟩ := hg k k' p p' t0 ek ep hk hp
  refine ⟨Jp, Jk, h1, h2, fun t => W *ᵥ (z - zt t), ?_, ?_⟩
  · filter_upwards [hev] with t ht
    rw [ht]; rfl
  · have := (MDeriv.const W t0).mulVec ((VDeriv.const z t0).sub hd)
    have e : (0 : Mat2) *ᵥ (z - zt t0) + W *ᵥ (0 - (Jp *ᵥ p' + Jk *ᵥ k')) =
        -(W * Jp) *ᵥ p' + -(W * Jk) *ᵥ k' := by
      rw [zero_mulVec, zero_add, zero_sub, mulVec_neg, mulVec_add, neg_mulVec, neg_mulVec,
        mulVec_mulVec, mulVec_mulVec, neg_add]
    rwa [e] at this

theorem hcat_mulVec (A B : Matrix (Fin 2) (Fin 3) ℝ) (d : Fin 6 → ℝ) :
    hcat A B *ᵥ d = A *ᵥ lin d + B *ᵥ ang d := by
  ext i; fin_cases i <;>
    simp [hcat, lin, ang, mulVec, dotProduct, Fin.sum_univ_six, Fin.sum_univ_three] <;> ring

/-- A curve of pose parameters through (the transform of) `x` with the velocity `d`. -/
structure PoseCurve (X : ℝ → Fin 7 → ℝ) (x : Fin 7 → ℝ) (d : Fin 6 → ℝ) : Prop where
  moves : Moves (fun t => tfRot (tfParams (X t))) (fun t => tfTrans (tfParams (X t))) (lin d) (ang d) 0
  start : tfParams (X 0) = tfParams x

/-- The two ways a pose is updated: by the solvers of the code base, and by Ceres. -/
def IsUpdate (up : (Fin 7 → ℝ) → (Fin 6 → ℝ) → Fin 7 → ℝ) : Prop := up = posePlus ∨ up = ceresPlus

theorem IsUpdate.curve {up} (h : IsUpdate up) {x : Fin 7 → ℝ} (hx : UnitPose x) (d : Fin 6 → ℝ) :
    PoseCurve (fun t => up x (fun i => t * d i)) x d := by
  rcases h with rfl | rfl
  · obtain ⟨a, b⟩ := posePlus_moves x hx d
    exact ⟨a, congrArg tfParams b⟩
  · obtain ⟨a, b⟩ := ceresPlus_moves x hx d
    exact ⟨a, b⟩

theorem addLine_deriv {n : Nat} (k d : Fin n → ℝ) : VDeriv (fun (t : ℝ) i => k i + t * d i) d 0 := by
  intro i
  have := ((hasDerivAt_id (0 : ℝ)).mul_const (d i)).const_add (k i)
  simpa using this

theorem reprojPoint_eq (x0 x1 : Fin 7 → ℝ) (p : Vec3 ℝ) :
    tfPoint (tfInv (tfParams x0) * tfParams x1) p =
      (tfRot (tfParams x0))ᵀ *ᵥ (tfRot (tfParams x1) *ᵥ p + tfTrans (tfParams x1) -
        tfTrans (tfParams x0)) := by
  rw [tfParams_eq x0, tfParams_eq x1, tfInv_tf, tf_mul, tfPoint_tf]
  simp only [tfRot_tf, tfTrans_tf]
  rw [← mulVec_mulVec, add_sub_assoc, mulVec_add, mulVec_sub]
  abel

theorem poseJac_full (v : Bool) (x : Fin 7 → ℝ) (hx : UnitPose x) (J : Matrix (Fin 2) (Fin 6) ℝ) :
    (poseJac v (tfParams x) J).full * ceresPlusJac x = (poseJac v (tfParams x) J).min := by
  unfold poseJac
  split
  · simp only
    rw [Matrix.mul_assoc, C42_lift x hx, Matrix.mul_one]
  · simp

/-- C43 (reprojection): whenever the point projects into the image and the camera geometry is
differentiable there, the residual moves with the velocity the three minimal Jacobian blocks
predict, for every direction of the update of the camera extrinsics, of the relative pose and
of the camera parameters; and the full blocks reduce to the minimal ones under the derivative of
the parameterisation. -/
theorem C43_reproj (g : CamGeom) (cres : Fin 2 → ℤ) (W : Mat2) (z : Vec2) (p : Vec3 ℝ)
    (x0 x1 : Fin 7 → ℝ) (k : Params) (up : (Fin 7 → ℝ) → (Fin 6 → ℝ) → Fin 7 → ℝ) (hup : IsUpdate up)
    (h0 : UnitPose x0) (h1 : UnitPose x1) (pc : Vec3 ℝ)
    (hpc : pc = (poseRot x0)ᵀ *ᵥ ((poseRot x1 *ᵥ p + poseTrans x1) - poseTrans x0))
    (hg : Exact g cres k pc) (hv : (g.project cres k pc).code = 0) (d0 d1 : Fin 6 → ℝ) (dk : Params) :
    ∃ J0 J1 J2, (reprojEval g cres W z p x0 x1 k).jac = some (J0, J1, J2) ∧
      (∃ r : ℝ → Vec2,
        (∀ᶠ t in nhds (0 : ℝ), (reprojEval g cres W z p (up x0 fun i => t * d0 i)
          (up x1 fun i => t * d1 i) (fun i => k i + t * dk i)).r = some (r t)) ∧
        ∀ j, HasDerivAt (fun t => r t j) ((J0.min *ᵥ d0 + J1.min *ᵥ d1 + J2.min *ᵥ dk) j) 0) ∧
      J0.full * ceresPlusJac x0 = J0.min ∧ J1.full * ceresPlusJac x1 = J1.min ∧ J2.full = J2.min := by
  have c0 := hup.curve h0 d0
  have c1 := hup.curve h1 d1
  set X0 := fun t : ℝ => up x0 fun i => t * d0 i
  set X1 := fun t : ℝ => up x1 fun i => t * d1 i
  have hpt : ∀ y : Fin 7 → ℝ, poseTrans y = tfTrans (tfParams y) := fun y => (poseTrans_eq y).symm
  have e0 : tfPoint (tfInv (tfParams x0) * tfParams x1) p = pc := by
    rw [reprojPoint_eq, hpc, hpt, hpt]; rfl
  have eX : ∀ t, tfPoint (tfInv (tfParams (X0 t)) * tfParams (X1 t)) p =
      (tfRot (tfParams (X0 t)))ᵀ *ᵥ ((tfRot (tfParams (X1 t)) *ᵥ p + tfTrans (tfParams (X1 t))) -
        tfTrans (tfParams (X0 t))) := fun t => reprojPoint_eq _ _ _
  have hR0 : IsRot (tfRot (tfParams x0)) := unit_rot h0
  have hmot := c0.moves.inv_point c0.moves.transpose (by rw [c0.start]; exact hR0.1)
    (c1.moves.point (VDeriv.const p 0))
  have hst : (tfRot (tfParams (X0 0)))ᵀ *ᵥ ((tfRot (tfParams (X1 0)) *ᵥ p + tfTrans (tfParams (X1 0))) -
        tfTrans (tfParams (X0 0))) = pc := by
    rw [c0.start, c1.start, ← reprojPoint_eq, e0]
  simp only [hst] at hmot
  obtain ⟨Jp, Jk, hJp, hJk, r, hev, hr⟩ := res_deriv (k := fun t i => k i + t * dk i) W z hg
    (by ext i; simp) hst (addLine_deriv k dk) hmot
  have hval : decide ((g.project cres k pc).code = 0) = true := by simp [hv]
  refine ⟨_, _, _, by simp only [reprojEval, e0, hJp, hJk, hval]; rfl, ⟨r, ?_, fun j => ?_⟩, ?_, ?_, ?_⟩
  · filter_upwards [hev] with t ht
    simp only [reprojEval]
    rw [← ht, ← eX]
  · refine (hr j).congr_deriv ?_
    refine congrFun ?_ j
    have hC : tfRot (tfInv (tfParams x0)) = (tfRot (tfParams x0))ᵀ := by
      conv_lhs => rw [tfParams_eq x0, tfInv_tf, tfRot_tf]
    simp only [poseJac, if_true, hcat_mulVec, hC, c0.start, c1.start, transpose_transpose]
    simp only [mulVec_zero, zero_add, mulVec_sub, mulVec_add, neg_mulVec, Matrix.neg_mul,
      Matrix.mul_neg, neg_neg, ← mulVec_mulVec, mulVec_neg]
    abel
  · exact poseJac_full _ _ h0 _
  · exact poseJac_full _ _ h1 _
  · simp

/-! ### The fiducial residual -/

theorem fiducial_point_deriv (p : Vec3 ℝ) (rp drp : Fin 2 → ℝ) (psi : ℝ) :
    VDeriv (fun t : ℝ => euler321 (rp 0 + t * drp 0) (rp 1 + t * drp 1) psi *ᵥ p)
      (drp 0 • fiducialJx p (rp 0) (rp 1) psi + drp 1 • fiducialJy p (rp 0) (rp 1) psi) 0 := by
  have la : HasDerivAt (fun t : ℝ => rp 0 + t * drp 0) (drp 0) 0 := addLine_deriv rp drp 0
  have lb : HasDerivAt (fun t : ℝ => rp 1 + t * drp 1) (drp 1) 0 := addLine_deriv rp drp 1
  have sa := la.sin
  have ca := la.cos
  have sb := lb.sin
  have cb := lb.cos
  intro i
  fin_cases i
  · have h := (((cb.const_mul (Real.cos psi)).mul_const (p 0)).fun_add
      ((((sb.const_mul (Real.cos psi)).fun_mul sa).fun_sub (ca.const_mul (Real.sin psi))).mul_const (p 1))).fun_add
      ((((sb.const_mul (Real.cos psi)).fun_mul ca).fun_add (sa.const_mul (Real.sin psi))).mul_const (p 2))
    refine (h.congr_deriv ?_).congr_of_eventuallyEq (Filter.Eventually.of_forall fun t => ?_)
    · simp [fiducialJx, fiducialJy]; ring
    · simp [euler321, mulVec, dotProduct, Fin.sum_univ_three]
  · have h := (((cb.const_mul (Real.sin psi)).mul_const (p 0)).fun_add
      ((((sb.const_mul (Real.sin psi)).fun_mul sa).fun_add (ca.const_mul (Real.cos psi))).mul_const (p 1))).fun_add
      ((((sb.const_mul (Real.sin psi)).fun_mul ca).fun_sub (sa.const_mul (Real.cos psi))).mul_const (p 2))
    refine (h.congr_deriv ?_).congr_of_eventuallyEq (Filter.Eventually.of_forall fun t => ?_)
    · simp [fiducialJx, fiducialJy]; ring
    · simp [euler321, mulVec, dotProduct, Fin.sum_univ_three]
  · have h := ((sb.fun_neg.mul_const (p 0)).fun_add ((cb.fun_mul sa).mul_const (p 1))).fun_add
      ((cb.fun_mul ca).mul_const (p 2))
    refine (h.congr_deriv ?_).congr_of_eventuallyEq (Filter.Eventually.of_forall fun t => ?_)
    · simp [fiducialJx, fiducialJy]; ring
    · simp [euler321, mulVec, dotProduct, Fin.sum_univ_three]

theorem cols2_mulVec (a b d : Fin 2 → ℝ) : cols2 a b *ᵥ d = d 0 • a + d 1 • b := by
  ext i; fin_cases i <;> simp [cols2, mulVec, dotProduct, Fin.sum_univ_two] <;> ring

theorem fiducialPoint_eq (xs xi xc : Fin 7 → ℝ) (E : Mat3 ℝ) (e p : Vec3 ℝ) :
    tfPoint (tfInv (tfParams xc) * tfParams xi * tfInv (tfParams xs) * tf E e) p =
      (tfRot (tfParams xc))ᵀ *ᵥ ((tfRot (tfParams xi) *ᵥ
        ((tfRot (tfParams xs))ᵀ *ᵥ ((E *ᵥ p + e) - tfTrans (tfParams xs))) + tfTrans (tfParams xi)) -
        tfTrans (tfParams xc)) ∧
    tfPoint (tfInv (tfParams xs) * tf E e) p =
      (tfRot (tfParams xs))ᵀ *ᵥ ((E *ᵥ p + e) - tfTrans (tfParams xs)) ∧
    tfRot (tfInv (tfParams xc) * tfParams xi * tfInv (tfParams xs)) =
      (tfRot (tfParams xc))ᵀ * tfRot (tfParams xi) * (tfRot (tfParams xs))ᵀ ∧
    tfRot (tfInv (tfParams xc) * tfParams xi) = (tfRot (tfParams xc))ᵀ * tfRot (tfParams xi) := by
  rw [tfParams_eq xc, tfParams_eq xi, tfParams_eq xs]
  simp only [tfInv_tf, tf_mul, tfPoint_tf, tfRot_tf, tfTrans_tf, true_and, and_true]
  constructor
  · simp only [← mulVec_mulVec, mulVec_add, mulVec_sub, mulVec_neg]
    abel
  · simp only [← mulVec_mulVec, mulVec_add, mulVec_sub]
    abel

/-- C43 (fiducial with roll and pitch as parameters): as `C43_reproj`, for the five blocks. -/
theorem C43_fiducial (g : CamGeom) (cres : Fin 2 → ℤ) (W : Mat2) (z : Vec2) (p : Vec3 ℝ)
    (T_WF : Mat4 ℝ) (rp : Fin 2 → ℝ) (xs xi xc : Fin 7 → ℝ) (k : Params)
    (up : (Fin 7 → ℝ) → (Fin 6 → ℝ) → Fin 7 → ℝ) (hup : IsUpdate up)
    (hs : UnitPose xs) (hi : UnitPose xi) (hc : UnitPose xc) (yaw : ℝ)
    (hyaw : yaw = quat2euler (tfQuatOf T_WF) 2) (pw psn pc : Vec3 ℝ)
    (hpw : pw = euler321 (rp 0) (rp 1) yaw *ᵥ p + tfTrans T_WF)
    (hps : psn = (poseRot xs)ᵀ *ᵥ (pw - poseTrans xs))
    (hpc : pc = (poseRot xc)ᵀ *ᵥ ((poseRot xi *ᵥ psn + poseTrans xi) - poseTrans xc))
    (hg : Exact g cres k pc) (hv : (g.project cres k pc).code = 0)
    (drp : Fin 2 → ℝ) (ds di dc : Fin 6 → ℝ) (dk : Params) :
    ∃ J0 J1 J2 J3 J4, (fiducialEval g cres W z p T_WF rp xs xi xc k).jac = some (J0, J1, J2, J3, J4) ∧
      (∃ r : ℝ → Vec2,
        (∀ᶠ t in nhds (0 : ℝ), (fiducialEval g cres W z p T_WF (fun i => rp i + t * drp i)
          (up xs fun i => t * ds i) (up xi fun i => t * di i) (up xc fun i => t * dc i)
          (fun i => k i + t * dk i)).r = some (r t)) ∧
        ∀ j, HasDerivAt (fun t => r t j) ((J0.min *ᵥ drp + J1.min *ᵥ ds + J2.min *ᵥ di +
          J3.min *ᵥ dc + J4.min *ᵥ dk) j) 0) ∧
      J0.full = J0.min ∧ J1.full * ceresPlusJac xs = J1.min ∧ J2.full * ceresPlusJac xi = J2.min ∧
      J3.full * ceresPlusJac xc = J3.min ∧ J4.full = J4.min := by
  have cs := hup.curve hs ds
  have ci := hup.curve hi di
  have cc := hup.curve hc dc
  set Xs := fun t : ℝ => up xs fun i => t * ds i
  set Xi := fun t : ℝ => up xi fun i => t * di i
  set Xc := fun t : ℝ => up xc fun i => t * dc i
  have hpt : ∀ y : Fin 7 → ℝ, poseTrans y = tfTrans (tfParams y) := fun y => (poseTrans_eq y).symm
  obtain ⟨q1, q2, q3, q4⟩ := fiducialPoint_eq xs xi xc (euler321 (rp 0) (rp 1) yaw) (tfTrans T_WF) p
  have hps' : psn = tfPoint (tfInv (tfParams xs) * tf (euler321 (rp 0) (rp 1) yaw) (tfTrans T_WF)) p := by
    rw [q2, hps, hpw, hpt]; rfl
  have hpc' : tfPoint (tfInv (tfParams xc) * tfParams xi * tfInv (tfParams xs) *
      tf (euler321 (rp 0) (rp 1) yaw) (tfTrans T_WF)) p = pc := by
    rw [q1, ← q2, ← hps', hpc, hpt, hpt]; rfl
  have hE := (fiducial_point_deriv p rp drp yaw).add (VDeriv.const (tfTrans T_WF) 0)
  have m1 := cs.moves.inv_point cs.moves.transpose (by rw [cs.start]; exact (unit_rot hs).1) hE
  have m2 := ci.moves.point m1
  have m3 := cc.moves.inv_point cc.moves.transpose (by rw [cc.start]; exact (unit_rot hc).1) m2
  have z0 : ∀ i, rp i + 0 * drp i = rp i := by intro i; ring
  have s1 : (tfRot (tfParams xs))ᵀ *ᵥ
      ((euler321 (rp 0) (rp 1) yaw *ᵥ p + tfTrans T_WF) - tfTrans (tfParams xs)) = psn := by
    rw [hps', q2]
  have s2 : (tfRot (tfParams xc))ᵀ *ᵥ ((tfRot (tfParams xi) *ᵥ psn + tfTrans (tfParams xi)) -
      tfTrans (tfParams xc)) = pc := by
    rw [← hpc', q1, s1]
  simp only [cs.start, ci.start, cc.start, z0, s1, s2] at m3
  obtain ⟨Jp, Jk, hJp, hJk, r, hev, hr⟩ := res_deriv (k := fun t i => k i + t * dk i) W z hg
    (by ext i; simp) (by simp only [cs.start, ci.start, cc.start, z0, s1, s2]) (addLine_deriv k dk) m3
  have hval : decide ((g.project cres k pc).code = 0) = true := by simp [hv]
  refine ⟨_, _, _, _, _, by
    simp only [fiducialEval, fiducialTf, ← hyaw, hpc', hJp, hJk, hval]; rfl,
    ⟨r, ?_, fun j => ?_⟩, ?_, ?_, ?_, ?_, ?_⟩
  · filter_upwards [hev] with t ht
    simp only [fiducialEval, fiducialTf, ← hyaw]
    rw [← ht, (fiducialPoint_eq _ _ _ _ _ _).1]
  · refine (hr j).congr_deriv ?_
    refine congrFun ?_ j
    have hC : tfRot (tfInv (tfParams xc)) = (tfRot (tfParams xc))ᵀ := by
      conv_lhs => rw [tfParams_eq xc, tfInv_tf, tfRot_tf]
    simp only [poseJac, if_true, hcat_mulVec, cols2_mulVec, hC, q3, q4, ← hps', transpose_transpose]
    simp only [mulVec_zero, zero_add, add_zero, mulVec_sub, mulVec_add, neg_mulVec, Matrix.neg_mul,
      Matrix.mul_neg, neg_neg, ← mulVec_mulVec, mulVec_neg, mulVec_smul, smul_neg]
    abel
  · simp
  · exact poseJac_full _ _ hs _
  · exact poseJac_full _ _ hi _
  · simp only [if_true]
    rw [Matrix.mul_assoc, C42_lift xc hc, Matrix.mul_one]
  · simp

/-! ### The mocap residual -/

theorem mocapPoint_eq (xf xm xc : Fin 7 → ℝ) (p : Vec3 ℝ) (hm : (tfRot (tfParams xm)).det ≠ 0)
    (hc : (tfRot (tfParams xc)).det ≠ 0) :
    tfPoint ((tfParams xc)⁻¹ * (tfParams xm)⁻¹ * tfParams xf) p =
      (tfRot (tfParams xc))⁻¹ *ᵥ ((tfRot (tfParams xm))⁻¹ *ᵥ
        ((tfRot (tfParams xf) *ᵥ p + tfTrans (tfParams xf)) - tfTrans (tfParams xm)) -
        tfTrans (tfParams xc)) ∧
    tfPoint ((tfParams xm)⁻¹ * tfParams xf) p =
      (tfRot (tfParams xm))⁻¹ *ᵥ
        ((tfRot (tfParams xf) *ᵥ p + tfTrans (tfParams xf)) - tfTrans (tfParams xm)) ∧
    tfRot ((tfParams xc)⁻¹ * (tfParams xm)⁻¹) =
      (tfRot (tfParams xc))⁻¹ * (tfRot (tfParams xm))⁻¹ := by
  have e1 := tf_inverse _ (tfTrans (tfParams xm)) hm
  have e2 := tf_inverse _ (tfTrans (tfParams xc)) hc
  rw [← tfParams_eq] at e1 e2
  rw [e1, e2]
  have ef := tfParams_eq xf
  generalize tfRot (tfParams xf) = Cf at *
  generalize tfTrans (tfParams xf) = rf at *
  rw [ef]
  simp only [tf_mul, tfPoint_tf, tfRot_tf, and_true]
  constructor
  · simp only [← mulVec_mulVec, mulVec_add, mulVec_sub, mulVec_neg]
    abel
  · simp only [← mulVec_mulVec, mulVec_add, mulVec_sub]
    abel

/-- C43 (mocap): as `C43_reproj`, for the four blocks. -/
theorem C43_mocap (g : CamGeom) (cres : Fin 2 → ℤ) (W : Mat2) (z : Vec2) (p : Vec3 ℝ)
    (xf xm xc : Fin 7 → ℝ) (k : Params)
    (up : (Fin 7 → ℝ) → (Fin 6 → ℝ) → Fin 7 → ℝ) (hup : IsUpdate up)
    (hf : UnitPose xf) (hm : UnitPose xm) (hc : UnitPose xc) (pm pc : Vec3 ℝ)
    (hpm : pm = (poseRot xm)ᵀ *ᵥ ((poseRot xf *ᵥ p + poseTrans xf) - poseTrans xm))
    (hpc : pc = (poseRot xc)ᵀ *ᵥ (pm - poseTrans xc))
    (hg : Exact g cres k pc) (hv : (g.project cres k pc).code = 0)
    (df dm dc : Fin 6 → ℝ) (dk : Params) :
    ∃ J0 J1 J2 J3, (mocapEval g cres W z p xf xm xc k).jac = some (J0, J1, J2, J3) ∧
      (∃ r : ℝ → Vec2,
        (∀ᶠ t in nhds (0 : ℝ), (mocapEval g cres W z p
          (up xf fun i => t * df i) (up xm fun i => t * dm i) (up xc fun i => t * dc i)
          (fun i => k i + t * dk i)).r = some (r t)) ∧
        ∀ j, HasDerivAt (fun t => r t j) ((J0.min *ᵥ df + J1.min *ᵥ dm + J2.min *ᵥ dc +
          J3.min *ᵥ dk) j) 0) ∧
      J0.full * ceresPlusJac xf = J0.min ∧ J1.full * ceresPlusJac xm = J1.min ∧
      J2.full * ceresPlusJac xc = J2.min ∧ J3.full = J3.min := by
  have cf := hup.curve hf df
  have cm := hup.curve hm dm
  have cc := hup.curve hc dc
  set Xf := fun t : ℝ => up xf fun i => t * df i
  set Xm := fun t : ℝ => up xm fun i => t * dm i
  set Xc := fun t : ℝ => up xc fun i => t * dc i
  have hpt : ∀ y : Fin 7 → ℝ, poseTrans y = tfTrans (tfParams y) := fun y => (poseTrans_eq y).symm
  have hRm := unit_rot hm
  have hRc := unit_rot hc
  have dm0 : (tfRot (tfParams xm)).det ≠ 0 := by rw [hRm.2]; norm_num
  have dc0 : (tfRot (tfParams xc)).det ≠ 0 := by rw [hRc.2]; norm_num
  obtain ⟨q1, q2, q3⟩ := mocapPoint_eq xf xm xc p dm0 dc0
  have hpm' : tfPoint ((tfParams xm)⁻¹ * tfParams xf) p = pm := by
    rw [q2, hpm, isRot_inv hRm, hpt, hpt]; rfl
  have hpc' : tfPoint ((tfParams xc)⁻¹ * (tfParams xm)⁻¹ * tfParams xf) p = pc := by
    rw [q1, ← q2, hpm', hpc, isRot_inv hRc, hpt]; rfl
  obtain ⟨evm, im⟩ := cm.moves.inverse (by rw [cm.start]; exact hRm)
  obtain ⟨evc, ic⟩ := cc.moves.inverse (by rw [cc.start]; exact hRc)
  have m1 := cm.moves.inv_point im (by
    rw [cm.start]; exact mul_nonsing_inv _ (isUnit_iff_ne_zero.mpr dm0))
    (cf.moves.point (VDeriv.const p 0))
  have m2 := cc.moves.inv_point ic (by
    rw [cc.start]; exact mul_nonsing_inv _ (isUnit_iff_ne_zero.mpr dc0)) m1
  rw [q2] at hpm'
  rw [q1, hpm'] at hpc'
  simp only [cf.start, cm.start, cc.start, hpm', hpc'] at m2
  obtain ⟨Jp, Jk, hJp, hJk, r, hev, hr⟩ := res_deriv (k := fun t i => k i + t * dk i) W z hg
    (by ext i; simp) (by simp only [cf.start, cm.start, cc.start, hpm', hpc']) (addLine_deriv k dk) m2
  have hval : decide ((g.project cres k pc).code = 0) = true := by simp [hv]
  refine ⟨_, _, _, _, by
    simp only [mocapEval, q1, q2, hpm', hpc', hJp, hJk, hval]; rfl,
    ⟨r, ?_, fun j => ?_⟩, ?_, ?_, ?_, ?_⟩
  · filter_upwards [hev, evm, evc] with t ht h1 h2
    simp only [mocapEval]
    rw [← ht, (mocapPoint_eq _ _ _ _ h1 h2).1]
  · refine (hr j).congr_deriv ?_
    refine congrFun ?_ j
    simp only [poseJac, if_true, hcat_mulVec, q3, isRot_inv hRm, isRot_inv hRc]
    simp only [mulVec_zero, zero_add, add_zero, mulVec_sub, mulVec_add, neg_mulVec, Matrix.neg_mul,
      Matrix.mul_neg, neg_neg, ← mulVec_mulVec, mulVec_neg]
    abel
  · exact poseJac_full _ _ hf _
  · exact poseJac_full _ _ hm _
  · exact poseJac_full _ _ hc _
  · simp

end Yac.Residual
