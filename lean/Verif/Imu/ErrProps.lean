import Verif.Imu.JacProps

/-!
# C44: the error of the residual and its derivatives
-/

namespace Yac.Imu
open Yac.Geom Yac.Stream Yac.Residual Matrix

theorem mulVec_blocks (M : Mat15) (x : Fin 5 → Vec3 ℝ) (i : Fin 5) (a : Fin 3) :
    (M *ᵥ vecBlocks x) (i, a) = ∑ j, (blk M i j *ᵥ x j) a := by
  simp only [mulVec, dotProduct, vecBlocks, blk]
  rw [Fintype.sum_prod_type]

/-- A change of a pose, in the world frame, and of speed and biases. -/
def change (v w : Vec3 ℝ) (e : SB) : Fin 5 × Fin 3 → ℝ := vecBlocks ![v, w, e.v, e.bg, e.ba]

theorem Moves.of_trans {C : ℝ → Mat3 ℝ} {r : ℝ → Vec3 ℝ} {v w : Vec3 ℝ} (h : Moves C r v w 0) {b : ℝ → Vec3 ℝ}
    {b' : Vec3 ℝ} (hb : VDeriv b b' 0) :
    VDeriv (fun t => (C t)ᵀ *ᵥ b t) (((C 0)ᵀ * skew (b 0)) *ᵥ w + (C 0)ᵀ *ᵥ b') 0 := by
  have := h.transpose.mulVec hb
  refine fun i => (this i).congr_deriv ?_
  rw [neg_mulVec, ← mulVec_mulVec, ← mulVec_mulVec, skew_mulVec w, mulVec_neg, neg_neg]

/-- The orientation error. -/
theorem orient_deriv {Dq q0 q1 : ℝ → Quat ℝ} {ρ w0 w1 : Vec3 ℝ} (hu : (q1 0).normSq = 1)
    (hD : QDeriv Dq (halfL ρ (Dq 0)) 0) (h0 : QDeriv q0 (halfL w0 (q0 0)) 0) (h1 : QDeriv q1 (halfL w1 (q1 0)) 0) :
    VDeriv (fun t => (2 : ℝ) • Quat.vec ((Dq t).mul ((q1 t).inverse.mul (q0 t))))
      (corner (plusMat ((Dq 0).mul (q1 0).inverse) * oplusMat (q0 0)) *ᵥ w0 +
        corner (oplusMat ((q1 0).inverse.mul (q0 0)) * oplusMat (Dq 0)) *ᵥ ρ +
        (-corner (plusMat (Dq 0) * oplusMat (q0 0) * plusMat (q1 0).inverse)) *ᵥ w1) 0 := by
  have h := hD.mul ((QDeriv.inverse hu h1).mul h0)
  generalize (q1 0).inverse = c at *
  generalize Dq 0 = D at *
  generalize q0 0 = b at *
  intro i
  fin_cases i
  · refine (h.x.const_mul 2).congr_deriv ?_
    simp [qadd, halfL, Quat.mul, corner, plusMat, oplusMat, Quat.coeffs, mulVec, dotProduct, Matrix.mul_apply,
      Fin.sum_univ_three, Fin.sum_univ_four]
    ring
  · refine (h.y.const_mul 2).congr_deriv ?_
    simp [qadd, halfL, Quat.mul, corner, plusMat, oplusMat, Quat.coeffs, mulVec, dotProduct, Matrix.mul_apply,
      Fin.sum_univ_three, Fin.sum_univ_four]
    ring
  · refine (h.z.const_mul 2).congr_deriv ?_
    simp [qadd, halfL, Quat.mul, corner, plusMat, oplusMat, Quat.coeffs, mulVec, dotProduct, Matrix.mul_apply,
      Fin.sum_univ_three, Fin.sum_univ_four]
    ring

theorem sb_v_deriv (sb e : SB) : VDeriv (fun t => (sbAt sb e t).v) e.v 0 := by
  intro i
  have := ((hasDerivAt_id (0 : ℝ)).mul_const (e.v i)).const_add (sb.v i)
  refine this.congr_deriv ?_
  rw [one_mul]

theorem sb_bg_deriv (sb e : SB) : VDeriv (fun t => (sbAt sb e t).bg) e.bg 0 := by
  intro i
  have := ((hasDerivAt_id (0 : ℝ)).mul_const (e.bg i)).const_add (sb.bg i)
  refine this.congr_deriv ?_
  rw [one_mul]

theorem sb_ba_deriv (sb e : SB) : VDeriv (fun t => (sbAt sb e t).ba) e.ba 0 := by
  intro i
  have := ((hasDerivAt_id (0 : ℝ)).mul_const (e.ba i)).const_add (sb.ba i)
  refine this.congr_deriv ?_
  rw [one_mul]

theorem error_deriv {p : Params} {T0 T1 : ℝ → Mat4 ℝ} {v0 w0 v1 w1 : Vec3 ℝ} {sb0 sb1 e0 e1 : SB} {Dt : ℝ} {I : ℝ → Integ}
    (h0 : Moves (fun t => tfRot (T0 t)) (fun t => tfTrans (T0 t)) v0 w0 0)
    (h1 : Moves (fun t => tfRot (T1 t)) (fun t => tfTrans (T1 t)) v1 w1 0)
    (r0 : IsRot (tfRot (T0 0))) (r1 : IsRot (tfRot (T1 0)))
    (s0 : 0 < (tfRot (T0 0)).trace) (s1 : 0 < (tfRot (T1 0)).trace)
    (hP : Path e0 I) (hd : (I 0).dalpha = (I 0).q.toRot * (I 0).cross) :
    VDeriv (fun t => error p (T0 t) (T1 t) (sbAt sb0 e0 t) (sbAt sb1 e1 t) Dt (I t))
      (F0 p (T0 0) (T1 0) sb0 sb1 Dt (I 0) *ᵥ change v0 w0 e0 + F1 (T0 0) (T1 0) (I 0) *ᵥ change v1 w1 e1) 0 := by
  rintro ⟨i, a⟩
  have hrow : ∀ M : Mat15, ∀ v w e, (M *ᵥ change v w e) (i, a) = (blk M i 0 *ᵥ v) a + (blk M i 1 *ᵥ w) a +
      (blk M i 2 *ᵥ e.v) a + (blk M i 3 *ᵥ e.bg) a + (blk M i 4 *ᵥ e.ba) a := by
    intro M v w e
    unfold change
    rw [mulVec_blocks, Fin.sum_univ_five]
    rfl
  rw [Pi.add_apply, hrow, hrow]
  fin_cases i
  · have hb : VDeriv (fun t => dpW p (T0 t) (T1 t) (sbAt sb0 e0 t) Dt) (v0 - v1 + Dt • e0.v) 0 := by
      have := ((h0.trans.sub h1.trans).add (VDeriv.smul Dt (sb_v_deriv sb0 e0))).sub
        (VDeriv.const (((1 / 2 : ℝ) * Dt * Dt) • gW p) 0)
      rw [sub_zero] at this
      exact this
    have h := (Moves.of_trans h0 hb).add hP.pos
    refine (h a).congr_deriv ?_
    show _ = ((tfRot (T0 0))ᵀ *ᵥ v0) a + (((tfRot (T0 0))ᵀ * skew (dpW p (T0 0) (T1 0) sb0 Dt)) *ᵥ w0) a +
      ((Dt • (tfRot (T0 0))ᵀ) *ᵥ e0.v) a + ((I 0).dp *ᵥ e0.bg) a + ((-(I 0).C_dbl) *ᵥ e0.ba) a +
      (((-(tfRot (T0 0))ᵀ) *ᵥ v1) a + ((0 : Mat3 ℝ) *ᵥ w1) a + ((0 : Mat3 ℝ) *ᵥ e1.v) a + ((0 : Mat3 ℝ) *ᵥ e1.bg) a +
        ((0 : Mat3 ℝ) *ᵥ e1.ba) a)
    rw [sbAt_zero]
    simp only [mulVec_add, mulVec_sub, mulVec_smul, neg_mulVec, smul_mulVec, zero_mulVec, Pi.add_apply, Pi.sub_apply,
      Pi.smul_apply, Pi.neg_apply, Pi.zero_apply, smul_eq_mul]
    ring
  · have hq0 := rotToQuat_left h0.rot r0 s0
    have hq1 := rotToQuat_left h1.rot r1 s1
    have hD := hP.q.left
    have hρ : (I 0).q.toRot *ᵥ (-((I 0).cross *ᵥ e0.bg)) = (-(I 0).dalpha) *ᵥ e0.bg := by
      rw [hd, mulVec_neg, mulVec_mulVec, neg_mulVec]
    rw [hρ] at hD
    have h := orient_deriv (tf_of_rot r1).1 hD hq0 hq1
    refine (h a).congr_deriv ?_
    show _ = ((0 : Mat3 ℝ) *ᵥ v0) a +
      (corner (plusMat ((I 0).q.mul (tfQuatOf (T1 0)).inverse) * oplusMat (tfQuatOf (T0 0))) *ᵥ w0) a +
      ((0 : Mat3 ℝ) *ᵥ e0.v) a +
      ((corner (oplusMat ((tfQuatOf (T1 0)).inverse.mul (tfQuatOf (T0 0))) * oplusMat (I 0).q) * (-(I 0).dalpha)) *ᵥ e0.bg) a +
      ((0 : Mat3 ℝ) *ᵥ e0.ba) a + (((0 : Mat3 ℝ) *ᵥ v1) a +
      ((-corner (plusMat (I 0).q * oplusMat (tfQuatOf (T0 0)) * plusMat (tfQuatOf (T1 0)).inverse)) *ᵥ w1) a +
      ((0 : Mat3 ℝ) *ᵥ e1.v) a + ((0 : Mat3 ℝ) *ᵥ e1.bg) a + ((0 : Mat3 ℝ) *ᵥ e1.ba) a)
    rw [← mulVec_mulVec]
    simp only [zero_mulVec, Pi.add_apply, Pi.zero_apply]
    have k0 : rotToQuat (tfRot (T0 0)) = tfQuatOf (T0 0) := rfl
    have k1 : rotToQuat (tfRot (T1 0)) = tfQuatOf (T1 0) := rfl
    rw [k0, k1]
    ring
  · have hb : VDeriv (fun t => dvW p (sbAt sb0 e0 t) (sbAt sb1 e1 t) Dt) (e0.v - e1.v) 0 := by
      have := ((sb_v_deriv sb0 e0).sub (sb_v_deriv sb1 e1)).sub (VDeriv.const (Dt • gW p) 0)
      rw [sub_zero] at this
      exact this
    have h := (Moves.of_trans h0 hb).add hP.vel
    refine (h a).congr_deriv ?_
    show _ = ((0 : Mat3 ℝ) *ᵥ v0) a + (((tfRot (T0 0))ᵀ * skew (dvW p sb0 sb1 Dt)) *ᵥ w0) a +
      ((tfRot (T0 0))ᵀ *ᵥ e0.v) a + ((I 0).dv *ᵥ e0.bg) a + ((-(I 0).C_int) *ᵥ e0.ba) a +
      (((0 : Mat3 ℝ) *ᵥ v1) a + ((0 : Mat3 ℝ) *ᵥ w1) a + ((-(tfRot (T0 0))ᵀ) *ᵥ e1.v) a + ((0 : Mat3 ℝ) *ᵥ e1.bg) a +
        ((0 : Mat3 ℝ) *ᵥ e1.ba) a)
    rw [sbAt_zero, sbAt_zero]
    simp only [mulVec_sub, neg_mulVec, zero_mulVec, Pi.add_apply, Pi.sub_apply, Pi.neg_apply, Pi.zero_apply]
    ring
  · have h := (sb_bg_deriv sb0 e0).sub (sb_bg_deriv sb1 e1)
    refine (h a).congr_deriv ?_
    show _ = ((0 : Mat3 ℝ) *ᵥ v0) a + ((0 : Mat3 ℝ) *ᵥ w0) a + ((0 : Mat3 ℝ) *ᵥ e0.v) a + ((1 : Mat3 ℝ) *ᵥ e0.bg) a +
      ((0 : Mat3 ℝ) *ᵥ e0.ba) a + (((0 : Mat3 ℝ) *ᵥ v1) a + ((0 : Mat3 ℝ) *ᵥ w1) a + ((0 : Mat3 ℝ) *ᵥ e1.v) a +
      ((-1 : Mat3 ℝ) *ᵥ e1.bg) a + ((0 : Mat3 ℝ) *ᵥ e1.ba) a)
    simp only [zero_mulVec, neg_mulVec, one_mulVec, Pi.sub_apply, Pi.neg_apply, Pi.zero_apply]
    ring
  · have h := (sb_ba_deriv sb0 e0).sub (sb_ba_deriv sb1 e1)
    refine (h a).congr_deriv ?_
    show _ = ((0 : Mat3 ℝ) *ᵥ v0) a + ((0 : Mat3 ℝ) *ᵥ w0) a + ((0 : Mat3 ℝ) *ᵥ e0.v) a + ((0 : Mat3 ℝ) *ᵥ e0.bg) a +
      ((1 : Mat3 ℝ) *ᵥ e0.ba) a + (((0 : Mat3 ℝ) *ᵥ v1) a + ((0 : Mat3 ℝ) *ᵥ w1) a + ((0 : Mat3 ℝ) *ᵥ e1.v) a +
      ((0 : Mat3 ℝ) *ᵥ e1.bg) a + ((-1 : Mat3 ℝ) *ᵥ e1.ba) a)
    simp only [zero_mulVec, neg_mulVec, one_mulVec, Pi.sub_apply, Pi.neg_apply, Pi.zero_apply]
    ring

/-- A six dimensional increment in the blocks of the pose Jacobians. -/
def six (d : Fin 6 → ℝ) : Fin 2 × Fin 3 → ℝ := fun j => if j.1 = 0 then lin d j.2 else ang d j.2

/-- A change of speed and biases in the blocks of their Jacobians. -/
def nine (e : SB) : Fin 3 × Fin 3 → ℝ := fun j => if j.1 = 0 then e.v j.2 else if j.1 = 1 then e.bg j.2 else e.ba j.2

theorem cols_change (A : Mat15) (d : Fin 6 → ℝ) (e : SB) :
    poseCols A *ᵥ six d + sbCols A *ᵥ nine e = A *ᵥ change (lin d) (ang d) e := by
  funext i
  unfold change
  simp only [mulVec, dotProduct, Pi.add_apply, Fintype.sum_prod_type]
  rw [Fin.sum_univ_two, Fin.sum_univ_three (fun x => ∑ y, sbCols A i (x, y) * nine e (x, y)), Fin.sum_univ_five]
  have h : ∀ a b c d e : ℝ, a + b + (c + d + e) = a + b + c + d + e := fun _ _ _ _ _ => by ring
  rw [h]
  rfl

/-- C44 (partial: rotations of less than 120 degrees against the world frame, and data that does not turn or turns by at
least 1e-4 in every step; the Jacobian of the time delay is missing): the minimal Jacobians are the weight times the
derivative of the error, in every direction of poses, speeds and biases, for both update rules of poses. -/
theorem C44_error_jacobian_partial (llt : Mat15 → Mat15) (p : Params) (d : Imu (Vec3 ℝ)) (t0 t1 delay : ℤ)
    (x0 x1 : Fin 7 → ℝ) (sb0 sb1 : SB) (up0 up1 : (Fin 7 → ℝ) → (Fin 6 → ℝ) → Fin 7 → ℝ)
    (hu0 : IsUpdate up0) (hu1 : IsUpdate up1) (hx0 : UnitPose x0) (hx1 : UnitPose x1)
    (s0 : 0 < (tfRot (tfParams x0)).trace) (s1 : 0 < (tfRot (tfParams x1)).trace)
    (hc : Covers d (t0 + delay) (t1 + delay)) (hs : d.ts.Pairwise (· < ·)) (ht : t0 < t1) (hn : Noisy p)
    (hb : Brisk d sb0.bg (t0 + delay) (t1 + delay)) :
    ∃ W : Mat15, W.PosDef ∧ ∀ (d0 d1 : Fin 6 → ℝ) (e0 e1 : SB), ∃ (o : ℝ → Eval) (D : Fin 5 × Fin 3 → ℝ),
      (∀ t, evaluate llt p d t0 t1 delay (up0 x0 fun i => t * d0 i) (up1 x1 fun i => t * d1 i)
        ⟨sb0.v + t • e0.v, sb0.bg + t • e0.bg, sb0.ba + t • e0.ba⟩
        ⟨sb1.v + t • e1.v, sb1.bg + t • e1.bg, sb1.ba + t • e1.ba⟩ = .ok (o t)) ∧
      VDeriv (fun t => (o t).raw) D 0 ∧ (o 0).weighted = llt W *ᵥ (o 0).raw ∧
      (o 0).J0 *ᵥ six d0 + (o 0).J1 *ᵥ nine e0 + (o 0).J2 *ᵥ six d1 + (o 0).J3 *ᵥ nine e1 = llt W *ᵥ D := by
  obtain ⟨s, l, h1, h2, h3⟩ := redo_run p sb0 hc (by omega)
  have hpd : ∀ sb, (l.foldl (integrate true p sb) {}).P.PosDef := fun sb =>
    fold_pd _ hn _ l h2.pos _ PosSemidef.zero h3
  refine ⟨(l.foldl (integrate true p sb0) {}).P⁻¹, (hpd sb0).inv, fun d0 d1 e0 e1 => ?_⟩
  have c0 := hu0.curve hx0 d0
  have c1 := hu1.curve hx1 d1
  have hP := h2.path hs hb e0
  have hda := (fold_dalpha (p := p) l h2.pos (h2.long hs hb) {} ⟨by simp [Quat.normSq], by simp⟩).2
  have hE := error_deriv (p := p) (sb0 := sb0) (sb1 := sb1) (e1 := e1) (Dt := ns2sec (t1 - t0)) c0.moves c1.moves
    (by rw [c0.start]; exact unit_rot hx0) (by rw [c1.start]; exact unit_rot hx1)
    (by rw [c0.start]; exact s0) (by rw [c1.start]; exact s1) hP (by simp only [sbAt_zero]; exact hda)
  refine ⟨fun t => _, _, fun t => evaluate_ok llt p d t0 t1 delay _ _ (sbAt sb0 e0 t) (sbAt sb1 e1 t)
    (h2.redo p (sbAt sb0 e0 t)) (information_pd (hpd _)), hE, ?_, ?_⟩
  · simp only [sbAt_zero]
  · simp only [sbAt_zero]
    rw [cols_change, add_assoc, cols_change, mulVec_add, mulVec_mulVec, mulVec_mulVec]

/-- The block of the Jacobian of `propagation` for the attitude and the gyroscope bias is not the derivative: it leaves
out the right Jacobian (`redoPreintegration` has it). -/
theorem C44_attitude_jacobian_refuted (p : Params) : ∃ (d : Imu (Vec3 ℝ)) (δ : Vec3 ℝ) (out : ℝ → Output),
    Covers d 0 (10 ^ 9) ∧ d.ts.Pairwise (· < ·) ∧ Brisk d 0 0 (10 ^ 9) ∧
    (∀ t, propagation p d 1 ⟨0, t • δ, 0⟩ 0 (10 ^ 9) = .ok (out t)) ∧
    ¬ MDeriv (fun t => tfRot (out t).T) (skew (blk (out 0).jac 1 3 *ᵥ δ) * tfRot (out 0).T) 0 := by
  have hpi := Real.pi_pos
  have h3 := Real.pi_gt_three
  have c1 : Covers (constData [0, 10 ^ 9] ![0, 0, Real.pi] 0) 0 (10 ^ 9) :=
    constData_covers _ _ (f := 0) (b := 10 ^ 9) rfl rfl (by norm_num) (by norm_num)
  have hs : (constData [0, 10 ^ 9] ![0, 0, Real.pi] 0).ts.Pairwise (· < ·) := by simp [constData]
  have hb : Brisk (constData [0, 10 ^ 9] ![0, 0, Real.pi] 0) 0 0 (10 ^ 9) := by
    right
    refine ⟨![0, 0, 1], Real.pi, by simp [dot3], ?_, ?_⟩
    · intro x hx
      rw [(constData_const [0, 10 ^ 9] ![0, 0, Real.pi] 0).1 x hx]
      simp [dot3]
    · intro h hh
      simp [steps, constData, diffs, ns2sec] at hh
      subst hh
      norm_num
      linarith
  set e : SB := ⟨0, ![1, 0, 0], 0⟩ with he
  obtain ⟨s, l, e1, r1, -⟩ := preint_run p ⟨0, 0, 0⟩ c1 (by norm_num)
  have hP := r1.path hs hb e
  have k1 := r1.cut hs
  rw [if_pos (by norm_num)] at k1
  simp [steps, constData, diffs, ns2sec] at k1
  have q1 := r1.const _ _ (constData_const _ _ _)
  have hsb : ∀ t : ℝ, (⟨0, t • ![1, 0, 0], 0⟩ : SB) = sbAt ⟨0, 0, 0⟩ e t := by
    intro t; simp [sbAt, he]
  have hone : tfRot (1 : Mat4 ℝ) = 1 := by apply mat3_eq <;> simp [tfRot]
  have hq1 : tfQuatOf (1 : Mat4 ℝ) = ⟨1, 0, 0, 0⟩ := by
    unfold tfQuatOf
    rw [hone]
    have : Real.sqrt (1 + 1 + 1 + 1) = 2 := by
      rw [show (1 + 1 + 1 + 1 : ℝ) = 2 ^ 2 by norm_num, Real.sqrt_sq (by norm_num)]
    simp [rotToQuat, this]
    norm_num
  match l, k1, q1, hP, r1 with
  | [g], k1, q1, hP, r1 =>
    simp at k1
    have k1 : g.dt = 1 := by rw [k1]; norm_num
    obtain ⟨g0, g1, g2, g3⟩ := q1 g (by simp)
    set I : ℝ → Integ := fun t => integrate false p (sbAt ⟨0, 0, 0⟩ e t) {} g with hI
    have hq0 : (I 0).q = ⟨0, 0, 0, 1⟩ := by
      simp only [hI, sbAt_zero, integrate, g0, g1, mean_self, sub_zero, k1]
      rw [stepQuat_pi 1 (by norm_num) (by norm_num) (by norm_num)]
      simp [Quat.mul]
    have hda : (I 0).dalpha = (I 0).q.toRot := by
      simp [hI, integrate, k1]
    have hcr : (I 0).cross *ᵥ ![1, 0, 0] = ![0, -(2 / Real.pi), 0] := by
      simp only [hI, sbAt_zero, integrate, g0, g1, mean_self, sub_zero, k1, Matrix.mul_zero, zero_add]
      rw [smul_mulVec, one_smul, rightJ_pi]
    have hrun : ∀ t, preint p (sbAt ⟨0, 0, 0⟩ e t) (constData [0, 10 ^ 9] ![0, 0, Real.pi] 0) 0 (10 ^ 9) =
        .ok ⟨I t, s.time, s.started, 1⟩ := fun t => r1.preint p (sbAt ⟨0, 0, 0⟩ e t)
    refine ⟨_, ![1, 0, 0], fun t => ⟨(moved p 1 (sbAt ⟨0, 0, 0⟩ e t) (I t)).1, (moved p 1 (sbAt ⟨0, 0, 0⟩ e t) (I t)).2,
      covariance 1 (I t), jacobian 1 (I t), 1⟩, c1, hs, hb, fun t => ?_, ?_⟩
    · rw [hsb]
      unfold propagation
      rw [hrun]; rfl
    · intro h
      have hr : ∀ t, tfRot (moved p 1 (sbAt ⟨0, 0, 0⟩ e t) (I t)).1 = (I t).q.toRot := by
        intro t
        unfold moved tfQuat
        simp only
        rw [tfRot_tf, hq1]
        congr 1
        ext <;> simp [Quat.mul]
      have hj : blk (jacobian 1 (I 0)) 1 3 = -(tfRot 1 * (I 0).dalpha) := rfl
      simp only [hr, hj, hone, Matrix.one_mul, hda] at h
      have htrue := hP.q.rot
      have hu := h.unique htrue
      have h12 := congrFun (congrFun hu 1) 2
      change (skew ((-(I 0).q.toRot) *ᵥ ![1, 0, 0]) * (I 0).q.toRot) 1 2 =
        ((I 0).q.toRot * skew (-((I 0).cross *ᵥ ![1, 0, 0]))) 1 2 at h12
      rw [hcr, hq0] at h12
      simp [Quat.toRot, skew, mulVec, dotProduct, Fin.sum_univ_three, Matrix.mul_apply] at h12
      norm_num at h12
  | g :: g' :: l, k1, _, _, _ => simp at k1

end Yac.Imu
