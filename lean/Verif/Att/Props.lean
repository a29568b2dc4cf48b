import Verif.Att.Model
import Verif.Geom.RotProps

/-! C108: the attitude from accelerometer samples at rest, yac/lib/util/core.cpp:1488-1513. -/

namespace Yac.Att
open Yac.Geom Matrix

/-- The mean of the first `n` samples. -/
noncomputable def mean (a : List (Vec3 ℝ)) (n : Nat) : Vec3 ℝ := (1 / (n : ℝ)) • (a.take n).sum

/-- Straight up. -/
def up : Vec3 ℝ := ![0, 0, 1]

/-- The attitude computed from a mean acceleration. -/
noncomputable def fromMean (m : Vec3 ℝ) : Mat3 ℝ :=
  euler321 (quat2euler (rotToQuat (vecs2rot m (-![0, 0, -(981 / 100)]))) 0)
    (quat2euler (rotToQuat (vecs2rot m (-![0, 0, -(981 / 100)]))) 1) 0

theorem sumLoop_ok {w a : List (Vec3 ℝ)} {n : Nat} (hw : n ≤ w.length) (ha : n ≤ a.length) :
    ∀ k, k ≤ n → ∀ s, sumLoop w a ((List.range n).drop (n - k)) s =
      .ok (s + ((a.take n).drop (n - k)).sum)
  | 0, _, s => by
      rw [List.drop_of_length_le (by simp), List.drop_of_length_le (by simp)]
      simp [sumLoop]
  | k + 1, hk, s => by
      have h1 : n - (k + 1) < (List.range n).length := by rw [List.length_range]; omega
      have h2 : n - (k + 1) < (a.take n).length := by rw [List.length_take]; omega
      rw [List.drop_eq_getElem_cons h1, List.drop_eq_getElem_cons h2, List.getElem_range,
        show n - (k + 1) + 1 = n - k by omega, sumLoop,
        List.getElem?_eq_getElem (by omega : n - (k + 1) < w.length),
        List.getElem?_eq_getElem (by omega : n - (k + 1) < a.length)]
      dsimp only
      rw [sumLoop_ok hw ha k (by omega), List.getElem_take, List.sum_cons, add_assoc]

theorem init_eq {w a : List (Vec3 ℝ)} {n : Nat} (h0 : 0 < n) (hw : n ≤ w.length) (ha : n ≤ a.length) :
    imuInitAttitude w a n = .ok (fromMean (mean a n)) := by
  unfold imuInitAttitude
  have := sumLoop_ok hw ha n le_rfl 0
  rw [Nat.sub_self, List.drop_zero, List.drop_zero, zero_add] at this
  rw [this]
  dsimp only
  rw [if_neg (by omega)]
  have e : (fun i => (a.take n).sum i / (n : ℝ)) = mean a n := by
    funext i
    simp [mean]
    ring
  rw [e]
  rfl

theorem up_normalized : normalized (-![0, 0, -(981 / 100)] : Vec3 ℝ) = up := by
  have hd : dot3 (-![0, 0, -(981 / 100)] : Vec3 ℝ) (-![0, 0, -(981 / 100)]) = (981 / 100) * (981 / 100) := by
    simp [dot3]
  unfold normalized
  rw [hd, if_pos (by norm_num), Real.sqrt_mul_self (by norm_num)]
  funext i
  fin_cases i <;> simp [up]

/-- The third row of the rotation with the roll and pitch of a quaternion. -/
theorem third_row {m : Mat3 ℝ} (hm : IsRot m) {q : Quat ℝ} (hq : q.normSq = 1) (hr : q.toRot = m) (i : Fin 3) :
    euler321 (quat2euler q 0) (quat2euler q 1) 0 2 i = m 2 i := by
  have he := hm.entries
  have hs := (C33_sandwich q).2 hq
  have e0 : quat2euler q 0 = atan2 (m 2 1) (m 2 2) := by
    rw [quat2euler_rot, ← hs, hr]; rfl
  have e1 : quat2euler q 1 = Real.arcsin (-(m 2 0)) := by
    rw [quat2euler_rot, ← hs, hr]; rfl
  have hsum : m 2 0 * m 2 0 + m 2 1 * m 2 1 + m 2 2 * m 2 2 = 1 := by linarith [he.r22]
  have hle : (m 2 0) ^ 2 ≤ 1 := by nlinarith [mul_self_nonneg (m 2 1), mul_self_nonneg (m 2 2)]
  have habs := abs_le.1 (abs_le_one_iff_mul_self_le_one.2 (by nlinarith : m 2 0 * m 2 0 ≤ 1))
  have s1 : Real.sin (Real.arcsin (-(m 2 0))) = -(m 2 0) :=
    Real.sin_arcsin (by linarith [habs.2]) (by linarith [habs.1])
  have c1 : Real.cos (Real.arcsin (-(m 2 0))) = Real.sqrt (m 2 1 * m 2 1 + m 2 2 * m 2 2) := by
    rw [Real.cos_arcsin]; congr 1; linarith
  rw [e0, e1]
  have hpol : Real.sqrt (m 2 1 * m 2 1 + m 2 2 * m 2 2) * Real.cos (atan2 (m 2 1) (m 2 2)) = m 2 2 ∧
      Real.sqrt (m 2 1 * m 2 1 + m 2 2 * m 2 2) * Real.sin (atan2 (m 2 1) (m 2 2)) = m 2 1 := by
    by_cases hz : (⟨m 2 2, m 2 1⟩ : ℂ) = 0
    · have h1 : m 2 2 = 0 := congrArg Complex.re hz
      have h2 : m 2 1 = 0 := congrArg Complex.im hz
      rw [h1, h2]
      simp
    · have hn : ‖(⟨m 2 2, m 2 1⟩ : ℂ)‖ = Real.sqrt (m 2 1 * m 2 1 + m 2 2 * m 2 2) := by
        rw [Complex.norm_def, Complex.normSq_mk, add_comm]
      have hne : ‖(⟨m 2 2, m 2 1⟩ : ℂ)‖ ≠ 0 := norm_ne_zero_iff.2 hz
      unfold atan2
      rw [Complex.cos_arg hz, Complex.sin_arg, ← hn]
      constructor <;> field_simp
  fin_cases i
  · show -Real.sin (Real.arcsin (-(m 2 0))) = m 2 0
    rw [s1, neg_neg]
  · simp only [euler321]
    show Real.cos _ * Real.sin _ = m 2 1
    rw [c1, hpol.2]
  · simp only [euler321]
    show Real.cos _ * Real.cos _ = m 2 2
    rw [c1, hpol.1]

theorem row_of_up {m : Mat3 ℝ} (hm : IsRot m) {u : Vec3 ℝ} (h : m *ᵥ u = up) (i : Fin 3) : m 2 i = u i := by
  have h1 : mᵀ * m = 1 := mul_eq_one_comm.mp hm.1
  have h2 : u = mᵀ *ᵥ up := by rw [← h, mulVec_mulVec, h1, one_mulVec]
  rw [h2]
  simp [mulVec, dotProduct, Fin.sum_univ_three, up]

theorem euler_up {phi theta : ℝ} {u : Vec3 ℝ} (h : ∀ i, euler321 phi theta 0 2 i = u i) :
    euler321 phi theta 0 *ᵥ u = up := by
  have hr := (C34_rotations phi theta 0 0).2.2.2.2
  have e : u = (euler321 phi theta 0)ᵀ *ᵥ up := by
    funext i
    rw [← h i]
    simp [mulVec, dotProduct, Fin.sum_univ_three, up]
  rw [e, mulVec_mulVec, hr.1, one_mulVec]

theorem normalized_zero : normalized 0 = 0 := by unfold normalized; simp [dot3]

/-- Upside down: the rotation of `vecs2rot` is the zero matrix, from which half a turn about the
first axis is made. -/
theorem down_row {m : Vec3 ℝ} (hm : m ≠ 0) (h : normalized m = -up) (i : Fin 3) :
    fromMean m 2 i = normalized m i := by
  obtain ⟨_, h2, _⟩ := normalized_unit m hm
  have hcr : cross3 m (-![0, 0, -(981 / 100)]) = 0 := by
    have h0 : m 0 = 0 := by rw [← h2, h]; simp [up]
    have h1 : m 1 = 0 := by rw [← h2, h]; simp [up]
    funext i
    fin_cases i <;> simp [cross3, h0, h1]
  have hv : vecs2rot m (-![0, 0, -(981 / 100)]) = 0 := by
    unfold vecs2rot
    rw [up_normalized, h, hcr, normalized_zero]
    have : dot3 (-up) up = -1 := by simp [dot3, up]
    simp only [this]
    rw [show (1 : ℝ) / 2 * (1 + -1) = 0 by norm_num, Real.sqrt_zero]
    apply mat3_eq <;> simp [quat2rot]
  have hq : rotToQuat 0 = ⟨0, 1 / 2, 0, 0⟩ := by
    simp [rotToQuat]
  have ha : atan2 0 (-(1 / 4)) = Real.pi := by
    unfold atan2
    rw [Complex.arg_eq_pi_iff]
    norm_num
  have he : quat2euler ⟨0, 1 / 2, 0, 0⟩ = ![Real.pi, 0, Real.arcsin 0 + quat2euler ⟨0, 1 / 2, 0, 0⟩ 2] := by
    funext i
    fin_cases i
    · show atan2 _ _ = _
      rw [← ha]
      norm_num
    · simp [quat2euler]
    · simp
  unfold fromMean
  rw [hv, hq, he, h]
  fin_cases i <;> simp [euler321, up]

/-- **C108.** From accelerometer samples whose mean is not zero the attitude is a rotation that
takes the direction of the mean acceleration to straight up (whatever this direction, also straight
down), and has no yaw: the first axis of the body points to a direction without second component,
and with first component not negative.  The angular velocities have no influence. -/
theorem C108_attitude {w a : List (Vec3 ℝ)} {n : Nat} (h0 : 0 < n) (hw : n ≤ w.length)
    (ha : n ≤ a.length) (hm : mean a n ≠ 0) :
    ∃ C, imuInitAttitude w a n = .ok C ∧ IsRot C ∧ C *ᵥ normalized (mean a n) = up ∧
      C 1 0 = 0 ∧ 0 ≤ C 0 0 := by
  refine ⟨_, init_eq h0 hw ha, (C34_rotations _ _ 0 0).2.2.2.2, ?_, ?_, ?_⟩
  · apply euler_up
    by_cases hd : normalized (mean a n) = -up
    · exact down_row hm hd
    · have hg : (-![0, 0, -(981 / 100)] : Vec3 ℝ) ≠ 0 := by
        intro hc
        have := congrFun hc 2
        simp at this
      obtain ⟨r1, r2⟩ := C67_vecs2rot_partial (mean a n) (-![0, 0, -(981 / 100)]) hm hg (by
        rw [up_normalized]
        intro hc
        exact hd (by rw [hc, neg_neg]))
      rw [up_normalized] at r2
      obtain ⟨q1, q2⟩ := (rotToQuat_spec r1).spec
      intro i
      rw [third_row r1 q1 q2, row_of_up r1 r2]
  · simp [fromMean, euler321]
  · have : fromMean (mean a n) 0 0 = Real.cos (Real.arcsin (2 *
        ((rotToQuat (vecs2rot (mean a n) (-![0, 0, -(981 / 100)]))).y *
          (rotToQuat (vecs2rot (mean a n) (-![0, 0, -(981 / 100)]))).w -
        (rotToQuat (vecs2rot (mean a n) (-![0, 0, -(981 / 100)]))).x *
          (rotToQuat (vecs2rot (mean a n) (-![0, 0, -(981 / 100)]))).z))) := by
      simp [fromMean, euler321, quat2euler]
    rw [this]
    exact Real.cos_arcsin_nonneg _

/-- **C108.** These facts determine the attitude, unless the first axis of the body is vertical. -/
theorem C108_unique {C D : Mat3 ℝ} (hC : IsRot C) (hD : IsRot D) {u : Vec3 ℝ} (h1 : C *ᵥ u = up)
    (h2 : D *ᵥ u = up) (c1 : C 1 0 = 0) (d1 : D 1 0 = 0) (c0 : 0 < C 0 0) (d0 : 0 < D 0 0) : C = D := by
  have r : ∀ i, C 2 i = D 2 i := fun i => by rw [row_of_up hC h1, row_of_up hD h2]
  have eC := hC.entries
  have eD := hD.entries
  have r0 := r 0
  have r1 := r 1
  have r2 := r 2
  have a00 : C 0 0 = D 0 0 := by
    have h3 := eC.c00
    have h4 := eD.c00
    rw [c1] at h3
    rw [d1] at h4
    have : (C 0 0 - D 0 0) * (C 0 0 + D 0 0) = 0 := by
      rw [r0] at h3
      linear_combination h3 - h4
    rcases mul_eq_zero.1 this with h | h <;> linarith
  have kC := eC.k01
  have a11 : C 1 1 = D 1 1 := by
    have h3 := eC.k22
    have h4 := eD.k22
    rw [c1] at h3
    rw [d1] at h4
    have : D 0 0 * (C 1 1 - D 1 1) = 0 := by
      rw [a00, r2] at h3
      linear_combination h4 - h3
    rcases mul_eq_zero.1 this with h | h <;> linarith
  have a12 : C 1 2 = D 1 2 := by
    have h3 := eC.k21
    have h4 := eD.k21
    rw [c1] at h3
    rw [d1] at h4
    have : D 0 0 * (C 1 2 - D 1 2) = 0 := by
      rw [a00, r1] at h3
      linear_combination h3 - h4
    rcases mul_eq_zero.1 this with h | h <;> linarith
  have a01 : C 0 1 = D 0 1 := by
    have h3 := eC.k01
    have h4 := eD.k01
    rw [a12, r0, c1] at h3
    rw [d1] at h4
    have h5 := eC.c01
    have h6 := eD.c01
    rw [a00, c1, r0, r1] at h5
    rw [d1] at h6
    have : D 0 0 * (C 0 1 - D 0 1) = 0 := by linear_combination h5 - h6
    rcases mul_eq_zero.1 this with h | h <;> linarith
  have a02 : C 0 2 = D 0 2 := by
    have h5 := eC.c02
    have h6 := eD.c02
    rw [a00, c1, r0, r2] at h5
    rw [d1] at h6
    have : D 0 0 * (C 0 2 - D 0 2) = 0 := by linear_combination h5 - h6
    rcases mul_eq_zero.1 this with h | h <;> linarith
  apply mat3_eq
  · exact a00
  · exact a01
  · exact a02
  · rw [c1, d1]
  · exact a11
  · exact a12
  · exact r0
  · exact r1
  · exact r2

/-- **C108.** A body at rest with attitude `D`, its accelerometer measuring the reaction to gravity:
the attitude computed differs from `D` by a rotation about the vertical, and is `D` if `D` has no
yaw. -/
theorem C108_static {w a : List (Vec3 ℝ)} {n : Nat} (h0 : 0 < n) (hw : n ≤ w.length)
    (ha : n ≤ a.length) {D : Mat3 ℝ} (hD : IsRot D) {g : ℝ} (hg : 0 < g)
    (hs : ∀ x ∈ a.take n, x = Dᵀ *ᵥ (g • up)) :
    ∃ C, imuInitAttitude w a n = .ok C ∧ IsRot (C * Dᵀ) ∧ (C * Dᵀ) *ᵥ up = up ∧
      (D 1 0 = 0 → 0 < D 0 0 → C = D) := by
  have hsum : ∀ l : List (Vec3 ℝ), (∀ x ∈ l, x = Dᵀ *ᵥ (g • up)) →
      l.sum = (l.length : ℝ) • (Dᵀ *ᵥ (g • up)) := by
    intro l
    induction l with
    | nil => simp
    | cons x l ih =>
      intro h
      rw [List.sum_cons, ih (fun y hy => h y (by simp [hy])), h x (by simp), List.length_cons]
      push_cast
      rw [add_smul, one_smul, add_comm]
  have hmean : mean a n = g • (Dᵀ *ᵥ up) := by
    unfold mean
    rw [hsum _ hs, List.length_take, min_eq_left ha, smul_smul, mulVec_smul]
    have : (n : ℝ) ≠ 0 := by exact_mod_cast (by omega : n ≠ 0)
    rw [show 1 / (n : ℝ) * n = 1 by field_simp, one_smul]
  have hDD : D * Dᵀ = 1 := hD.1
  have hne : mean a n ≠ 0 := by
    rw [hmean]
    intro hc
    have h1 : D *ᵥ (g • (Dᵀ *ᵥ up)) = 0 := by rw [hc, mulVec_zero]
    rw [mulVec_smul, mulVec_mulVec, hDD, one_mulVec] at h1
    have := congrFun h1 2
    simp [up] at this
    linarith
  have hunit : dot3 (Dᵀ *ᵥ up) (Dᵀ *ᵥ up) = 1 := by
    have := hD.entries.r22
    simp only [dot3, mulVec, dotProduct, Fin.sum_univ_three, up, transpose_apply, Matrix.cons_val_zero,
      Matrix.cons_val_one, Matrix.cons_val]
    linear_combination this
  have hnorm : normalized (mean a n) = Dᵀ *ᵥ up := by
    rw [hmean]
    unfold normalized
    have hd : dot3 (g • (Dᵀ *ᵥ up)) (g • (Dᵀ *ᵥ up)) = g * g := by
      have : dot3 (g • (Dᵀ *ᵥ up)) (g • (Dᵀ *ᵥ up)) = g * g * dot3 (Dᵀ *ᵥ up) (Dᵀ *ᵥ up) := by
        simp only [dot3, Pi.smul_apply, smul_eq_mul]; ring
      rw [this, hunit, mul_one]
    rw [hd, if_pos (by positivity), Real.sqrt_mul_self hg.le]
    funext i
    simp only [Pi.smul_apply, smul_eq_mul]
    field_simp
  obtain ⟨C, h1, h2, h3, h4, h5⟩ := C108_attitude h0 hw ha hne
  rw [hnorm] at h3
  refine ⟨C, h1, h2.mul hD.transpose, by rw [← mulVec_mulVec]; exact h3, ?_⟩
  intro d1 d0
  have hDu : D *ᵥ (Dᵀ *ᵥ up) = up := by rw [mulVec_mulVec, hDD, one_mulVec]
  have c0 : 0 < C 0 0 := by
    rcases h5.lt_or_eq with h | h
    · exact h
    · exfalso
      have r := row_of_up h2 h3 0
      have r' := row_of_up hD hDu 0
      have eC := h2.entries.c00
      have eD := hD.entries.c00
      rw [h4, ← h, r, ← r'] at eC
      rw [d1] at eD
      nlinarith
  exact C108_unique h2 hD h3 hDu h4 d1 c0 d0

/-- **C108.** Fewer samples of either sensor than asked for are a read out of bounds; no samples
asked for is a division by zero. -/
theorem C108_short {w a : List (Vec3 ℝ)} {n : Nat} (h : w.length < n ∨ a.length < n) :
    imuInitAttitude w a n = .error .oob := by
  have key2 : ∀ k s, k ≤ n → min w.length a.length < n → (0 < k) →
      sumLoop w a ((List.range n).drop (n - k)) s = .error .oob := by
    intro k
    induction k with
    | zero => intro s _ _ hk; omega
    | succ k ih =>
      intro s hk hlt _
      have h1 : n - (k + 1) < (List.range n).length := by rw [List.length_range]; omega
      rw [List.drop_eq_getElem_cons h1, List.getElem_range, show n - (k + 1) + 1 = n - k by omega, sumLoop]
      by_cases c1 : n - (k + 1) < w.length
      · rw [List.getElem?_eq_getElem c1]
        dsimp only
        by_cases c2 : n - (k + 1) < a.length
        · rw [List.getElem?_eq_getElem c2]
          exact ih _ (by omega) hlt (by omega)
        · rw [List.getElem?_eq_none (by omega)]
      · rw [List.getElem?_eq_none (by omega)]
  have := key2 n 0 le_rfl (by omega) (by omega)
  rw [Nat.sub_self, List.drop_zero] at this
  unfold imuInitAttitude
  rw [this]

theorem C108_none (w a : List (Vec3 ℝ)) : imuInitAttitude w a 0 = .error .divZero := rfl

/-- In free fall (a mean of zero) the attitude is level. -/
theorem C108_free_fall {w a : List (Vec3 ℝ)} {n : Nat} (h0 : 0 < n) (hw : n ≤ w.length)
    (ha : n ≤ a.length) (hm : mean a n = 0) : imuInitAttitude w a n = .ok 1 := by
  rw [init_eq h0 hw ha, hm]
  have hcr : cross3 0 (-![0, 0, -(981 / 100)]) = (0 : Vec3 ℝ) := by
    funext i
    fin_cases i <;> simp [cross3]
  have hv : vecs2rot 0 (-![0, 0, -(981 / 100)]) = (1 / 2 : ℝ) • (1 : Mat3 ℝ) := by
    unfold vecs2rot
    rw [up_normalized, hcr, normalized_zero]
    have : dot3 0 up = 0 := by simp [dot3]
    simp only [this]
    have hs : Real.sqrt (1 / 2 * (1 + 0)) * Real.sqrt (1 / 2 * (1 + 0)) = 1 / 2 :=
      by rw [Real.mul_self_sqrt (by norm_num)]; norm_num
    generalize Real.sqrt (1 / 2 * (1 + 0)) = s at hs
    apply mat3_eq <;> simp [quat2rot] <;> linarith
  have hq : rotToQuat ((1 / 2 : ℝ) • (1 : Mat3 ℝ)) = ⟨1 / 2 * Real.sqrt (5 / 2), 0, 0, 0⟩ := by
    simp [rotToQuat]
    norm_num
  have ha : atan2 0 (1 / 2 * Real.sqrt (5 / 2) * (1 / 2 * Real.sqrt (5 / 2))) = 0 := by
    unfold atan2
    rw [Complex.arg_eq_zero_iff]
    refine ⟨?_, rfl⟩
    positivity
  unfold fromMean
  rw [hv, hq]
  have e0 : quat2euler ⟨1 / 2 * Real.sqrt (5 / 2), 0, 0, 0⟩ 0 = 0 := by
    refine Eq.trans ?_ ha
    show atan2 _ _ = _
    congr 1 <;> ring
  have e1 : quat2euler ⟨1 / 2 * Real.sqrt (5 / 2), 0, 0, 0⟩ 1 = 0 := by
    simp [quat2euler]
  rw [e0, e1]
  congr 1
  apply mat3_eq <;> simp [euler321]

/-! ### Cases -/

/-- Two samples that are not the same, of a body lying on its side. -/
example : ∃ C, imuInitAttitude [0, 0] [![1, 9, 0], ![-1, 9, 0]] 2 = .ok C ∧ IsRot C ∧ C *ᵥ ![0, 1, 0] = up := by
  have hm : mean [![1, 9, 0], ![-1, 9, 0]] 2 = ![0, 9, 0] := by
    funext i
    fin_cases i <;> simp [mean] <;> norm_num
  obtain ⟨C, h1, h2, h3, _⟩ := C108_attitude (w := [0, 0]) (a := [![1, 9, 0], ![-1, 9, 0]]) (n := 2)
    (by norm_num) (by simp) (by simp) (by
      rw [hm]
      intro hc
      have := congrFun hc 1
      norm_num at this)
  refine ⟨C, h1, h2, ?_⟩
  rw [hm] at h3
  rw [← h3]
  congr 1
  have hd : dot3 ![0, 9, 0] ![0, 9, (0 : ℝ)] = 9 * 9 := by simp [dot3]
  unfold normalized
  rw [hd, if_pos (by norm_num), Real.sqrt_mul_self (by norm_num)]
  funext i
  fin_cases i <;> simp

/-- A level body. -/
example : imuInitAttitude [0] [![0, 0, 10]] 1 = .ok 1 := by
  obtain ⟨C, h1, _, _, h4⟩ := C108_static (w := [0]) (a := [![0, 0, 10]]) (n := 1) (by norm_num)
    (by simp) (by simp) (D := 1) ⟨by simp, by simp⟩ (g := 10) (by norm_num) (by
      intro x hx
      simp only [List.take_succ_cons, List.take_zero, List.mem_singleton] at hx
      rw [hx, transpose_one, one_mulVec]
      funext i
      fin_cases i <;> simp [up])
  rw [h1, h4 (by simp) (by simp)]

end Yac.Att
