import Verif.Imu.Props
import Mathlib.LinearAlgebra.Matrix.PosDef
import Mathlib.Data.Real.StarOrdered
import Mathlib.Algebra.BigOperators.Fin

/-!
# C44: the covariance of the propagation and the information matrix of the residual
-/

namespace Yac.Imu
open Yac.Geom Yac.Stream Yac.Residual Matrix

/-- A 3 by 3 block. -/
def blk (M : Mat15) (i j : Fin 5) : Mat3 ℝ := fun a b => M (i, a) (j, b)

theorem blk_mul (A B : Mat15) (i j : Fin 5) : blk (A * B) i j = ∑ k, blk A i k * blk B k j := by
  ext a b
  simp only [blk, Matrix.mul_apply, Matrix.sum_apply]
  rw [Fintype.sum_prod_type]

theorem blk_transpose (A : Mat15) (i j : Fin 5) : blk Aᵀ i j = (blk A j i)ᵀ := rfl

theorem blk_add (A B : Mat15) (i j : Fin 5) : blk (A + B) i j = blk A i j + blk B i j := rfl

theorem blk_ofBlocks (B : Fin 5 → Fin 5 → Mat3 ℝ) (i j : Fin 5) : blk (ofBlocks B) i j = B i j := rfl

theorem blk_diagonal (f : Fin 5 → ℝ) (i j : Fin 5) :
    blk (diagonal fun x : Fin 5 × Fin 3 => f x.1) i j = if i = j then f i • 1 else 0 := by
  ext a b
  simp only [blk, diagonal_apply, Prod.mk.injEq]
  by_cases h : i = j
  · subst h
    rw [if_pos rfl, Matrix.smul_apply, Matrix.one_apply]
    simp only [true_and, smul_eq_mul, mul_ite, mul_one, mul_zero]
  · rw [if_neg (by tauto), if_neg h]; rfl

/-- The step matrix and the noise of a step. -/
theorem integrate_P (re : Bool) (p : Params) (sb : SB) (I : Integ) (g : Seg) :
    ∃ F : Mat15, (integrate re p sb I g).P = F * I.P * Fᵀ + diagonal (fun i => noise p g.dt i.1) ∧
      (∀ j, blk F 3 j = if j = 3 then 1 else 0) ∧ (∀ j, blk F 4 j = if j = 4 then 1 else 0) ∧
      (∀ j, j ≠ 3 → blk F 1 j = if j = 1 then 1 else 0) ∧ blk F 2 0 = 0 ∧ blk F 2 2 = 1 ∧
      blk F 0 0 = 1 ∧ blk F 0 2 = g.dt • 1 := by
  refine ⟨_, rfl, ?_, ?_, ?_, rfl, rfl, rfl, rfl⟩
  · intro j; fin_cases j <;> rfl
  · intro j; fin_cases j <;> rfl
  · intro j hj; fin_cases j <;> first | rfl | exact absurd rfl hj

theorem noise_nonneg (p : Params) {dt : ℝ} (h : 0 < dt) (i : Fin 5) : 0 ≤ noise p dt i := by
  have ha : 0 ≤ dt * p.sigma_a_c * p.sigma_a_c := by nlinarith [mul_self_nonneg p.sigma_a_c]
  have h1 : 0 ≤ dt * p.sigma_g_c * p.sigma_g_c := by nlinarith [mul_self_nonneg p.sigma_g_c]
  have h2 : 0 ≤ dt * p.sigma_gw_c * p.sigma_gw_c := by nlinarith [mul_self_nonneg p.sigma_gw_c]
  have h3 : 0 ≤ dt * p.sigma_aw_c * p.sigma_aw_c := by nlinarith [mul_self_nonneg p.sigma_aw_c]
  fin_cases i
  · show 0 ≤ 1 / 2 * dt * dt * (dt * p.sigma_a_c * p.sigma_a_c)
    exact mul_nonneg (by positivity) ha
  · exact h1
  · exact ha
  · exact h2
  · exact h3

/-- None of the four noise densities is zero. -/
def Noisy (p : Params) : Prop := p.sigma_a_c ≠ 0 ∧ p.sigma_g_c ≠ 0 ∧ p.sigma_aw_c ≠ 0 ∧ p.sigma_gw_c ≠ 0

theorem noise_pos {p : Params} (hp : Noisy p) {dt : ℝ} (h : 0 < dt) (i : Fin 5) : 0 < noise p dt i := by
  have sq : ∀ x : ℝ, x ≠ 0 → 0 < dt * x * x := fun x hx => by
    have := mul_self_pos.mpr hx
    rw [mul_assoc]; exact mul_pos h this
  fin_cases i
  · show 0 < 1 / 2 * dt * dt * (dt * p.sigma_a_c * p.sigma_a_c)
    exact mul_pos (by positivity) (sq _ hp.1)
  · exact sq _ hp.2.1
  · exact sq _ hp.1
  · exact sq _ hp.2.2.2
  · exact sq _ hp.2.2.1

theorem conj_real {n m : Type} [Fintype n] [Fintype m] (A : Matrix n m ℝ) : Aᴴ = Aᵀ := by
  ext i j; simp [conjTranspose_apply]

theorem fold_psd (re : Bool) (p : Params) (sb : SB) (l : List Seg) (hp : ∀ g ∈ l, 0 < g.dt) (I : Integ)
    (hI : I.P.PosSemidef) : (l.foldl (integrate re p sb) I).P.PosSemidef := by
  induction l generalizing I with
  | nil => exact hI
  | cons g l ih =>
    rw [List.foldl_cons]
    apply ih (fun x hx => hp x (List.mem_cons_of_mem _ hx))
    obtain ⟨F, hF, -⟩ := integrate_P re p sb I g
    rw [hF]
    refine PosSemidef.add ?_ (PosSemidef.diagonal fun i => noise_nonneg p (hp g List.mem_cons_self) i.1)
    rw [← conj_real]
    exact hI.mul_mul_conjTranspose_same F

theorem fold_pd (re : Bool) {p : Params} (hn : Noisy p) (sb : SB) (l : List Seg) (hp : ∀ g ∈ l, 0 < g.dt)
    (I : Integ) (hI : I.P.PosSemidef) (hl : l ≠ []) : (l.foldl (integrate re p sb) I).P.PosDef := by
  obtain ⟨l', g, rfl⟩ : ∃ l' g, l = l' ++ [g] := ⟨l.dropLast, l.getLast hl, (List.dropLast_append_getLast hl).symm⟩
  rw [List.foldl_append, List.foldl_cons, List.foldl_nil]
  have h1 := fold_psd re p sb l' (fun x hx => hp x (List.mem_append_left _ hx)) I hI
  obtain ⟨F, hF, -⟩ := integrate_P re p sb (l'.foldl (integrate re p sb) I) g
  rw [hF]
  refine PosDef.posSemidef_add ?_ (PosDef.diagonal fun i => noise_pos hn (hp g (by simp)) i.1)
  rw [← conj_real]
  exact h1.mul_mul_conjTranspose_same F

/-- The rotation of the covariance into the world frame. -/
theorem blk_cov (T : Mat4 ℝ) (I : Integ) (i j : Fin 5) :
    blk (covariance T I) i j = (if i.val < 3 then tfRot T else 1) * blk I.P i j *
      (if j.val < 3 then tfRot T else 1)ᵀ := by
  unfold covariance
  simp only
  rw [blk_mul]
  simp only [blk_mul, blk_transpose, blk_ofBlocks]
  rw [Finset.sum_eq_single j]
  · rw [Finset.sum_eq_single i]
    · simp
    · intro k _ hk
      rw [if_neg (Ne.symm hk), Matrix.zero_mul]
    · simp
  · intro k _ hk
    rw [if_neg (Ne.symm hk), transpose_zero, Matrix.mul_zero]
  · simp

/-- C44: whatever the data, the covariance delivered by `propagation` is symmetric and positive
semidefinite, and positive definite if the interval has positive length and no noise density is
zero. -/
theorem C44_covariance (p : Params) (d : Imu (Vec3 ℝ)) (T : Mat4 ℝ) (sb : SB) (tstart tend : ℤ)
    (hc : Covers d tstart tend) (ht : tstart ≤ tend) (hT : IsRot (tfRot T)) :
    ∃ out, propagation p d T sb tstart tend = .ok out ∧ out.covᵀ = out.cov ∧
      (∀ x, 0 ≤ x ⬝ᵥ out.cov *ᵥ x) ∧
      (tstart < tend → Noisy p → ∀ x, x ≠ 0 → 0 < x ⬝ᵥ out.cov *ᵥ x) := by
  obtain ⟨s, l, h1, h2, h3⟩ := preint_run p sb hc ht
  refine ⟨_, by unfold propagation; rw [h1]; rfl, ?_⟩
  show (covariance T s.I)ᵀ = covariance T s.I ∧ _
  have hpsd : s.I.P.PosSemidef := by rw [h2.fold]; exact fold_psd _ _ _ l h2.pos _ PosSemidef.zero
  have hcov : (covariance T s.I).PosSemidef := by
    unfold covariance
    simp only
    rw [← conj_real]
    exact hpsd.mul_mul_conjTranspose_same _
  refine ⟨?_, ?_, ?_⟩
  · have := hcov.1
    unfold IsHermitian at this
    rwa [conj_real] at this
  · intro x
    have := hcov.dotProduct_mulVec_nonneg x
    simpa using this
  · intro hlt hn x hx
    have hpd : s.I.P.PosDef := by
      rw [h2.fold]; exact fold_pd _ hn _ l h2.pos _ PosSemidef.zero (h3 hlt)
    have hcov' : (covariance T s.I).PosDef := by
      unfold covariance
      simp only
      rw [← conj_real]
      refine hpd.mul_mul_conjTranspose_same ?_
      set M := ofBlocks fun i j => if i = j then (if i.val < 3 then tfRot T else 1) else (0 : Mat3 ℝ)
      have hM : ∀ i j, blk M i j = if i = j then (if i.val < 3 then tfRot T else 1) else 0 := fun _ _ => rfl
      have hMM : M * Mᵀ = 1 := by
        ext ⟨i, a⟩ ⟨j, b⟩
        have : blk (M * Mᵀ) i j = blk (1 : Mat15) i j := by
          rw [blk_mul]
          simp only [blk_transpose]
          rw [Finset.sum_eq_single j]
          · have e1 : blk (1 : Mat15) i j = if i = j then 1 else 0 := by
              have := blk_diagonal (fun _ => 1) i j
              simp only [one_smul] at this
              rw [← this]; congr 1
            rw [e1]
            rw [hM, hM, if_pos (rfl : j = j)]
            by_cases hij : i = j
            · subst hij
              rw [if_pos rfl, if_pos rfl]
              split
              · exact hT.1
              · simp
            · rw [if_neg hij, if_neg hij, Matrix.zero_mul]
          · intro k _ hk
            rw [hM j k, if_neg (Ne.symm hk), transpose_zero, Matrix.mul_zero]
          · simp
        exact congrFun (congrFun this a) b
      have hMM' : Mᵀ * M = 1 := mul_eq_one_comm.mp hMM
      intro x y hxy
      simp only [vecMul_eq_sum] at hxy
      have h := congrArg (fun v => v ᵥ* Mᵀ) (show x ᵥ* M = y ᵥ* M by simpa [vecMul_eq_sum] using hxy)
      simpa [vecMul_vecMul, hMM] using h
    have := hcov'.dotProduct_mulVec_pos hx
    simpa using this

theorem step_blk (re : Bool) (p : Params) (sb : SB) (I : Integ) (g : Seg) : ∃ F : Mat15,
    (∀ i j, blk (integrate re p sb I g).P i j = (∑ l, (∑ k, blk F i k * blk I.P k l) * (blk F j l)ᵀ) +
      if i = j then noise p g.dt i • 1 else 0) ∧
      (∀ j, blk F 3 j = if j = 3 then 1 else 0) ∧ (∀ j, blk F 4 j = if j = 4 then 1 else 0) ∧
      (∀ j, j ≠ 3 → blk F 1 j = if j = 1 then 1 else 0) ∧ blk F 2 0 = 0 ∧ blk F 2 2 = 1 ∧
      blk F 0 0 = 1 ∧ blk F 0 2 = g.dt • 1 := by
  obtain ⟨F, h, hF⟩ := integrate_P re p sb I g
  refine ⟨F, fun i j => ?_, hF⟩
  rw [h, blk_add, blk_diagonal, blk_mul]
  simp only [blk_mul, blk_transpose]

/-- What is known of the increments' covariance after the time `t`, whatever the data. -/
structure Known (p : Params) (P : Mat15) (t : ℝ) : Prop where
  b33 : blk P 3 3 = (t * p.sigma_gw_c ^ 2) • 1
  b34 : blk P 3 4 = 0
  b43 : blk P 4 3 = 0
  b44 : blk P 4 4 = (t * p.sigma_aw_c ^ 2) • 1
  rot : p.sigma_gw_c = 0 → blk P 1 1 = (t * p.sigma_g_c ^ 2) • 1 ∧ blk P 1 3 = 0 ∧ blk P 3 1 = 0
  vel : p.sigma_gw_c = 0 → p.sigma_g_c = 0 → p.sigma_aw_c = 0 →
    blk P 2 2 = (t * p.sigma_a_c ^ 2) • 1 ∧ (∀ j, j ≠ 0 → j ≠ 2 → ∀ i, blk P i j = 0 ∧ blk P j i = 0)

theorem Known.start (p : Params) : Known p 0 0 := by
  have h : ∀ i j, blk 0 i j = 0 := fun i j => rfl
  constructor <;> simp [h]

theorem Known.step (re : Bool) (p : Params) (sb : SB) (I : Integ) (g : Seg) (t : ℝ) (h : Known p I.P t) :
    Known p (integrate re p sb I g).P (t + g.dt) := by
  obtain ⟨F, hs, f3, f4, f1, f20, f22, -, -⟩ := step_blk re p sb I g
  have n3 : noise p g.dt 3 = g.dt * p.sigma_gw_c * p.sigma_gw_c := rfl
  have n4 : noise p g.dt 4 = g.dt * p.sigma_aw_c * p.sigma_aw_c := rfl
  have n1 : noise p g.dt 1 = g.dt * p.sigma_g_c * p.sigma_g_c := rfl
  have n2 : noise p g.dt 2 = g.dt * p.sigma_a_c * p.sigma_a_c := rfl
  constructor
  · rw [hs]
    simp only [Fin.sum_univ_five, f3]
    simp [h.b33, n3, ← add_smul]
    congr 1; ring
  · rw [hs]
    simp only [Fin.sum_univ_five, f3, f4]
    simp [h.b34]
  · rw [hs]
    simp only [Fin.sum_univ_five, f3, f4]
    simp [h.b43]
  · rw [hs]
    simp only [Fin.sum_univ_five, f4]
    simp [h.b44, n4, ← add_smul]
    congr 1; ring
  · intro h0
    obtain ⟨r1, r2, r3⟩ := h.rot h0
    have b33 : blk I.P 3 3 = 0 := by rw [h.b33, h0]; simp
    have e0 := f1 0 (by decide)
    have e1 := f1 1 (by decide)
    have e2 := f1 2 (by decide)
    have e4 := f1 4 (by decide)
    rw [if_neg (by decide)] at e0 e2 e4
    rw [if_pos rfl] at e1
    refine ⟨?_, ?_, ?_⟩
    · rw [hs]
      simp only [Fin.sum_univ_five, e0, e1, e2, e4]
      simp [r1, r2, r3, b33, n1, ← add_smul]
      congr 1; ring
    · rw [hs]
      simp only [Fin.sum_univ_five, e0, e1, e2, e4, f3]
      simp [r2, b33]
    · rw [hs]
      simp only [Fin.sum_univ_five, e0, e1, e2, e4, f3]
      simp [r3, b33]
  · intro h1 h2 h3
    obtain ⟨v1, v2⟩ := h.vel h1 h2 h3
    have z : ∀ j, j = 1 ∨ j = 3 ∨ j = 4 → ∀ i, blk I.P i j = 0 ∧ blk I.P j i = 0 := by
      rintro j (rfl | rfl | rfl) i <;> exact v2 _ (by decide) (by decide) i
    have z1 := fun i => (z 1 (by simp) i).1
    have z1' := fun i => (z 1 (by simp) i).2
    have z3 := fun i => (z 3 (by simp) i).1
    have z3' := fun i => (z 3 (by simp) i).2
    have z4 := fun i => (z 4 (by simp) i).1
    have z4' := fun i => (z 4 (by simp) i).2
    refine ⟨?_, ?_⟩
    · rw [hs]
      simp only [Fin.sum_univ_five, f20, f22]
      simp [z1, z1', z3, z3', z4, z4', v1, n2, ← add_smul]
      congr 1; ring
    · intro j hj0 hj2 i
      have e0 := f1 0 (by decide)
      have e2 := f1 2 (by decide)
      rw [if_neg (by decide)] at e0 e2
      have hrow : blk F j 0 = 0 ∧ blk F j 2 = 0 := by
        fin_cases j
        · exact absurd rfl hj0
        · exact ⟨e0, e2⟩
        · exact absurd rfl hj2
        · exact ⟨by rw [show ((⟨3, by decide⟩ : Fin 5)) = 3 from rfl, f3]; simp,
            by rw [show ((⟨3, by decide⟩ : Fin 5)) = 3 from rfl, f3]; simp⟩
        · exact ⟨by rw [show ((⟨4, by decide⟩ : Fin 5)) = 4 from rfl, f4]; simp,
            by rw [show ((⟨4, by decide⟩ : Fin 5)) = 4 from rfl, f4]; simp⟩
      have hn : noise p g.dt j = 0 := by
        fin_cases j
        · exact absurd rfl hj0
        · show noise p g.dt 1 = 0; rw [n1, h2]; ring
        · exact absurd rfl hj2
        · show noise p g.dt 3 = 0; rw [n3, h1]; ring
        · show noise p g.dt 4 = 0; rw [n4, h3]; ring
      constructor
      · rw [hs]
        simp only [Fin.sum_univ_five, hrow.1, hrow.2]
        simp [z1, z1', z3, z3', z4, z4']
        rintro rfl; exact hn
      · rw [hs]
        simp only [Fin.sum_univ_five, hrow.1, hrow.2]
        simp [z1, z1', z3, z3', z4, z4']
        rintro rfl; exact hn

theorem fold_known (re : Bool) (p : Params) (sb : SB) (l : List Seg) (I : Integ) (t : ℝ) (h : Known p I.P t) :
    Known p (l.foldl (integrate re p sb) I).P (t + (l.map Seg.dt).sum) := by
  induction l generalizing I t with
  | nil => simpa using h
  | cons g l ih =>
    rw [List.foldl_cons, List.map_cons, List.sum_cons, ← add_assoc]
    exact ih _ _ (h.step re p sb I g t)

theorem rot_smul_one {C : Mat3 ℝ} (h : C * Cᵀ = 1) (x : ℝ) : C * x • (1 : Mat3 ℝ) * Cᵀ = x • 1 := by
  rw [Matrix.mul_smul, Matrix.mul_one, Matrix.smul_mul, h]

/-- C44: whatever the data and its partition, the covariances of the biases are the elapsed time times
the squared random walk densities and the two biases are uncorrelated; without gyroscope random walk
the covariance of the orientation is the elapsed time times the squared gyroscope noise; with
accelerometer noise alone the covariance of the velocity is the elapsed time times its square. -/
theorem C44_covariance_partial (p : Params) (d : Imu (Vec3 ℝ)) (T : Mat4 ℝ) (sb : SB) (tstart tend : ℤ)
    (hc : Covers d tstart tend) (ht : tstart ≤ tend) (hT : IsRot (tfRot T)) :
    ∃ out, propagation p d T sb tstart tend = .ok out ∧
      blk out.cov 3 3 = (secs tstart tend * p.sigma_gw_c ^ 2) • 1 ∧
      blk out.cov 4 4 = (secs tstart tend * p.sigma_aw_c ^ 2) • 1 ∧
      blk out.cov 3 4 = 0 ∧ blk out.cov 4 3 = 0 ∧
      (p.sigma_gw_c = 0 → blk out.cov 1 1 = (secs tstart tend * p.sigma_g_c ^ 2) • 1) ∧
      (p.sigma_gw_c = 0 → p.sigma_g_c = 0 → p.sigma_aw_c = 0 →
        blk out.cov 2 2 = (secs tstart tend * p.sigma_a_c ^ 2) • 1) := by
  obtain ⟨s, l, h1, h2, -⟩ := preint_run p sb hc ht
  refine ⟨_, by unfold propagation; rw [h1]; rfl, ?_⟩
  have hk := fold_known false p sb l {} 0 (Known.start p)
  rw [zero_add, ← h2.fold, h2.sum] at hk
  change Known p s.I.P (secs tstart tend) at hk
  simp only [blk_cov]
  refine ⟨?_, ?_, ?_, ?_, ?_, ?_⟩
  · rw [if_neg (by decide), hk.b33]; simp
  · rw [if_neg (by decide), hk.b44]; simp
  · rw [hk.b34]; simp
  · rw [hk.b43]; simp
  · intro h0
    rw [if_pos (by decide), (hk.rot h0).1, rot_smul_one hT.1]
  · intro h0 h1 h2
    rw [if_pos (by decide), (hk.vel h0 h1 h2).1, rot_smul_one hT.1]

/-- C44 refuted for the covariance of the position: with accelerometer noise alone and a body at rest,
over one second, one step gives the variance 1/2 and two steps give 1/4 (that of the continuous
process is 1/3). -/
theorem C44_covariance_refuted : ∃ (p : Params) (T : Mat4 ℝ) (sb : SB) (d1 d2 : Imu (Vec3 ℝ)) (o1 o2 : Output),
    Covers d1 0 (10 ^ 9) ∧ Covers d2 0 (10 ^ 9) ∧ Const d1 0 0 ∧ Const d2 0 0 ∧
      propagation p d1 T sb 0 (10 ^ 9) = .ok o1 ∧ propagation p d2 T sb 0 (10 ^ 9) = .ok o2 ∧
      o1.cov (0, 0) (0, 0) = 1 / 2 ∧ o2.cov (0, 0) (0, 0) = 1 / 4 := by
  set p : Params := ⟨1, 0, 0, 0, 0⟩ with hp
  have c1 : Covers (constData [0, 10 ^ 9] 0 0) 0 (10 ^ 9) :=
    constData_covers _ _ (f := 0) (b := 10 ^ 9) rfl rfl (by norm_num) (by norm_num)
  have c2 : Covers (constData [0, 5 * 10 ^ 8, 10 ^ 9] 0 0) 0 (10 ^ 9) :=
    constData_covers _ _ (f := 0) (b := 10 ^ 9) rfl rfl (by norm_num) (by norm_num)
  obtain ⟨s1, l1, e1, r1, -⟩ := preint_run p ⟨0, 0, 0⟩ c1 (by norm_num)
  obtain ⟨s2, l2, e2, r2, -⟩ := preint_run p ⟨0, 0, 0⟩ c2 (by norm_num)
  have k1 := r1.cut (by simp [constData])
  have k2 := r2.cut (by simp [constData])
  rw [if_pos (by norm_num)] at k1 k2
  simp [steps, constData, diffs, ns2sec] at k1
  simp [steps, constData, diffs, ns2sec] at k2
  norm_num at k1 k2
  have hstep : ∀ (g : Seg) (I : Integ) (t : ℝ), Known p I.P t → blk (integrate false p ⟨0, 0, 0⟩ I g).P 0 0 =
      blk I.P 0 0 + g.dt • blk I.P 2 0 + g.dt • blk I.P 0 2 + (g.dt ^ 2) • blk I.P 2 2 + (g.dt ^ 3 / 2) • 1 := by
    intro g I t hk
    obtain ⟨F, hs, -, -, -, -, -, f0, f2⟩ := step_blk false p ⟨0, 0, 0⟩ I g
    obtain ⟨-, hz⟩ := hk.vel rfl rfl rfl
    have z1 := fun i => (hz 1 (by decide) (by decide) i).1
    have z1' := fun i => (hz 1 (by decide) (by decide) i).2
    have z3 := fun i => (hz 3 (by decide) (by decide) i).1
    have z3' := fun i => (hz 3 (by decide) (by decide) i).2
    have z4 := fun i => (hz 4 (by decide) (by decide) i).1
    have z4' := fun i => (hz 4 (by decide) (by decide) i).2
    have hn : noise p g.dt 0 = g.dt ^ 3 / 2 := by
      show 1 / 2 * g.dt * g.dt * (g.dt * 1 * 1) = _; ring
    rw [hs]
    simp only [Fin.sum_univ_five, f0, f2, z1, z1', z3, z3', z4, z4', hn]
    simp
    ext i j
    simp only [Matrix.add_apply, Matrix.smul_apply, smul_eq_mul]
    ring
  have hcross : ∀ (g : Seg), blk (integrate false p ⟨0, 0, 0⟩ {} g).P 2 0 = 0 ∧
      blk (integrate false p ⟨0, 0, 0⟩ {} g).P 0 2 = 0 := by
    intro g
    obtain ⟨F, hs, -⟩ := step_blk false p ⟨0, 0, 0⟩ {} g
    have hz : ∀ i j, blk ({} : Integ).P i j = 0 := fun i j => rfl
    constructor <;> rw [hs] <;> simp [hz]
  have h00 : blk ({} : Integ).P 0 0 = 0 ∧ blk ({} : Integ).P 2 0 = 0 ∧ blk ({} : Integ).P 0 2 = 0 ∧
      blk ({} : Integ).P 2 2 = 0 := ⟨rfl, rfl, rfl, rfl⟩
  have v1 : blk s1.I.P 0 0 = (1 / 2 : ℝ) • 1 := by
    match l1, k1, r1.fold with
    | [g], k1, hf =>
      simp at k1
      rw [hf, List.foldl_cons, List.foldl_nil, hstep g {} 0 (Known.start p), k1, h00.1, h00.2.1, h00.2.2.1, h00.2.2.2]
      norm_num
    | g :: g' :: l, k1, _ => simp at k1
  have v2 : blk s2.I.P 0 0 = (1 / 4 : ℝ) • 1 := by
    match l2, k2, r2.fold with
    | [g, g'], k2, hf =>
      simp at k2
      have hk := (Known.start p).step false p ⟨0, 0, 0⟩ {} g 0
      rw [hf, List.foldl_cons, List.foldl_cons, List.foldl_nil, hstep g' _ _ hk, (hcross g).1, (hcross g).2,
        (hk.vel rfl rfl rfl).1, hstep g {} 0 (Known.start p), k2.1, k2.2, h00.1, h00.2.1, h00.2.2.1, h00.2.2.2]
      ext i j
      simp only [Matrix.add_apply, Matrix.smul_apply, smul_eq_mul, Matrix.zero_apply, hp]
      ring
    | [], k2, _ => simp at k2
    | [g], k2, _ => simp at k2
    | g :: g' :: g'' :: l, k2, _ => simp at k2
  have hone : tfRot (1 : Mat4 ℝ) = 1 := by apply mat3_eq <;> simp [tfRot]
  refine ⟨p, 1, ⟨0, 0, 0⟩, _, _, _, _, c1, c2, constData_const _ _ _, constData_const _ _ _,
    by unfold propagation; rw [e1]; rfl, by unfold propagation; rw [e2]; rfl, ?_, ?_⟩
  · show blk (covariance 1 s1.I) 0 0 0 0 = _
    rw [blk_cov, v1, if_pos (by decide), hone]
    simp
  · show blk (covariance 1 s2.I) 0 0 0 0 = _
    rw [blk_cov, v2, if_pos (by decide), hone]
    simp

/-- Inverting a positive definite covariance. -/
theorem information_pd {P : Mat15} (h : P.PosDef) : information P = .ok P⁻¹ := by
  have ht : Pᵀ = P := by
    have := h.1
    unfold IsHermitian at this
    rwa [conj_real] at this
  have hS : (1 / 2 : ℝ) • P + (1 / 2 : ℝ) • Pᵀ = P := by
    rw [ht, ← add_smul]; norm_num
  have hti : (P⁻¹)ᵀ = P⁻¹ := by rw [transpose_nonsing_inv, ht]
  unfold information
  simp only
  rw [hS, if_neg ((isUnit_iff_isUnit_det P).mp h.isUnit).ne_zero, hti, ← add_smul]
  norm_num

theorem evaluate_ok (llt : Mat15 → Mat15) (p : Params) (d : Imu (Vec3 ℝ)) (t0 t1 delay : ℤ)
    (x0 x1 : Fin 7 → ℝ) (sb0 sb1 : SB) {s : Loop} {W : Mat15}
    (h1 : redo p sb0 d (t0 + delay) (t1 + delay) = .ok s) (h2 : information s.I.P = .ok W) :
    evaluate llt p d t0 t1 delay x0 x1 sb0 sb1 = .ok
      ⟨error p (tfParams x0) (tfParams x1) sb0 sb1 (ns2sec (t1 - t0)) s.I,
        llt W *ᵥ error p (tfParams x0) (tfParams x1) sb0 sb1 (ns2sec (t1 - t0)) s.I,
        poseCols (llt W * F0 p (tfParams x0) (tfParams x1) sb0 sb1 (ns2sec (t1 - t0)) s.I),
        sbCols (llt W * F0 p (tfParams x0) (tfParams x1) sb0 sb1 (ns2sec (t1 - t0)) s.I),
        poseCols (llt W * F1 (tfParams x0) (tfParams x1) s.I),
        sbCols (llt W * F1 (tfParams x0) (tfParams x1) s.I)⟩ := by
  unfold evaluate
  simp only
  rw [h1]
  show (information s.I.P >>= _) = _
  rw [h2]
  rfl

/-- C44: over data covering an interval of positive length, with no noise density zero, the residual can
be evaluated, and its squared length is `eᵀ W e` with `e` the unweighted error and `W` a symmetric
positive definite matrix, the inverse of the covariance `P`, if `llt` computes the upper triangular
factor `U` with `Uᵀ U = W`. -/
theorem C44_residual (llt : Mat15 → Mat15) (hllt : ∀ W : Mat15, W.PosDef → (llt W)ᵀ * llt W = W)
    (p : Params) (d : Imu (Vec3 ℝ)) (t0 t1 delay : ℤ) (x0 x1 : Fin 7 → ℝ) (sb0 sb1 : SB)
    (hc : Covers d (t0 + delay) (t1 + delay)) (ht : t0 < t1) (hn : Noisy p) :
    ∃ (o : Eval) (s : Loop), evaluate llt p d t0 t1 delay x0 x1 sb0 sb1 = .ok o ∧
      redo p sb0 d (t0 + delay) (t1 + delay) = .ok s ∧
      s.I.dt = secs t0 t1 ∧
      o.raw = error p (tfParams x0) (tfParams x1) sb0 sb1 (secs t0 t1) s.I ∧
      ∃ W : Mat15, W.PosDef ∧ W * s.I.P = 1 ∧ o.weighted ⬝ᵥ o.weighted = o.raw ⬝ᵥ W *ᵥ o.raw := by
  obtain ⟨s, l, h1, h2, h3⟩ := redo_run p sb0 hc (by omega)
  have hpd : s.I.P.PosDef := by
    rw [h2.fold]; exact fold_pd _ hn _ l h2.pos _ PosSemidef.zero h3
  have hd : s.I.dt = secs t0 t1 := by
    rw [h2.dt]
    have : t1 + delay - (t0 + delay) = t1 - t0 := by ring
    rw [this]; rfl
  refine ⟨_, s, evaluate_ok llt p d t0 t1 delay x0 x1 sb0 sb1 h1 (information_pd hpd), h1, hd, rfl,
    s.I.P⁻¹, hpd.inv, nonsing_inv_mul _ ((isUnit_iff_isUnit_det _).mp hpd.isUnit), ?_⟩
  show (llt s.I.P⁻¹ *ᵥ _) ⬝ᵥ (llt s.I.P⁻¹ *ᵥ _) = _
  rw [dotProduct_mulVec, vecMul_mulVec, hllt _ hpd.inv]
  exact (dotProduct_mulVec _ _ _).symm

end Yac.Imu
