import Verif.VI.Recover
import Verif.Info.NbvAlgebra

/-! C114: covariance and information of the IMU extrinsics. -/

namespace Yac.VI.Recover
open Matrix

variable {k q : Type} [Fintype k] [Fintype q] [DecidableEq k] [DecidableEq q]

/-- What `ceres::Covariance` documents, for a problem whose residuals have the Jacobian `E` with respect to the free
IMU extrinsics and `X` with respect to everything else that is free: it fails if the columns of the Jacobian are
linearly dependent, and otherwise gives the block of the IMU extrinsics of the inverse of `JᵀJ`. -/
structure Free (c : Cov) (E : Matrix k (Fin 6) ℝ) (X : Matrix k q ℝ) : Prop where
  compute : c.compute = true ↔ ∀ (u : Fin 6 → ℝ) (v : q → ℝ), E *ᵥ u + X *ᵥ v = 0 → u = 0 ∧ v = 0
  block : c.compute = true → c.block = ((fromBlocks (Eᵀ * E) (Eᵀ * X) (Xᵀ * E) (Xᵀ * X))⁻¹).toBlocks₁₁

/-- Squared length. -/
noncomputable def sq (x : k → ℝ) : ℝ := ∑ i, x i ^ 2

theorem sq_eq (x : k → ℝ) : sq x = x ⬝ᵥ x := by
  unfold sq dotProduct
  exact Finset.sum_congr rfl fun i _ => pow_two _

theorem sq_pos {x : k → ℝ} (h : x ≠ 0) : 0 < sq x := by
  obtain ⟨i, hi⟩ := Function.ne_iff.1 h
  exact Finset.sum_pos' (fun j _ => sq_nonneg _) ⟨i, Finset.mem_univ i, pow_pos_of_ne hi⟩
where
  pow_pos_of_ne {a : ℝ} (h : a ≠ 0) : 0 < a ^ 2 := by positivity

/-- The least squares solution for the other parameters splits the squared length. -/
theorem split (E : Matrix k (Fin 6) ℝ) (X : Matrix k q ℝ) (hX : (Xᵀ * X).det ≠ 0) (u : Fin 6 → ℝ) (v : q → ℝ) :
    sq (E *ᵥ u + X *ᵥ v) = u ⬝ᵥ ((Eᵀ * E - Eᵀ * X * (Xᵀ * X)⁻¹ * (Xᵀ * E)) *ᵥ u) +
      sq (X *ᵥ (v + ((Xᵀ * X)⁻¹ * (Xᵀ * E)) *ᵥ u)) := by
  have hi : (Xᵀ * X) * (Xᵀ * X)⁻¹ = 1 := mul_nonsing_inv _ (isUnit_iff_ne_zero.2 hX)
  obtain ⟨G, hG⟩ : ∃ G, G = (Xᵀ * X)⁻¹ * (Xᵀ * E) := ⟨_, rfl⟩
  have hXG : Xᵀ * X * G = Xᵀ * E := by rw [hG, ← Matrix.mul_assoc, hi, Matrix.one_mul]
  have e0 : Eᵀ * X * (Xᵀ * X)⁻¹ * (Xᵀ * E) = Eᵀ * X * G := by rw [Matrix.mul_assoc (Eᵀ * X), hG]
  rw [e0, ← hG]
  -- residual orthogonal to the columns of X
  obtain ⟨w, hw⟩ : ∃ w, w = v + G *ᵥ u := ⟨_, rfl⟩
  obtain ⟨e, he⟩ : ∃ e, e = E *ᵥ u - X *ᵥ (G *ᵥ u) := ⟨_, rfl⟩
  have h1 : E *ᵥ u + X *ᵥ v = e + X *ᵥ w := by
    rw [he, hw, mulVec_add]
    abel
  have hort : Xᵀ *ᵥ e = 0 := by
    rw [he, mulVec_sub, mulVec_mulVec, mulVec_mulVec, mulVec_mulVec, ← hXG, Matrix.mul_assoc, sub_self]
  have hort' : e ⬝ᵥ (X *ᵥ w) = 0 := by
    rw [dotProduct_mulVec, ← mulVec_transpose, hort, zero_dotProduct]
  have hee : e ⬝ᵥ e = u ⬝ᵥ ((Eᵀ * E - Eᵀ * X * G) *ᵥ u) := by
    have a1 : e ⬝ᵥ e = (E *ᵥ u) ⬝ᵥ e - (X *ᵥ (G *ᵥ u)) ⬝ᵥ e := by
      conv_lhs => lhs; rw [he]
      rw [sub_dotProduct]
    have a2 : (X *ᵥ (G *ᵥ u)) ⬝ᵥ e = 0 := by
      rw [dotProduct_comm, dotProduct_mulVec, ← mulVec_transpose, hort, zero_dotProduct]
    rw [a1, a2, sub_zero, he, dotProduct_comm, ← dotProduct_comm (E *ᵥ u), ← vecMul_transpose, ← dotProduct_mulVec,
      mulVec_sub, mulVec_mulVec, mulVec_mulVec, vecMul_transpose, mulVec_mulVec, ← sub_mulVec]
  rw [h1, sq_eq, sq_eq, add_dotProduct, dotProduct_add, dotProduct_add, hort', dotProduct_comm (X *ᵥ w) e, hort', hee, hw]
  ring

/-- Independent columns of `X` make `XᵀX` invertible. -/
theorem gram_det (X : Matrix k q ℝ) (h : ∀ v, X *ᵥ v = 0 → v = 0) : (Xᵀ * X).det ≠ 0 := by
  intro h0
  obtain ⟨v, hv, h1⟩ := Matrix.exists_mulVec_eq_zero_iff.2 h0
  apply hv
  apply h
  by_contra hne
  have := sq_pos hne
  rw [sq_eq, dotProduct_mulVec, ← mulVec_transpose, mulVec_mulVec, h1, zero_dotProduct] at this
  exact lt_irrefl _ this

/-- **C114.**  If the problem determines all its free parameters, and the IMU extrinsics are free, the information
is returned: a symmetric positive definite matrix `H` such that `uᵀHu` is the least sum of squares of the linearised
residuals any values of the other parameters leave when the extrinsics are moved by `u`; the covariance is its
inverse. -/
theorem C114_info {c : Cov} {E : Matrix k (Fin 6) ℝ} {X : Matrix k q ℝ} (h : Free c E X)
    (hfull : ∀ (u : Fin 6 → ℝ) (v : q → ℝ), E *ᵥ u + X *ᵥ v = 0 → u = 0 ∧ v = 0) :
    ∃ H S, recoverInfo c = some H ∧ recoverCovar c = some S ∧ H * S = 1 ∧ Hᵀ = H ∧
      (∀ u, u ≠ 0 → 0 < u ⬝ᵥ (H *ᵥ u)) ∧
      (∀ u v, u ⬝ᵥ (H *ᵥ u) ≤ sq (E *ᵥ u + X *ᵥ v)) ∧
      (∀ u, ∃ v, u ⬝ᵥ (H *ᵥ u) = sq (E *ᵥ u + X *ᵥ v)) := by
  have hc := h.compute.2 hfull
  have hX : (Xᵀ * X).det ≠ 0 := gram_det X fun v hv => (hfull 0 v (by rw [mulVec_zero, zero_add, hv])).2
  obtain ⟨S, hS⟩ : ∃ S, S = Eᵀ * E - Eᵀ * X * (Xᵀ * X)⁻¹ * (Xᵀ * E) := ⟨_, rfl⟩
  have hle : ∀ u v, u ⬝ᵥ (S *ᵥ u) ≤ sq (E *ᵥ u + X *ᵥ v) := by
    intro u v
    rw [split E X hX u v, ← hS]
    have : 0 ≤ sq (X *ᵥ (v + ((Xᵀ * X)⁻¹ * (Xᵀ * E)) *ᵥ u)) := Finset.sum_nonneg fun i _ => sq_nonneg _
    linarith
  have hex : ∀ u, ∃ v, u ⬝ᵥ (S *ᵥ u) = sq (E *ᵥ u + X *ᵥ v) := by
    intro u
    refine ⟨-(((Xᵀ * X)⁻¹ * (Xᵀ * E)) *ᵥ u), ?_⟩
    rw [split E X hX u, ← hS, neg_add_cancel, mulVec_zero]
    simp [sq]
  have hpos : ∀ u, u ≠ 0 → 0 < u ⬝ᵥ (S *ᵥ u) := by
    intro u hu
    obtain ⟨v, hv⟩ := hex u
    rw [hv]
    exact sq_pos fun h0 => hu (hfull u v h0).1
  have hdet : S.det ≠ 0 := by
    intro h0
    obtain ⟨u, hu, h1⟩ := Matrix.exists_mulVec_eq_zero_iff.2 h0
    have := hpos u hu
    rw [h1, dotProduct_zero] at this
    exact lt_irrefl _ this
  obtain ⟨-, -, hinv⟩ := Info.schur_facts E X hX
  rw [← hS] at hinv
  have hb : c.block = S⁻¹ := by rw [h.block hc, hinv hdet]
  have hSu : IsUnit S.det := isUnit_iff_ne_zero.2 hdet
  have hrank : Dense.rank c.block = 6 := by
    rw [Dense.rank, hb, Matrix.rank_of_isUnit _ ((Matrix.isUnit_iff_isUnit_det _).2 (by
      rw [Matrix.det_nonsing_inv]; exact hSu.ringInverse))]
    simp
  have hcov : recoverCovar c = some c.block := by
    unfold recoverCovar
    rw [if_neg (by simp [hc]), if_neg (by simp [hrank])]
  have hsym : Sᵀ = S := by
    have hg : ((Xᵀ * X)⁻¹)ᵀ = (Xᵀ * X)⁻¹ := by
      rw [transpose_nonsing_inv, transpose_mul, transpose_transpose]
    rw [hS, transpose_sub, transpose_mul, transpose_mul, transpose_mul, transpose_mul, transpose_mul,
      transpose_transpose, transpose_transpose, hg, Matrix.mul_assoc, Matrix.mul_assoc, Matrix.mul_assoc]
  refine ⟨S, S⁻¹, ?_, ?_, mul_nonsing_inv _ hSu, hsym, hpos, hle, hex⟩
  · unfold recoverInfo
    rw [hcov, hb]
    simp only [nonsing_inv_nonsing_inv _ hSu]
  · rw [hcov, hb]

/-- If the problem does not determine its free parameters, neither is returned. -/
theorem C114_rank {c : Cov} {E : Matrix k (Fin 6) ℝ} {X : Matrix k q ℝ} (h : Free c E X)
    (hdef : ∃ (u : Fin 6 → ℝ) (v : q → ℝ), E *ᵥ u + X *ᵥ v = 0 ∧ (u ≠ 0 ∨ v ≠ 0)) :
    recoverCovar c = none ∧ recoverInfo c = none := by
  have hc : c.compute = false := by
    rw [Bool.eq_false_iff]
    intro ht
    obtain ⟨u, v, h0, hne⟩ := hdef
    obtain ⟨a, b⟩ := h.compute.1 ht u v h0
    rcases hne with hne | hne
    · exact hne a
    · exact hne b
  have : recoverCovar c = none := by
    unfold recoverCovar
    rw [if_pos hc]
  exact ⟨this, by unfold recoverInfo; rw [this]⟩

/-- If the IMU extrinsics are fixed, in which case ceres reports a zero covariance for them, neither is returned. -/
theorem C114_fixed {c : Cov} (h : c.compute = true → c.block = 0) :
    recoverCovar c = none ∧ recoverInfo c = none := by
  have : recoverCovar c = none := by
    unfold recoverCovar
    by_cases hc : c.compute = false
    · rw [if_pos hc]
    · rw [if_neg hc, h (by simpa using hc), if_pos (by rw [Dense.rank, Matrix.rank_zero]; decide)]
  exact ⟨this, by unfold recoverInfo; rw [this]⟩

/-! ### Witness -/

/-- Seven residuals: each component of the extrinsics measured together with one other parameter, which is measured
by itself too. -/
example : ∃ (c : Cov) (E : Matrix (Fin 6 ⊕ Unit) (Fin 6) ℝ) (X : Matrix (Fin 6 ⊕ Unit) Unit ℝ), Free c E X ∧
    (∀ (u : Fin 6 → ℝ) (v : Unit → ℝ), E *ᵥ u + X *ᵥ v = 0 → u = 0 ∧ v = 0) ∧ Eᵀ * X ≠ 0 := by
  obtain ⟨E, hE⟩ : ∃ E : Matrix (Fin 6 ⊕ Unit) (Fin 6) ℝ, E = Matrix.of (Sum.elim (fun i j => if i = j then 1 else 0) (fun _ _ => 0)) :=
    ⟨_, rfl⟩
  obtain ⟨X, hX⟩ : ∃ X : Matrix (Fin 6 ⊕ Unit) Unit ℝ, X = Matrix.of (fun _ _ => 1) := ⟨_, rfl⟩
  have hfull : ∀ (u : Fin 6 → ℝ) (v : Unit → ℝ), E *ᵥ u + X *ᵥ v = 0 → u = 0 ∧ v = 0 := by
    intro u v h
    have h1 := congrFun h (Sum.inr ())
    have hv : v = 0 := by
      funext x
      simpa [hE, hX, mulVec, dotProduct] using h1
    refine ⟨?_, hv⟩
    funext i
    have h2 := congrFun h (Sum.inl i)
    simpa [hE, hX, mulVec, dotProduct, hv] using h2
  refine ⟨⟨true, ((fromBlocks (Eᵀ * E) (Eᵀ * X) (Xᵀ * E) (Xᵀ * X))⁻¹).toBlocks₁₁⟩, E, X,
    ⟨⟨fun _ => hfull, fun _ => rfl⟩, fun _ => rfl⟩, hfull, ?_⟩
  intro h0
  have := congrFun (congrFun h0 0) ()
  simp [hE, hX, Matrix.mul_apply] at this

end Yac.VI.Recover
