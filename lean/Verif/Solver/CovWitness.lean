import Verif.Solver.CovProps

/-!
# C86: concrete problems
-/

namespace Yac.Solver
open Matrix Yac.Marg Finset

/-! ### The pseudo inverse of small matrices -/

theorem pseudoInv_linear {eig : EigSolver} (he : IsEigSolver eig) {n : Nat}
    {A : Matrix (Fin n) (Fin n) ℝ} (hA : Aᵀ = A) (s t : ℝ)
    (hl : ∀ lam, IsEigenvalue A lam → (if lam > 1e-8 then lam⁻¹ else 0) = s * lam + t) :
    pseudoInv eig A = s • A + t • 1 := by
  obtain ⟨h1, h2⟩ := eig_spec he hA
  have hi : invAbove 1e-8 (eig n A).vals = fun i => s * (eig n A).vals i + t := by
    funext i
    exact hl _ (eig_isEigenvalue he hA i)
  unfold pseudoInv
  rw [hi]
  have hd : diagonal (fun i => s * (eig n A).vals i + t) =
      s • diagonal (eig n A).vals + t • (1 : Matrix (Fin n) (Fin n) ℝ) := by
    ext i j
    by_cases hij : i = j
    · subst hij; simp
    · simp [hij]
  rw [hd, Matrix.mul_add, Matrix.add_mul, Matrix.mul_smul, Matrix.smul_mul, Matrix.mul_smul,
    Matrix.smul_mul, Matrix.mul_one, mul_eq_one_comm.mp h1]
  congr 2
  exact h2.symm

/-- The eigenvalues of a 2 × 2 matrix with equal diagonal. -/
theorem eig_two {a b lam : ℝ} (h : IsEigenvalue !![a, b; b, a] lam) : lam = a + b ∨ lam = a - b := by
  obtain ⟨v, hv, hA⟩ := h
  have h0 := congrFun hA 0
  have h1 := congrFun hA 1
  simp [Matrix.mulVec, dotProduct, Fin.sum_univ_two] at h0 h1
  by_cases hs : v 0 + v 1 = 0
  · right
    have hd : v 0 - v 1 ≠ 0 := by
      intro hd
      apply hv
      funext i
      fin_cases i
      · show v 0 = 0; linarith
      · show v 1 = 0; linarith
    apply mul_right_cancel₀ hd
    linarith
  · left
    apply mul_right_cancel₀ hs
    linarith

/-- The value of the last stage on a 2 + 1 system whose marginalised block is `[a b; b a]`. -/
theorem margCovariance_two {eig : EigSolver} (he : IsEigSolver eig) (H : Mat ℝ) (a b c d e s t : ℝ)
    (h00 : H 0 0 = a) (h01 : H 0 1 = b) (h10 : H 1 0 = b) (h11 : H 1 1 = a) (h02 : H 0 2 = c)
    (h12 : H 1 2 = d) (h20 : H 2 0 = c) (h21 : H 2 1 = d) (h22 : H 2 2 = e)
    (h1 : (if a + b > 1e-8 then (a + b)⁻¹ else 0) = s * (a + b) + t)
    (h2 : (if a - b > 1e-8 then (a - b)⁻¹ else 0) = s * (a - b) + t)
    (hsum : |2 * ((a + b) * (s * (a + b) + t) - 1)| ≤ 1e-4)
    (hne : e - ((s * a + t) * (c * c + d * d) + 2 * (s * b) * (c * d)) ≠ 0) :
    ∃ C, margCovariance eig H 2 1 = .ok (some (1, C)) ∧
      C 0 0 = (e - ((s * a + t) * (c * c + d * d) + 2 * (s * b) * (c * d)))⁻¹ := by
  have hmm : block H 0 0 2 2 = !![a, b; b, a] := by
    ext i j; fin_cases i <;> fin_cases j <;> simp [block, h00, h01, h10, h11]
  have hsym : (!![a, b; b, a] : Matrix (Fin 2) (Fin 2) ℝ)ᵀ = !![a, b; b, a] := by
    ext i j; fin_cases i <;> fin_cases j <;> rfl
  have hinv := pseudoInv_linear he hsym s t (by
    intro lam hlam
    rcases eig_two hlam with rfl | rfl
    · exact h1
    · exact h2)
  have hinv' : s • (!![a, b; b, a] : Matrix (Fin 2) (Fin 2) ℝ) + t • 1 =
      !![s * a + t, s * b; s * b, s * a + t] := by
    ext i j; fin_cases i <;> fin_cases j <;> simp
  rw [hinv'] at hinv
  have hM : block H 2 2 1 1 - block H 2 0 1 2 * !![s * a + t, s * b; s * b, s * a + t] *
      block H 0 2 2 1 =
      !![e - ((s * a + t) * (c * c + d * d) + 2 * (s * b) * (c * d))] := by
    ext i j
    fin_cases i; fin_cases j
    simp [block, Matrix.mul_apply, Fin.sum_univ_two, h22, h20, h21, h02, h12]
    ring
  unfold margCovariance
  simp only
  rw [hmm, symmetrise_self hsym, hinv, hM]
  rw [if_neg (by norm_num), if_neg]
  · rw [if_neg (by simpa [Matrix.det_fin_one] using hne)]
    refine ⟨_, rfl, ?_⟩
    rw [entries_apply _ 0 0 (by norm_num) (by norm_num)]
    have : (!![e - ((s * a + t) * (c * c + d * d) + 2 * (s * b) * (c * d))] :
        Matrix (Fin 1) (Fin 1) ℝ)⁻¹ = !![(e - ((s * a + t) * (c * c + d * d) + 2 * (s * b) * (c * d)))⁻¹] := by
      apply Matrix.inv_eq_left_inv
      ext i j
      fin_cases i; fin_cases j
      simp [Matrix.mul_apply, inv_mul_cancel₀ hne]
    rw [this]
    rfl
  · rw [not_lt]
    refine le_trans (le_of_eq ?_) hsum
    congr 1
    simp [Fin.sum_univ_two, Matrix.mul_apply]
    ring

/-! ### A pose of two components and a camera of one -/

/-- `false` is a pose with two components, `true` a camera with one. -/
def demoInfo : Bool → ParamInfo
  | false => ⟨false, .pose, 2⟩
  | true => ⟨false, .camera, 1⟩

/-- One residual block with three rows. -/
noncomputable def demo (u v w : Fin 3 → ℝ) : List (Res ℝ Bool) :=
  [⟨3, fun _ => 0, [(false, fun k i => if h : k < 3 then (if i = 0 then u ⟨k, h⟩ else v ⟨k, h⟩) else 0),
    (true, fun k _ => if h : k < 3 then w ⟨k, h⟩ else 0)]⟩]

theorem demo_setting (u v w : Fin 3 → ℝ) :
    CovSetting demoInfo (demo u v w) [true] {false, true} := by
  refine ⟨?_, by simp, by simp, ?_⟩
  · intro p
    unfold Optimised demo
    cases p <;> simp [demoInfo]
  · intro p _ _; cases p <;> simp [demoInfo]

theorem demo_entry (u v w : Fin 3 → ℝ) (p q : Bool) (i j : Nat) :
    infoEntry (demo u v w) p i q j =
      ∑ k : Fin 3, (if p then w k else if i = 0 then u k else v k) *
        (if q then w k else if j = 0 then u k else v k) := by
  unfold infoEntry demo deriv
  simp only [List.map_cons, List.map_nil, List.sum_cons, List.sum_nil, add_zero]
  rw [Finset.sum_range]
  apply sum_congr rfl
  intro k _
  have hk : (k : Nat) < 3 := k.2
  cases p <;> cases q <;> simp [hk]

theorem demo_estimate (eig : EigSolver) (u v w : Fin 3 → ℝ) :
    estimateCovariance eig demoInfo (demo u v w) [true] =
      margCovariance eig (HOf demoInfo (demo u v w) [true]) 2 1 := by
  unfold estimateCovariance
  simp only
  rw [if_neg (by
    have := covFits_true (demo_setting u v w)
    unfold mOf rOf blk at this
    rw [this]; simp)]
  rfl

theorem demo_H (u v w : Fin 3 → ℝ) (p q : Bool) (i j : Nat) (hi : i < (demoInfo p).size)
    (hj : j < (demoInfo q).size) :
    HOf demoInfo (demo u v w) [true] ((if p then 2 else 0) + i) ((if q then 2 else 0) + j) =
      ∑ k : Fin 3, (if p then w k else if i = 0 then u k else v k) *
        (if q then w k else if j = 0 then u k else v k) := by
  have := H_entry (demo_setting u v w) (p := p) (q := q) (by cases p <;> simp)
    (by cases q <;> simp) hi hj
  rw [demo_entry] at this
  rw [← this]
  cases p <;> cases q <;> rfl

theorem demo_entries (u v w : Fin 3 → ℝ) :
    let H := HOf demoInfo (demo u v w) [true]
    H 0 0 = ∑ k, u k * u k ∧ H 0 1 = ∑ k, u k * v k ∧ H 1 0 = ∑ k, v k * u k ∧
    H 1 1 = ∑ k, v k * v k ∧ H 0 2 = ∑ k, u k * w k ∧ H 1 2 = ∑ k, v k * w k ∧
    H 2 0 = ∑ k, w k * u k ∧ H 2 1 = ∑ k, w k * v k ∧ H 2 2 = ∑ k, w k * w k := by
  have f0 : 0 < (demoInfo false).size := by decide
  have f1 : 1 < (demoInfo false).size := by decide
  have t0 : 0 < (demoInfo true).size := by decide
  refine ⟨?_, ?_, ?_, ?_, ?_, ?_, ?_, ?_, ?_⟩
  · simpa using demo_H u v w false false 0 0 f0 f0
  · simpa using demo_H u v w false false 0 1 f0 f1
  · simpa using demo_H u v w false false 1 0 f1 f0
  · simpa using demo_H u v w false false 1 1 f1 f1
  · simpa using demo_H u v w false true 0 0 f0 t0
  · simpa using demo_H u v w false true 1 0 f1 t0
  · simpa using demo_H u v w true false 0 0 t0 f0
  · simpa using demo_H u v w true false 0 1 t0 f1
  · simpa using demo_H u v w true true 0 0 t0 t0

theorem demo_apply (u v w : Fin 3 → ℝ) (x : Bool → Nat → ℝ) (p : Bool) (i : Nat) :
    applyInfo demoInfo (demo u v w) {false, true} x p i =
      infoEntry (demo u v w) p i false 0 * x false 0 + infoEntry (demo u v w) p i false 1 * x false 1 +
        infoEntry (demo u v w) p i true 0 * x true 0 := by
  unfold applyInfo
  rw [sum_insert (by simp), sum_singleton]
  simp only [demoInfo, sum_range_succ, range_zero, sum_empty, zero_add]

theorem demo_marg (u v w : Fin 3 → ℝ) (x : Bool → Nat → ℝ) (p : Bool) (i : Nat) :
    applyInfo demoInfo (demo u v w) (({false, true} : Finset Bool).filter (fun p => p ∉ [true])) x p i =
      infoEntry (demo u v w) p i false 0 * x false 0 + infoEntry (demo u v w) p i false 1 * x false 1 := by
  have : ({false, true} : Finset Bool).filter (fun p => p ∉ [true]) = {false} := by decide
  rw [this]
  unfold applyInfo
  rw [sum_singleton]
  simp only [demoInfo, sum_range_succ, range_zero, sum_empty, zero_add]

/-- **C86 fails for badly scaled problems.**  The information matrix is nonsingular, but the
parameters to be marginalised have an eigenvalue between 0 and 1e-8 whose eigenvector sums to
zero: the inverse check passes, the direction is dropped and the returned variance is half the true
one. -/
theorem C86_small_refuted (eig : EigSolver) (he : IsEigSolver eig) :
    ∃ (info : Bool → ParamInfo) (fs : List (Res ℝ Bool)) (S : Finset Bool) (C : Nat → Nat → ℝ),
      CovSetting info fs [true] S ∧
      (∀ x, (∀ p ∈ S, ∀ i < (info p).size, applyInfo info fs S x p i = 0) →
        ∀ p ∈ S, ∀ i < (info p).size, x p i = 0) ∧
      estimateCovariance eig info fs [true] = .ok (some (1, C)) ∧ C 0 0 = 1 / 2 ∧
      ∀ x, InverseColumn info fs S true 0 x → x true 0 = 1 := by
  obtain ⟨h00, h01, h10, h11, h02, h12, h20, h21, h22⟩ :=
    demo_entries ![1, 1/100000, 0] ![1, -(1/100000), 0] ![0, 1, 1]
  simp [Fin.sum_univ_three] at h00 h01 h10 h11 h02 h12 h20 h21 h22
  norm_num at h00 h01 h10 h11 h02 h12 h20 h21 h22
  obtain ⟨C, hC, hv⟩ := margCovariance_two he (HOf demoInfo
    (demo ![1, 1/100000, 0] ![1, -(1/100000), 0] ![0, 1, 1]) [true])
    (10000000001 / 10000000000) (9999999999 / 10000000000) (1 / 100000) (-(1 / 100000)) 2
    ((1/2) / (2 - 2 / 10000000000)) (-(2 / 10000000000) * ((1/2) / (2 - 2 / 10000000000)))
    (by rw [h00]) (by rw [h01]) (by rw [h10]) (by rw [h11]) (by rw [h02]) (by rw [h12])
    (by rw [h20]) (by rw [h21]) (by rw [h22]) (by norm_num) (by norm_num) (by norm_num)
    (by norm_num)
  have hin : ∀ x : Bool → Nat → ℝ, ∀ z : ℝ,
      (∀ p ∈ ({false, true} : Finset Bool), ∀ i < (demoInfo p).size, applyInfo demoInfo
        (demo ![1, 1/100000, 0] ![1, -(1/100000), 0] ![0, 1, 1]) {false, true} x p i =
          if p = true ∧ i = 0 then z else 0) →
      x true 0 = z ∧ x false 0 = - 50000 * z ∧ x false 1 = 50000 * z := by
    intro x z hx
    have e1 := hx false (by simp) 0 (by decide)
    have e2 := hx false (by simp) 1 (by decide)
    have e3 := hx true (by simp) 0 (by decide)
    rw [demo_apply] at e1 e2 e3
    simp only [demo_entry, Fin.sum_univ_three] at e1 e2 e3
    simp at e1 e2 e3
    norm_num at e1 e2 e3
    refine ⟨?_, ?_, ?_⟩ <;> linarith
  refine ⟨demoInfo, _, {false, true}, C, demo_setting _ _ _, ?_, (demo_estimate _ _ _ _).trans hC,
    ?_, ?_⟩
  · intro x hx p hp i hi
    obtain ⟨a, b, c⟩ := hin x 0 (by
      intro p hp i hi
      rw [hx p hp i hi, ite_self])
    cases p
    · have : i = 0 ∨ i = 1 := by
        have : i < 2 := hi
        omega
      rcases this with rfl | rfl
      · rw [b, mul_zero]
      · rw [c, mul_zero]
    · have : i = 0 := by
        have : i < 1 := hi
        omega
      rw [this, a]
  · rw [hv]; norm_num
  · intro x hx
    exact (hin x 1 hx).1

/-- The last stage rejects a 2 + 1 system. -/
theorem margCovariance_two_none {eig : EigSolver} (he : IsEigSolver eig) (H : Mat ℝ) (r : Nat)
    (a b s t : ℝ)
    (h00 : H 0 0 = a) (h01 : H 0 1 = b) (h10 : H 1 0 = b) (h11 : H 1 1 = a)
    (h1 : (if a + b > 1e-8 then (a + b)⁻¹ else 0) = s * (a + b) + t)
    (h2 : (if a - b > 1e-8 then (a - b)⁻¹ else 0) = s * (a - b) + t)
    (hsum : 1e-4 < |2 * ((a + b) * (s * (a + b) + t) - 1)|) :
    margCovariance eig H 2 r = .ok none := by
  have hmm : block H 0 0 2 2 = !![a, b; b, a] := by
    ext i j; fin_cases i <;> fin_cases j <;> simp [block, h00, h01, h10, h11]
  have hsym : (!![a, b; b, a] : Matrix (Fin 2) (Fin 2) ℝ)ᵀ = !![a, b; b, a] := by
    ext i j; fin_cases i <;> fin_cases j <;> rfl
  have hinv := pseudoInv_linear he hsym s t (by
    intro lam hlam
    rcases eig_two hlam with rfl | rfl
    · exact h1
    · exact h2)
  have hinv' : s • (!![a, b; b, a] : Matrix (Fin 2) (Fin 2) ℝ) + t • 1 =
      !![s * a + t, s * b; s * b, s * a + t] := by
    ext i j; fin_cases i <;> fin_cases j <;> simp
  rw [hinv'] at hinv
  unfold margCovariance
  simp only
  rw [hmm, symmetrise_self hsym, hinv]
  rw [if_neg (by norm_num), if_pos]
  refine lt_of_lt_of_eq hsum ?_
  congr 1
  simp [Fin.sum_univ_two, Matrix.mul_apply]
  ring

/-- C86 fails for unobservable nuisance parameters: the covariance of the requested parameter is
well defined (its column of the information matrix is solvable and its variance unique), the
pseudo inverse is there to handle this case, but -1 is returned: the check asks for an inverse. -/
theorem C86_rejects_refuted (eig : EigSolver) (he : IsEigSolver eig) :
    ∃ (info : Bool → ParamInfo) (fs : List (Res ℝ Bool)) (S : Finset Bool),
      CovSetting info fs [true] S ∧ (∃ x, InverseColumn info fs S true 0 x) ∧
      (∀ x, InverseColumn info fs S true 0 x → x true 0 = 1) ∧
      estimateCovariance eig info fs [true] = .ok none := by
  obtain ⟨h00, h01, h10, h11, -⟩ := demo_entries ![1, 0, 0] ![-1, 0, 0] ![0, 0, 1]
  simp [Fin.sum_univ_three] at h00 h01 h10 h11
  refine ⟨demoInfo, demo ![1, 0, 0] ![-1, 0, 0] ![0, 0, 1], {false, true}, demo_setting _ _ _,
    ⟨fun p _ => if p then 1 else 0, ?_⟩, ?_, ?_⟩
  · intro p _ i hi
    rw [demo_apply]
    simp only [demo_entry, Fin.sum_univ_three]
    cases p
    · simp
    · have : i = 0 := by
        have : i < 1 := hi
        omega
      simp [this]
  · intro x hx
    have e3 := hx true (by simp) 0 (by decide)
    rw [demo_apply] at e3
    simp only [demo_entry, Fin.sum_univ_three] at e3
    simpa using e3
  · rw [demo_estimate]
    exact margCovariance_two_none he _ _ 1 (-1) (1/4) 0 h00 h01 h10 h11 (by norm_num) (by norm_num)
      (by norm_num)

/-- C86 witness: a problem with coupled parameters that meets the hypotheses of
`C86_succeeds_partial` and `C86_covariance_partial`. -/
example (eig : EigSolver) (he : IsEigSolver eig) :
    ∃ fs : List (Res ℝ Bool), CovSetting demoInfo fs [true] {false, true} ∧
      (∀ lam, InfoEigenvalue demoInfo fs (({false, true} : Finset Bool).filter (fun p => p ∉ [true])) lam →
        1e-8 < lam) ∧ infoEntry fs false 0 true 0 ≠ 0 ∧
      ∃ n C, estimateCovariance eig demoInfo fs [true] = .ok (some (n, C)) := by
  have hl : ∀ lam, InfoEigenvalue demoInfo (demo ![1, 0, 0] ![0, 1, 0] ![1, 0, 1])
      (({false, true} : Finset Bool).filter (fun p => p ∉ [true])) lam → 1e-8 < lam := by
    rintro lam ⟨v, ⟨p, hp, i, hi, hne⟩, hv⟩
    have hS : p = false := by
      have := (mem_filter.mp hp).2
      cases p
      · rfl
      · simp at this
    subst hS
    have e := hv false hp i hi
    rw [demo_marg] at e
    simp only [demo_entry, Fin.sum_univ_three] at e
    have : i = 0 ∨ i = 1 := by
      have : i < 2 := hi
      omega
    have hlam : lam = 1 := by
      rcases this with rfl | rfl
      · simp at e
        exact mul_right_cancel₀ hne (by rw [one_mul]; exact e.symm)
      · simp at e
        exact mul_right_cancel₀ hne (by rw [one_mul]; exact e.symm)
    rw [hlam]; norm_num
  refine ⟨demo ![1, 0, 0] ![0, 1, 0] ![1, 0, 1], demo_setting _ _ _, hl, ?_, ?_⟩
  · simp [demo_entry, Fin.sum_univ_three]
  · refine C86_succeeds_partial eig he (demo_setting _ _ _) ⟨false, by simp, by simp, by decide⟩ hl ?_
    intro x hx p hp i hi
    have e1 := hx false (by simp) 0 (by decide)
    have e2 := hx false (by simp) 1 (by decide)
    have e3 := hx true (by simp) 0 (by decide)
    rw [demo_apply] at e1 e2 e3
    simp only [demo_entry, Fin.sum_univ_three] at e1 e2 e3
    simp at e1 e2 e3
    cases p
    · have : i = 0 ∨ i = 1 := by
        have : i < 2 := hi
        omega
      rcases this with rfl | rfl
      · linarith
      · linarith
    · have : i = 0 := by
        have : i < 1 := hi
        omega
      rw [this]; linarith

/-! ### A parameter of another type -/

/-- A pose, a camera and a time delay. -/
def mixInfo : Fin 3 → ParamInfo
  | 0 => ⟨false, .pose, 1⟩
  | 1 => ⟨false, .camera, 1⟩
  | 2 => ⟨false, .other, 1⟩

/-- One residual block with three rows: pose alone, time delay alone, pose and camera. -/
noncomputable def mix : List (Res ℝ (Fin 3)) :=
  [⟨3, fun _ => 0, [(0, fun k _ => if k = 1 then 0 else 1), (1, fun k _ => if k = 2 then 1 else 0),
    (2, fun k _ => if k = 1 then 1 else 0)]⟩]

theorem mix_apply (x : Fin 3 → Nat → ℝ) (p : Fin 3) (i : Nat) :
    applyInfo mixInfo mix Finset.univ x p i =
      infoEntry mix p i 0 0 * x 0 0 + infoEntry mix p i 1 0 * x 1 0 + infoEntry mix p i 2 0 * x 2 0 := by
  unfold applyInfo
  rw [Fin.sum_univ_three]
  simp only [mixInfo, sum_range_succ, range_zero, sum_empty, zero_add]

/-- C86 fails with a free parameter of another type (a time delay): it shares the first column
with a pose, and the returned variance is 3/2 instead of 2. -/
theorem C86_kind_refuted (eig : EigSolver) (he : IsEigSolver eig) :
    ∃ (info : Fin 3 → ParamInfo) (fs : List (Res ℝ (Fin 3))) (C : Nat → Nat → ℝ),
      (∀ p, Optimised info fs p) ∧
      estimateCovariance eig info fs [1] = .ok (some (1, C)) ∧ C 0 0 = 3 / 2 ∧
      (∃ x, InverseColumn info fs Finset.univ 1 0 x) ∧
      ∀ x, InverseColumn info fs Finset.univ 1 0 x → x 1 0 = 2 := by
  have e : ∀ a b, HOf mixInfo mix [1] a b = 0 + ∑ k ∈ range (resLen mix),
      stackJ mixInfo (cOf mixInfo mix [1]) mix k a * stackJ mixInfo (cOf mixInfo mix [1]) mix k b :=
    (hess_all mixInfo (cOf mixInfo mix [1]) mix (fun _ _ => 0) (fun _ => 0)).1
  have c0 : cOf mixInfo mix [1] 0 = 0 := rfl
  have c1 : cOf mixInfo mix [1] 1 = 1 := rfl
  have c2 : cOf mixInfo mix [1] 2 = 0 := rfl
  have hJ : ∀ k a, stackJ mixInfo (cOf mixInfo mix [1]) mix k a =
      if k < 3 then (if a = 0 then (if k = 1 then 0 else 1) else 0) +
        ((if a = 1 then (if k = 2 then 1 else 0) else 0) +
          ((if a = 0 then (if k = 1 then 1 else 0) else 0) + 0)) else 0 := by
    intro k a
    have i0 : InCol mixInfo (cOf mixInfo mix [1]) 0 a ↔ a = 0 := by
      unfold InCol; rw [c0]; simp only [mixInfo]; omega
    have i1 : InCol mixInfo (cOf mixInfo mix [1]) 1 a ↔ a = 1 := by
      unfold InCol; rw [c1]; simp only [mixInfo]; omega
    have i2 : InCol mixInfo (cOf mixInfo mix [1]) 2 a ↔ a = 0 := by
      unfold InCol; rw [c2]; simp only [mixInfo]; omega
    conv_lhs => rw [show mix = [⟨3, fun _ => 0, [(0, fun k _ => if k = 1 then 0 else 1),
      (1, fun k _ => if k = 2 then 1 else 0), (2, fun k _ => if k = 1 then 1 else 0)]⟩] from rfl]
    rw [stackJ, stackJ, rowG, rowG, rowG, rowG, ent, ent, ent]
    simp only [show ([⟨3, fun _ => 0, [(0, fun k _ => if k = 1 then 0 else 1),
      (1, fun k _ => if k = 2 then 1 else 0), (2, fun k _ => if k = 1 then 1 else 0)]⟩] :
      List (Res ℝ (Fin 3))) = mix from rfl, i0, i1, i2]
    simp only [mixInfo, Bool.false_eq_true, if_false]
  have h00 : HOf mixInfo mix [1] 0 0 = 3 := by
    rw [e, show resLen mix = 3 from rfl]; simp [hJ, sum_range_succ]; norm_num
  have h01 : HOf mixInfo mix [1] 0 1 = 1 := by
    rw [e, show resLen mix = 3 from rfl]; simp [hJ, sum_range_succ]
  have h10 : HOf mixInfo mix [1] 1 0 = 1 := by rw [H_symm, h01]
  have h11 : HOf mixInfo mix [1] 1 1 = 1 := by
    rw [e, show resLen mix = 3 from rfl]; simp [hJ, sum_range_succ]
  have hest : estimateCovariance eig mixInfo mix [1] = margCovariance eig (HOf mixInfo mix [1]) 1 1 := by
    unfold estimateCovariance
    simp only
    rw [if_neg]
    · rfl
    · have : covFits mixInfo (covOrder mixInfo [1] (blk mix)) 2 mix = true := by
        unfold covFits mix
        simp only [List.all_cons, List.all_nil, Bool.and_true]
        decide
      intro h
      exact absurd (this.symm.trans h) (by simp)
  have hmm : block (HOf mixInfo mix [1]) 0 0 1 1 = !![3] := by
    ext i j; fin_cases i; fin_cases j; simp [block, h00]
  have hsym : (!![3] : Matrix (Fin 1) (Fin 1) ℝ)ᵀ = !![3] := by
    ext i j; fin_cases i; fin_cases j; rfl
  have hinv := pseudoInv_linear he hsym 0 (1/3) (by
    rintro lam ⟨v, hv, hA⟩
    have h0 := congrFun hA 0
    simp [Matrix.mulVec, dotProduct] at h0
    have : lam = 3 := by
      rcases h0 with h0 | h0
      · exact h0.symm
      · exact absurd (by funext i; fin_cases i; exact h0) hv
    rw [this]; norm_num)
  refine ⟨mixInfo, mix, entries (!![3/2] : Matrix (Fin 1) (Fin 1) ℝ), ?_, ?_, ?_, ?_, ?_⟩
  · intro p
    fin_cases p <;> simp [Optimised, mixInfo, mix]
  · rw [hest]
    unfold margCovariance
    simp only
    rw [hmm, symmetrise_self hsym, hinv]
    have hM : block (HOf mixInfo mix [1]) 1 1 1 1 - block (HOf mixInfo mix [1]) 1 0 1 1 *
        ((0 : ℝ) • (!![3] : Matrix (Fin 1) (Fin 1) ℝ) + (1 / 3 : ℝ) • 1) *
        block (HOf mixInfo mix [1]) 0 1 1 1 = !![2/3] := by
      ext i j
      fin_cases i; fin_cases j
      simp [block, Matrix.mul_apply, h11, h10, h01]
      norm_num
    rw [hM, if_neg (by norm_num), if_neg (by simp [Matrix.mul_apply]; norm_num), if_neg (by simp [Matrix.det_fin_one])]
    have : (!![2/3] : Matrix (Fin 1) (Fin 1) ℝ)⁻¹ = !![3/2] := by
      apply Matrix.inv_eq_left_inv
      ext i j
      fin_cases i; fin_cases j
      simp [Matrix.mul_apply]
    rw [this]
  · rw [entries_apply _ 0 0 (by norm_num) (by norm_num)]; rfl
  · refine ⟨fun p _ => if p = 0 then -1 else if p = 1 then 2 else 0, ?_⟩
    intro p _ i hi
    have : i = 0 := by
      have : (mixInfo p).size = 1 := by fin_cases p <;> rfl
      omega
    subst this
    rw [mix_apply]
    fin_cases p <;> simp [infoEntry, mix, deriv, sum_range_succ] <;> norm_num
  · intro x hx
    have e0 := hx 0 (by simp) 0 (by decide)
    have e1 := hx 1 (by simp) 0 (by decide)
    rw [mix_apply] at e0 e1
    simp [infoEntry, mix, deriv, sum_range_succ] at e0 e1
    norm_num at e0 e1
    linarith

end Yac.Solver
