import Verif.Marg.Cost
import Verif.Geom.PoseProps

/-!
# C45: marginalisation preserves the optimum of the remaining parameters
-/

namespace Yac.Marg
open Matrix Yac.Solver Yac.Geom Finset

/-! ### The Schur complement -/

theorem solves_split (m r : Nat) (H : Mat ℝ) (b x : Nat → ℝ) :
    Solves (m + r) H b x ↔
      block H 0 0 m m *ᵥ (fun i => x i) + block H 0 m m r *ᵥ (fun i => x (m + i)) = seg b 0 m ∧
      block H m 0 r m *ᵥ (fun i => x i) + block H m m r r *ᵥ (fun i => x (m + i)) = seg b m r := by
  have hs : ∀ i, ∑ j ∈ range (m + r), H i j * x j =
      ∑ j : Fin m, H i j * x j + ∑ j : Fin r, H i (m + j) * x (m + j) := by
    intro i
    rw [sum_range_add, Finset.sum_range, Finset.sum_range]
  constructor
  · intro h
    constructor
    · ext i
      have := h i (by omega)
      rw [hs] at this
      simp only [Pi.add_apply, Matrix.mulVec, dotProduct, block, seg, Nat.zero_add]
      exact this
    · ext i
      have := h (m + i) (by omega)
      rw [hs] at this
      simp only [Pi.add_apply, Matrix.mulVec, dotProduct, block, seg, Nat.zero_add]
      exact this
  · rintro ⟨h1, h2⟩ i hi
    rw [hs]
    by_cases h : i < m
    · have := congrFun h1 ⟨i, h⟩
      simpa only [Pi.add_apply, Matrix.mulVec, dotProduct, block, seg, Nat.zero_add] using this
    · have := congrFun h2 ⟨i - m, by omega⟩
      simp only [Pi.add_apply, Matrix.mulVec, dotProduct, block, seg, Nat.zero_add] at this
      rw [show m + (i - m) = i by omega] at this
      exact this

/-- The algebra of eliminating the first block. -/
theorem schur_solves {m r : Nat} {H : Mat ℝ} {b : Nat → ℝ} {Q : Matrix (Fin m) (Fin m) ℝ}
    (h1 : block H 0 0 m m * Q * block H 0 m m r = block H 0 m m r)
    (h2 : (block H 0 0 m m * Q) *ᵥ seg b 0 m = seg b 0 m)
    (h3 : block H m 0 r m * Q * block H 0 0 m m = block H m 0 r m) (xr : Fin r → ℝ) :
    (complement H b m r Q).1 *ᵥ xr = (complement H b m r Q).2 ↔
      ∃ x, Solves (m + r) H b x ∧ ∀ i : Fin r, x (m + i) = xr i := by
  unfold complement
  simp only
  constructor
  · intro h
    refine ⟨fun a => if ha : a < m then (Q *ᵥ (seg b 0 m - block H 0 m m r *ᵥ xr)) ⟨a, ha⟩
      else if ha : a - m < r then xr ⟨a - m, ha⟩ else 0, ?_, ?_⟩
    · rw [solves_split]
      have e1 : (fun i : Fin m => (fun a => if ha : a < m then
          (Q *ᵥ (seg b 0 m - block H 0 m m r *ᵥ xr)) ⟨a, ha⟩
          else if ha : a - m < r then xr ⟨a - m, ha⟩ else 0) (i : Nat)) =
          Q *ᵥ (seg b 0 m - block H 0 m m r *ᵥ xr) := by
        funext i; simp
      have e2 : (fun i : Fin r => (fun a => if ha : a < m then
          (Q *ᵥ (seg b 0 m - block H 0 m m r *ᵥ xr)) ⟨a, ha⟩
          else if ha : a - m < r then xr ⟨a - m, ha⟩ else 0) (m + (i : Nat))) = xr := by
        funext i; simp
      rw [e1, e2]
      constructor
      · rw [Matrix.mulVec_mulVec, Matrix.mulVec_sub, h2, Matrix.mulVec_mulVec, h1]
        abel
      · rw [Matrix.mulVec_mulVec, Matrix.mulVec_sub, Matrix.mulVec_mulVec]
        rw [Matrix.sub_mulVec] at h
        have := congrArg (· + (block H m 0 r m * Q) *ᵥ seg b 0 m) h
        simp only [sub_add_cancel] at this
        rw [← this]
        abel
    · intro i; simp
  · rintro ⟨x, hx, hxr⟩
    obtain ⟨g1, g2⟩ := (solves_split m r H b x).mp hx
    have e : (fun i : Fin r => x (m + i)) = xr := funext hxr
    rw [e] at g1 g2
    rw [← g1, ← g2, Matrix.sub_mulVec, Matrix.mulVec_add, Matrix.mulVec_mulVec,
      Matrix.mulVec_mulVec, h3]
    abel

theorem block_transpose (H : Mat ℝ) (i j m n : Nat) (N : Nat) (hi : i + m ≤ N) (hj : j + n ≤ N)
    (hs : ∀ a < N, ∀ b < N, H a b = H b a) : (block H i j m n)ᵀ = block H j i n m := by
  ext a b
  exact hs _ (by have := b.2; omega) _ (by have := a.2; omega)

/-- **C45, elimination.**  For every symmetric system whose marginalised block has all its
eigenvalues above 1e-8, of any size and split, the Schur complement is symmetric and its
solutions are exactly the remaining parts of the solutions of the full system. -/
theorem C45_solution_partial (eig : EigSolver) (he : IsEigSolver eig) (H : Mat ℝ) (b : Nat → ℝ)
    (m r : Nat) (hm : 0 < m) (hr : 0 < r)
    (hs : ∀ i < m + r, ∀ j < m + r, H i j = H j i)
    (hl : ∀ lam, IsEigenvalue (fun i j : Fin m => H i j) lam → 1e-8 < lam) :
    ∃ Hm bm, schur eig H b m r = .ok (Hm, bm) ∧ Hmᵀ = Hm ∧
      ∀ xr : Fin r → ℝ, Hm *ᵥ xr = bm ↔
        ∃ x, Solves (m + r) H b x ∧ ∀ i : Fin r, x (m + i) = xr i := by
  have hb : block H 0 0 m m = (fun i j : Fin m => H i j) := by
    funext i j; simp [block]
  have hA : (block H 0 0 m m)ᵀ = block H 0 0 m m := block_transpose H 0 0 m m (m + r) (by omega) (by omega) hs
  have hmr : (block H 0 m m r)ᵀ = block H m 0 r m :=
    block_transpose H 0 m m r (m + r) (by omega) (by omega) hs
  have hrm : (block H m 0 r m)ᵀ = block H 0 m m r :=
    block_transpose H m 0 r m (m + r) (by omega) (by omega) hs
  have hrr : (block H m m r r)ᵀ = block H m m r r :=
    block_transpose H m m r r (m + r) (by omega) (by omega) hs
  have hinv : block H 0 0 m m * pseudoInv eig (block H 0 0 m m) = 1 :=
    pseudoInv_inv he hA (by rw [hb]; exact hl)
  have hinv' : pseudoInv eig (block H 0 0 m m) * block H 0 0 m m = 1 := mul_eq_one_comm.mp hinv
  have hP := pseudoInv_symm eig (block H 0 0 m m)
  refine ⟨_, _, by unfold schur; rw [if_pos ⟨hm, hr⟩, symmetrise_self hA], ?_, ?_⟩
  · unfold complement
    simp only
    rw [transpose_sub, transpose_mul, transpose_mul, hmr, hrm, hrr, hP, Matrix.mul_assoc]
  · exact schur_solves (by rw [hinv, Matrix.one_mul]) (by rw [hinv, Matrix.one_mulVec])
      (by rw [Matrix.mul_assoc, hinv', Matrix.mul_one])

/-- The contract of the eigen solver can be met. -/
theorem eigSolver_exists : ∃ eig, IsEigSolver eig := by
  classical
  have : ∀ n (A : Matrix (Fin n) (Fin n) ℝ), ∃ E : Eig n, Aᵀ = A →
      E.vecsᵀ * E.vecs = 1 ∧ A = E.vecs * diagonal E.vals * E.vecsᵀ := by
    intro n A
    by_cases hA : Aᵀ = A
    · have hH : A.IsHermitian := by
        show Aᴴ = A
        rw [conjTranspose_eq_transpose_of_trivial]; exact hA
      refine ⟨⟨hH.eigenvalues, (hH.eigenvectorUnitary : Matrix (Fin n) (Fin n) ℝ)⟩, fun _ => ?_⟩
      have hst : ∀ M : Matrix (Fin n) (Fin n) ℝ, star M = Mᵀ := fun M =>
        conjTranspose_eq_transpose_of_trivial M
      constructor
      · have := Unitary.coe_star_mul_self hH.eigenvectorUnitary
        rw [hst] at this
        exact this
      · have := hH.spectral_theorem
        rw [Unitary.conjStarAlgAut_apply] at this
        conv_lhs => rw [this]
        rw [← hst]
        rfl
    · exact ⟨⟨0, 0⟩, fun h => absurd h hA⟩
  choose f hf using this
  exact ⟨f, fun n A h => hf n A h⟩

/-- C45 witness: a coupled system of two marginalised and one remaining parameter. -/
example : ∃ (H : Mat ℝ) (eig : EigSolver), IsEigSolver eig ∧
    (∀ i < 2 + 1, ∀ j < 2 + 1, H i j = H j i) ∧ H 0 2 ≠ 0 ∧ H 0 1 ≠ 0 ∧
    (∀ lam, IsEigenvalue (fun i j : Fin 2 => H i j) lam → 1e-8 < lam) := by
  obtain ⟨eig, he⟩ := eigSolver_exists
  refine ⟨fun i j => if i = j then 2 else 1, eig, he, ?_, by norm_num, by norm_num, ?_⟩
  · intro i _ j _
    simp only [eq_comm]
  · rintro lam ⟨v, hv, h⟩
    have h0 := congrFun h 0
    have h1 := congrFun h 1
    simp [Matrix.mulVec, dotProduct, Fin.sum_univ_two] at h0 h1
    have : (lam - 1) * (lam - 3) = 0 ∨ (v 0 = 0 ∧ v 1 = 0) := by
      by_cases hz : v 0 = 0
      · rw [hz] at h0
        right
        exact ⟨hz, by linarith⟩
      · left
        have : (lam - 1) * (lam - 3) * v 0 = 0 := by
          have e : v 1 = (lam - 2) * v 0 := by linarith
          rw [e] at h1
          linear_combination -h1
        exact (mul_eq_zero.mp this).resolve_right hz
    rcases this with h' | ⟨h', h''⟩
    · rcases mul_eq_zero.mp h' with h' | h' <;> norm_num <;> linarith
    · exfalso
      apply hv
      ext i
      fin_cases i
      · exact h'
      · exact h''

/-- C45 is false for a positive definite system whose marginalised block is below the
threshold: the coupled system below has a unique solution, and the Schur complement has another
one. -/
theorem C45_small_refuted (eig : EigSolver) (he : IsEigSolver eig) :
    ∃ (H : Mat ℝ) (b : Nat → ℝ) (x : Nat → ℝ) (Hm : Matrix (Fin 1) (Fin 1) ℝ) (bm : Fin 1 → ℝ),
      (∀ y : Nat → ℝ, (y 0 ≠ 0 ∨ y 1 ≠ 0) →
        0 < ∑ i ∈ range 2, ∑ j ∈ range 2, y i * H i j * y j) ∧
      (∀ i < 2, ∀ j < 2, H i j = H j i) ∧
      schur eig H b 1 1 = .ok (Hm, bm) ∧ Solves 2 H b x ∧
      ¬ Hm *ᵥ (fun i => x (1 + i)) = bm := by
  let H : Mat ℝ := fun i j => if i = 1 ∧ j = 1 then 1 else 1 / 10 ^ 9
  let b : Nat → ℝ := fun i => if i = 0 then 1 / 10 ^ 9 else 0
  have hB : block H 0 0 1 1 = fun _ _ => 1 / 10 ^ 9 := by
    funext i j
    fin_cases i; fin_cases j
    simp [block, H]
  have hA : (block H 0 0 1 1)ᵀ = block H 0 0 1 1 := by rw [hB]; rfl
  have hval : (eig 1 (block H 0 0 1 1)).vals 0 = 1 / 10 ^ 9 := by
    obtain ⟨v, hv, h⟩ := eig_isEigenvalue he hA 0
    have h0 := congrFun h 0
    rw [hB] at h0
    simp only [Matrix.mulVec, dotProduct, Fin.sum_univ_one, Pi.smul_apply, smul_eq_mul] at h0
    have hv0 : v 0 ≠ 0 := by
      intro h'
      apply hv
      ext i; fin_cases i; exact h'
    rw [hB]
    exact (mul_right_cancel₀ hv0 h0).symm
  have hP : pseudoInv eig (block H 0 0 1 1) = 0 := by
    unfold pseudoInv
    have : invAbove 1e-8 (eig 1 (block H 0 0 1 1)).vals = 0 := by
      funext i
      fin_cases i
      show (if (eig 1 (block H 0 0 1 1)).vals 0 > 1e-8 then _ else _) = _
      rw [hval, if_neg (by norm_num)]
      rfl
    rw [this]
    simp
  refine ⟨H, b, fun i => if i = 0 then 10 ^ 9 / (10 ^ 9 - 1) else -1 / (10 ^ 9 - 1), _, _, ?_, ?_, by
    unfold schur
    rw [if_pos ⟨one_pos, one_pos⟩, symmetrise_self hA, hP], ?_, ?_⟩
  · intro y hy
    simp only [sum_range_succ, sum_range_zero, H]
    norm_num
    have : 0 < (y 0 + y 1) ^ 2 / 10 ^ 9 + (1 - 1 / 10 ^ 9) * y 1 ^ 2 := by
      by_cases h1 : y 1 = 0
      · have h0 : y 0 ≠ 0 := hy.resolve_right (fun h => h h1)
        rw [h1]
        have := pow_pos (abs_pos.mpr h0) 2
        rw [sq_abs] at this
        norm_num
        exact this
      · have := pow_pos (abs_pos.mpr h1) 2
        rw [sq_abs] at this
        have h2 := sq_nonneg (y 0 + y 1)
        norm_num
        nlinarith
    norm_num at this
    linarith
  · intro i _ j _
    simp only [H, and_comm]
  · intro i hi
    obtain rfl | rfl : i = 0 ∨ i = 1 := by omega
    · simp only [sum_range_succ, sum_range_zero, H, b]
      norm_num
    · simp only [sum_range_succ, sum_range_zero, H, b]
      norm_num
  · intro h
    have h0 := congrFun h 0
    simp [complement, block, seg, H, b, Matrix.mulVec, dotProduct] at h0
    norm_num at h0

/-! ### The whole marginalisation -/

variable {P : Type} [DecidableEq P]

/-- The increments of the kept parameters, calculated from new values. -/
def IsIncrement (info : P → PInfo) (fs : List (Res ℝ P)) (x x0 : P → Nat → ℝ) (δ : P → Nat → ℝ) : Prop :=
  ∀ p, Remaining info fs p → ∀ a < (info p).base.size, (minusOf (info p) (x p) (x0 p))[a]? = some (δ p a)

/-- **C45.**  Marginalise the flagged parameters of any set of residuals whose kept parameters are
of the known types, when the eigenvalues of the marginalised block are zero or above 1e-8 and
those of the reduced system zero or above the relative tolerance.  Then for all values of the
kept parameters, the sum of squares of the new residual is, up to a constant, the smallest
first-order cost of the original residuals over all moves of the marginalised parameters. -/
theorem C45_marginalize_partial (eig : EigSolver) (he : IsEigSolver eig) (info : P → PInfo)
    (x0 : P → Nat → ℝ) (fs : List (Res ℝ P)) (hk : KnownTypes info fs) (M : MargRes P) (ps : List P)
    (h : marginalize eig info x0 fs = .ok (M, ps))
    (hl : ∀ lam, IsEigenvalue (block (formHessian info fs).H 0 0 (formHessian info fs).m
      (formHessian info fs).m) lam → lam = 0 ∨ 1e-8 < lam)
    (hl2 : ∀ Hm bm, schur eig (formHessian info fs).H (formHessian info fs).b (formHessian info fs).m
      (formHessian info fs).r = .ok (Hm, bm) → ∀ lam mu, IsEigenvalue Hm lam → IsEigenvalue Hm mu →
      lam = 0 ∨ 2⁻¹ ^ 52 * (formHessian info fs).r * mu < lam) :
    (∀ p, p ∈ ps ↔ Marginalised info fs p) ∧
    (∀ p, p ∈ M.remain ↔ Remaining info fs p) ∧
    ∃ c, ∀ x : P → Nat → ℝ, ∃ e, evaluate info M x = .ok e ∧
      IsLeast {cost | ∃ δ, IsIncrement info fs x x0 δ ∧ cost = linCost info fs δ}
        (∑ i, e i ^ 2 + c) := by
  have L := layout info fs
  obtain ⟨b1, b2, b3, b4, b5, b6⟩ := hessian_blocks info fs
  unfold marginalize at h
  simp only at h
  unfold schur at h hl2
  by_cases hpos : (formHessian info fs).m > 0 ∧ (formHessian info fs).r > 0
  swap
  · rw [if_neg hpos] at h; cases h
  rw [if_pos hpos] at h hl2
  have hsym : (block (formHessian info fs).H 0 0 (formHessian info fs).m (formHessian info fs).m)ᵀ =
      block (formHessian info fs).H 0 0 (formHessian info fs).m (formHessian info fs).m := by
    rw [b1, transpose_mul, transpose_transpose]
  rw [symmetrise_self hsym] at h hl2
  have hG := pseudoInv_ginv he hsym hl
  have hP := pseudoInv_symm eig
    (block (formHessian info fs).H 0 0 (formHessian info fs).m (formHessian info fs).m)
  generalize hQ : pseudoInv eig (block (formHessian info fs).H 0 0 (formHessian info fs).m
    (formHessian info fs).m) = Q at h hl2 hG hP
  rw [b1] at hG
  obtain ⟨s1, s2⟩ := schur_gn (matA info fs) (matB info fs) hP hG (vecE fs)
  have hcomp : complement (formHessian info fs).H (formHessian info fs).b (formHessian info fs).m
      (formHessian info fs).r Q = ((resid (matA info fs) Q * matB info fs)ᵀ *
        (resid (matA info fs) Q * matB info fs),
        -((resid (matA info fs) Q * matB info fs)ᵀ *ᵥ (resid (matA info fs) Q *ᵥ vecE fs))) := by
    unfold complement
    rw [b2, b3, b4, b5, b6, s1, ← s2]
  rw [hcomp] at h hl2
  obtain ⟨f1, f2⟩ := lin_factor he hpos.2 (resid (matA info fs) Q * matB info fs)
    (resid (matA info fs) Q *ᵥ vecE fs) (hl2 _ _ rfl)
  have h' : (⟨(formHessian info fs).m, (formHessian info fs).r, (formHessian info fs).remain,
      (formHessian info fs).index, linJ eig ((resid (matA info fs) Q * matB info fs)ᵀ *
        (resid (matA info fs) Q * matB info fs)),
      linR eig ((resid (matA info fs) Q * matB info fs)ᵀ *
        (resid (matA info fs) Q * matB info fs)) (-((resid (matA info fs) Q * matB info fs)ᵀ *ᵥ
          (resid (matA info fs) Q *ᵥ vecE fs))), x0⟩, (formHessian info fs).margPs) = (M, ps) := by
    have := h
    simp only [bind, Except.bind] at this
    injection this
  rw [Prod.mk.injEq] at h'
  obtain ⟨hM, hps⟩ := h'
  subst hps
  refine ⟨L.margMem, ?_, ?_⟩
  · intro p
    rw [← hM]
    show p ∈ (formHessian info fs).remain ↔ _
    rw [L.remMem]
    exact ⟨fun h => h.1, fun h => ⟨h, (hk p h).1⟩⟩
  generalize linJ eig ((resid (matA info fs) Q * matB info fs)ᵀ *
        (resid (matA info fs) Q * matB info fs)) = J0 at hM f1 f2
  generalize linR eig ((resid (matA info fs) Q * matB info fs)ᵀ *
        (resid (matA info fs) Q * matB info fs)) (-((resid (matA info fs) Q * matB info fs)ᵀ *ᵥ
          (resid (matA info fs) Q *ᵥ vecE fs))) = r0 at hM f2
  subst hM
  refine ⟨(resid (matA info fs) Q *ᵥ vecE fs) ⬝ᵥ (resid (matA info fs) Q *ᵥ vecE fs) - r0 ⬝ᵥ r0, ?_⟩
  intro x
  obtain ⟨v, v1, v2, v3⟩ := deltaChi_spec hk (⟨(formHessian info fs).m, (formHessian info fs).r,
    (formHessian info fs).remain, (formHessian info fs).index, J0, r0, x0⟩ : MargRes P)
    rfl rfl rfl rfl x
  simp only at v2 v3
  let d : Fin (formHessian info fs).r → ℝ := fun a => (v a).getD 0
  have hev : evaluate info (⟨(formHessian info fs).m, (formHessian info fs).r,
      (formHessian info fs).remain, (formHessian info fs).index, J0, r0, x0⟩ : MargRes P) x =
      .ok (r0 + J0 *ᵥ d) := by
    unfold evaluate
    rw [v1]
    show (readAll _ v >>= fun d => Except.ok (r0 + J0 *ᵥ d)) = _
    unfold readAll
    have hall : ∀ a : Fin (formHessian info fs).r, (v a).isSome = true := fun a => v2 a a.2
    rw [if_pos hall]
    rfl
  refine ⟨_, hev, ?_⟩
  have hsq : ∑ i, (r0 + J0 *ᵥ d) i ^ 2 = (r0 + J0 *ᵥ d) ⬝ᵥ (r0 + J0 *ᵥ d) := by
    rw [dotProduct]
    apply sum_congr rfl
    intro i _; ring
  show IsLeast _ (∑ i, (r0 + J0 *ᵥ d) i ^ 2 + _)
  rw [hsq, cost_factor f1 f2 d, ← Matrix.mulVec_mulVec, ← Matrix.mulVec_add]
  have hleast := partial_min_isLeast (matA info fs) hP hG (matB info fs *ᵥ d + vecE fs)
  convert hleast using 1
  -- the remaining part of a vector is `d` exactly when the moves are the increments
  have key : ∀ y : Nat → ℝ, IsIncrement info fs x x0 (fun p a => y (col (formHessian info fs).index p + a)) ↔
      (fun a : Fin (formHessian info fs).r => y ((formHessian info fs).m + a)) = d := by
    intro y
    constructor
    · intro hy
      funext a
      obtain ⟨p, hp, hc⟩ := L.cover ((formHessian info fs).m + a) (by have := a.2; omega)
      unfold InCol at hc
      simp only at hc
      have hpr : p ∈ (formHessian info fs).remain := by
        rcases hp with hp | hp
        · have := L.margCol p hp
          omega
        · exact hp
      have hR := ((L.remMem p).mp hpr).1
      have hb := L.remCol p hpr
      have g1 := hy p hR ((formHessian info fs).m + a - col (formHessian info fs).index p) (by omega)
      have g2 := (v3 p hR).2 ((formHessian info fs).m + a - col (formHessian info fs).index p) (by omega)
      rw [show col (formHessian info fs).index p - (formHessian info fs).m +
        ((formHessian info fs).m + a - col (formHessian info fs).index p) = (a : Nat) by omega, g1] at g2
      show _ = (v a).getD 0
      rw [g2, Option.getD_some]
      show _ = y _
      congr 1
      omega
    · intro hy p hR a ha
      have hpr := (L.remMem p).mpr ⟨hR, (hk p hR).1⟩
      have hb := L.remCol p hpr
      have g2 := (v3 p hR).2 a ha
      have g3 := congrFun hy ⟨col (formHessian info fs).index p - (formHessian info fs).m + a, by omega⟩
      simp only at g3
      have hlen := (v3 p hR).1
      rw [List.getElem?_eq_getElem (by omega)] at g2 ⊢
      have g4 : d ⟨col (formHessian info fs).index p - (formHessian info fs).m + a, by omega⟩ =
          (v (col (formHessian info fs).index p - (formHessian info fs).m + a)).getD 0 := rfl
      rw [g4, g2, Option.getD_some] at g3
      rw [← g3]
      congr 2
      omega
  ext cost
  simp only [Set.mem_ofPred_eq]
  constructor
  · rintro ⟨δ, hδ, rfl⟩
    obtain ⟨y, hy⟩ := exists_vec L δ
    have hyi : IsIncrement info fs x x0 (fun p a => y (col (formHessian info fs).index p + a)) := by
      intro p hR a ha
      simp only
      rw [hy p (Or.inr ((L.remMem p).mpr ⟨hR, (hk p hR).1⟩)) a ha]
      exact hδ p hR a ha
    have hcost : linCost info fs δ =
        linCost info fs (fun p a => y (col (formHessian info fs).index p + a)) := by
      apply linCost_congr
      intro p hp hf a ha
      rw [hy p ?_ a ha]
      by_cases hmg : (info p).marg = true
      · exact Or.inl ((L.margMem p).mpr ⟨hp, hmg⟩)
      · have hR : Remaining info fs p := ⟨hp, by simpa using hmg, hf⟩
        exact Or.inr ((L.remMem p).mpr ⟨hR, (hk p hR).1⟩)
    refine ⟨fun a => y a, ?_⟩
    rw [hcost, linCost_vec info fs hk y, (key y).mp hyi]
  · rintro ⟨xm, rfl⟩
    let y : Nat → ℝ := fun a => if ha : a < (formHessian info fs).m then xm ⟨a, ha⟩
      else if ha : a - (formHessian info fs).m < (formHessian info fs).r then
        d ⟨a - (formHessian info fs).m, ha⟩ else 0
    have y1 : (fun a : Fin (formHessian info fs).m => y a) = xm := by
      funext a; simp [y]
    have y2 : (fun a : Fin (formHessian info fs).r => y ((formHessian info fs).m + a)) = d := by
      funext a; simp [y]
    refine ⟨fun p a => y (col (formHessian info fs).index p + a), (key y).mpr y2, ?_⟩
    rw [linCost_vec info fs hk y, y1, y2]

end Yac.Marg
