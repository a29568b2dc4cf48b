import Verif.Marg.Props

/-!
# C45: witness, the helper in util/core.cpp, and the evaluation of the new residual
-/

namespace Yac.Marg
open Matrix Yac.Solver Yac.Geom Finset

theorem eigenvalue_one {A : Matrix (Fin 1) (Fin 1) ℝ} {lam : ℝ} (h : IsEigenvalue A lam) :
    lam = A 0 0 := by
  obtain ⟨v, hv, h⟩ := h
  have h0 := congrFun h 0
  simp only [Matrix.mulVec, dotProduct, Fin.sum_univ_one, Pi.smul_apply, smul_eq_mul] at h0
  have hv0 : v 0 ≠ 0 := by
    intro h'
    apply hv
    ext i; fin_cases i; exact h'
  exact (mul_right_cancel₀ hv0 h0).symm

theorem eigenvalue_one_of (A : Matrix (Fin 1) (Fin 1) ℝ) : IsEigenvalue A (A 0 0) := by
  refine ⟨fun _ => 1, ?_, ?_⟩
  · intro h
    have := congrFun h 0
    simp at this
  · ext i
    fin_cases i
    simp [Matrix.mulVec, dotProduct]

/-- Two parameters of size one: `false` is marginalised, `true` kept. -/
def exInfo : Bool → PInfo
  | false => ⟨⟨false, .sb, 1⟩, true, 1⟩
  | true => ⟨⟨false, .camera, 1⟩, false, 1⟩

/-- Two residuals `p + q + 1` and `q - 2`. -/
noncomputable def exRes : List (Res ℝ Bool) :=
  [⟨1, fun _ => 1, [(true, fun _ _ => 1), (false, fun _ _ => 1)]⟩,
   ⟨1, fun _ => -2, [(true, fun _ _ => 1)]⟩]

theorem exH : (formHessian exInfo exRes).H 0 0 = 1 ∧ (formHessian exInfo exRes).H 0 1 = 1 ∧
    (formHessian exInfo exRes).H 1 0 = 1 ∧ (formHessian exInfo exRes).H 1 1 = 2 := by
  have c0 : col (formHessian exInfo exRes).index false = 0 := rfl
  have c1 : col (formHessian exInfo exRes).index true = 1 := rfl
  have L := layout exInfo exRes
  have hn : resLen exRes = 2 := rfl
  rw [L.H, L.H, L.H, L.H, hn]
  generalize col (formHessian exInfo exRes).index = c at *
  simp only [sum_range_succ, sum_range_zero, exRes, stackJ, rowG, ent, InCol, c0, c1, exInfo]
  norm_num

/-- C45, defined: marginalisation fails (an assertion) exactly when there is nothing to
marginalise or nothing is kept. -/
theorem C45_defined {P : Type} [DecidableEq P] (eig : EigSolver) (info : P → PInfo)
    (x0 : P → Nat → ℝ) (fs : List (Res ℝ P)) (hk : KnownTypes info fs) :
    (∃ M ps, marginalize eig info x0 fs = .ok (M, ps)) ↔
      (∃ p, Marginalised info fs p ∧ 0 < (info p).base.size) ∧
      (∃ p, Remaining info fs p ∧ 0 < (info p).base.size) := by
  have L := layout info fs
  have h1 : 0 < (formHessian info fs).m ↔ ∃ p, Marginalised info fs p ∧ 0 < (info p).base.size := by
    constructor
    · intro h
      obtain ⟨p, hp, hc⟩ := L.cover 0 (by omega)
      unfold InCol at hc
      simp only at hc
      rcases hp with hp | hp
      · exact ⟨p, (L.margMem p).mp hp, by omega⟩
      · have := (L.remCol p hp).1
        omega
    · rintro ⟨p, hp, hs⟩
      have := L.margCol p ((L.margMem p).mpr hp)
      omega
  have h2 : 0 < (formHessian info fs).r ↔ ∃ p, Remaining info fs p ∧ 0 < (info p).base.size := by
    constructor
    · intro h
      obtain ⟨p, hp, hc⟩ := L.cover (formHessian info fs).m (by omega)
      unfold InCol at hc
      simp only at hc
      rcases hp with hp | hp
      · have := L.margCol p hp
        omega
      · exact ⟨p, ((L.remMem p).mp hp).1, by omega⟩
    · rintro ⟨p, hp, hs⟩
      have := L.remCol p ((L.remMem p).mpr ⟨hp, (hk p hp).1⟩)
      omega
  rw [← h1, ← h2]
  unfold marginalize schur
  simp only
  constructor
  · rintro ⟨M, ps, h⟩
    by_contra hn
    rw [if_neg hn] at h
    cases h
  · intro h
    rw [if_pos h]
    exact ⟨_, _, rfl⟩

/-- C45 witness: both residuals, with a coupling; the hypotheses hold. -/
example (eig : EigSolver) (he : IsEigSolver eig) :
    KnownTypes exInfo exRes ∧
    (∃ M ps, marginalize eig exInfo (fun _ _ => 0) exRes = .ok (M, ps)) ∧
    (∀ lam, IsEigenvalue (block (formHessian exInfo exRes).H 0 0 (formHessian exInfo exRes).m
      (formHessian exInfo exRes).m) lam → lam = 0 ∨ 1e-8 < lam) ∧
    (∀ Hm bm, schur eig (formHessian exInfo exRes).H (formHessian exInfo exRes).b
      (formHessian exInfo exRes).m (formHessian exInfo exRes).r = .ok (Hm, bm) → ∀ lam mu,
      IsEigenvalue Hm lam → IsEigenvalue Hm mu →
      lam = 0 ∨ 2⁻¹ ^ 52 * (formHessian exInfo exRes).r * mu < lam) := by
  obtain ⟨e1, e2, e3, e4⟩ := exH
  have hpos : (formHessian exInfo exRes).m > 0 ∧ (formHessian exInfo exRes).r > 0 :=
    ⟨Nat.one_pos, Nat.one_pos⟩
  refine ⟨?_, ?_, ?_, ?_⟩
  · rintro (_ | _) ⟨-, h, -⟩
    · cases h
    · exact ⟨by decide, by decide, by decide⟩
  · unfold marginalize schur
    simp only
    rw [if_pos hpos]
    exact ⟨_, _, rfl⟩
  · intro lam h
    have := eigenvalue_one (A := block (formHessian exInfo exRes).H 0 0 1 1) h
    right
    rw [this]
    show _ < (formHessian exInfo exRes).H 0 0
    rw [e1]; norm_num
  · intro Hm bm h lam mu h1 h2
    have hpi := pseudoInv_inv he (A := block (formHessian exInfo exRes).H 0 0 1 1) (by
      ext i j; fin_cases i; fin_cases j; rfl) (by
      intro lam h
      rw [eigenvalue_one h]
      show _ < (formHessian exInfo exRes).H 0 0
      rw [e1]; norm_num)
    have hpi0 := congrFun (congrFun hpi 0) 0
    rw [Matrix.mul_apply, Fin.sum_univ_one] at hpi0
    have hb0 : block (formHessian exInfo exRes).H 0 0 1 1 0 0 = 1 := e1
    rw [hb0, one_mul] at hpi0
    unfold schur at h
    rw [if_pos hpos] at h
    injection h with h
    have hsy : symmetrise (block (formHessian exInfo exRes).H 0 0 1 1) =
        block (formHessian exInfo exRes).H 0 0 1 1 := symmetrise_self (by
      ext i j; fin_cases i; fin_cases j; rfl)
    have hHm : Hm (0 : Fin 1) (0 : Fin 1) = 1 := by
      have h3 := congrArg Prod.fst h
      have h4 : (complement (formHessian exInfo exRes).H (formHessian exInfo exRes).b 1 1
        (pseudoInv eig (symmetrise (block (formHessian exInfo exRes).H 0 0 1 1)))).1 = Hm := h3
      rw [← h4, hsy]
      unfold complement
      simp only [Matrix.sub_apply, Matrix.mul_apply, Fin.sum_univ_one, hpi0]
      show (formHessian exInfo exRes).H 1 1 - (formHessian exInfo exRes).H 1 0 * _ *
        (formHessian exInfo exRes).H 0 1 = 1
      rw [e2, e3, e4]
      simp
      norm_num
    rw [eigenvalue_one (A := (Hm : Matrix (Fin 1) (Fin 1) ℝ)) h1,
      eigenvalue_one (A := (Hm : Matrix (Fin 1) (Fin 1) ℝ)) h2, hHm]
    right
    show (2⁻¹ : ℝ) ^ 52 * ((1 : Nat) : ℝ) * 1 < 1
    norm_num

/-! ### A kept parameter of another type -/

/-- `0` is marginalised, `1` is a free time delay, `2` is kept. -/
def badInfo : Fin 3 → PInfo
  | 0 => ⟨⟨false, .sb, 1⟩, true, 1⟩
  | 1 => ⟨⟨false, .other, 1⟩, false, 1⟩
  | 2 => ⟨⟨false, .camera, 1⟩, false, 1⟩

noncomputable def badRes : List (Res ℝ (Fin 3)) :=
  [⟨1, fun _ => 0, [(0, fun _ _ => 1)]⟩, ⟨1, fun _ => 0, [(1, fun _ _ => 1)]⟩,
   ⟨1, fun _ => 0, [(2, fun _ _ => 1)]⟩]

theorem badCost (δ : Fin 3 → Nat → ℝ) :
    linCost badInfo badRes δ = δ 0 0 ^ 2 + (δ 1 0 ^ 2 + δ 2 0 ^ 2) := by
  simp [linCost, badRes, badInfo]

theorem evaluate_same (M : MargRes (Fin 3)) (h : M.remain = [2]) (x y : Fin 3 → Nat → ℝ)
    (hxy : x 2 = y 2) : evaluate badInfo M x = evaluate badInfo M y := by
  unfold evaluate deltaChi
  rw [h]
  simp only [List.foldlM_cons, List.foldlM_nil, hxy]

/-- C45 is false when a kept free parameter is of a type unknown to the marginalisation (a free
time delay): the new residual does not depend on it although the cost does. -/
theorem C45_other_refuted (eig : EigSolver) :
    ∃ M ps, marginalize eig badInfo (fun _ _ => 0) badRes = .ok (M, ps) ∧
      Remaining badInfo badRes 1 ∧
      ¬ ∃ c, ∀ x : Fin 3 → Nat → ℝ, ∃ e, evaluate badInfo M x = .ok e ∧
        IsLeast {cost | ∃ δ, IsIncrement badInfo badRes x (fun _ _ => 0) δ ∧
          cost = linCost badInfo badRes δ} (∑ i, e i ^ 2 + c) := by
  have hpos : (formHessian badInfo badRes).m > 0 ∧ (formHessian badInfo badRes).r > 0 :=
    ⟨Nat.one_pos, Nat.one_pos⟩
  have hrem : (formHessian badInfo badRes).remain = [2] := rfl
  refine ⟨_, _, by
    unfold marginalize schur
    simp only
    rw [if_pos hpos]
    rfl, ?_, ?_⟩
  · exact ⟨⟨⟨1, fun _ => 0, [(1, fun _ _ => 1)]⟩, by simp [badRes], fun _ _ => 1, by simp⟩, rfl, rfl⟩
  · rintro ⟨c, hc⟩
    have hinc : ∀ t : ℝ, ∀ δ : Fin 3 → Nat → ℝ,
        IsIncrement badInfo badRes (fun p _ => if p = 1 then t else 0) (fun _ _ => 0) δ ↔
          δ 1 0 = t ∧ δ 2 0 = 0 := by
      intro t δ
      have hr1 : Remaining badInfo badRes 1 :=
        ⟨⟨⟨1, fun _ => 0, [(1, fun _ _ => 1)]⟩, by simp [badRes], fun _ _ => 1, by simp⟩, rfl, rfl⟩
      have hr2 : Remaining badInfo badRes 2 :=
        ⟨⟨⟨1, fun _ => 0, [(2, fun _ _ => 1)]⟩, by simp [badRes], fun _ _ => 1, by simp⟩, rfl, rfl⟩
      have m1 : ∀ y : ℝ, minusOf (badInfo 1) (fun _ => y) (fun _ => 0) = [y] := by
        intro y; simp [minusOf, isPose, badInfo]
      have m2 : ∀ y : ℝ, minusOf (badInfo 2) (fun _ => y) (fun _ => 0) = [y] := by
        intro y; simp [minusOf, isPose, badInfo]
      constructor
      · intro h
        have g1 := h 1 hr1 0 Nat.one_pos
        have g2 := h 2 hr2 0 Nat.one_pos
        simp only [if_true, m1] at g1
        simp only [(by decide : (2 : Fin 3) ≠ 1), if_false, m2] at g2
        simp only [List.getElem?_cons_zero, Option.some.injEq] at g1 g2
        exact ⟨g1.symm, g2.symm⟩
      · rintro ⟨g1, g2⟩ p hp a ha
        obtain rfl | rfl | rfl : p = 0 ∨ p = 1 ∨ p = 2 := by fin_cases p <;> simp
        · exact absurd hp.2.1 (by decide)
        · have : a = 0 := by
            have : (badInfo 1).base.size = 1 := rfl
            omega
          subst this
          simp only [if_true, m1]
          rw [g1]; rfl
        · have : a = 0 := by
            have : (badInfo 2).base.size = 1 := rfl
            omega
          subst this
          simp only [(by decide : (2 : Fin 3) ≠ 1), if_false, m2]
          rw [g2]; rfl
    obtain ⟨e, he, hl⟩ := hc (fun p _ => if p = 1 then 0 else 0)
    obtain ⟨e', he', hl'⟩ := hc (fun p _ => if p = 1 then 1 else 0)
    have hee : e = e' := by
      rw [evaluate_same _ hrem _ (fun p _ => if p = 1 then (1 : ℝ) else 0) (by
        funext a; simp), he'] at he
      injection he with he
      exact he.symm
    subst hee
    obtain ⟨δ, hδ, hcost⟩ := hl'.1
    obtain ⟨d1, d2⟩ := (hinc 1 δ).mp hδ
    have h0 : (∑ i, e i ^ 2 + c) ≤ 0 := by
      apply hl.2
      refine ⟨fun _ _ => 0, (hinc 0 _).mpr ⟨rfl, rfl⟩, ?_⟩
      rw [badCost]; norm_num
    rw [hcost, badCost, d1, d2] at h0
    have := sq_nonneg (δ 0 0)
    linarith

/-! ### The helper in util/core.cpp -/

theorem complement_eq_schur (eig : EigSolver) {H : Mat ℝ} {b : Nat → ℝ} {m r : Nat} (hm : 0 < m)
    (hr : 0 < r) : schur eig H b m r =
      .ok (complement H b m r (pseudoInv eig (symmetrise (block H 0 0 m m)))) := by
  unfold schur; rw [if_pos ⟨hm, hr⟩]

/-- C45, `schurs_complement` of util/core.cpp: under the same hypotheses it succeeds with the same
result as the marginalisation, preconditioned or not. -/
theorem C45_util_partial (eig : EigSolver) (he : IsEigSolver eig) (H : Mat ℝ) (b : Nat → ℝ)
    (m r : Nat) (hm : 0 < m) (hr : 0 < r)
    (hs : ∀ i < m + r, ∀ j < m + r, H i j = H j i)
    (hl : ∀ lam, IsEigenvalue (fun i j : Fin m => H i j) lam → 1e-8 < lam) (precond : Bool) :
    ∃ Hb, schur eig H b m r = .ok Hb ∧ schurUtil eig H b m r precond = .ok (some Hb) := by
  have hb : block H 0 0 m m = (fun i j : Fin m => H i j) := by
    funext i j; simp [block]
  have hA : (block H 0 0 m m)ᵀ = block H 0 0 m m :=
    block_transpose H 0 0 m m (m + r) (by omega) (by omega) hs
  have hinv : block H 0 0 m m * pseudoInv eig (block H 0 0 m m) = 1 :=
    pseudoInv_inv he hA (by rw [hb]; exact hl)
  refine ⟨_, complement_eq_schur eig hm hr, ?_⟩
  have hne : block H 0 0 (m + r) (m + r) ≠ 0 := by
    intro h0
    have : block H 0 0 m m = 0 := by
      ext i j
      have := congrFun (congrFun h0 ⟨i, by omega⟩) ⟨j, by omega⟩
      exact this
    rw [this, Matrix.zero_mul] at hinv
    have := congrFun (congrFun hinv ⟨0, hm⟩) ⟨0, hm⟩
    simp at this
  unfold schurUtil
  rw [if_neg (not_not.mpr ⟨hm, hr⟩), if_neg hne, symmetrise_self hA]
  simp only [ite_self]
  rw [hinv, sub_self]
  simp
  norm_num

/-- C45, `schurs_complement` of util/core.cpp: the check of the inverse can pass although the
matrix has no inverse, because entries of opposite sign cancel. -/
theorem C45_util_check_refuted (eig : EigSolver) (he : IsEigSolver eig) :
    ∃ (H : Mat ℝ) (b : Nat → ℝ), (∀ i < 2 + 1, ∀ j < 2 + 1, H i j = H j i) ∧
      (block H 0 0 2 2).det = 0 ∧ ∃ Hb, schurUtil eig H b 2 1 false = .ok (some Hb) := by
  let H : Mat ℝ := fun _ _ => 1
  have hB : block H 0 0 2 2 = fun _ _ => 1 := rfl
  have hA : (block H 0 0 2 2)ᵀ = block H 0 0 2 2 := rfl
  refine ⟨H, fun _ => 0, fun _ _ _ _ => rfl, ?_, ?_⟩
  · rw [Matrix.det_fin_two]; simp [block, H]
  · have hG := pseudoInv_ginv he hA (by
      rintro lam ⟨v, hv, h⟩
      have h0 := congrFun h 0
      have h1 := congrFun h 1
      rw [hB] at h0 h1
      simp only [Matrix.mulVec, dotProduct, Fin.sum_univ_two, Pi.smul_apply, smul_eq_mul,
        one_mul] at h0 h1
      by_cases hz : lam = 0
      · exact Or.inl hz
      · right
        have e : v 0 = v 1 := by
          have : lam * (v 0 - v 1) = 0 := by linarith
          have := (mul_eq_zero.mp this).resolve_left hz
          linarith
        have hv0 : v 0 ≠ 0 := by
          intro h'
          apply hv
          ext i; fin_cases i
          · exact h'
          · exact e.symm.trans h'
        have : lam = 2 := by
          rw [← e] at h0
          have : (lam - 2) * v 0 = 0 := by linarith
          have := (mul_eq_zero.mp this).resolve_right hv0
          linarith
        rw [this]; norm_num)
    have hone : (block H 0 0 2 2 * pseudoInv eig (block H 0 0 2 2)) *ᵥ (fun _ => 1) = fun _ => 1 := by
      have e : (fun _ => 1 : Fin 2 → ℝ) = block H 0 0 2 2 *ᵥ (fun _ => 1 / 2) := by
        ext i
        rw [hB]
        simp [Matrix.mulVec, dotProduct]
      rw [e, Matrix.mulVec_mulVec, hG]
    have hsum : ∑ i, ∑ j, (block H 0 0 2 2 * pseudoInv eig (block H 0 0 2 2) - 1) i j = 0 := by
      have : ∀ i, ∑ j, (block H 0 0 2 2 * pseudoInv eig (block H 0 0 2 2) - 1) i j = 0 := by
        intro i
        have h1 := congrFun hone i
        simp only [Matrix.mulVec, dotProduct, mul_one] at h1
        simp only [Matrix.sub_apply, sum_sub_distrib, h1]
        simp [Matrix.one_apply]
      exact Finset.sum_eq_zero (fun i _ => this i)
    unfold schurUtil
    rw [if_neg (by decide), if_neg]
    · simp only [Bool.false_eq_true, if_false]
      rw [hsum, if_neg (by norm_num)]
      exact ⟨_, rfl⟩
    · intro h
      have := congrFun (congrFun h 0) 0
      simp [block, H] at this

/-! ### Evaluation -/

/-- C45, increments of plain parameters: the difference, entry by entry. -/
theorem C45_minus_plain (i : PInfo) (hp : ¬PoseLike i) (x0 d : Nat → ℝ) (a : Nat)
    (ha : a < i.gsize) : (minusOf i (fun a => x0 a + d a) x0)[a]? = some (d a) := by
  unfold minusOf
  rw [(isPose_false i).mpr hp]
  simp [ha]

/-- C45, increments of a pose moved by `plus`: the translation exactly, the rotation up to the
factor `sinc` of half the angle (1 to first order). -/
theorem C45_minus_pose (i : PInfo) (hp : PoseLike i) (x0 : Fin 7 → ℝ) (hx : UnitPose x0)
    (d : Fin 6 → ℝ) :
    let s := sinc ((1 / 2) * norm3 ![d 3, d 4, d 5])
    minusOf i (fun a => if h : a < 7 then posePlus x0 d ⟨a, h⟩ else 0)
      (fun a => if h : a < 7 then x0 ⟨a, h⟩ else 0) =
      [d 0, d 1, d 2, s * d 3, s * d 4, s * d 5] := by
  intro s
  unfold UnitPose at hx
  have hn : Quat.normSq (⟨x0 6, x0 3, x0 4, x0 5⟩ : Quat ℝ) = 1 := by
    simp only [Quat.normSq]; linarith
  unfold minusOf
  rw [(isPose_iff i).mpr hp]
  simp only [if_true]
  have e : ∀ (k : Nat) (h : k < 7), (if h : k < 7 then x0 ⟨k, h⟩ else 0) = x0 ⟨k, h⟩ := by
    intro k h; rw [dif_pos h]
  have e' : ∀ (k : Nat) (h : k < 7), (if h : k < 7 then posePlus x0 d ⟨k, h⟩ else 0) =
      posePlus x0 d ⟨k, h⟩ := by
    intro k h; rw [dif_pos h]
  simp only [e 0 (by omega), e 1 (by omega), e 2 (by omega), e 3 (by omega), e 4 (by omega),
    e 5 (by omega), e 6 (by omega), e' 0 (by omega), e' 1 (by omega), e' 2 (by omega),
    e' 3 (by omega), e' 4 (by omega), e' 5 (by omega), e' 6 (by omega)]
  have hinv : Quat.inverse (⟨x0 6, x0 3, x0 4, x0 5⟩ : Quat ℝ) = ⟨x0 6, -x0 3, -x0 4, -x0 5⟩ := by
    unfold Quat.inverse
    simp only [hn]
    simp
  have hq : (quatDelta ![d 3, d 4, d 5]) = ⟨Real.cos ((1 / 2) * norm3 ![d 3, d 4, d 5]),
      s * (1 / 2) * d 3, s * (1 / 2) * d 4, s * (1 / 2) * d 5⟩ := rfl
  have hx' : x0 3 ^ 2 + x0 4 ^ 2 + x0 5 ^ 2 + x0 6 ^ 2 = 1 := by
    simp only [Quat.normSq] at hn; linarith
  have hp7 : ∀ k : Fin 7, posePlus x0 d k = ![x0 0 + d 0, x0 1 + d 1, x0 2 + d 2,
      ((quatDelta ![d 3, d 4, d 5]).mul ⟨x0 6, x0 3, x0 4, x0 5⟩).x,
      ((quatDelta ![d 3, d 4, d 5]).mul ⟨x0 6, x0 3, x0 4, x0 5⟩).y,
      ((quatDelta ![d 3, d 4, d 5]).mul ⟨x0 6, x0 3, x0 4, x0 5⟩).z,
      ((quatDelta ![d 3, d 4, d 5]).mul ⟨x0 6, x0 3, x0 4, x0 5⟩).w] k := fun _ => rfl
  have f : ∀ k (h : k < 7), x0 ⟨k, h⟩ = x0 ⟨k, h⟩ := fun _ _ => rfl
  rw [show (⟨x0 ⟨6, by omega⟩, x0 ⟨3, by omega⟩, x0 ⟨4, by omega⟩, x0 ⟨5, by omega⟩⟩ : Quat ℝ) =
    ⟨x0 6, x0 3, x0 4, x0 5⟩ from rfl, hinv]
  simp only [hp7, hq]
  generalize Real.cos ((1 / 2) * norm3 ![d 3, d 4, d 5]) = cc
  clear_value s
  have g0 : x0 ⟨0, by omega⟩ = x0 0 := rfl
  have g1 : x0 ⟨1, by omega⟩ = x0 1 := rfl
  have g2 : x0 ⟨2, by omega⟩ = x0 2 := rfl
  simp only [g0, g1, g2, Quat.mul, List.cons.injEq, and_true]
  refine ⟨?_, ?_, ?_, ?_, ?_, ?_⟩
  · show x0 0 + d 0 - x0 0 = d 0; ring
  · show x0 1 + d 1 - x0 1 = d 1; ring
  · show x0 2 + d 2 - x0 2 = d 2; ring
  · show 2 * ((cc * x0 6 - s * (1 / 2) * d 3 * x0 3 - s * (1 / 2) * d 4 * x0 4 - s * (1 / 2) * d 5 * x0 5)
      * -x0 3 + (cc * x0 3 + s * (1 / 2) * d 3 * x0 6 + s * (1 / 2) * d 4 * x0 5 - s * (1 / 2) * d 5 * x0 4)
      * x0 6 + (cc * x0 4 - s * (1 / 2) * d 3 * x0 5 + s * (1 / 2) * d 4 * x0 6 + s * (1 / 2) * d 5 * x0 3)
      * -x0 5 - (cc * x0 5 + s * (1 / 2) * d 3 * x0 4 - s * (1 / 2) * d 4 * x0 3 + s * (1 / 2) * d 5 * x0 6)
      * -x0 4) = s * d 3
    linear_combination (s * d 3) * hx'
  · show 2 * ((cc * x0 6 - s * (1 / 2) * d 3 * x0 3 - s * (1 / 2) * d 4 * x0 4 - s * (1 / 2) * d 5 * x0 5)
      * -x0 4 - (cc * x0 3 + s * (1 / 2) * d 3 * x0 6 + s * (1 / 2) * d 4 * x0 5 - s * (1 / 2) * d 5 * x0 4)
      * -x0 5 + (cc * x0 4 - s * (1 / 2) * d 3 * x0 5 + s * (1 / 2) * d 4 * x0 6 + s * (1 / 2) * d 5 * x0 3)
      * x0 6 + (cc * x0 5 + s * (1 / 2) * d 3 * x0 4 - s * (1 / 2) * d 4 * x0 3 + s * (1 / 2) * d 5 * x0 6)
      * -x0 3) = s * d 4
    linear_combination (s * d 4) * hx'
  · show 2 * ((cc * x0 6 - s * (1 / 2) * d 3 * x0 3 - s * (1 / 2) * d 4 * x0 4 - s * (1 / 2) * d 5 * x0 5)
      * -x0 5 + (cc * x0 3 + s * (1 / 2) * d 3 * x0 6 + s * (1 / 2) * d 4 * x0 5 - s * (1 / 2) * d 5 * x0 4)
      * -x0 4 - (cc * x0 4 - s * (1 / 2) * d 3 * x0 5 + s * (1 / 2) * d 4 * x0 6 + s * (1 / 2) * d 5 * x0 3)
      * -x0 3 + (cc * x0 5 + s * (1 / 2) * d 3 * x0 4 - s * (1 / 2) * d 4 * x0 3 + s * (1 / 2) * d 5 * x0 6)
      * x0 6) = s * d 5
    linear_combination (s * d 5) * hx'

/-- C45: the increment depends on the sign of the quaternion, although both signs are the same
pose. -/
theorem C45_sign_refuted (i : PInfo) (hp : PoseLike i) :
    ∃ (x y x0 : Fin 7 → ℝ), UnitPose x ∧ UnitPose y ∧ UnitPose x0 ∧ poseTf x = poseTf y ∧
      minusOf i (fun a => if h : a < 7 then x ⟨a, h⟩ else 0)
          (fun a => if h : a < 7 then x0 ⟨a, h⟩ else 0) ≠
        minusOf i (fun a => if h : a < 7 then y ⟨a, h⟩ else 0)
          (fun a => if h : a < 7 then x0 ⟨a, h⟩ else 0) := by
  refine ⟨![0, 0, 0, 3/5, 0, 0, 4/5], ![0, 0, 0, -3/5, 0, 0, -4/5], ![0, 0, 0, 0, 0, 0, 1],
    by simp [UnitPose]; norm_num, by simp [UnitPose]; norm_num, by simp [UnitPose], ?_, ?_⟩
  · have : Quat.toRot (poseQuat ![0, 0, 0, 3/5, 0, 0, 4/5] : Quat ℝ) =
        Quat.toRot (poseQuat ![0, 0, 0, -3/5, 0, 0, -4/5] : Quat ℝ) := by
      apply mat3_eq <;> simp [Quat.toRot, poseQuat] <;> norm_num
    have ht : poseTrans ![0, 0, 0, 3/5, 0, 0, 4/5] = poseTrans ![0, 0, 0, -3/5, 0, 0, -4/5] := by
      simp [poseTrans]
    unfold poseTf tfQuat
    rw [this, ht]
  · intro h
    unfold minusOf at h
    rw [(isPose_iff i).mpr hp] at h
    simp only [if_true, List.cons.injEq] at h
    have h3 := h.2.2.2.1
    simp [Quat.mul, Quat.inverse, Quat.normSq] at h3
    norm_num at h3

/-- C45: the Jacobian handed out for a pose, composed with the derivative of the solver's update
at the values stored in the parameter, is the minimal Jacobian. -/
theorem C45_pose_jacobian_partial {r : Nat} (Jmin : Matrix (Fin r) (Fin 6) ℝ) (x : Fin 7 → ℝ)
    (hx : UnitPose x) : poseFullJac Jmin x * ceresPlusJac x = Jmin := by
  unfold poseFullJac
  rw [Matrix.mul_assoc, C42_lift x hx, Matrix.mul_one]

/-- C45 is false for the Jacobian at other values than those stored in the parameter (the trial
points of the solver): whatever is stored, it is wrong at one of three unit poses. -/
theorem C45_pose_jacobian_refuted (stored : Fin 7 → ℝ) :
    ∃ (Jmin : Matrix (Fin 1) (Fin 6) ℝ) (x : Fin 7 → ℝ), UnitPose x ∧ 0 < x 6 ∧
      poseFullJac Jmin stored * ceresPlusJac x ≠ Jmin := by
  by_contra hcon
  push Not at hcon
  let J : Matrix (Fin 1) (Fin 6) ℝ := !![0, 0, 0, 1, 0, 0]
  let L := poseFullJac J stored
  have key : ∀ x : Fin 7 → ℝ, UnitPose x → 0 < x 6 →
      L 0 3 * x 6 / 2 - L 0 4 * x 5 / 2 + L 0 5 * x 4 / 2 - L 0 6 * x 3 / 2 = 1 ∨
      L 0 3 * x 6 / 2 - L 0 4 * x 5 / 2 + L 0 5 * x 4 / 2 - L 0 6 * x 3 / 2 = -1 := by
    intro x hx h6
    have h := congrFun (congrFun (hcon J x hx h6) 0) 3
    rw [Matrix.mul_apply, Fin.sum_univ_seven] at h
    have hL : poseFullJac J stored = L := rfl
    rw [hL] at h
    have hJ : J 0 3 = 1 := rfl
    rw [hJ] at h
    clear_value L
    obtain ⟨-, hq | hq⟩ := ceres_quat x hx
    · left
      simp [ceresPlusJac, hq, oplusMat, halfS, Quat.coeffs, Matrix.mul_apply, Fin.sum_univ_four] at h
      linarith
    · right
      simp [ceresPlusJac, hq, oplusMat, halfS, Quat.coeffs, Matrix.mul_apply, Fin.sum_univ_four] at h
      linarith
  have k1 := key ![0, 0, 0, 3 / 5, 0, 0, 4 / 5] (by simp [UnitPose]; norm_num) (by simp)
  have k2 := key ![0, 0, 0, -3 / 5, 0, 0, 4 / 5] (by simp [UnitPose]; norm_num) (by simp)
  have k3 := key ![0, 0, 0, 0, 0, 0, 1] (by simp [UnitPose]) (by simp)
  simp at k1 k2 k3
  clear_value L
  rcases k1 with k1 | k1 <;> rcases k2 with k2 | k2 <;> rcases k3 with k3 | k3 <;> linarith

/-- C45: the Jacobian of a kept parameter is exact: if only that parameter moves, and its
increment goes from `u` to `v`, the residual changes by the Jacobian times `v - u`. -/
theorem C45_jacobian {P : Type} [DecidableEq P] (eig : EigSolver) (info : P → PInfo)
    (x0 : P → Nat → ℝ) (fs : List (Res ℝ P)) (hk : KnownTypes info fs) (M : MargRes P) (ps : List P)
    (h : marginalize eig info x0 fs = .ok (M, ps)) (p : P) (hp : Remaining info fs p)
    (x y : P → Nat → ℝ) (hxy : ∀ q, q ≠ p → x q = y q) (u v : Fin (info p).base.size → ℝ)
    (hu : ∀ a : Fin _, (minusOf (info p) (x p) (x0 p))[(a : Nat)]? = some (u a))
    (hv : ∀ a : Fin _, (minusOf (info p) (y p) (x0 p))[(a : Nat)]? = some (v a)) :
    ∃ J ex ey, minJac info M p = .ok J ∧ evaluate info M x = .ok ex ∧ evaluate info M y = .ok ey ∧
      ey - ex = J *ᵥ (v - u) := by
  have L := layout info fs
  have hM : M.m = (formHessian info fs).m ∧ M.r = (formHessian info fs).r ∧
      M.remain = (formHessian info fs).remain ∧ M.index = (formHessian info fs).index ∧ M.x0 = x0 := by
    unfold marginalize schur at h
    simp only at h
    by_cases hpos : (formHessian info fs).m > 0 ∧ (formHessian info fs).r > 0
    · rw [if_pos hpos] at h
      simp only [bind, Except.bind] at h
      injection h with h
      have := congrArg Prod.fst h
      simp only at this
      rw [← this]
      exact ⟨rfl, rfl, rfl, rfl, rfl⟩
    · rw [if_neg hpos] at h; cases h
  obtain ⟨m1, m2, m3, m4, m5⟩ := hM
  obtain ⟨w, w1, w2, w3⟩ := deltaChi_spec hk M m1 m2 m3 m4 x
  obtain ⟨z, z1, z2, z3⟩ := deltaChi_spec hk M m1 m2 m3 m4 y
  have hpr : p ∈ (formHessian info fs).remain := (L.remMem p).mpr ⟨hp, (hk p hp).1⟩
  have hc := L.remCol p hpr
  rw [← m1, ← m2, ← m4] at hc
  have hfit : Solver.col M.index p - M.m + (info p).base.size ≤ M.r := by omega
  have ev : ∀ (x : P → Nat → ℝ) (w : Nat → Option ℝ), deltaChi info M x = .ok w →
      (∀ a < M.r, (w a).isSome) →
      evaluate info M x = .ok (M.r0 + M.J0 *ᵥ (fun a : Fin M.r => (w a).getD 0)) := by
    intro x w h1 h2
    unfold evaluate
    rw [h1]
    show (readAll M.r w >>= fun d => Except.ok (M.r0 + M.J0 *ᵥ d)) = _
    unfold readAll
    rw [if_pos (fun a : Fin M.r => h2 a a.2)]
    rfl
  refine ⟨fun i a => M.J0 i ⟨Solver.col M.index p - M.m + a, by omega⟩, _, _, ?_, ev x w w1 w2,
    ev y z z1 z2, ?_⟩
  · unfold minJac
    rw [dif_pos hfit]
  rw [add_sub_add_left_eq_sub, ← Matrix.mulVec_sub]
  funext i
  simp only [Matrix.mulVec, dotProduct]
  symm
  rw [← Finset.sum_subset (s₁ := (Finset.univ.image
    (fun a : Fin (info p).base.size => (⟨Solver.col M.index p - M.m + (a : Nat), by omega⟩ : Fin M.r))))
    (Finset.subset_univ _), Finset.sum_image]
  · apply Finset.sum_congr rfl
    intro a _
    have e1 := (w3 p hp).2 a a.2
    have e2 := (z3 p hp).2 a a.2
    rw [m5, hu a] at e1
    rw [m5, hv a] at e2
    simp only [Pi.sub_apply, e1, e2, Option.getD_some]
  · intro a _ b _ hab
    have := congrArg Fin.val hab
    simp only at this
    exact Fin.ext (by omega)
  · intro a _ ha
    have : w a = z a := by
      obtain ⟨q, hq, hqc⟩ := L.cover ((formHessian info fs).m + a) (by have := a.2; omega)
      unfold InCol at hqc
      simp only at hqc
      have hqr : q ∈ (formHessian info fs).remain := by
        rcases hq with hq | hq
        · have := L.margCol q hq
          omega
        · exact hq
      have hqR := ((L.remMem q).mp hqr).1
      rw [← m1, ← m4] at hqc
      have hb := L.remCol q hqr
      rw [← m1, ← m4] at hb
      have hqp : q ≠ p := by
        rintro rfl
        apply ha
        simp only [Finset.mem_image, Finset.mem_univ, true_and]
        exact ⟨⟨M.m + a - Solver.col M.index q, by omega⟩, Fin.ext (by simp only; omega)⟩
      have e1 := (w3 q hqR).2 (M.m + a - Solver.col M.index q) (by omega)
      have e2 := (z3 q hqR).2 (M.m + a - Solver.col M.index q) (by omega)
      rw [show Solver.col M.index q - M.m + (M.m + a - Solver.col M.index q) = (a : Nat) by omega] at e1 e2
      rw [e1, e2, hxy q hqp]
    simp only [Pi.sub_apply, this, sub_self, mul_zero]

/-- C45 witness for the Jacobian: the kept parameter moves from 0 to 3. -/
example (a : Fin (exInfo true).base.size) : Remaining exInfo exRes true ∧
    (minusOf (exInfo true) (fun _ => 0) (fun _ => 0))[(a : Nat)]? = some 0 ∧
    (minusOf (exInfo true) (fun _ => 3) (fun _ => 0))[(a : Nat)]? = some 3 := by
  refine ⟨⟨⟨⟨1, fun _ => 1, [(true, fun _ _ => 1), (false, fun _ _ => 1)]⟩, by simp [exRes],
    fun _ _ => 1, by simp⟩, rfl, rfl⟩, ?_, ?_⟩
  · have : a = (⟨0, Nat.one_pos⟩ : Fin 1) := Fin.ext (by have := a.2; have h : (exInfo true).base.size = 1 := rfl; omega)
    subst this
    simp [minusOf, isPose, exInfo]
  · have : a = (⟨0, Nat.one_pos⟩ : Fin 1) := Fin.ext (by have := a.2; have h : (exInfo true).base.size = 1 := rfl; omega)
    subst this
    simp [minusOf, isPose, exInfo]

/-- C45: a residual is computed only from increments that were all written; an entry of the
increment no parameter writes is reported instead of being read. -/
theorem C45_all_written {P : Type} [DecidableEq P] (info : P → PInfo) (M : MargRes P)
    (x : P → Nat → ℝ) (e : Fin M.r → ℝ) (h : evaluate info M x = .ok e) :
    ∃ v, deltaChi info M x = .ok v ∧ ∀ a < M.r, ∃ d, v a = some d := by
  unfold evaluate at h
  cases hv : deltaChi info M x with
  | error f => rw [hv] at h; cases h
  | ok v =>
    rw [hv] at h
    replace h : (readAll M.r v >>= fun d => Except.ok (M.r0 + M.J0 *ᵥ d)) = .ok e := h
    unfold readAll at h
    by_cases ha : ∀ a : Fin M.r, (v a).isSome
    · exact ⟨v, rfl, fun a h1 => Option.isSome_iff_exists.mp (ha ⟨a, h1⟩)⟩
    · rw [if_neg ha] at h; cases h

/-- C45 witness: nothing kept but one column, so nothing is written and there is no residual. -/
example (e : Fin 1 → ℝ) :
    evaluate (P := Bool) exInfo ⟨0, 1, [], [], 1, 0, fun _ _ => 0⟩ (fun _ _ => 0) ≠ .ok e := by
  intro h
  obtain ⟨v, hv, ha⟩ := C45_all_written _ _ _ _ h
  obtain ⟨d, hd⟩ := ha 0 Nat.one_pos
  have : v = fun _ => none := by
    have h' : (Except.ok (fun _ => none) : Except Fault (Nat → Option ℝ)) = .ok v := hv
    injection h' with h'; exact h'.symm
  rw [this] at hd; cases hd

end Yac.Marg
