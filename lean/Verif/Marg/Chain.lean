import Verif.Marg.ChainModel
import Verif.Marg.Props

/-! Lemmas about chains of marginalisations. -/

namespace Yac.Marg
open Matrix Yac.Solver Yac.Geom Finset

variable {P : Type} [DecidableEq P]

/-- The columns of the kept parameters fill the reduced system. -/
theorem sum_columns {info : P → PInfo} {fs : List (Res ℝ P)} {F : Formed P} (L : Layout info fs F) (g : Nat → ℝ) :
    (F.remain.map fun p => ∑ a ∈ range (info p).base.size, g (col F.index p - F.m + a)).sum = ∑ a ∈ range F.r, g a := by
  rw [← List.sum_toFinset _ L.remNodup]
  have hU : range F.r = F.remain.toFinset.biUnion fun p => (range (info p).base.size).image fun a => col F.index p - F.m + a := by
    ext a
    simp only [mem_range, mem_biUnion, List.mem_toFinset, mem_image]
    constructor
    · intro ha
      obtain ⟨p, hp, hc⟩ := L.cover (F.m + a) (by omega)
      unfold InCol at hc
      simp only at hc
      have hpr : p ∈ F.remain := by
        rcases hp with hp | hp
        · have := L.margCol p hp; omega
        · exact hp
      have := L.remCol p hpr
      exact ⟨p, hpr, F.m + a - col F.index p, by omega, by omega⟩
    · rintro ⟨p, hp, b, hb, rfl⟩
      have := L.remCol p hp
      omega
  rw [hU, sum_biUnion]
  · apply sum_congr rfl
    intro p hp
    rw [sum_image]
    intro a _ b _ h
    simp only at h
    omega
  · intro p hp q hq hpq
    rw [Function.onFun, disjoint_left]
    intro a ha hb
    simp only [mem_image, mem_range] at ha hb
    obtain ⟨i, hi, rfl⟩ := ha
    obtain ⟨j, hj, hij⟩ := hb
    have hp' : p ∈ F.remain := by simpa using hp
    have hq' : q ∈ F.remain := by simpa using hq
    have h1 := L.remCol p hp'
    have h2 := L.remCol q hq'
    exact hpq (L.disj (col F.index p + i) p q (.inr hp') (.inr hq') ⟨by omega, by simp only; omega⟩ ⟨by omega, by simp only; omega⟩)

/-- What `marginalize` keeps of the layout. -/
theorem marg_fields {eig : EigSolver} {info : P → PInfo} {x0 : P → Nat → ℝ} {fs : List (Res ℝ P)} {M : MargRes P} {ps : List P}
    (h : marginalize eig info x0 fs = .ok (M, ps)) :
    M.m = (formHessian info fs).m ∧ M.r = (formHessian info fs).r ∧ M.remain = (formHessian info fs).remain ∧
    M.index = (formHessian info fs).index ∧ M.x0 = x0 := by
  unfold marginalize schur at h
  simp only at h
  by_cases hpos : (formHessian info fs).m > 0 ∧ (formHessian info fs).r > 0
  · rw [if_pos hpos] at h
    simp only [bind, Except.bind] at h
    injection h with h
    have := congrArg Prod.fst h
    simp only at this
    rw [← this]
    exact ⟨rfl, rfl, rfl, rfl, rfl⟩
  · rw [if_neg hpos] at h; cases h

/-- The conditions on the eigenvalues under which a marginalisation is exact: those of the marginalised block are zero or
above 1e-8, those of the reduced system zero or above the relative tolerance. -/
def WellScaled (eig : EigSolver) (info : P → PInfo) (fs : List (Res ℝ P)) : Prop :=
  (∀ lam, IsEigenvalue (block (formHessian info fs).H 0 0 (formHessian info fs).m (formHessian info fs).m) lam →
    lam = 0 ∨ 1e-8 < lam) ∧
  ∀ Hm bm, schur eig (formHessian info fs).H (formHessian info fs).b (formHessian info fs).m
    (formHessian info fs).r = .ok (Hm, bm) → ∀ lam mu, IsEigenvalue Hm lam → IsEigenvalue Hm mu →
    lam = 0 ∨ 2⁻¹ ^ 52 * (formHessian info fs).r * mu < lam

/-- C45 for increments instead of values. -/
theorem marg_core (eig : EigSolver) (he : IsEigSolver eig) (info : P → PInfo)
    (x0 : P → Nat → ℝ) (fs : List (Res ℝ P)) (hk : KnownTypes info fs) (M : MargRes P) (ps : List P)
    (h : marginalize eig info x0 fs = .ok (M, ps)) (hw : WellScaled eig info fs) :
    ∃ c, ∀ d : Nat → ℝ,
      IsLeast {cost | ∃ δ : P → Nat → ℝ, (∀ p, Remaining info fs p → ∀ a < (info p).base.size,
          δ p a = d (col M.index p - M.m + a)) ∧ cost = linCost info fs δ}
        (∑ i, (M.r0 + M.J0 *ᵥ fun a : Fin M.r => d a) i ^ 2 + c) := by
  obtain ⟨hl, hl2⟩ := hw
  have L := layout info fs
  obtain ⟨b1, b2, b3, b4, b5, b6⟩ := hessian_blocks info fs
  unfold marginalize at h
  simp only at h
  unfold schur at h hl2
  by_cases hpos : (formHessian info fs).m > 0 ∧ (formHessian info fs).r > 0
  swap
  · rw [if_neg hpos] at h; cases h
  rw [if_pos hpos] at h hl2
  have hsym : (block (formHessian info fs).H 0 0 (formHessian info fs).m (formHessian info fs).m)ᵀ =
      block (formHessian info fs).H 0 0 (formHessian info fs).m (formHessian info fs).m := by
    rw [b1, transpose_mul, transpose_transpose]
  rw [symmetrise_self hsym] at h hl2
  have hG := pseudoInv_ginv he hsym hl
  have hP := pseudoInv_symm eig
    (block (formHessian info fs).H 0 0 (formHessian info fs).m (formHessian info fs).m)
  generalize hQ : pseudoInv eig (block (formHessian info fs).H 0 0 (formHessian info fs).m
    (formHessian info fs).m) = Q at h hl2 hG hP
  rw [b1] at hG
  obtain ⟨s1, s2⟩ := schur_gn (matA info fs) (matB info fs) hP hG (vecE fs)
  have hcomp : complement (formHessian info fs).H (formHessian info fs).b (formHessian info fs).m
      (formHessian info fs).r Q = ((resid (matA info fs) Q * matB info fs)ᵀ *
        (resid (matA info fs) Q * matB info fs),
        -((resid (matA info fs) Q * matB info fs)ᵀ *ᵥ (resid (matA info fs) Q *ᵥ vecE fs))) := by
    unfold complement
    rw [b2, b3, b4, b5, b6, s1, ← s2]
  rw [hcomp] at h hl2
  obtain ⟨f1, f2⟩ := lin_factor he hpos.2 (resid (matA info fs) Q * matB info fs)
    (resid (matA info fs) Q *ᵥ vecE fs) (hl2 _ _ rfl)
  have h' : (⟨(formHessian info fs).m, (formHessian info fs).r, (formHessian info fs).remain,
      (formHessian info fs).index, linJ eig ((resid (matA info fs) Q * matB info fs)ᵀ *
        (resid (matA info fs) Q * matB info fs)),
      linR eig ((resid (matA info fs) Q * matB info fs)ᵀ *
        (resid (matA info fs) Q * matB info fs)) (-((resid (matA info fs) Q * matB info fs)ᵀ *ᵥ
          (resid (matA info fs) Q *ᵥ vecE fs))), x0⟩, (formHessian info fs).margPs) = (M, ps) := by
    have := h
    simp only [bind, Except.bind] at this
    injection this
  rw [Prod.mk.injEq] at h'
  obtain ⟨hM, hps⟩ := h'
  generalize linJ eig ((resid (matA info fs) Q * matB info fs)ᵀ *
        (resid (matA info fs) Q * matB info fs)) = J0 at hM f1 f2
  generalize linR eig ((resid (matA info fs) Q * matB info fs)ᵀ *
        (resid (matA info fs) Q * matB info fs)) (-((resid (matA info fs) Q * matB info fs)ᵀ *ᵥ
          (resid (matA info fs) Q *ᵥ vecE fs))) = r0 at hM f2
  subst hM
  refine ⟨(resid (matA info fs) Q *ᵥ vecE fs) ⬝ᵥ (resid (matA info fs) Q *ᵥ vecE fs) - r0 ⬝ᵥ r0, ?_⟩
  intro d'
  let d : Fin (formHessian info fs).r → ℝ := fun a => d' a
  have hsq : ∑ i, (r0 + J0 *ᵥ d) i ^ 2 = (r0 + J0 *ᵥ d) ⬝ᵥ (r0 + J0 *ᵥ d) := by
    rw [dotProduct]
    apply sum_congr rfl
    intro i _; ring
  show IsLeast _ (∑ i, (r0 + J0 *ᵥ d) i ^ 2 + _)
  rw [hsq, cost_factor f1 f2 d, ← Matrix.mulVec_mulVec, ← Matrix.mulVec_add]
  have hleast := partial_min_isLeast (matA info fs) hP hG (matB info fs *ᵥ d + vecE fs)
  convert hleast using 1
  simp only
  have key : ∀ y : Nat → ℝ, (∀ p, Remaining info fs p → ∀ a < (info p).base.size,
      y (col (formHessian info fs).index p + a) = d' (col (formHessian info fs).index p - (formHessian info fs).m + a)) ↔
      (fun a : Fin (formHessian info fs).r => y ((formHessian info fs).m + a)) = d := by
    intro y
    constructor
    · intro hy
      funext a
      obtain ⟨p, hp, hc⟩ := L.cover ((formHessian info fs).m + a) (by have := a.2; omega)
      unfold InCol at hc
      simp only at hc
      have hpr : p ∈ (formHessian info fs).remain := by
        rcases hp with hp | hp
        · have := L.margCol p hp
          omega
        · exact hp
      have hR := ((L.remMem p).mp hpr).1
      have hb := L.remCol p hpr
      have g1 := hy p hR ((formHessian info fs).m + a - col (formHessian info fs).index p) (by omega)
      rw [show col (formHessian info fs).index p - (formHessian info fs).m +
        ((formHessian info fs).m + a - col (formHessian info fs).index p) = (a : Nat) by omega] at g1
      show _ = d' a
      rw [← g1]
      congr 1
      omega
    · intro hy p hR a ha
      have hpr := (L.remMem p).mpr ⟨hR, (hk p hR).1⟩
      have hb := L.remCol p hpr
      have g3 := congrFun hy ⟨col (formHessian info fs).index p - (formHessian info fs).m + a, by omega⟩
      simp only at g3
      have g4 : d ⟨col (formHessian info fs).index p - (formHessian info fs).m + a, by omega⟩ =
          d' (col (formHessian info fs).index p - (formHessian info fs).m + a) := rfl
      rw [← g4, ← g3]
      congr 1
      omega
  ext cost
  simp only [Set.mem_ofPred_eq]
  constructor
  · rintro ⟨δ, hδ, rfl⟩
    obtain ⟨y, hy⟩ := exists_vec L δ
    have hyi : ∀ p, Remaining info fs p → ∀ a < (info p).base.size, y (col (formHessian info fs).index p + a) =
        d' (col (formHessian info fs).index p - (formHessian info fs).m + a) := by
      intro p hR a ha
      rw [hy p (Or.inr ((L.remMem p).mpr ⟨hR, (hk p hR).1⟩)) a ha]
      exact hδ p hR a ha
    have hcost : linCost info fs δ =
        linCost info fs (fun p a => y (col (formHessian info fs).index p + a)) := by
      apply linCost_congr
      intro p hp hf a ha
      rw [hy p ?_ a ha]
      by_cases hmg : (info p).marg = true
      · exact Or.inl ((L.margMem p).mpr ⟨hp, hmg⟩)
      · have hR : Remaining info fs p := ⟨hp, by simpa using hmg, hf⟩
        exact Or.inr ((L.remMem p).mpr ⟨hR, (hk p hR).1⟩)
    refine ⟨fun a => y a, ?_⟩
    rw [hcost, linCost_vec info fs hk y, (key y).mp hyi]
  · rintro ⟨xm, rfl⟩
    let y : Nat → ℝ := fun a => if ha : a < (formHessian info fs).m then xm ⟨a, ha⟩
      else d' (a - (formHessian info fs).m)
    have y1 : (fun a : Fin (formHessian info fs).m => y a) = xm := by
      funext a; simp [y]
    have y2 : (fun a : Fin (formHessian info fs).r => y ((formHessian info fs).m + a)) = d := by
      funext a; simp [y, d]
    refine ⟨fun p a => y (col (formHessian info fs).index p + a), (key y).mpr y2, ?_⟩
    rw [linCost_vec info fs hk y, y1, y2]

end Yac.Marg
