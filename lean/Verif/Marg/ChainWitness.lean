import Verif.Marg.ChainProps
import Verif.Marg.EvalProps

/-! A window of two marginalisations that meets the hypotheses of C145. -/

namespace Yac.Marg
open Matrix Yac.Solver Yac.Geom Finset

variable {P : Type} [DecidableEq P]

/-- One column marginalised and one kept: the conditions on the eigenvalues are one inequality. -/
theorem wellScaled_one {eig : EigSolver} (he : IsEigSolver eig) (info : P → PInfo) (fs : List (Res ℝ P))
    (hm : (formHessian info fs).m = 1) (hr : (formHessian info fs).r = 1) (h : 1e-8 < (formHessian info fs).H 0 0) :
    WellScaled eig info fs := by
  have hH := (layout info fs).H
  unfold WellScaled
  generalize col (formHessian info fs).index = c at hH
  generalize formHessian info fs = F at *
  obtain ⟨m, r, mp, rp, ix, H, b⟩ := F
  simp only at hm hr h hH ⊢
  subst hm hr
  have hpi : block H 0 0 1 1 * pseudoInv eig (block H 0 0 1 1) = 1 := by
    refine pseudoInv_inv he (by ext i j; fin_cases i; fin_cases j; rfl) ?_
    intro lam hl
    rw [eigenvalue_one hl]
    exact h
  have h00 : H 0 0 * pseudoInv eig (block H 0 0 1 1) 0 0 = 1 := by
    have := congrFun (congrFun hpi 0) 0
    simpa [Matrix.mul_apply, block] using this
  constructor
  · intro lam hl
    rw [eigenvalue_one hl]
    exact .inr h
  · intro Hm bm hs lam mu hl hu
    unfold schur at hs
    rw [if_pos ⟨Nat.one_pos, Nat.one_pos⟩] at hs
    injection hs with hs
    have hsy : symmetrise (block H 0 0 1 1) = block H 0 0 1 1 :=
      symmetrise_self (by ext i j; fin_cases i; fin_cases j; rfl)
    rw [hsy] at hs
    have h1 := congrArg Prod.fst hs
    simp only at h1
    have e : Hm 0 0 = H 1 1 - H 1 0 * pseudoInv eig (block H 0 0 1 1) 0 0 * H 0 1 := by
      rw [← h1]
      simp [complement, block, Matrix.mul_apply]
    have hcs : H 0 1 * H 1 0 ≤ H 0 0 * H 1 1 := by
      rw [hH 0 1, hH 1 0, hH 0 0, hH 1 1]
      have := Finset.sum_mul_sq_le_sq_mul_sq (range (resLen fs)) (fun k => stackJ (fun p => (info p).base) c fs k 0)
        (fun k => stackJ (fun p => (info p).base) c fs k 1)
      simp only [pow_two] at this
      have e2 : ∀ k, stackJ (fun p => (info p).base) c fs k 1 * stackJ (fun p => (info p).base) c fs k 0 =
        stackJ (fun p => (info p).base) c fs k 0 * stackJ (fun p => (info p).base) c fs k 1 := fun k => mul_comm _ _
      simp only [e2]
      exact this
    have hpos : 0 ≤ Hm 0 0 := by
      rw [e]
      have hq : pseudoInv eig (block H 0 0 1 1) 0 0 = 1 / H 0 0 := by
        have : H 0 0 ≠ 0 := by linarith [show (0:ℝ) < 1e-8 by norm_num]
        field_simp
        linarith
      have h0 : 0 < H 0 0 := by linarith [show (0:ℝ) < 1e-8 by norm_num]
      rw [hq]
      have : H 1 1 - H 1 0 * (1 / H 0 0) * H 0 1 = (H 0 0 * H 1 1 - H 0 1 * H 1 0) / H 0 0 := by
        field_simp
      rw [this]
      exact div_nonneg (by linarith) h0.le
    rw [eigenvalue_one hl, eigenvalue_one hu]
    rcases hpos.eq_or_lt with h0 | h0
    · exact .inl h0.symm
    · right
      norm_num
      linarith

/-- Two speeds and a camera; first only parameter 0 is flagged. -/
def wInfo : Fin 3 → PInfo
  | 0 => ⟨⟨false, .sb, 1⟩, true, 1⟩
  | 1 => ⟨⟨false, .sb, 1⟩, false, 1⟩
  | 2 => ⟨⟨false, .camera, 1⟩, false, 1⟩

/-- Then parameter 1 as well. -/
def wInfo' : Fin 3 → PInfo
  | 0 => ⟨⟨false, .sb, 1⟩, true, 1⟩
  | 1 => ⟨⟨false, .sb, 1⟩, true, 1⟩
  | 2 => ⟨⟨false, .camera, 1⟩, false, 1⟩

/-- The residuals `p0 + p1 + 1` and `p0`. -/
noncomputable def wRes : List (Res ℝ (Fin 3)) :=
  [⟨1, fun _ => 1, [(0, fun _ _ => 1), (1, fun _ _ => 1)]⟩, ⟨1, fun _ => 0, [(0, fun _ _ => 1)]⟩]

/-- The residual `p1 + p2 - 2`. -/
noncomputable def wRes' : List (Res ℝ (Fin 3)) := [⟨1, fun _ => -2, [(1, fun _ _ => 1), (2, fun _ _ => 1)]⟩]

theorem wSame : Same wInfo wInfo' := by
  intro p
  fin_cases p <;> exact ⟨rfl, rfl⟩

theorem wPose (p : Fin 3) : ¬PoseLike (wInfo p) ∧ ¬PoseLike (wInfo' p) := by
  fin_cases p <;> simp [PoseLike, wInfo, wInfo']

theorem wKnown (fs : List (Res ℝ (Fin 3))) : KnownTypes wInfo fs ∧ KnownTypes wInfo' fs := by
  constructor
  · intro p _
    refine ⟨by fin_cases p <;> simp [wInfo], fun h => absurd h (wPose p).1, fun _ => by fin_cases p <;> rfl⟩
  · intro p _
    refine ⟨by fin_cases p <;> simp [wInfo'], fun h => absurd h (wPose p).2, fun _ => by fin_cases p <;> rfl⟩

theorem wFirst (eig : EigSolver) (he : IsEigSolver eig) : ∃ M ps, marginalize eig wInfo (fun _ _ => 0) wRes = .ok (M, ps) ∧
    WellScaled eig wInfo wRes := by
  obtain ⟨M, ps, h⟩ := (C45_defined eig wInfo (fun _ _ => 0) wRes (wKnown _).1).mpr
    ⟨⟨0, ⟨⟨_, List.mem_cons_self, _, List.mem_cons_self⟩, rfl⟩, Nat.one_pos⟩,
     ⟨1, ⟨⟨_, List.mem_cons_self, _, List.mem_cons_of_mem _ List.mem_cons_self⟩, rfl, rfl⟩, Nat.one_pos⟩⟩
  refine ⟨M, ps, h, wellScaled_one he _ _ rfl rfl ?_⟩
  have c0 : col (formHessian wInfo wRes).index 0 = 0 := rfl
  have c1 : col (formHessian wInfo wRes).index 1 = 1 := rfl
  rw [(layout wInfo wRes).H, show resLen wRes = 2 from rfl]
  generalize col (formHessian wInfo wRes).index = c at *
  simp only [sum_range_succ, sum_range_zero, wRes, stackJ, rowG, ent, InCol, c0, c1, wInfo]
  norm_num

/-- C145 witness: two marginalisations; between them the values change from 0 to 5. -/
theorem wWindow (eig : EigSolver) (he : IsEigSolver eig) : ∃ M,
    Window eig (fun _ _ => 0) [⟨fun _ _ => 0, wRes⟩, ⟨fun _ _ => 5, wRes'⟩] wInfo' (fun _ _ => 5) M := by
  obtain ⟨M, ps, h, hw⟩ := wFirst eig he
  have hu : IsIncrement wInfo wRes (fun _ _ => 5) (fun _ _ => 0) (fun _ _ => 5 - 0) := by
    intro p hp a ha
    exact minus_moved _ (fun h => absurd h (wPose p).1) (fun _ => by fin_cases p <;> rfl) _ _ (fun h => absurd h (wPose p).1) a ha
  obtain ⟨R, hR, hb, -⟩ := asRes_spec wSame (wKnown wRes).1 h (fun _ _ => 5) _ hu
  obtain ⟨m1, m2, m3, m4, m5⟩ := marg_fields h
  rw [m3, show (formHessian wInfo wRes).remain = [1] from rfl] at hb
  obtain ⟨M', ps', h'⟩ := (C45_defined eig wInfo' (fun _ _ => 5) (R :: wRes') (wKnown _).2).mpr
    ⟨⟨1, ⟨⟨_, List.mem_cons_of_mem _ List.mem_cons_self, _, List.mem_cons_self⟩, rfl⟩, Nat.one_pos⟩,
     ⟨2, ⟨⟨_, List.mem_cons_of_mem _ List.mem_cons_self, _, List.mem_cons_of_mem _ List.mem_cons_self⟩, rfl, rfl⟩, Nat.one_pos⟩⟩
  refine ⟨M', Window.next (Window.first (wKnown _).1 hw h) wSame ?_ (fun p hp => absurd hp (wPose p).1) ?_ (wKnown _).2 hR ?_ h'⟩
  · intro p hp
    fin_cases p <;> first | rfl | (cases hp)
  · rintro p ⟨-, hp⟩ ⟨f, hf, B, hB⟩
    simp only [wRes', List.mem_singleton] at hf
    subst hf
    simp only [List.mem_cons, Prod.mk.injEq, List.not_mem_nil, or_false] at hB
    rcases hB with ⟨rfl, -⟩ | ⟨rfl, -⟩ <;> cases hp
  · have hps : ((R :: wRes').flatMap fun f => f.blocks.map Prod.fst) = [1, 1, 2] := by
      rw [List.flatMap_cons, hb]; rfl
    have hmp : margParams wInfo' [1, 1, 2] = [1] := rfl
    have hrp : remainParams wInfo' [1, 1, 2] = [2] := rfl
    have hix : (formHessian wInfo' (R :: wRes')).index = [(1, 0), (2, 1)] := by
      unfold formHessian
      simp only [hps, hmp, hrp]
      rfl
    refine wellScaled_one he _ _ ?_ ?_ ?_
    · unfold formHessian
      simp only [hps, hmp]
      rfl
    · unfold formHessian
      simp only [hps, hrp]
      rfl
    · rw [(layout wInfo' (R :: wRes')).H, hix]
      have hone : stackJ (fun p => (wInfo' p).base) (col [(1, 0), (2, 1)]) (R :: wRes') R.size 0 = 1 := by
        simp [stackJ, wRes', rowG, ent, InCol, Solver.col, wInfo']
      have := Finset.single_le_sum (f := fun k => stackJ (fun p => (wInfo' p).base) (col [(1, 0), (2, 1)]) (R :: wRes') k 0 *
        stackJ (fun p => (wInfo' p).base) (col [(1, 0), (2, 1)]) (R :: wRes') k 0) (s := range (resLen (R :: wRes')))
        (fun k _ => mul_self_nonneg _) (a := R.size) (by rw [mem_range]; show _ < R.size + 1; omega)
      simp only [hone] at this
      refine lt_of_lt_of_le ?_ this
      norm_num

end Yac.Marg
