import Verif.Lm.Linconv

/-! # C120: problems that meet the hypotheses, and a residual that cannot be evaluated after a step -/

namespace Yac.Lm
open Finset
open Yac.Solver
open Yac.Sparse (Spqr Pattern IsSpqr macheps patternOf macheps_pos spqr_exists)

/-- One camera parameter. -/
def camInfo : ParamInfo := { fixed := false, kind := .camera, size := 1 }

/-- Two parameters with one number each: `a` (`false`) and `b` (`true`). -/
noncomputable def lineFn : RFn Bool ℝ := ⟨[false], 1, fun σ => some (fun _ => σ false - 1), fun _ _ _ _ => 1⟩

noncomputable def planeFn : RFn Bool ℝ :=
  ⟨[false, true], 1, fun σ => some (fun _ => σ false + 2 * σ true - 5), fun _ p _ _ => if p then 2 else 1⟩

/-- `(a - 1)^2 + (a + 2 b - 5)^2`. -/
noncomputable def twoPb : Setup Bool ℝ := ⟨[false, true], fun _ => camInfo, fun _ v l => v + l.headD 0, [lineFn, planeFn]⟩

theorem twoPb_problem : Problem twoPb Finset.univ := by
  refine ⟨fun p => ⟨fun _ => ⟨rfl, ?_⟩, fun _ => Finset.mem_univ _⟩, ?_, ?_, ⟨false, Finset.mem_univ _, rfl⟩, ?_⟩
  · refine ⟨planeFn, by simp [twoPb], ?_⟩
    cases p <;> simp [planeFn]
  · intro p _; cases p <;> simp [twoPb]
  · intro p _ h; cases h
  · intro g hg
    simp only [twoPb, List.mem_cons, List.not_mem_nil, or_false] at hg
    rcases hg with rfl | rfl <;> decide

theorem twoPb_moved (σ : Vals Bool ℝ) (d : Bool → ℕ → ℝ) (p : Bool) : moved twoPb Finset.univ σ d p = σ p + d p 0 := by
  unfold moved
  simp [twoPb, camInfo]

theorem twoPb_predicted_line (σ : Vals Bool ℝ) (r : ℕ → ℝ) (k : ℕ) (d : Bool → ℕ → ℝ) :
    predicted twoPb Finset.univ (lineFn.result σ r) k d = d false 0 := by
  unfold predicted Solver.deriv RFn.result
  simp [twoPb, camInfo, lineFn]

theorem twoPb_predicted_plane (σ : Vals Bool ℝ) (r : ℕ → ℝ) (k : ℕ) (d : Bool → ℕ → ℝ) :
    predicted twoPb Finset.univ (planeFn.result σ r) k d = d false 0 + 2 * d true 0 := by
  unfold predicted Solver.deriv RFn.result
  simp [twoPb, camInfo, planeFn]
  ring

theorem twoPb_affine : Affine twoPb Finset.univ := by
  refine ⟨?_, ?_, ?_, ?_⟩
  · intro g hg σ
    simp only [twoPb, List.mem_cons, List.not_mem_nil, or_false] at hg
    rcases hg with rfl | rfl
    · exact ⟨_, rfl⟩
    · exact ⟨_, rfl⟩
  · intro g hg σ σ' p
    simp only [twoPb, List.mem_cons, List.not_mem_nil, or_false] at hg
    rcases hg with rfl | rfl <;> rfl
  · intro g hg σ d r r' h h' k _
    simp only [twoPb, List.mem_cons, List.not_mem_nil, or_false] at hg
    rcases hg with rfl | rfl
    · cases h; cases h'
      rw [twoPb_predicted_line, twoPb_moved]; ring
    · cases h; cases h'
      rw [twoPb_predicted_plane, twoPb_moved, twoPb_moved]; ring
  · intro σ d d'
    funext p
    rw [twoPb_moved, twoPb_moved, twoPb_moved]; ring

theorem macheps_small : macheps < 1 / 1000 := by unfold macheps; norm_num

theorem twoPb_dim : dim twoPb Finset.univ = 2 := rfl

/-- The solution `a = 1`, `b = 2`. -/
noncomputable def twoSol : Vals Bool ℝ := fun p => if p then 2 else 1

theorem twoPb_gradient (σ : Vals Bool ℝ) (p : Bool) : gradient twoPb σ p 0 =
    (if p then 2 * (σ false + 2 * σ true - 5) else (σ false - 1) + (σ false + 2 * σ true - 5)) := by
  cases p <;> simp [gradient, twoPb, lineFn, planeFn, Solver.deriv, RFn.result]

theorem twoPb_curved (σ : Vals Bool ℝ) (d : Bool → ℕ → ℝ) :
    1 / 2 * sumSq twoPb Finset.univ d ≤ predictedSq twoPb Finset.univ σ d := by
  have h1 : predictedSq twoPb Finset.univ σ d = d false 0 ^ 2 + (d false 0 + 2 * d true 0) ^ 2 := by
    unfold predictedSq
    simp only [show twoPb.fns = [lineFn, planeFn] from rfl, List.map_cons, List.map_nil, List.sum_cons, List.sum_nil,
      show lineFn.size = 1 from rfl, show planeFn.size = 1 from rfl, Finset.sum_range_one, twoPb_predicted_line,
      twoPb_predicted_plane, add_zero]
  have h2 : sumSq twoPb Finset.univ d = d true 0 ^ 2 + d false 0 ^ 2 := by
    unfold sumSq
    simp [twoPb, camInfo]
  rw [h1, h2]
  nlinarith [sq_nonneg (d false 0 + 3 / 2 * d true 0), sq_nonneg (d true 0), sq_nonneg (d false 0 + d true 0)]

/-- `C120_linear` and `C120_converges` apply to `twoPb` from everywhere. -/
example (e : Bool → ℕ → ℝ) (eps : ℝ) (heps : 0 < eps) : ∃ qr junk, IsSpqr qr ∧
    ∃ N, ∀ maxIter ≥ N, ∃ e', solveLM qr junk twoPb (1 / 10000) maxIter (moved twoPb Finset.univ twoSol e) =
      .ok (moved twoPb Finset.univ twoSol e') ∧ sumSq twoPb Finset.univ e' ≤ eps := by
  obtain ⟨qr, hqr⟩ := spqr_exists
  refine ⟨qr, fun _ => (0, 0), hqr, ?_⟩
  have hm := macheps_small
  refine C120_converges qr hqr _ twoPb Finset.univ twoPb_problem twoPb_affine twoSol ?_ (1 / 2) ?_ (twoPb_curved _) e _
    (by norm_num) eps heps
  · intro p _ i hi
    obtain rfl : i = 0 := by have : i < 1 := hi; omega
    rw [twoPb_gradient]
    cases p <;> norm_num [twoSol]
  · rw [twoPb_dim]; norm_num; linarith

/-- `C120_stationary` applies to `twoPb` at the solution. -/
example : ∃ qr junk, IsSpqr qr ∧ ∀ maxIter, solveLM qr junk twoPb (1 / 100) maxIter twoSol = .ok twoSol := by
  obtain ⟨qr, hqr⟩ := spqr_exists
  refine ⟨qr, fun _ => (0, 0), hqr, fun maxIter => ?_⟩
  have hm := macheps_small
  refine C120_stationary qr hqr _ twoPb Finset.univ twoPb_problem twoSol (fun g hg => twoPb_affine.eval g hg _) ?_ _ ?_ ?_ _
  · intro p _; simp [twoPb, camInfo]
  · rw [twoPb_dim]; norm_num; linarith
  · intro p _ i hi
    obtain rfl : i = 0 := by have : i < 1 := hi; omega
    rw [twoPb_gradient]
    cases p <;> norm_num [twoSol]

/-- Affine residuals are smooth. -/
theorem twoPb_smooth (σ : Vals Bool ℝ) : ∀ g ∈ twoPb.fns, Smooth twoPb Finset.univ σ g := by
  intro g hg
  obtain ⟨r, hr⟩ := twoPb_affine.eval g hg σ
  refine ⟨r, hr, fun k hk eps heps => ⟨1, one_pos, fun d _ => ?_⟩⟩
  obtain ⟨r', hr'⟩ := twoPb_affine.eval g hg (moved twoPb Finset.univ σ d)
  refine ⟨r', hr', ?_⟩
  rw [twoPb_affine.change g hg σ d r r' hr hr' k hk]
  have := size1_nonneg twoPb Finset.univ d
  rw [show r k + predicted twoPb Finset.univ (g.result σ r) k d - r k - predicted twoPb Finset.univ (g.result σ r) k d = 0 by ring,
    abs_zero]
  positivity

/-- `C120_progress` applies to `twoPb` at zero. -/
example : ∃ qr junk, IsSpqr qr ∧ ∃ N, (∃ σ', solveLM qr junk twoPb (1 / 100) N (fun _ => 0) = .ok σ') ∧
    ∀ maxIter ≥ N, ∀ σ', solveLM qr junk twoPb (1 / 100) maxIter (fun _ => 0) = .ok σ' →
      cost twoPb.fns σ' < cost twoPb.fns (fun _ => 0) := by
  obtain ⟨qr, hqr⟩ := spqr_exists
  refine ⟨qr, fun _ => (0, 0), hqr, ?_⟩
  have hm := macheps_small
  refine C120_progress qr hqr _ twoPb Finset.univ twoPb_problem _ (twoPb_smooth _) _ ?_ ⟨true, Finset.mem_univ _, 0, Nat.one_pos, ?_⟩
  · rw [twoPb_dim]; norm_num; linarith
  · rw [twoPb_gradient]; norm_num

/-! ### A residual that cannot be evaluated after a step -/

/-- `x`, and `10` as long as `x ≥ 1/2`. -/
noncomputable def pullFn : RFn Unit ℝ := ⟨[()], 1, fun σ => some (fun _ => σ ()), fun _ _ _ _ => 1⟩

open Classical in
noncomputable def fragileFn : RFn Unit ℝ :=
  ⟨[()], 1, fun σ => if 1 / 2 ≤ σ () then some (fun _ => 10) else none, fun _ _ _ _ => 0⟩

noncomputable def fragilePb : Setup Unit ℝ := ⟨[()], fun _ => camInfo, fun _ v l => v + l.headD 0, [pullFn, fragileFn]⟩

theorem fragile_problem : Problem fragilePb Finset.univ := by
  refine ⟨fun p => ⟨fun _ => ⟨rfl, pullFn, by simp [fragilePb], by simp [pullFn]⟩, fun _ => Finset.mem_univ _⟩, ?_, ?_,
    ⟨(), Finset.mem_univ _, rfl⟩, ?_⟩
  · intro p _; simp [fragilePb]
  · intro p _ h; cases h
  · intro g hg
    simp only [fragilePb, List.mem_cons, List.not_mem_nil, or_false] at hg
    rcases hg with rfl | rfl <;> decide

/-- **C120, refuted.**  A residual that cannot be evaluated after a step is left out of the cost, so that the step is
accepted because of it: the solver returns parameters for which not all residuals can be evaluated although all of them
could be at the beginning, and with one more iteration it does not return. -/
theorem C120_failing_residual_refuted (qr : Spqr) (hqr : IsSpqr qr) (junk : ℕ → ℝ × ℕ) : ∃ (pb : Setup Unit ℝ) (σ : Vals Unit ℝ),
    Problem pb Finset.univ ∧ (∃ c, trueCost pb σ = some c) ∧
    (∃ σ', solveLM qr junk pb (1 / 10000) 2 σ = .ok σ' ∧ trueCost pb σ' = none) ∧
    solveLM qr junk pb (1 / 10000) 3 σ = .error .fatal := by
  have hm := macheps_small
  have hm0 := macheps_pos
  have e1 : ∀ x : ℝ, 1 / 2 ≤ x → fragileFn.eval (fun _ => x) = some (fun _ => 10) := by
    intro x hx; unfold fragileFn; exact if_pos hx
  have e2 : ∀ x : ℝ, ¬ 1 / 2 ≤ x → fragileFn.eval (fun _ => x) = none := by
    intro x hx; unfold fragileFn; exact if_neg hx
  have hev : ∀ g ∈ fragilePb.fns, ∃ r, g.eval (fun _ => (1 : ℝ)) = some r := by
    intro g hg
    simp only [fragilePb, List.mem_cons, List.not_mem_nil, or_false] at hg
    rcases hg with rfl | rfl
    · exact ⟨_, rfl⟩
    · exact ⟨_, e1 1 (by norm_num)⟩
  obtain ⟨order, n, H, b, c, ha⟩ := assemble fragile_problem (fun _ => 1) hev
  have hn : n = 1 := ha.dim
  subst hn
  have hc0 : c () = 0 := by have := ha.lt () (Finset.mem_univ _) 0 Nat.one_pos; omega
  have hb : b 0 = -1 := by
    have := ha.rhs () (Finset.mem_univ _) 0 Nat.one_pos
    rw [hc0] at this
    rw [this]
    simp [gradient, fragilePb, pullFn, fragileFn, Solver.deriv, RFn.result]
    norm_num
  have hH : H 0 0 = 1 := by
    have := ha.entry () (Finset.mem_univ _) 0 Nat.one_pos () (Finset.mem_univ _) 0 Nat.one_pos
    rw [hc0] at this
    rw [this]
    simp [infoEntry, results, fragilePb, pullFn, fragileFn, Solver.deriv, RFn.result]
  obtain ⟨x, hx1, hx2⟩ := ha.solve hqr junk none (1 / 10000) (by unfold macheps; norm_num) (Or.inl rfl)
  have hx : x 0 = -(10000 / 10001) := by
    have := hx2 0 Nat.one_pos
    rw [Finset.sum_range_one, hb, cleaned, if_pos rfl, hH] at this
    linarith
  have hst := step_eq fragile_problem (s := ⟨fun _ => 1, cost fragilePb.fns (fun _ => 1), 1 / 10000, none⟩) hev ha hx1
  have hmv : moved fragilePb Finset.univ (fun _ => 1) (fun p i => x (c p + i)) = fun _ => 1 / 10001 := by
    funext p
    unfold moved
    rw [if_pos (Finset.mem_univ _)]
    show 1 + ((List.range 1).map (fun i => x (c p + i))).headD 0 = _
    rw [show c p = 0 from hc0, show (List.range 1).map (fun i => x (0 + i)) = [x 0] from rfl, List.headD_cons, hx]
    norm_num
  have h1 : fragileFn.eval (fun _ => (1 / 10001 : ℝ)) = none := e2 _ (by norm_num)
  have hc1 : cost fragilePb.fns (fun _ => (1 : ℝ)) = 1 / 2 + 50 := by
    have := e1 1 (by norm_num)
    simp only [cost, fragilePb, List.foldl_cons, List.foldl_nil, costStep, this]
    norm_num [pullFn, fragileFn]
  have hc2 : cost fragilePb.fns (fun _ => (1 / 10001 : ℝ)) < 1 := by
    simp only [cost, fragilePb, List.foldl_cons, List.foldl_nil, costStep, h1]
    norm_num [pullFn]
  simp only [hmv] at hst
  rw [if_pos (by rw [hc1]; linarith)] at hst
  refine ⟨fragilePb, fun _ => 1, fragile_problem, ?_, ⟨fun _ => 1 / 10001, ?_, ?_⟩, ?_⟩
  · refine ⟨1 / 2 * 1 + (1 / 2 * 100 + 0), ?_⟩
    have := e1 1 (by norm_num)
    simp only [trueCost, fragilePb, List.mapM_cons, List.mapM_nil, this]
    simp [pullFn, fragileFn]
    norm_num
  · unfold solveLM
    show loop qr junk fragilePb 1 _ >>= _ = _
    rw [loop, hst]
    rfl
  · unfold trueCost
    simp only [fragilePb, List.mapM_cons, List.mapM_nil, h1]
    simp
  · unfold solveLM
    show loop qr junk fragilePb 2 _ >>= _ = _
    rw [loop, hst, Sparse.okb, loop]
    have : ∀ s : St Unit ℝ, s.vals = (fun _ => 1 / 10001) → step qr junk fragilePb s = .error .fatal := by
      intro s hs
      unfold step
      rw [hs]
      have : evalAll fragilePb.fns (fun _ => (1 / 10001 : ℝ)) = .error .fatal := by
        simp only [evalAll, fragilePb, List.mapM_cons, List.mapM_nil, evalOne, h1]
        rfl
      rw [this]
      rfl
    rw [this _ rfl]
    rfl

/-- `C120_never_worse` applies to `fragilePb`: the returned parameters there. -/
example : ∃ qr junk σ', IsSpqr qr ∧ solveLM qr junk twoPb (1 / 100) 5 (fun _ => 0) = .ok σ' ∧
    (σ' = (fun _ => 0) ∨ cost twoPb.fns σ' < cost twoPb.fns (fun _ => 0)) := by
  obtain ⟨qr, hqr⟩ := spqr_exists
  have hm := macheps_small
  obtain ⟨⟨e', h1, -⟩, -⟩ := C120_linear qr hqr (fun _ => (0, 0)) twoPb Finset.univ twoPb_problem twoPb_affine twoSol (by
    intro p _ i hi
    obtain rfl : i = 0 := by have : i < 1 := hi; omega
    rw [twoPb_gradient]
    cases p <;> norm_num [twoSol]) (1 / 2) (by rw [twoPb_dim]; norm_num; linarith) (twoPb_curved _) (fun p _ => -twoSol p) (1 / 100)
    (by norm_num) 5
  have h0 : moved twoPb Finset.univ twoSol (fun p _ => -twoSol p) = fun _ => 0 := by
    funext p; rw [twoPb_moved]; ring
  rw [h0] at h1
  exact ⟨qr, _, _, hqr, h1, (C120_never_worse qr _ twoPb
    (fun p _ => twoPb_problem.registered p (Finset.mem_univ _)) _ 5 _ _ h1).1⟩

end Yac.Lm
