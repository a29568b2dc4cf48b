import Verif.Lm.Props

/-! # C120: convergence of Levenberg-Marquardt when the residuals are affine functions -/

namespace Yac.Lm
open Finset
open Yac.Solver
open Yac.Sparse (Spqr Pattern IsSpqr macheps patternOf macheps_pos)

variable {P V : Type} [DecidableEq P]

/-- Linear least squares: every residual can be evaluated everywhere, has a constant Jacobian and changes by what the
Jacobian predicts; moves add up. -/
structure Affine (pb : Setup P V) (S : Finset P) : Prop where
  eval : ∀ g ∈ pb.fns, ∀ σ, ∃ r, g.eval σ = some r
  jac : ∀ g ∈ pb.fns, ∀ σ σ' p, g.jac σ p = g.jac σ' p
  change : ∀ g ∈ pb.fns, ∀ σ d r r', g.eval σ = some r → g.eval (moved pb S σ d) = some r' → ∀ k < g.size,
    r' k = r k + predicted pb S (g.result σ r) k d
  add : ∀ σ d d', moved pb S (moved pb S σ d) d' = moved pb S σ (fun p i => d p i + d' p i)

/-- The sum of the squares of a move. -/
noncomputable def sumSq (pb : Setup P V) (S : Finset P) (d : P → ℕ → ℝ) : ℝ :=
  ∑ p ∈ S, ∑ i ∈ range (pb.info p).size, d p i ^ 2

/-- The sum of the squares of the changes of all residuals that the Jacobians predict for a move. -/
noncomputable def predictedSq (pb : Setup P V) (S : Finset P) (σ : Vals P V) (d : P → ℕ → ℝ) : ℝ :=
  (pb.fns.map (fun (g : RFn P V) => ∑ k ∈ range g.size, predicted pb S (g.result σ 0) k d ^ 2)).sum

/-! ### The Jacobian is constant -/

theorem result_deriv {g : RFn P V} {σ σ' : Vals P V} (h : ∀ p, g.jac σ p = g.jac σ' p) (r r' : ℕ → ℝ) (p : P) (k i : ℕ) :
    deriv (g.result σ r) p k i = deriv (g.result σ' r') p k i := by
  unfold Solver.deriv RFn.result
  simp only [List.map_map, Function.comp_def, h]

omit [DecidableEq P] in
theorem results_resLen (fns : List (RFn P V)) (σ σ' : Vals P V) :
    resLen (fns.map (fun g => g.result σ ((g.eval σ).getD 0))) = resLen (fns.map (fun g => g.result σ' ((g.eval σ').getD 0))) := by
  induction fns with
  | nil => rfl
  | cons g fns ih => simp only [List.map_cons, resLen, ih]; rfl

omit [DecidableEq P] in
theorem results_stackJ (info : P → ParamInfo) (c : P → ℕ) (fns : List (RFn P V)) (σ σ' : Vals P V)
    (h : ∀ g ∈ fns, ∀ p, g.jac σ p = g.jac σ' p) : ∀ k a,
    stackJ info c (fns.map (fun g => g.result σ ((g.eval σ).getD 0))) k a =
      stackJ info c (fns.map (fun g => g.result σ' ((g.eval σ').getD 0))) k a := by
  induction fns with
  | nil => intro k a; rfl
  | cons g fns ih =>
    intro k a
    simp only [List.map_cons, stackJ]
    rw [ih (fun g hg => h g (List.mem_cons_of_mem _ hg))]
    have : (g.result σ ((g.eval σ).getD 0)).blocks = (g.result σ' ((g.eval σ').getD 0)).blocks := by
      unfold RFn.result
      simp only [h g List.mem_cons_self]
    rw [this]
    rfl

theorem reassemble {pb : Setup P V} {S : Finset P} (h : Problem pb S) {σ σ' : Vals P V}
    (he : ∀ g ∈ pb.fns, ∃ r, g.eval σ' = some r) (hj : ∀ g ∈ pb.fns, ∀ p, g.jac σ p = g.jac σ' p)
    {order : List (P × ℕ)} {n : ℕ} {H : Mat ℝ} {b : ℕ → ℝ} {c : P → ℕ} (ha : Assembled pb S σ order n H b c) :
    ∃ b', Assembled pb S σ' order n H b' c := by
  obtain ⟨o', n', H', b', c', ha'⟩ := assemble h σ' he
  have h1 := ha.ord
  rw [ha'.ord] at h1
  injection h1 with h1
  injection h1 with h1 h2
  subst h1 h2
  have h3 : c' = c := by rw [ha.cols, ha'.cols]
  subst h3
  have h4 : H' = H := by
    funext a d
    rw [ha.gram, ha'.gram]
    unfold results
    rw [results_resLen pb.fns σ' σ]
    exact Finset.sum_congr rfl (fun k _ => by
      rw [results_stackJ pb.info _ pb.fns σ' σ (fun g hg p => (hj g hg p).symm),
        results_stackJ pb.info _ pb.fns σ' σ (fun g hg p => (hj g hg p).symm)])
  subst h4
  exact ⟨b', ha'⟩

/-! ### The cost and the gradient -/

omit [DecidableEq P] in
/-- Sums over all components. -/
theorem sum_comp (pb : Setup P V) (S : Finset P) (f : P → ℕ → ℝ) :
    ∑ p ∈ S, ∑ i ∈ range (pb.info p).size, f p i = ∑ x ∈ S.sigma (fun p => range (pb.info p).size), f x.1 x.2 := by
  rw [Finset.sum_sigma]

theorem infoEntry_const {pb : Setup P V} {S : Finset P} (hA : Affine pb S) (σ σ' : Vals P V) (p : P) (i : ℕ) (q : P) (j : ℕ) :
    infoEntry (results pb σ) p i q j = infoEntry (results pb σ') p i q j := by
  unfold infoEntry results
  rw [List.map_map, List.map_map]
  congr 1
  apply List.map_congr_left
  intro g hg
  simp only [Function.comp]
  refine Finset.sum_congr rfl (fun k _ => ?_)
  rw [result_deriv (hA.jac g hg σ σ') _ ((g.eval σ').getD 0), result_deriv (hA.jac g hg σ σ') _ ((g.eval σ').getD 0)]

/-- The gradient after a move. -/
theorem gradient_moved {pb : Setup P V} {S : Finset P} (hA : Affine pb S) (σ : Vals P V) (d : P → ℕ → ℝ) (p : P) (i : ℕ) :
    gradient pb (moved pb S σ d) p i = gradient pb σ p i +
      ∑ q ∈ S, ∑ j ∈ range (pb.info q).size, infoEntry (results pb σ) p i q j * d q j := by
  have main : ∀ fns : List (RFn P V), (∀ g ∈ fns, g ∈ pb.fns) →
      (fns.map (fun (g : RFn P V) => match g.eval (moved pb S σ d) with
        | none => 0
        | some r => ∑ k ∈ range g.size, deriv (g.result (moved pb S σ d) r) p k i * r k)).sum =
      (fns.map (fun (g : RFn P V) => match g.eval σ with
        | none => 0
        | some r => ∑ k ∈ range g.size, deriv (g.result σ r) p k i * r k)).sum +
      ∑ q ∈ S, ∑ j ∈ range (pb.info q).size,
        infoEntry (fns.map (fun g => g.result σ ((g.eval σ).getD 0))) p i q j * d q j := by
    intro fns
    induction fns with
    | nil => intro _; simp [infoEntry]
    | cons g fns ih =>
      intro hf
      have hg := hf g List.mem_cons_self
      obtain ⟨r, hr⟩ := hA.eval g hg σ
      obtain ⟨r', hr'⟩ := hA.eval g hg (moved pb S σ d)
      rw [List.map_cons, List.sum_cons, List.map_cons, List.sum_cons, ih (fun g hg => hf g (List.mem_cons_of_mem _ hg))]
      simp only [hr, hr']
      have e1 : ∑ k ∈ range g.size, deriv (g.result (moved pb S σ d) r') p k i * r' k =
          ∑ k ∈ range g.size, deriv (g.result σ r) p k i * r k +
          ∑ q ∈ S, ∑ j ∈ range (pb.info q).size,
            (∑ k ∈ range g.size, deriv (g.result σ r) p k i * deriv (g.result σ r) q k j) * d q j := by
        rw [sum_comp]
        simp only [Finset.sum_mul]
        rw [Finset.sum_comm, ← Finset.sum_add_distrib]
        refine Finset.sum_congr rfl (fun k hk => ?_)
        rw [result_deriv (hA.jac g hg (moved pb S σ d) σ) r' r, hA.change g hg σ d r r' hr hr' k (mem_range.mp hk), mul_add]
        congr 1
        unfold predicted
        rw [sum_comp, Finset.mul_sum]
        exact Finset.sum_congr rfl (fun x _ => by ring)
      rw [e1]
      have e2 : ∀ q j, infoEntry ((g :: fns).map (fun g => g.result σ ((g.eval σ).getD 0))) p i q j =
          ∑ k ∈ range g.size, deriv (g.result σ r) p k i * deriv (g.result σ r) q k j +
          infoEntry (fns.map (fun g => g.result σ ((g.eval σ).getD 0))) p i q j := by
        intro q j
        unfold infoEntry
        rw [List.map_cons, List.map_cons, List.sum_cons, hr]
        rfl
      simp only [e2, add_mul, Finset.sum_add_distrib]
      ring
  exact main pb.fns (fun _ h => h)

/-- The cost after a move. -/
theorem cost_moved {pb : Setup P V} {S : Finset P} (hA : Affine pb S) (σ : Vals P V) (d : P → ℕ → ℝ) :
    cost pb.fns (moved pb S σ d) = cost pb.fns σ +
      ∑ p ∈ S, ∑ i ∈ range (pb.info p).size, gradient pb σ p i * d p i + 1 / 2 * predictedSq pb S σ d := by
  have main : ∀ fns : List (RFn P V), (∀ g ∈ fns, g ∈ pb.fns) →
      (fns.map (fun g => halfSq g (moved pb S σ d))).sum = (fns.map (fun g => halfSq g σ)).sum +
      ∑ p ∈ S, ∑ i ∈ range (pb.info p).size, (fns.map (fun (g : RFn P V) => match g.eval σ with
        | none => 0
        | some r => ∑ k ∈ range g.size, deriv (g.result σ r) p k i * r k)).sum * d p i +
      1 / 2 * (fns.map (fun (g : RFn P V) => ∑ k ∈ range g.size, predicted pb S (g.result σ 0) k d ^ 2)).sum := by
    intro fns
    induction fns with
    | nil => intro _; simp
    | cons g fns ih =>
      intro hf
      have hg := hf g List.mem_cons_self
      obtain ⟨r, hr⟩ := hA.eval g hg σ
      obtain ⟨r', hr'⟩ := hA.eval g hg (moved pb S σ d)
      simp only [List.map_cons, List.sum_cons]
      rw [ih (fun g hg => hf g (List.mem_cons_of_mem _ hg))]
      simp only [hr]
      have e1 : halfSq g (moved pb S σ d) = halfSq g σ +
          ∑ p ∈ S, ∑ i ∈ range (pb.info p).size, (∑ k ∈ range g.size, deriv (g.result σ r) p k i * r k) * d p i +
          1 / 2 * ∑ k ∈ range g.size, predicted pb S (g.result σ 0) k d ^ 2 := by
        unfold halfSq
        rw [hr, hr', sum_comp]
        simp only [Finset.sum_mul, Option.getD_some]
        rw [Finset.sum_comm (s := S.sigma (fun p => range (pb.info p).size)), Finset.mul_sum, ← Finset.sum_add_distrib,
          ← Finset.sum_add_distrib]
        refine Finset.sum_congr rfl (fun k hk => ?_)
        rw [hA.change g hg σ d r r' hr hr' k (mem_range.mp hk)]
        have e2 : predicted pb S (g.result σ 0) k d = predicted pb S (g.result σ r) k d := rfl
        have e3 : ∑ x ∈ S.sigma (fun p => range (pb.info p).size), deriv (g.result σ r) x.1 k x.2 * r k * d x.1 x.2 =
            r k * predicted pb S (g.result σ r) k d := by
          unfold predicted
          rw [sum_comp, Finset.mul_sum]
          exact Finset.sum_congr rfl (fun x _ => by ring)
        rw [e2, e3]
        ring
      rw [e1]
      simp only [add_mul, Finset.sum_add_distrib, mul_add]
      ring
  rw [cost_eq, cost_eq]
  exact main pb.fns (fun _ h => h)

/-- The predicted squares as a quadratic form. -/
theorem predictedSq_form {pb : Setup P V} {S : Finset P} (σ : Vals P V) {order : List (P × ℕ)} {n : ℕ}
    {H : Mat ℝ} {b : ℕ → ℝ} {c : P → ℕ} (ha : Assembled pb S σ order n H b c) (x : ℕ → ℝ) :
    predictedSq pb S σ (fun p i => x (c p + i)) = ∑ a ∈ range n, x a * ∑ d ∈ range n, H a d * x d := by
  have e1 : ∑ a ∈ range n, x a * ∑ d ∈ range n, H a d * x d =
      ∑ y ∈ S.sigma (fun p => range (pb.info p).size), ∑ z ∈ S.sigma (fun p => range (pb.info p).size),
        infoEntry (results pb σ) y.1 y.2 z.1 z.2 * (x (c y.1 + y.2) * x (c z.1 + z.2)) := by
    rw [ha.sum, sum_comp]
    refine Finset.sum_congr rfl (fun y hy => ?_)
    obtain ⟨hy1, hy2⟩ := Finset.mem_sigma.mp hy
    rw [ha.sum, sum_comp, Finset.mul_sum]
    refine Finset.sum_congr rfl (fun z hz => ?_)
    obtain ⟨hz1, hz2⟩ := Finset.mem_sigma.mp hz
    rw [ha.entry _ hy1 _ (mem_range.mp hy2) _ hz1 _ (mem_range.mp hz2)]
    ring
  rw [e1]
  unfold predictedSq results
  generalize pb.fns = fns
  induction fns with
  | nil => simp [infoEntry]
  | cons g fns ih =>
    rw [List.map_cons, List.sum_cons, ih]
    simp only [List.map_cons]
    have e2 : ∀ p i q j, infoEntry (g.result σ ((g.eval σ).getD 0) :: fns.map (fun g => g.result σ ((g.eval σ).getD 0))) p i q j =
        ∑ k ∈ range g.size, deriv (g.result σ 0) p k i * deriv (g.result σ 0) q k j +
          infoEntry (fns.map (fun g => g.result σ ((g.eval σ).getD 0))) p i q j := by
      intro p i q j; rfl
    simp only [e2, add_mul, Finset.sum_add_distrib]
    congr 1
    have e3 : ∀ k, predicted pb S (g.result σ 0) k (fun p i => x (c p + i)) ^ 2 =
        ∑ y ∈ S.sigma (fun p => range (pb.info p).size), ∑ z ∈ S.sigma (fun p => range (pb.info p).size),
          deriv (g.result σ 0) y.1 k y.2 * deriv (g.result σ 0) z.1 k z.2 * (x (c y.1 + y.2) * x (c z.1 + z.2)) := by
      intro k
      unfold predicted
      rw [sum_comp, pow_two, Finset.sum_mul_sum]
      exact Finset.sum_congr rfl (fun y _ => Finset.sum_congr rfl (fun z _ => by ring))
    simp only [e3, Finset.sum_mul]
    rw [Finset.sum_comm]
    refine Finset.sum_congr rfl (fun y _ => ?_)
    rw [Finset.sum_comm]

end Yac.Lm
