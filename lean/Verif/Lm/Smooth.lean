import Verif.Lm.Columns

/-! # The cost near a point -/

namespace Yac.Lm
open Finset
open Yac.Solver

variable {P V : Type} [DecidableEq P]

/-- `c + l d` approximates `F d` for small moves. -/
def Lin (pb : Setup P V) (S : Finset P) (F : (P → ℕ → ℝ) → ℝ) (c : ℝ) (l : (P → ℕ → ℝ) → ℝ) : Prop :=
  ∀ eps > 0, ∃ del > 0, ∀ d, size1 pb S d ≤ del → |F d - c - l d| ≤ eps * size1 pb S d

section
omit [DecidableEq P]

theorem size1_nonneg (pb : Setup P V) (S : Finset P) (d : P → ℕ → ℝ) : 0 ≤ size1 pb S d :=
  Finset.sum_nonneg (fun _ _ => Finset.sum_nonneg (fun _ _ => abs_nonneg _))

theorem Lin.zero (pb : Setup P V) (S : Finset P) : Lin pb S (fun _ => 0) 0 (fun _ => 0) := by
  intro eps he
  refine ⟨1, one_pos, fun d _ => ?_⟩
  have := size1_nonneg pb S d
  simp only [sub_zero, abs_zero]
  positivity

theorem Lin.add {pb : Setup P V} {S : Finset P} {F G : (P → ℕ → ℝ) → ℝ} {c e : ℝ} {l m : (P → ℕ → ℝ) → ℝ}
    (hF : Lin pb S F c l) (hG : Lin pb S G e m) : Lin pb S (fun d => F d + G d) (c + e) (fun d => l d + m d) := by
  intro eps he
  obtain ⟨d1, h1, h2⟩ := hF (eps / 2) (by linarith)
  obtain ⟨d2, h3, h4⟩ := hG (eps / 2) (by linarith)
  refine ⟨min d1 d2, lt_min h1 h3, fun d hd => ?_⟩
  have a1 := h2 d (le_trans hd (min_le_left _ _))
  have a2 := h4 d (le_trans hd (min_le_right _ _))
  have e : F d + G d - (c + e) - (l d + m d) = (F d - c - l d) + (G d - e - m d) := by ring
  rw [e]
  refine le_trans (abs_add_le _ _) ?_
  linarith

theorem Lin.halfSq {pb : Setup P V} {S : Finset P} {F : (P → ℕ → ℝ) → ℝ} {c : ℝ} {l : (P → ℕ → ℝ) → ℝ} (hF : Lin pb S F c l)
    (G : ℝ) (hG : 0 ≤ G) (hl : ∀ d, |l d| ≤ G * size1 pb S d) :
    Lin pb S (fun d => 1 / 2 * (F d * F d)) (1 / 2 * (c * c)) (fun d => c * l d) := by
  intro eps he
  have hc : 0 < |c| + 1 := by have := abs_nonneg c; linarith
  have hG1 : 0 < (G + 1) ^ 2 := by positivity
  obtain ⟨d1, h1, h2⟩ := hF (min 1 (eps / (2 * (|c| + 1)))) (lt_min one_pos (by positivity))
  refine ⟨min d1 (eps / (G + 1) ^ 2), lt_min h1 (by positivity), fun d hd => ?_⟩
  have hs := size1_nonneg pb S d
  have a1 := h2 d (le_trans hd (min_le_left _ _))
  have a2 : size1 pb S d ≤ eps / (G + 1) ^ 2 := le_trans hd (min_le_right _ _)
  have e1 : |F d - c - l d| ≤ 1 * size1 pb S d := le_trans a1 (mul_le_mul_of_nonneg_right (min_le_left _ _) hs)
  have e2 : |F d - c - l d| ≤ eps / (2 * (|c| + 1)) * size1 pb S d :=
    le_trans a1 (mul_le_mul_of_nonneg_right (min_le_right _ _) hs)
  have e3 : |F d - c| ≤ (G + 1) * size1 pb S d := by
    have : F d - c = (F d - c - l d) + l d := by ring
    rw [this]
    refine le_trans (abs_add_le _ _) ?_
    have := hl d
    linarith
  have e4 : 1 / 2 * (F d * F d) - 1 / 2 * (c * c) - c * l d = c * (F d - c - l d) + 1 / 2 * (F d - c) ^ 2 := by ring
  rw [e4]
  refine le_trans (abs_add_le _ _) ?_
  have e5 : |c * (F d - c - l d)| ≤ eps / 2 * size1 pb S d := by
    rw [abs_mul]
    have h3 : |c| * |F d - c - l d| ≤ (|c| + 1) * (eps / (2 * (|c| + 1)) * size1 pb S d) :=
      mul_le_mul (by linarith) e2 (abs_nonneg _) hc.le
    have h4 : (|c| + 1) * (eps / (2 * (|c| + 1)) * size1 pb S d) = eps / 2 * size1 pb S d := by
      field_simp
    linarith
  have e6 : |1 / 2 * (F d - c) ^ 2| ≤ eps / 2 * size1 pb S d := by
    rw [abs_mul, abs_of_pos (by norm_num : (0 : ℝ) < 1 / 2), abs_of_nonneg (sq_nonneg _), ← sq_abs]
    have h3 : |F d - c| ^ 2 ≤ ((G + 1) * size1 pb S d) ^ 2 := pow_le_pow_left₀ (abs_nonneg _) e3 2
    have h4 : (G + 1) ^ 2 * size1 pb S d ≤ eps := by
      rw [le_div_iff₀ hG1] at a2; linarith
    nlinarith
  linarith

end

/-- The part of one residual. -/
noncomputable def halfSq (g : RFn P V) (σ : Vals P V) : ℝ := ∑ k ∈ range g.size, 1 / 2 * ((g.eval σ).getD 0 k * (g.eval σ).getD 0 k)

omit [DecidableEq P] in
theorem cost_eq (fns : List (RFn P V)) (σ : Vals P V) : cost fns σ = (fns.map (fun g => halfSq g σ)).sum := by
  have : ∀ (fns : List (RFn P V)) (c : ℝ), fns.foldl (costStep σ) c = c + (fns.map (fun g => halfSq g σ)).sum := by
    intro fns
    induction fns with
    | nil => intro c; simp
    | cons g fns ih =>
      intro c
      rw [List.foldl_cons, ih, List.map_cons, List.sum_cons, ← add_assoc]
      congr 1
      unfold costStep halfSq
      cases hr : g.eval σ with
      | none => simp
      | some r => simp only [Option.getD_some]; rw [Finset.mul_sum]
  unfold cost
  rw [this, zero_add]

theorem predicted_bound (pb : Setup P V) (S : Finset P) (f : Res ℝ P) (k : ℕ) :
    ∃ G, 0 ≤ G ∧ ∀ d, |predicted pb S f k d| ≤ G * size1 pb S d := by
  refine ⟨∑ p ∈ S, ∑ i ∈ range (pb.info p).size, |deriv f p k i|,
    Finset.sum_nonneg (fun _ _ => Finset.sum_nonneg (fun _ _ => abs_nonneg _)), fun d => ?_⟩
  unfold predicted
  refine le_trans (Finset.abs_sum_le_sum_abs _ _) ?_
  unfold size1
  rw [Finset.mul_sum]
  refine Finset.sum_le_sum (fun p hp => ?_)
  refine le_trans (Finset.abs_sum_le_sum_abs _ _) ?_
  rw [Finset.mul_sum]
  refine Finset.sum_le_sum (fun i hi => ?_)
  rw [abs_mul]
  refine mul_le_mul_of_nonneg_right ?_ (abs_nonneg _)
  refine le_trans (Finset.single_le_sum (f := fun i => |deriv f p k i|) (fun _ _ => abs_nonneg _) hi) ?_
  exact Finset.single_le_sum (f := fun p => ∑ i ∈ range (pb.info p).size, |deriv f p k i|)
    (fun _ _ => Finset.sum_nonneg (fun _ _ => abs_nonneg _)) hp

theorem lin_one {pb : Setup P V} {S : Finset P} {σ : Vals P V} {g : RFn P V} (h : Smooth pb S σ g) {r0 : ℕ → ℝ}
    (hr : g.eval σ = some r0) :
    Lin pb S (fun d => halfSq g (moved pb S σ d)) (halfSq g σ)
      (fun d => ∑ k ∈ range g.size, r0 k * predicted pb S (g.result σ r0) k d) := by
  obtain ⟨r1, hr1, hd⟩ := h
  rw [hr] at hr1
  cases hr1
  have main : ∀ n ≤ g.size, Lin pb S
      (fun d => ∑ k ∈ range n, 1 / 2 * ((g.eval (moved pb S σ d)).getD 0 k * (g.eval (moved pb S σ d)).getD 0 k))
      (∑ k ∈ range n, 1 / 2 * (r0 k * r0 k)) (fun d => ∑ k ∈ range n, r0 k * predicted pb S (g.result σ r0) k d) := by
    intro n
    induction n with
    | zero => intro _; simpa using Lin.zero pb S
    | succ n ih =>
      intro hn
      obtain ⟨G, hG, hb⟩ := predicted_bound pb S (g.result σ r0) n
      have h1 : Lin pb S (fun d => (g.eval (moved pb S σ d)).getD 0 n) (r0 n) (fun d => predicted pb S (g.result σ r0) n d) := by
        intro eps he
        obtain ⟨del, hd1, hd2⟩ := hd n (by omega) eps he
        refine ⟨del, hd1, fun d hs => ?_⟩
        obtain ⟨r, h3, h4⟩ := hd2 d hs
        simp only [h3, Option.getD_some]
        exact h4
      have h2 := (ih (by omega)).add (h1.halfSq G hG hb)
      simp only [Finset.sum_range_succ]
      exact h2
  have := main g.size (le_refl _)
  unfold halfSq
  rw [hr]
  exact this

theorem cost_lin {pb : Setup P V} {S : Finset P} {σ : Vals P V} (h : ∀ g ∈ pb.fns, Smooth pb S σ g) :
    Lin pb S (fun d => cost pb.fns (moved pb S σ d)) (cost pb.fns σ)
      (fun d => ∑ p ∈ S, ∑ i ∈ range (pb.info p).size, gradient pb σ p i * d p i) := by
  have main : ∀ fns : List (RFn P V), (∀ g ∈ fns, Smooth pb S σ g) →
      Lin pb S (fun d => (fns.map (fun g => halfSq g (moved pb S σ d))).sum) ((fns.map (fun g => halfSq g σ)).sum)
        (fun d => ∑ p ∈ S, ∑ i ∈ range (pb.info p).size, (fns.map (fun (g : RFn P V) => match g.eval σ with
          | none => 0
          | some r => ∑ k ∈ range g.size, deriv (g.result σ r) p k i * r k)).sum * d p i) := by
    intro fns
    induction fns with
    | nil => intro _; simpa using Lin.zero pb S
    | cons g fns ih =>
      intro h
      obtain ⟨r0, hr, -⟩ := h g List.mem_cons_self
      have h1 := (lin_one (h g List.mem_cons_self) hr).add (ih (fun x hx => h x (List.mem_cons_of_mem _ hx)))
      simp only [List.map_cons, List.sum_cons, hr]
      convert h1 using 2 with d
      rw [show (∑ k ∈ range g.size, r0 k * predicted pb S (g.result σ r0) k d) = ∑ p ∈ S, ∑ i ∈ range (pb.info p).size,
        (∑ k ∈ range g.size, deriv (g.result σ r0) p k i * r0 k) * d p i by
          unfold predicted
          simp only [Finset.mul_sum, Finset.sum_mul]
          rw [Finset.sum_comm]
          refine Finset.sum_congr rfl (fun p _ => ?_)
          rw [Finset.sum_comm]
          refine Finset.sum_congr rfl (fun i _ => Finset.sum_congr rfl (fun k _ => by ring)), ← Finset.sum_add_distrib]
      refine Finset.sum_congr rfl (fun p _ => ?_)
      rw [← Finset.sum_add_distrib]
      exact Finset.sum_congr rfl (fun i _ => by ring)
  have := main pb.fns h
  simp only [cost_eq]
  exact this

end Yac.Lm
