import Verif.Lm.Smooth
import Mathlib.Algebra.Order.Archimedean.Basic

/-! # C120: Levenberg-Marquardt with its linear algebra -/

namespace Yac.Lm
open Finset
open Yac.Solver
open Yac.Sparse (Spqr Pattern IsSpqr macheps patternOf macheps_pos)

variable {P V : Type} [DecidableEq P]

theorem bindOk {α β : Type} {x : Except Fault α} {f : α → Except Fault β} {b : β} (h : x >>= f = .ok b) :
    ∃ a, x = .ok a ∧ f a = .ok b := by
  cases x with
  | error e => cases h
  | ok a => exact ⟨a, rfl, h⟩

/-! ### Never worse -/

theorem form_order {info : P → ParamInfo} {fs : List (Res ℝ P)} {h : List (P × ℕ) × ℕ × Mat ℝ × (ℕ → ℝ)}
    (e : formHessian info fs = .ok h) : (h.1.map Prod.fst).Nodup ∧ ∀ p ∈ h.1.map Prod.fst, Optimised info fs p := by
  unfold formHessian at e
  cases he : evalOrder info (fs.map (fun f => f.blocks.map Prod.fst)) with
  | error x => rw [he] at e; cases e
  | ok on =>
    obtain ⟨o, n⟩ := on
    rw [he] at e
    simp only [bind, Except.bind, pure, Except.pure, Except.ok.injEq] at e
    subst e
    obtain ⟨ho, -⟩ := evalOrder_ok he
    have hk : o.map Prod.fst = (track info (fs.map (fun f => f.blocks.map Prod.fst))).all := by rw [ho, assign_keys]
    refine ⟨touchAll_nodup _ _ _ (by rw [hk]; exact track_all_nodup _ _), fun p hp => ?_⟩
    rw [touchAll_keys, hk, track_all_mem, mem_blocks_flatten, flatMap_eq, mem_blocks_flatten] at hp
    rcases hp with ⟨a, b, _⟩ | ⟨a, b⟩
    · exact ⟨b, a⟩
    · exact ⟨b, a⟩

theorem evalAll_inv {fns : List (RFn P V)} {σ : Vals P V} {fs : List (Res ℝ P)} (h : evalAll fns σ = .ok fs) :
    (∀ g ∈ fns, ∃ r, g.eval σ = some r) ∧ fs = fns.map (fun g => g.result σ ((g.eval σ).getD 0)) := by
  have h1 : ∀ g ∈ fns, ∃ r, g.eval σ = some r := by
    unfold evalAll at h
    induction fns generalizing fs with
    | nil => intro g hg; cases hg
    | cons g fns ih =>
      rw [List.mapM_cons] at h
      obtain ⟨f, h1, h2⟩ := bindOk h
      obtain ⟨fs', h3, h4⟩ := bindOk h2
      intro x hx
      rcases List.mem_cons.mp hx with rfl | hx
      · unfold evalOne at h1
        cases hr : x.eval σ with
        | none => rw [hr] at h1; cases h1
        | some r => exact ⟨r, rfl⟩
      · exact ih h3 x hx
  refine ⟨h1, ?_⟩
  rw [evalAll_ok fns σ h1] at h
  injection h with h
  exact h.symm

theorem step_inv {qr : Spqr} {junk : ℕ → ℝ × ℕ} {pb : Setup P V} (hreg : ∀ p, Free pb p → p ∈ pb.params) {s t : St P V}
    (h : step qr junk pb s = .ok t) : (∀ g ∈ pb.fns, ∃ r, g.eval s.vals = some r) ∧
      (t.vals = s.vals ∧ t.cost = s.cost ∨ t.cost = cost pb.fns t.vals ∧ t.cost < s.cost) ∧
      ∀ p, ¬ Free pb p → t.vals p = s.vals p := by
  unfold step at h
  obtain ⟨fs, h1, h2⟩ := bindOk h
  obtain ⟨hh, h3, h4⟩ := bindOk h2
  obtain ⟨pd, h5, h6⟩ := bindOk h4
  obtain ⟨he, hfs⟩ := evalAll_inv h1
  obtain ⟨hn, hk⟩ := form_order h3
  have hu : ∀ p, ¬ Free pb p → update pb.info pb.plus hh.1 pd.2 s.vals p = s.vals p := by
    intro p hp
    rw [update_apply pb.info pb.plus hh.1 hn, if_neg]
    intro hm
    obtain ⟨a, f, hf, hpf⟩ := hk p hm
    refine hp ⟨a, ?_⟩
    rw [hfs] at hf
    obtain ⟨g, hg, rfl⟩ := List.mem_map.mp hf
    exact ⟨g, hg, by simpa [RFn.result] using hpf⟩
  refine ⟨he, ?_⟩
  simp only at h6
  split_ifs at h6 with hc
  · injection h6 with h6
    subst h6
    exact ⟨Or.inr ⟨rfl, by show _ < s.cost; linarith⟩, hu⟩
  · injection h6 with h6
    subst h6
    have hr : restoreParams (cacheParams pb.params s.vals) (update pb.info pb.plus hh.1 pd.2 s.vals) = s.vals := by
      apply restore_cache
      intro q hq
      exact hu q (fun hf => hq (hreg q hf))
    exact ⟨Or.inl ⟨hr, rfl⟩, fun p _ => congrFun hr p⟩

theorem loop_inv {qr : Spqr} {junk : ℕ → ℝ × ℕ} {pb : Setup P V} (hreg : ∀ p, Free pb p → p ∈ pb.params) :
    ∀ (n : ℕ) {s t : St P V}, s.cost = cost pb.fns s.vals → loop qr junk pb n s = .ok t →
      t.cost = cost pb.fns t.vals ∧ (t.vals = s.vals ∨ cost pb.fns t.vals < cost pb.fns s.vals) ∧
      ∀ p, ¬ Free pb p → t.vals p = s.vals p := by
  intro n
  induction n with
  | zero => intro s t hs h; injection h with h; subst h; exact ⟨hs, Or.inl rfl, fun _ _ => rfl⟩
  | succ n ih =>
    intro s t hs h
    obtain ⟨u, h1, h2⟩ := bindOk h
    obtain ⟨-, h3, h4⟩ := step_inv hreg h1
    have hu : u.cost = cost pb.fns u.vals := by
      rcases h3 with ⟨a, b⟩ | ⟨a, -⟩
      · rw [a, b, hs]
      · exact a
    obtain ⟨k1, k2, k3⟩ := ih hu h2
    refine ⟨k1, ?_, fun p hp => (k3 p hp).trans (h4 p hp)⟩
    rcases h3 with ⟨a, b⟩ | ⟨a, b⟩
    · rw [← a]; exact k2
    · right
      rcases k2 with k | k
      · rw [k, ← a]; linarith
      · linarith

omit [DecidableEq P] in
theorem trueCost_cost {pb : Setup P V} {σ : Vals P V} {c : ℝ} (h : trueCost pb σ = some c) : cost pb.fns σ = c := by
  have main : ∀ (fns : List (RFn P V)) (l : List ℝ),
      fns.mapM (fun (g : RFn P V) => (g.eval σ).map (fun r => 1 / 2 * ∑ k ∈ Finset.range g.size, r k ^ 2)) = some l →
      fns.map (fun g => halfSq g σ) = l := by
    intro fns
    induction fns with
    | nil => intro l h; simpa using h
    | cons g fns ih =>
      intro l h
      rw [List.mapM_cons] at h
      cases hr : g.eval σ with
      | none => rw [hr] at h; cases h
      | some r =>
        rw [hr] at h
        cases hm : fns.mapM (fun (g : RFn P V) => (g.eval σ).map (fun r => 1 / 2 * ∑ k ∈ Finset.range g.size, r k ^ 2)) with
        | none => rw [hm] at h; cases h
        | some l' =>
          rw [hm] at h
          cases h
          rw [List.map_cons, ih l' hm]
          congr 1
          unfold halfSq
          rw [hr]
          beta_reduce
          rw [Finset.mul_sum]
          exact Finset.sum_congr rfl (fun k _ => by simp only [Option.getD_some]; ring)
  unfold trueCost at h
  obtain ⟨l, h1, h2⟩ := Option.map_eq_some_iff.mp h
  rw [cost_eq, main _ _ h1, h2]

/-- **C120, never worse.**  If Levenberg-Marquardt returns, the parameters are the initial ones, or half the sum of
squares of the residuals that can be evaluated is smaller; if all of them can be evaluated before and after, half the
sum of squares is not larger.  Parameters that are fixed or of no residual are unchanged. -/
theorem C120_never_worse (qr : Spqr) (junk : ℕ → ℝ × ℕ) (pb : Setup P V) (hreg : ∀ p, Free pb p → p ∈ pb.params) (lambda : ℝ)
    (maxIter : ℕ) (σ σ' : Vals P V) (h : solveLM qr junk pb lambda maxIter σ = .ok σ') :
    (σ' = σ ∨ cost pb.fns σ' < cost pb.fns σ) ∧
    (∀ c c', trueCost pb σ = some c → trueCost pb σ' = some c' → c' ≤ c) ∧
    ∀ p, ¬ Free pb p → σ' p = σ p := by
  unfold solveLM at h
  obtain ⟨t, h1, h2⟩ := bindOk h
  injection h2 with h2
  subst h2
  obtain ⟨-, k2, k3⟩ := loop_inv hreg _ (s := ⟨σ, cost pb.fns σ, lambda, none⟩) rfl h1
  refine ⟨k2, fun c c' hc hc' => ?_, k3⟩
  rw [← trueCost_cost hc, ← trueCost_cost hc']
  rcases k2 with k | k
  · rw [k]
  · exact k.le

/-! ### Progress -/

theorem loop_add (qr : Spqr) (junk : ℕ → ℝ × ℕ) (pb : Setup P V) (m : ℕ) : ∀ (n : ℕ) (s : St P V),
    loop qr junk pb (n + m) s = loop qr junk pb n s >>= loop qr junk pb m := by
  intro n
  induction n with
  | zero => intro s; rw [Nat.zero_add]; rfl
  | succ n ih =>
    intro s
    rw [show n + 1 + m = (n + m) + 1 by omega]
    show step qr junk pb s >>= loop qr junk pb (n + m) = (step qr junk pb s >>= loop qr junk pb n) >>= loop qr junk pb m
    cases h : step qr junk pb s with
    | error e => rfl
    | ok t => exact ih t

theorem loop_succ (qr : Spqr) (junk : ℕ → ℝ × ℕ) (pb : Setup P V) (n : ℕ) (s t : St P V) (h : loop qr junk pb n s = .ok t) :
    loop qr junk pb (n + 1) s = step qr junk pb t := by
  rw [loop_add, h]
  show (step qr junk pb t >>= loop qr junk pb 0) = _
  cases step qr junk pb t <;> rfl

/-- One iteration, given the step. -/
theorem step_eq {qr : Spqr} {junk : ℕ → ℝ × ℕ} {pb : Setup P V} {S : Finset P} (h : Problem pb S) {s : St P V}
    (he : ∀ g ∈ pb.fns, ∃ r, g.eval s.vals = some r) {order : List (P × ℕ)} {n : ℕ} {H : Mat ℝ} {b : ℕ → ℝ} {c : P → ℕ}
    (ha : Assembled pb S s.vals order n H b c) {pat : Pattern} {x : ℕ → ℝ}
    (hx : spqrSolve qr junk s.sym (damp H s.lam) b n = .ok (pat, x)) :
    step qr junk pb s =
      if cost pb.fns (moved pb S s.vals (fun p i => x (c p + i))) < s.cost then
        .ok ⟨moved pb S s.vals (fun p i => x (c p + i)), cost pb.fns (moved pb S s.vals (fun p i => x (c p + i))), s.lam / 10,
          some pat⟩
      else .ok ⟨s.vals, s.cost, s.lam * 10, some pat⟩ := by
  have hr : restoreParams (cacheParams pb.params s.vals) (moved pb S s.vals (fun p i => x (c p + i))) = s.vals := by
    apply restore_cache
    intro q hq
    unfold moved
    rw [if_neg (fun hc => hq (h.registered q hc))]
  unfold step
  rw [evalAll_ok pb.fns s.vals he, Sparse.okb, show pb.fns.map (fun g => g.result s.vals ((g.eval s.vals).getD 0)) =
    results pb s.vals from rfl, ha.form, Sparse.okb]
  simp only [hx]
  rw [Sparse.okb]
  simp only [ha.upd, hr, sub_neg]

/-- Moves in terms of the columns. -/
theorem Assembled.size1 {pb : Setup P V} {S : Finset P} {σ : Vals P V} {order : List (P × ℕ)} {n : ℕ} {H : Mat ℝ} {b : ℕ → ℝ}
    {c : P → ℕ} (ha : Assembled pb S σ order n H b c) (x : ℕ → ℝ) :
    size1 pb S (fun p i => x (c p + i)) = ∑ a ∈ range n, |x a| := by
  rw [ha.sum]; rfl

theorem Assembled.slope {pb : Setup P V} {S : Finset P} {σ : Vals P V} {order : List (P × ℕ)} {n : ℕ} {H : Mat ℝ} {b : ℕ → ℝ}
    {c : P → ℕ} (ha : Assembled pb S σ order n H b c) (x : ℕ → ℝ) :
    ∑ p ∈ S, ∑ i ∈ range (pb.info p).size, gradient pb σ p i * x (c p + i) = -∑ a ∈ range n, b a * x a := by
  rw [ha.sum, ← Finset.sum_neg_distrib]
  refine Finset.sum_congr rfl (fun p hp => ?_)
  rw [← Finset.sum_neg_distrib]
  refine Finset.sum_congr rfl (fun i hi => ?_)
  rw [ha.rhs p hp i (mem_range.mp hi)]; ring

/-- The step for a damping above the rounding errors. -/
theorem Assembled.solve {pb : Setup P V} {S : Finset P} {σ : Vals P V} {order : List (P × ℕ)} {n : ℕ} {H : Mat ℝ} {b : ℕ → ℝ}
    {c : P → ℕ} (ha : Assembled pb S σ order n H b c) {qr : Spqr} (hqr : IsSpqr qr) (junk : ℕ → ℝ × ℕ) (cache : Option Pattern)
    (lam : ℝ) (hl : (n + 1) * macheps < lam) (hc : cache = none ∨ cache = some (patternOf (cleaned H 1) n n)) :
    ∃ x, spqrSolve qr junk cache (damp H lam) b n = .ok (patternOf (cleaned H 1) n n, x) ∧
      ∀ a < n, ∑ c ∈ range n, cleaned H lam a c * x c = b a := by
  have hm := macheps_pos
  have hn : (0 : ℝ) ≤ n := Nat.cast_nonneg n
  refine spqr_exact hqr junk cache H b n ha.diag lam (fun a h => ?_) (lam - n * macheps) (by linarith)
    (cleaned_form H ha.psd lam) hc
  have := ha.diag a h
  nlinarith

/-- **C120, progress.**  If all residuals can be evaluated near the initial parameters, their Jacobians are their
derivatives, the gradient of half the sum of squares is not zero and `lambda` is above the rounding unit, then there is
a number of iterations after which (no fault has happened and) the cost is smaller, and it is smaller for every larger
`max_iter` with which the solver returns. -/
theorem C120_progress (qr : Spqr) (hqr : IsSpqr qr) (junk : ℕ → ℝ × ℕ) (pb : Setup P V) (S : Finset P) (h : Problem pb S)
    (σ : Vals P V) (hs : ∀ g ∈ pb.fns, Smooth pb S σ g) (lambda : ℝ) (hl : (dim pb S + 1) * macheps < lambda)
    (hg : ∃ p ∈ S, ∃ i < (pb.info p).size, gradient pb σ p i ≠ 0) :
    ∃ N, (∃ σ', solveLM qr junk pb lambda N σ = .ok σ') ∧
      ∀ maxIter ≥ N, ∀ σ', solveLM qr junk pb lambda maxIter σ = .ok σ' → cost pb.fns σ' < cost pb.fns σ := by
  have he : ∀ g ∈ pb.fns, ∃ r, g.eval σ = some r := fun g hg => by
    obtain ⟨r, hr, -⟩ := hs g hg; exact ⟨r, hr⟩
  obtain ⟨order, n, H, b, c, ha⟩ := assemble h σ he
  have hreg : ∀ p, Free pb p → p ∈ pb.params := fun p hp => h.registered p ((h.free p).mpr hp)
  have hm := macheps_pos
  rw [← ha.dim] at hl
  have hlp : 0 < lambda := lt_of_le_of_lt (by positivity) hl
  have hB : 0 < ∑ a ∈ range n, |b a| := by
    obtain ⟨p, hp, i, hi, hgr⟩ := hg
    refine lt_of_lt_of_le (b := |b (c p + i)|) ?_
      (Finset.single_le_sum (f := fun a => |b a|) (fun _ _ => abs_nonneg _) (mem_range.mpr (ha.lt p hp i hi)))
    rw [ha.rhs p hp i hi, abs_neg]
    exact abs_pos.mpr hgr
  have hn : 0 < n := by
    rcases Nat.eq_zero_or_pos n with h0 | h0
    · subst h0; simp at hB
    · exact h0
  have hn' : (0 : ℝ) < n := by exact_mod_cast hn
  obtain ⟨del, hdel, hlin⟩ := cost_lin hs ((∑ a ∈ range n, |b a|) / (4 * n)) (by positivity)
  obtain ⟨Lam, hLam⟩ := big_step n (cleaned H 0) (∑ a ∈ range n, ∑ c ∈ range n, |H a c|)
    (Finset.sum_nonneg (fun _ _ => Finset.sum_nonneg (fun _ _ => abs_nonneg _))) (by
      intro a ha' c' hc'
      have h1 : |cleaned H 0 a c'| ≤ |H a c'| := by
        unfold cleaned
        split_ifs
        · rw [add_zero]
        · simp
        · exact le_refl _
      refine le_trans h1 (le_trans ?_ (Finset.single_le_sum (f := fun a => ∑ c ∈ range n, |H a c|)
        (fun _ _ => Finset.sum_nonneg (fun _ _ => abs_nonneg _)) (mem_range.mpr ha')))
      exact Finset.single_le_sum (f := fun c => |H a c|) (fun _ _ => abs_nonneg _) (mem_range.mpr hc')) b hB del hdel
  -- as long as nothing is accepted, only the damping changes
  have main : ∀ k, (∃ j ≤ k, ∃ t, loop qr junk pb j ⟨σ, cost pb.fns σ, lambda, none⟩ = .ok t ∧ cost pb.fns t.vals < cost pb.fns σ) ∨
      ∃ cache, (cache = none ∨ cache = some (patternOf (cleaned H 1) n n)) ∧
        loop qr junk pb k ⟨σ, cost pb.fns σ, lambda, none⟩ = .ok ⟨σ, cost pb.fns σ, lambda * 10 ^ k, cache⟩ ∧
        ∀ i < k, lambda * 10 ^ i < Lam := by
    intro k
    induction k with
    | zero =>
      right
      exact ⟨none, Or.inl rfl, by rw [pow_zero, mul_one]; rfl, fun i hi => absurd hi (by omega)⟩
    | succ k ih =>
      rcases ih with ⟨j, hj, t, h1, h2⟩ | ⟨cache, hc, h1, hlow⟩
      · exact Or.inl ⟨j, by omega, t, h1, h2⟩
      · have h10 : (1 : ℝ) ≤ 10 ^ k := one_le_pow₀ (by norm_num)
        have hlk : (n + 1) * macheps < lambda * 10 ^ k := by nlinarith
        obtain ⟨x, hx1, hx2⟩ := ha.solve hqr junk cache (lambda * 10 ^ k) hlk hc
        have hst := step_eq h (s := ⟨σ, cost pb.fns σ, lambda * 10 ^ k, cache⟩) he ha hx1
        have hlo := loop_succ qr junk pb k _ _ h1
        rw [hst] at hlo
        by_cases hcost : cost pb.fns (moved pb S σ (fun p i => x (c p + i))) < cost pb.fns σ
        · rw [if_pos hcost] at hlo
          exact Or.inl ⟨k + 1, le_refl _, _, hlo, hcost⟩
        · rw [if_neg hcost] at hlo
          right
          refine ⟨_, Or.inr rfl, by rw [hlo, pow_succ, mul_assoc], ?_⟩
          intro i hi
          rcases Nat.lt_succ_iff_lt_or_eq.mp hi with hi | rfl
          · exact hlow i hi
          · by_contra hbig
            apply hcost
            obtain ⟨b1, b2, b3⟩ := hLam _ (not_lt.mp hbig) x (by
              intro a ha'
              rw [← hx2 a ha']
              have : ∀ c ∈ range n, cleaned H (lambda * 10 ^ i) a c * x c =
                  cleaned H 0 a c * x c + (if a = c then lambda * 10 ^ i * x c else 0) := by
                intro c _
                unfold cleaned
                split_ifs <;> ring
              rw [Finset.sum_congr rfl this, Finset.sum_add_distrib, Finset.sum_ite_eq, if_pos (mem_range.mpr ha')])
            have h3 := hlin (fun p i => x (c p + i)) (by rw [ha.size1]; exact b2)
            rw [ha.size1] at h3
            beta_reduce at h3
            rw [ha.slope] at h3
            have h4 := (abs_le.mp h3).2
            have h5 : (∑ a ∈ range n, |b a|) / (4 * n) * ∑ a ∈ range n, |x a| <
                ∑ a ∈ range n, b a * x a := by
              have h6 : (∑ a ∈ range n, |b a|) * ∑ a ∈ range n, |x a| < 4 * n * ∑ a ∈ range n, b a * x a := by
                have h7 : 0 < (∑ a ∈ range n, |b a|) * ∑ a ∈ range n, |x a| := mul_pos hB b1
                linarith
              rw [div_mul_eq_mul_div, div_lt_iff₀ (by positivity)]
              linarith
            linarith
  obtain ⟨K, hK⟩ := pow_unbounded_of_one_lt (Lam / lambda) (by norm_num : (1 : ℝ) < 10)
  rcases main (K + 1) with ⟨j, -, t, h1, h2⟩ | ⟨cache, -, -, hlow⟩
  · refine ⟨j + 1, ⟨t.vals, by unfold solveLM; rw [Nat.add_sub_cancel, h1]; rfl⟩, fun maxIter hmax σ' hσ' => ?_⟩
    unfold solveLM at hσ'
    obtain ⟨m, rfl⟩ := Nat.exists_eq_add_of_le hmax
    rw [show j + 1 + m - 1 = j + m by omega, loop_add, h1] at hσ'
    obtain ⟨u, h3, h4⟩ := bindOk hσ'
    injection h4 with h4
    subst h4
    obtain ⟨k1, -, -⟩ := loop_inv hreg j (s := ⟨σ, cost pb.fns σ, lambda, none⟩) rfl h1
    obtain ⟨-, k2, -⟩ := loop_inv hreg m k1 h3
    rcases k2 with k | k
    · rw [k]; exact h2
    · linarith
  · have := hlow K (by omega)
    rw [div_lt_iff₀ hlp] at hK
    linarith

/-! ### Stationary points -/

/-- **C120, stationary points.**  At parameters where all residuals can be evaluated and the gradient is zero, the
solver returns exactly these, for every number of iterations. -/
theorem C120_stationary (qr : Spqr) (hqr : IsSpqr qr) (junk : ℕ → ℝ × ℕ) (pb : Setup P V) (S : Finset P) (h : Problem pb S)
    (σ : Vals P V) (he : ∀ g ∈ pb.fns, ∃ r, g.eval σ = some r)
    (hp : ∀ p ∈ S, pb.plus p (σ p) (List.replicate (pb.info p).size 0) = σ p) (lambda : ℝ)
    (hl : (dim pb S + 1) * macheps < lambda)
    (hg : ∀ p ∈ S, ∀ i < (pb.info p).size, gradient pb σ p i = 0) (maxIter : ℕ) :
    solveLM qr junk pb lambda maxIter σ = .ok σ := by
  obtain ⟨order, n, H, b, c, ha⟩ := assemble h σ he
  have hm := macheps_pos
  rw [← ha.dim] at hl
  have hn : (0 : ℝ) ≤ n := Nat.cast_nonneg n
  have hlp : 0 < lambda := lt_of_le_of_lt (by positivity) hl
  have main : ∀ k, ∃ cache, (cache = none ∨ cache = some (patternOf (cleaned H 1) n n)) ∧
      loop qr junk pb k ⟨σ, cost pb.fns σ, lambda, none⟩ = .ok ⟨σ, cost pb.fns σ, lambda * 10 ^ k, cache⟩ := by
    intro k
    induction k with
    | zero => exact ⟨none, Or.inl rfl, by rw [pow_zero, mul_one]; rfl⟩
    | succ k ih =>
      obtain ⟨cache, hc, h1⟩ := ih
      have h10 : (1 : ℝ) ≤ 10 ^ k := one_le_pow₀ (by norm_num)
      have hlk : (n + 1) * macheps < lambda * 10 ^ k := by nlinarith
      obtain ⟨x, hx1, hx2⟩ := ha.solve hqr junk cache (lambda * 10 ^ k) hlk hc
      have hst := step_eq h (s := ⟨σ, cost pb.fns σ, lambda * 10 ^ k, cache⟩) he ha hx1
      have hlo := loop_succ qr junk pb k _ _ h1
      have hb0 : ∀ a < n, b a = 0 := by
        intro a ha'
        obtain ⟨p, hp', i, hi, rfl⟩ := ha.split a ha'
        rw [ha.rhs p hp' i hi, hg p hp' i hi, neg_zero]
      have hx0 : ∀ a < n, x a = 0 := by
        have h2 := cleaned_form H ha.psd (lambda * 10 ^ k) x
        have h3 : ∑ a ∈ range n, x a * ∑ c ∈ range n, cleaned H (lambda * 10 ^ k) a c * x c = 0 :=
          Finset.sum_eq_zero (fun a ha' => by rw [hx2 a (mem_range.mp ha'), hb0 a (mem_range.mp ha'), mul_zero])
        rw [h3] at h2
        have h4 : ∑ a ∈ range n, x a ^ 2 ≤ 0 := by
          by_contra hpos
          have : 0 < (lambda * 10 ^ k - n * macheps) * ∑ a ∈ range n, x a ^ 2 := mul_pos (by linarith) (not_le.mp hpos)
          linarith
        intro a ha'
        have h5 : x a ^ 2 ≤ 0 := le_trans (Finset.single_le_sum (f := fun a => x a ^ 2) (fun _ _ => sq_nonneg _)
          (mem_range.mpr ha')) h4
        exact pow_eq_zero_iff (two_ne_zero) |>.mp (le_antisymm h5 (sq_nonneg _))
      have hmv : moved pb S σ (fun p i => x (c p + i)) = σ := by
        funext p
        unfold moved
        by_cases hpS : p ∈ S
        · rw [if_pos hpS, show (List.range (pb.info p).size).map (fun i => x (c p + i)) = List.replicate (pb.info p).size 0 by
            rw [List.eq_replicate_iff]
            refine ⟨by simp, fun y hy => ?_⟩
            obtain ⟨i, hi, rfl⟩ := List.mem_map.mp hy
            exact hx0 _ (ha.lt p hpS i (List.mem_range.mp hi))]
          exact hp p hpS
        · rw [if_neg hpS]
      rw [hst] at hlo
      simp only [hmv, lt_irrefl, if_false] at hlo
      exact ⟨_, Or.inr rfl, by rw [hlo, pow_succ, mul_assoc]⟩
  obtain ⟨cache, -, h1⟩ := main (maxIter - 1)
  unfold solveLM
  rw [h1]
  rfl

end Yac.Lm
