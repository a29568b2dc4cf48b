import Verif.Lm.Spec
import Verif.Sparse.StepProps
import Mathlib.Algebra.Order.Chebyshev

/-! # The damped normal equations -/

namespace Yac.Lm
open Matrix Finset
open Yac.Solver (Mat)
open Yac.Sparse
open Yac.Marg (block)

/-- The back substitution solves a system whose columns are independent. -/
theorem backSolve_exact {qr : Spqr} (hqr : IsSpqr qr) {n : ℕ} (A : Matrix (Fin n) (Fin n) ℝ) (hi : Independent macheps A)
    (b : Fin n → ℝ) : A *ᵥ backSolve (qr macheps n n A) ((qr macheps n n A).Qᵀ *ᵥ b) = b := by
  obtain ⟨hQ, hR, h, hA⟩ := hqr macheps n n A macheps_pos.le hi
  have e : (qr macheps n n A).Q.submatrix id (Fin.castLE h) = (qr macheps n n A).Q := by
    ext a c; rfl
  have h1 := (qr_part hQ hR h hA b).1
  rw [e] at h1
  rw [h1, mulVec_mulVec, mul_eq_one_comm.mp hQ, one_mulVec]

theorem block_mul {n : ℕ} (D : Mat ℝ) (x : Fin n → ℝ) (a : Fin n) :
    (block D 0 0 n n *ᵥ x) a = ∑ c ∈ range n, D a c * ext x c := by
  rw [Finset.sum_range]
  simp only [mulVec, dotProduct, Marg.block, Nat.zero_add, ext_lt]

/-- What is left of the damped matrix after the conversion. -/
noncomputable def cleaned (H : Mat ℝ) (lam : ℝ) : Mat ℝ := fun a b =>
  (if a = b then H a b + lam else if |H a b| ≤ macheps then 0 else H a b)

theorem convert_damp (junk : ℕ → ℝ × ℕ) (H : Mat ℝ) (n : ℕ) (lam : ℝ) (hl : ∀ a < n, macheps < H a a + lam) :
    ∃ M D, ofDense junk macheps (damp H lam) n n = .ok M ∧ toDense M = .ok D ∧
      ∀ a < n, ∀ b < n, D a b = cleaned H lam a b := by
  obtain ⟨M, D, h1, -, -, h2, h3⟩ := C103_roundtrip junk macheps macheps_pos (damp H lam) n n
  refine ⟨M, D, h1, h2, fun a ha b hb => ?_⟩
  rw [h3 a ha b hb]
  unfold damp cleaned
  by_cases e : a = b
  · subst e
    have := hl a ha
    rw [if_pos rfl, mul_one, if_neg (by rw [abs_of_nonneg (by linarith [macheps_pos])]; linarith), if_pos rfl]
  · rw [if_neg e, mul_zero, add_zero, if_neg e]

/-- The pattern does not depend on the damping. -/
theorem pattern_damp {H D : Mat ℝ} {n : ℕ} {lam : ℝ} (hd : ∀ a < n, 0 ≤ H a a)
    (hl : ∀ a < n, macheps < H a a + lam) (hD : ∀ a < n, ∀ b < n, D a b = cleaned H lam a b) : patternOf D n n = patternOf (cleaned H 1) n n := by
  unfold patternOf
  congr 1
  apply List.filter_congr
  intro rc hrc
  obtain ⟨c, hc, h2⟩ := List.mem_flatMap.mp hrc
  obtain ⟨r, hr, rfl⟩ := List.mem_map.mp h2
  have hr := List.mem_range.mp hr
  have hc := List.mem_range.mp hc
  rw [decide_eq_decide, hD r hr c hc]
  unfold cleaned
  by_cases e : r = c
  · subst e
    have := hd r hr
    have := hl r hr
    simp only [if_true]
    constructor <;> intro _ <;> linarith [macheps_pos]
  · simp only [if_neg e]

/-- Euclidean norm. -/
theorem norm2_sq {n : ℕ} (v : Fin n → ℝ) : norm2 v ^ 2 = ∑ i, v i ^ 2 := by
  unfold norm2
  rw [Real.sq_sqrt (Finset.sum_nonneg (fun i _ => mul_self_nonneg _))]
  exact Finset.sum_congr rfl (fun i _ => (pow_two _).symm)

theorem dot_le_norm {n : ℕ} (v w : Fin n → ℝ) : ∑ i, v i * w i ≤ norm2 v * norm2 w := by
  have h := Finset.sum_mul_sq_le_sq_mul_sq Finset.univ v w
  rw [← norm2_sq, ← norm2_sq, ← mul_pow] at h
  have h0 : 0 ≤ norm2 v * norm2 w := mul_nonneg (Real.sqrt_nonneg _) (Real.sqrt_nonneg _)
  exact le_trans (le_abs_self _) (abs_le_of_sq_le_sq h h0)

/-- A matrix whose quadratic form is at least `c` has independent columns. -/
theorem independent_of_form {n : ℕ} (A : Matrix (Fin n) (Fin n) ℝ) (c tol : ℝ) (h0 : 0 ≤ tol) (hc : tol < c)
    (h : ∀ v : Fin n → ℝ, c * ∑ i, v i ^ 2 ≤ ∑ i, v i * (A *ᵥ v) i) : Independent tol A := by
  intro i v hv
  have h1 := h v
  have h2 := dot_le_norm v (A *ᵥ v)
  have h3 : (1 : ℝ) ≤ ∑ i, v i ^ 2 := by
    rw [← show v i ^ 2 = (1 : ℝ) by rw [hv]; norm_num]
    exact Finset.single_le_sum (f := fun i => v i ^ 2) (fun j _ => sq_nonneg _) (Finset.mem_univ i)
  have h4 : 1 ≤ norm2 v := by
    unfold norm2
    rw [Real.one_le_sqrt]
    calc (1 : ℝ) ≤ _ := h3
      _ = _ := Finset.sum_congr rfl (fun i _ => pow_two _)
  rw [← norm2_sq] at h1
  have h5 : c * norm2 v ≤ norm2 (A *ᵥ v) := by
    have : norm2 v * (c * norm2 v) ≤ norm2 v * norm2 (A *ᵥ v) := by nlinarith
    exact le_of_mul_le_mul_left this (by linarith)
  nlinarith

/-- The quadratic form of the damped matrix. -/
theorem cleaned_strong {n : ℕ} (H : Mat ℝ) (lam : ℝ) (v : ℕ → ℝ) :
    ∑ a ∈ range n, v a * ∑ b ∈ range n, H a b * v b + (lam - n * macheps) * ∑ a ∈ range n, v a ^ 2 ≤
      ∑ a ∈ range n, v a * ∑ b ∈ range n, cleaned H lam a b * v b := by
  have e : ∀ a ∈ range n, v a * ∑ b ∈ range n, cleaned H lam a b * v b =
      v a * (∑ b ∈ range n, H a b * v b) + lam * v a ^ 2 +
        ∑ b ∈ range n, (if a = b then 0 else if |H a b| ≤ macheps then -H a b else 0) * (v a * v b) := by
    intro a ha
    have h1 : lam * v a ^ 2 = ∑ b ∈ range n, (if a = b then lam else 0) * (v a * v b) := by
      simp only [ite_mul, zero_mul]
      rw [Finset.sum_ite_eq, if_pos ha]; ring
    rw [h1, Finset.mul_sum, Finset.mul_sum, ← Finset.sum_add_distrib, ← Finset.sum_add_distrib]
    apply Finset.sum_congr rfl
    intro b _
    unfold cleaned
    split_ifs <;> ring
  rw [Finset.sum_congr rfl e, Finset.sum_add_distrib, Finset.sum_add_distrib, ← Finset.mul_sum]
  have h2 : -(n * macheps * ∑ a ∈ range n, v a ^ 2) ≤
      ∑ a ∈ range n, ∑ b ∈ range n, (if a = b then 0 else if |H a b| ≤ macheps then -H a b else 0) * (v a * v b) := by
    have h3 : ∀ a b, -(macheps * (v a ^ 2 + v b ^ 2) / 2) ≤
        (if a = b then 0 else if |H a b| ≤ macheps then -H a b else 0) * (v a * v b) := by
      intro a b
      have hm : |(if a = b then 0 else if |H a b| ≤ macheps then -H a b else 0 : ℝ)| ≤ macheps := by
        split_ifs with h1 h2
        · simp [macheps_pos.le]
        · rw [abs_neg]; exact h2
        · simp [macheps_pos.le]
      have h4 : |v a * v b| ≤ (v a ^ 2 + v b ^ 2) / 2 := by
        rw [abs_le]; constructor <;> nlinarith [sq_nonneg (v a + v b), sq_nonneg (v a - v b)]
      have h5 : |(if a = b then 0 else if |H a b| ≤ macheps then -H a b else 0 : ℝ) * (v a * v b)| ≤
          macheps * ((v a ^ 2 + v b ^ 2) / 2) := by
        rw [abs_mul]
        exact mul_le_mul hm h4 (abs_nonneg _) macheps_pos.le
      have := (abs_le.mp h5).1
      linarith
    have h6 : ∑ a ∈ range n, ∑ b ∈ range n, -(macheps * (v a ^ 2 + v b ^ 2) / 2) = -(n * macheps * ∑ a ∈ range n, v a ^ 2) := by
      simp only [Finset.sum_neg_distrib, mul_add, add_div, Finset.sum_add_distrib, Finset.sum_const, Finset.card_range,
        nsmul_eq_mul, ← Finset.mul_sum, ← Finset.sum_div]
      ring
    rw [← h6]
    exact Finset.sum_le_sum (fun a _ => Finset.sum_le_sum (fun b _ => h3 a b))
  linarith

theorem cleaned_form {n : ℕ} (H : Mat ℝ) (hH : ∀ v : ℕ → ℝ, 0 ≤ ∑ a ∈ range n, v a * ∑ b ∈ range n, H a b * v b) (lam : ℝ)
    (v : ℕ → ℝ) :
    (lam - n * macheps) * ∑ a ∈ range n, v a ^ 2 ≤ ∑ a ∈ range n, v a * ∑ b ∈ range n, cleaned H lam a b * v b := by
  have h7 := hH v
  have h8 := cleaned_strong (n := n) H lam v
  linarith

theorem fin_form {n : ℕ} (D : Mat ℝ) (v : Fin n → ℝ) :
    ∑ i, v i * (block D 0 0 n n *ᵥ v) i = ∑ a ∈ range n, ext v a * ∑ b ∈ range n, D a b * ext v b := by
  rw [Finset.sum_range]
  exact Finset.sum_congr rfl (fun i _ => by rw [block_mul, ext_lt])

/-- **The linear algebra of one iteration.**  If the damped matrix is definite beyond the rounding unit and the symbolic
factorisation is none or the one for this pattern, `dx` solves the damped system (without the entries that are too small). -/
theorem spqr_exact {qr : Spqr} (hqr : IsSpqr qr) (junk : ℕ → ℝ × ℕ) (cache : Option Pattern) (H : Mat ℝ) (b : ℕ → ℝ) (n : ℕ)
    (hd : ∀ a < n, 0 ≤ H a a) (lam : ℝ) (hl : ∀ a < n, macheps < H a a + lam) (c : ℝ) (hcm : macheps < c)
    (hf : ∀ v : ℕ → ℝ, c * ∑ a ∈ range n, v a ^ 2 ≤ ∑ a ∈ range n, v a * ∑ b ∈ range n, cleaned H lam a b * v b)
    (hc : cache = none ∨ cache = some (patternOf (cleaned H 1) n n)) :
    ∃ x, spqrSolve qr junk cache (damp H lam) b n = .ok (patternOf (cleaned H 1) n n, x) ∧
      ∀ a < n, ∑ c ∈ range n, cleaned H lam a c * x c = b a := by
  have hm := macheps_pos
  obtain ⟨M, D, h1, h2, h3⟩ := convert_damp junk H n lam hl
  have hp := pattern_damp hd hl h3
  have hblk : block D 0 0 n n = block (cleaned H lam) 0 0 n n := by
    ext r c
    simp only [Marg.block, Nat.zero_add]
    exact h3 r r.isLt c c.isLt
  have hi : Independent macheps (block D 0 0 n n) := by
    apply independent_of_form _ c _ hm.le hcm
    intro v
    rw [hblk, fin_form]
    have := hf (ext v)
    rw [Finset.sum_range] at this
    simp only [ext_lt] at this
    exact this
  have hcc : cached cache (patternOf (cleaned H 1) n n) = patternOf (cleaned H 1) n n := by
    rcases hc with rfl | rfl
    · rfl
    · unfold cached; simp
  refine ⟨ext (backSolve (qr macheps n n (block D 0 0 n n)) ((qr macheps n n (block D 0 0 n n)).Qᵀ *ᵥ fun i => b i)), ?_, ?_⟩
  · unfold spqrSolve
    rw [h1, Sparse.okb, h2, Sparse.okb, hp, if_pos hcc]
  · intro a ha
    have := congrFun (backSolve_exact hqr _ hi (fun i => b i)) ⟨a, ha⟩
    rw [block_mul] at this
    rw [← this]
    exact Finset.sum_congr rfl (fun c hc => by rw [h3 a ha c (mem_range.mp hc)])

/-- A strongly damped step is short, and goes down the gradient by a fixed fraction of its length. -/
theorem big_step (n : ℕ) (A : Mat ℝ) (M : ℝ) (hM : 0 ≤ M) (hA : ∀ a < n, ∀ c < n, |A a c| ≤ M) (b : ℕ → ℝ)
    (hb : 0 < ∑ a ∈ range n, |b a|) (eta : ℝ) (he : 0 < eta) :
    ∃ Lam, ∀ lam ≥ Lam, ∀ x : ℕ → ℝ, (∀ a < n, ∑ c ∈ range n, A a c * x c + lam * x a = b a) →
      0 < ∑ a ∈ range n, |x a| ∧ ∑ a ∈ range n, |x a| ≤ eta ∧
      (∑ a ∈ range n, |b a|) * ∑ a ∈ range n, |x a| ≤ 2 * n * ∑ a ∈ range n, b a * x a := by
  generalize hB : ∑ a ∈ range n, |b a| = B at hb
  have hn : 0 < n := by
    rcases Nat.eq_zero_or_pos n with h | h
    · subst h; simp at hB; linarith
    · exact h
  have hn' : (0 : ℝ) < n := by exact_mod_cast hn
  refine ⟨3 * n * M + n * B / eta + 1, fun lam hl x hx => ?_⟩
  have hq : 0 < n * B / eta := by positivity
  have hMn : 0 ≤ n * M := by positivity
  have hL0 : 0 ≤ ∑ a ∈ range n, |x a| := Finset.sum_nonneg (fun _ _ => abs_nonneg _)
  generalize hL : ∑ a ∈ range n, |x a| = L at hL0
  have h1 : ∀ a < n, |∑ c ∈ range n, A a c * x c| ≤ M * L := by
    intro a ha
    refine le_trans (Finset.abs_sum_le_sum_abs _ _) ?_
    rw [← hL, Finset.mul_sum]
    refine Finset.sum_le_sum (fun c hc => ?_)
    rw [abs_mul]
    exact mul_le_mul_of_nonneg_right (hA a ha c (mem_range.mp hc)) (abs_nonneg _)
  have h2 : B ≤ (n * M + lam) * L := by
    have : ∀ a ∈ range n, |b a| ≤ M * L + lam * |x a| := by
      intro a ha
      rw [← hx a (mem_range.mp ha)]
      refine le_trans (abs_add_le _ _) ?_
      rw [abs_mul lam, abs_of_pos (show 0 < lam by nlinarith)]
      have := h1 a (mem_range.mp ha)
      linarith
    have := Finset.sum_le_sum this
    rw [hB, Finset.sum_add_distrib, Finset.sum_const, Finset.card_range, nsmul_eq_mul, ← Finset.mul_sum, hL] at this
    linarith
  have hlam : 0 < lam := by nlinarith
  have hLp : 0 < L := by
    rcases hL0.lt_or_eq with h | h
    · exact h
    · rw [← h, mul_zero] at h2; linarith
  have h3 : L ^ 2 ≤ n * ∑ a ∈ range n, x a ^ 2 := by
    have := sq_sum_le_card_mul_sum_sq (s := range n) (f := fun a => |x a|)
    rw [hL, Finset.card_range] at this
    simpa only [sq_abs] using this
  have h4 : ∑ a ∈ range n, b a * x a = ∑ a ∈ range n, x a * (∑ c ∈ range n, A a c * x c) + lam * ∑ a ∈ range n, x a ^ 2 := by
    rw [Finset.mul_sum, ← Finset.sum_add_distrib]
    refine Finset.sum_congr rfl (fun a ha => ?_)
    rw [← hx a (mem_range.mp ha)]; ring
  have h5 : -(M * L ^ 2) ≤ ∑ a ∈ range n, x a * (∑ c ∈ range n, A a c * x c) := by
    have : ∀ a ∈ range n, -(|x a| * (M * L)) ≤ x a * (∑ c ∈ range n, A a c * x c) := by
      intro a ha
      have h6 : |x a * (∑ c ∈ range n, A a c * x c)| ≤ |x a| * (M * L) := by
        rw [abs_mul]
        exact mul_le_mul_of_nonneg_left (h1 a (mem_range.mp ha)) (abs_nonneg _)
      exact (abs_le.mp h6).1
    have := Finset.sum_le_sum this
    rw [Finset.sum_neg_distrib, ← Finset.sum_mul, hL] at this
    linarith
  have h6 : (lam - n * M) * L ^ 2 ≤ n * ∑ a ∈ range n, b a * x a := by
    rw [h4]
    have := mul_le_mul_of_nonneg_left h3 hlam.le
    have := mul_le_mul_of_nonneg_left h5 hn'.le
    nlinarith
  have h7 : ∑ a ∈ range n, b a * x a ≤ B * L := by
    rw [← hB, Finset.sum_mul]
    refine Finset.sum_le_sum (fun a ha => ?_)
    refine le_trans (le_abs_self _) ?_
    rw [abs_mul]
    refine mul_le_mul_of_nonneg_left ?_ (abs_nonneg _)
    rw [← hL]
    exact Finset.single_le_sum (f := fun a => |x a|) (fun _ _ => abs_nonneg _) ha
  refine ⟨hLp, ?_, ?_⟩
  · have h8 : (lam - n * M) * L ≤ n * B := by
      have : L * ((lam - n * M) * L) ≤ L * (n * B) := by nlinarith
      exact le_of_mul_le_mul_left this hLp
    have h9 : n * B / eta ≤ lam - n * M := by nlinarith
    have h10 : n * B / eta * L ≤ n * B := le_trans (mul_le_mul_of_nonneg_right h9 hLp.le) h8
    have h11 : n * B / eta * L = n * B * (L / eta) := by ring
    rw [h11] at h10
    have h12 : L / eta ≤ 1 := by
      by_contra h
      have : n * B < n * B * (L / eta) := by
        have := mul_lt_mul_of_pos_left (not_le.mp h) (show 0 < n * B by positivity)
        linarith
      linarith
    rwa [div_le_one he] at h12
  · have h8 : B * L ≤ (n * M + lam) * L ^ 2 := by nlinarith
    nlinarith

end Yac.Lm
