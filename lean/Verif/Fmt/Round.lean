import Verif.Num.FloatLemmas
import Mathlib.Data.Int.Log

/-! # Rounding to double near a double -/

namespace Yac.Fmt
open Yac.Num

/-- The value has at most `p` significant bits. -/
theorem expo_gt (p : Nat) {x : ℚ} (hx : x ≠ 0) : |x| < (2 : ℚ) ^ expo p x * 2 ^ p := by
  have hn : x.num.natAbs ≠ 0 := by simpa using hx
  have hd : x.den ≠ 0 := x.den_nz
  have e1 : |x| = (x.num.natAbs : ℚ) / x.den := by
    conv_lhs => rw [← Rat.num_div_den x]
    rw [abs_div, Nat.abs_cast]
    congr 1
    rw [← Int.cast_abs, Int.abs_eq_natAbs]
    simp
  have d1 := Nat.log2_self_le hd
  have d1' : ((2 : ℚ)) ^ (Nat.log2 x.den) ≤ (x.den : ℚ) := by exact_mod_cast d1
  have n2 : x.num.natAbs < 2 ^ (Nat.log2 x.num.natAbs + 1) := Nat.lt_log2_self
  have n2' : (x.num.natAbs : ℚ) < 2 ^ (Nat.log2 x.num.natAbs + 1) := by exact_mod_cast n2
  have hdp : (0 : ℚ) < x.den := by exact_mod_cast Nat.pos_of_ne_zero hd
  have key : ∀ f : ℤ, |x| < (2 : ℚ) ^ (f + 1) → |x| < (2 : ℚ) ^ (f - ((p : ℤ) - 1)) * 2 ^ p := by
    intro f hf
    have : (2 : ℚ) ^ (f - ((p : ℤ) - 1)) * 2 ^ p = 2 ^ (f + 1) := by
      rw [← zpow_natCast (2 : ℚ) p, ← zpow_add₀ (by norm_num)]
      congr 1
      ring
    rw [this]
    exact hf
  unfold expo
  simp only [pow2_eq]
  split_ifs with h
  · apply key
    rw [sub_add_cancel]
    exact h
  · apply key
    rw [e1, div_lt_iff₀ hdp]
    have : (2 : ℚ) ^ ((Nat.log2 x.num.natAbs : ℤ) - (Nat.log2 x.den : ℤ) + 1) * 2 ^ (Nat.log2 x.den) =
        2 ^ (Nat.log2 x.num.natAbs + 1) := by
      rw [← zpow_natCast (2 : ℚ) (Nat.log2 x.den), ← zpow_add₀ (by norm_num), ← zpow_natCast]
      congr 1
      push_cast
      ring
    have hp : (0 : ℚ) < 2 ^ ((Nat.log2 x.num.natAbs : ℤ) - (Nat.log2 x.den : ℤ) + 1) := zpow_pos (by norm_num) _
    have := mul_le_mul_of_nonneg_left d1' hp.le
    linarith

/-- The exponent is determined by the size of the value. -/
theorem expo_unique (p : Nat) {x : ℚ} {k : ℤ} (h1 : (2 : ℚ) ^ k * 2 ^ p ≤ 2 * |x|) (h2 : |x| < (2 : ℚ) ^ k * 2 ^ p) :
    expo p x = k := by
  have hx : x ≠ 0 := by
    rintro rfl
    have : (0 : ℚ) < 2 ^ k * 2 ^ p := by positivity
    simp at h1
    linarith
  have a := expo_le p hx
  have b := expo_gt p hx
  have hp : (0 : ℚ) < 2 ^ p := by positivity
  have c1 : (2 : ℚ) ^ k < 2 ^ (expo p x + 1) := by
    rw [zpow_add₀ (by norm_num), zpow_one]
    refine lt_of_mul_lt_mul_right ?_ hp.le
    nlinarith
  have c2 : (2 : ℚ) ^ expo p x < 2 ^ (k + 1) := by
    rw [zpow_add₀ (by norm_num), zpow_one]
    refine lt_of_mul_lt_mul_right ?_ hp.le
    nlinarith
  have d1 := (zpow_lt_zpow_iff_right₀ (by norm_num : (1 : ℚ) < 2)).mp c1
  have d2 := (zpow_lt_zpow_iff_right₀ (by norm_num : (1 : ℚ) < 2)).mp c2
  omega

/-- A value closer to `n * 2 ^ k` than a quarter of the last bit (half of it above the powers of two) rounds to it. -/
theorem f64_near {v : ℚ} {n : ℤ} {k : ℤ} (hn1 : 2 ^ 52 ≤ |n|) (hn2 : |n| < 2 ^ 53)
    (h : |v - n * 2 ^ k| < 1 / 2 * 2 ^ k) (hb : |n| = 2 ^ 52 → |v - n * 2 ^ k| < 1 / 4 * 2 ^ k) : f64 v = n * 2 ^ k := by
  have hk : (0 : ℚ) < 2 ^ k := zpow_pos (by norm_num) _
  have n1 : (2 : ℚ) ^ 52 ≤ |(n : ℚ)| := by exact_mod_cast hn1
  have n2 : |(n : ℚ)| ≤ 2 ^ 53 - 1 := by
    have : |n| ≤ 2 ^ 53 - 1 := by omega
    exact_mod_cast this
  have tri1 : |v| ≤ |(n : ℚ) * 2 ^ k| + |v - n * 2 ^ k| := by
    have := abs_add_le ((n : ℚ) * 2 ^ k) (v - n * 2 ^ k)
    simpa using this
  have tri2 : |(n : ℚ) * 2 ^ k| ≤ |v| + |v - n * 2 ^ k| := by
    have := abs_sub (v) (v - n * 2 ^ k)
    simpa using this
  rw [abs_mul, abs_of_pos hk] at tri1 tri2
  have hv0 : v ≠ 0 := by
    rintro rfl
    simp only [abs_zero, zero_add, zero_sub, abs_neg, abs_mul, abs_of_pos hk] at tri2 h
    nlinarith
  unfold f64 rne
  rw [if_neg hv0, pow2_eq]
  by_cases hlow : (2 : ℚ) ^ k * 2 ^ 53 ≤ 2 * |v|
  · have he : expo 53 v = k := expo_unique 53 hlow (by nlinarith)
    rw [he]
    congr 2
    refine rneInt_unique ?_
    have : v / 2 ^ k - n = (v - n * 2 ^ k) / 2 ^ k := by field_simp
    rw [this, abs_div, abs_of_pos hk, div_lt_iff₀ hk]
    exact h
  · push Not at hlow
    have hn : |n| = 2 ^ 52 := by
      by_contra hne
      have : 2 ^ 52 + 1 ≤ |n| := by omega
      have : (2 : ℚ) ^ 52 + 1 ≤ |(n : ℚ)| := by exact_mod_cast this
      nlinarith
    have hq := hb hn
    have hn' : |(n : ℚ)| = 2 ^ 52 := by exact_mod_cast hn
    have hk1 : (2 : ℚ) ^ (k - 1) = 2 ^ k / 2 := by rw [zpow_sub₀ (by norm_num), zpow_one]
    have he : expo 53 v = k - 1 := by
      refine expo_unique 53 ?_ ?_
      · rw [hk1]
        rw [hn'] at tri2
        linarith
      · rw [hk1]
        linarith
    rw [he, hk1]
    have : rneInt (v / (2 ^ k / 2)) = 2 * n := by
      refine rneInt_unique ?_
      have e : v / (2 ^ k / 2) - ((2 * n : ℤ) : ℚ) = (v - n * 2 ^ k) * 2 / 2 ^ k := by
        push_cast
        field_simp
      rw [e, abs_div, abs_of_pos hk, div_lt_iff₀ hk, abs_mul]
      norm_num
      linarith
    rw [this]
    push_cast
    ring

/-- The values of type `double` (without limits on the exponent). -/
def Double (x : ℚ) : Prop := ∃ (n : ℤ) (k : ℤ), |n| < 2 ^ 53 ∧ x = n * 2 ^ k

/-- A double other than zero has a mantissa of 53 bits. -/
theorem double_normal {x : ℚ} (h : Double x) (h0 : x ≠ 0) : ∃ (n : ℤ) (k : ℤ), 2 ^ 52 ≤ |n| ∧ |n| < 2 ^ 53 ∧ x = n * 2 ^ k := by
  obtain ⟨n, k, hn, rfl⟩ := h
  have hn0 : n ≠ 0 := by
    rintro rfl
    simp at h0
  have hl : n.natAbs.log2 ≤ 52 := by
    have : n.natAbs < 2 ^ 53 := by rw [Int.abs_eq_natAbs] at hn; omega
    have := (Nat.log2_lt (by omega : n.natAbs ≠ 0)).mpr this
    omega
  refine ⟨n * 2 ^ (52 - n.natAbs.log2), k - (52 - n.natAbs.log2 : ℕ), ?_, ?_, ?_⟩
  · rw [abs_mul, abs_of_pos (by positivity : (0 : ℤ) < 2 ^ (52 - n.natAbs.log2)), Int.abs_eq_natAbs]
    have := Nat.log2_self_le (by omega : n.natAbs ≠ 0)
    have h2 : 2 ^ 52 = 2 ^ n.natAbs.log2 * 2 ^ (52 - n.natAbs.log2) := by rw [← pow_add]; congr 1; omega
    have : 2 ^ 52 ≤ n.natAbs * 2 ^ (52 - n.natAbs.log2) := by
      rw [h2]
      exact Nat.mul_le_mul_right _ this
    exact_mod_cast this
  · rw [abs_mul, abs_of_pos (by positivity : (0 : ℤ) < 2 ^ (52 - n.natAbs.log2)), Int.abs_eq_natAbs]
    have := @Nat.lt_log2_self n.natAbs
    have h2 : 2 ^ 53 = 2 ^ (n.natAbs.log2 + 1) * 2 ^ (52 - n.natAbs.log2) := by rw [← pow_add]; congr 1; omega
    have : n.natAbs * 2 ^ (52 - n.natAbs.log2) < 2 ^ 53 := by
      rw [h2]
      exact Nat.mul_lt_mul_of_pos_right this (by positivity)
    exact_mod_cast this
  · push_cast
    rw [zpow_sub₀ (by norm_num), zpow_natCast]
    have : (2 : ℚ) ^ (52 - n.natAbs.log2) ≠ 0 := by positivity
    field_simp

/-- Doubles are kept by the conversion. -/
theorem f64_double {x : ℚ} (h : Double x) : f64 x = x := by
  by_cases h0 : x = 0
  · subst h0; rfl
  obtain ⟨n, k, h1, h2, rfl⟩ := double_normal h h0
  have hk : (0 : ℚ) < 2 ^ k := zpow_pos (by norm_num) _
  refine f64_near h1 h2 ?_ (fun _ => ?_) <;> simp <;> positivity

/-- A value within half a unit of the 17th significant digit of a double rounds to it. -/
theorem f64_digits17 {x v : ℚ} (h : Double x) {e : ℤ} (h1 : (10 : ℚ) ^ e ≤ |x|) (hv : |v - x| ≤ 1 / 2 * 10 ^ (e - 16)) : f64 v = x := by
  have he : (0 : ℚ) < 10 ^ e := zpow_pos (by norm_num) _
  have h0 : x ≠ 0 := by
    rintro rfl
    simp at h1
    linarith
  obtain ⟨n, k, n1, n2, rfl⟩ := double_normal h h0
  have hk : (0 : ℚ) < 2 ^ k := zpow_pos (by norm_num) _
  rw [abs_mul, abs_of_pos hk] at h1
  have hs : (10 : ℚ) ^ (e - 16) = 10 ^ e / 10 ^ 16 := by
    rw [zpow_sub₀ (by norm_num)]
    norm_cast
  rw [hs] at hv
  have n2' : |(n : ℚ)| < 2 ^ 53 := by exact_mod_cast n2
  refine f64_near n1 n2 ?_ (fun hb => ?_)
  · refine lt_of_le_of_lt hv ?_
    nlinarith
  · have hb' : |(n : ℚ)| = 2 ^ 52 := by exact_mod_cast hb
    rw [hb'] at h1
    refine lt_of_le_of_lt hv ?_
    nlinarith

end Yac.Fmt
