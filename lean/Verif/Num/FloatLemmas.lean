import Verif.Num.Float
import Mathlib.Tactic.Ring
import Mathlib.Tactic.Linarith
import Mathlib.Tactic.FieldSimp
import Mathlib.Tactic.Positivity
import Mathlib.Algebra.Order.Ring.Abs
import Mathlib.Data.Nat.Log

/-! Error bounds of the rounding functions. -/

namespace Yac.Num

theorem pow2_eq (e : ℤ) : pow2 e = (2 : ℚ) ^ e := by
  unfold pow2
  split_ifs with h
  · obtain ⟨n, rfl⟩ := Int.eq_ofNat_of_zero_le h
    simp
  · obtain ⟨n, hn⟩ := Int.eq_ofNat_of_zero_le (show 0 ≤ -e by omega)
    have : e = -(n : ℤ) := by omega
    subst this
    simp

theorem rneInt_close (x : ℚ) : |x - rneInt x| ≤ 1 / 2 := by
  unfold rneInt
  have h1 : (x.floor : ℚ) ≤ x := Rat.floor_le x
  have h2 : x < (x.floor : ℚ) + 1 := by
    have := Rat.lt_floor_add_one x
    exact_mod_cast this
  simp only
  split_ifs with a b c
  · rw [abs_le]; constructor <;> linarith
  · rw [abs_le]; push_cast; constructor <;> linarith
  · rw [abs_le]; constructor <;> linarith
  · rw [abs_le]; push_cast; constructor <;> linarith

theorem rneInt_nonneg {x : ℚ} (h : 0 ≤ x) : 0 ≤ rneInt x := by
  have : 0 ≤ x.floor := by
    rw [Rat.le_floor_iff]
    exact_mod_cast h
  unfold rneInt
  simp only
  split_ifs <;> omega

/-- The nearest integer, if there is only one. -/
theorem rneInt_unique {x : ℚ} {n : ℤ} (h : |x - n| < 1 / 2) : rneInt x = n := by
  have h1 := rneInt_close x
  rw [abs_le] at h1
  rw [abs_lt] at h
  have a : ((rneInt x : ℤ) : ℚ) < (n : ℚ) + 1 := by linarith [h1.1, h1.2, h.1, h.2]
  have b : (n : ℚ) < (rneInt x : ℚ) + 1 := by linarith [h1.1, h1.2, h.1, h.2]
  have a' : rneInt x < n + 1 := by exact_mod_cast a
  have b' : n < rneInt x + 1 := by exact_mod_cast b
  omega

/-- The last bit is at most `2 ^ (1 - p)` of the value. -/
theorem expo_le (p : Nat) {x : ℚ} (hx : x ≠ 0) : (2 : ℚ) ^ expo p x * 2 ^ p ≤ 2 * |x| := by
  have hn : x.num.natAbs ≠ 0 := by simpa using hx
  have hd : x.den ≠ 0 := x.den_nz
  have e1 : |x| = (x.num.natAbs : ℚ) / x.den := by
    conv_lhs => rw [← Rat.num_div_den x]
    rw [abs_div, Nat.abs_cast]
    congr 1
    rw [← Int.cast_abs, Int.abs_eq_natAbs]
    simp
  have n1 := Nat.log2_self_le hn
  have n1' : ((2 : ℚ)) ^ (Nat.log2 x.num.natAbs) ≤ (x.num.natAbs : ℚ) := by exact_mod_cast n1
  have d2 : x.den < 2 ^ (Nat.log2 x.den + 1) := Nat.lt_log2_self
  have d2' : (x.den : ℚ) < 2 ^ (Nat.log2 x.den + 1) := by exact_mod_cast d2
  have hdp : (0 : ℚ) < x.den := by exact_mod_cast Nat.pos_of_ne_zero hd
  have key : ∀ f : ℤ, (2 : ℚ) ^ f ≤ |x| → (2 : ℚ) ^ (f - ((p : ℤ) - 1)) * 2 ^ p ≤ 2 * |x| := by
    intro f hf
    have : (2 : ℚ) ^ (f - ((p : ℤ) - 1)) * 2 ^ p = 2 * 2 ^ f := by
      rw [← zpow_natCast (2 : ℚ) p, ← zpow_add₀ (by norm_num)]
      rw [show f - ((p : ℤ) - 1) + (p : ℤ) = 1 + f by ring, zpow_add₀ (by norm_num), zpow_one]
    rw [this]
    linarith
  unfold expo
  simp only [pow2_eq]
  split_ifs with h
  · apply key
    rw [e1, le_div_iff₀ hdp]
    have : (2 : ℚ) ^ ((Nat.log2 x.num.natAbs : ℤ) - (Nat.log2 x.den : ℤ) - 1) * 2 ^ (Nat.log2 x.den + 1) =
        2 ^ (Nat.log2 x.num.natAbs) := by
      rw [← zpow_natCast (2 : ℚ) (Nat.log2 x.den + 1), ← zpow_add₀ (by norm_num), ← zpow_natCast]
      congr 1
      push_cast
      ring
    have hp : (0 : ℚ) < 2 ^ ((Nat.log2 x.num.natAbs : ℤ) - (Nat.log2 x.den : ℤ) - 1) := zpow_pos (by norm_num) _
    have := mul_le_mul_of_nonneg_left d2'.le hp.le
    linarith
  · exact key _ (not_lt.mp h)

/-- Rounding to `p` bits changes a value by at most `2 ^ -p` of itself. -/
theorem rne_err (p : Nat) (x : ℚ) : |rne p x - x| * 2 ^ p ≤ |x| := by
  unfold rne
  split_ifs with h
  · simp [h]
  · have he := expo_le p h
    rw [pow2_eq]
    have hp : (0 : ℚ) < 2 ^ expo p x := zpow_pos (by norm_num) _
    have hc := rneInt_close (x / 2 ^ expo p x)
    have e : (rneInt (x / 2 ^ expo p x) : ℚ) * 2 ^ expo p x - x =
        -(x / 2 ^ expo p x - rneInt (x / 2 ^ expo p x)) * 2 ^ expo p x := by
      field_simp
      ring
    rw [e, abs_mul, abs_neg, abs_of_pos hp]
    have h2 : (0 : ℚ) < 2 ^ p := by positivity
    nlinarith [mul_le_mul_of_nonneg_right hc (mul_pos hp h2).le]

theorem f64_err (x : ℚ) : |f64 x - x| * 2 ^ 53 ≤ |x| := rne_err 53 x

end Yac.Num
