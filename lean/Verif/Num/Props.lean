import Verif.Num.Model
import Mathlib.Data.Nat.Choose.Sum
import Mathlib.Data.Int.ModEq
import Mathlib.Tactic.Linarith
import Mathlib.Tactic.Ring
import Mathlib.Tactic.FieldSimp
import Mathlib.Tactic.Positivity
import Mathlib.Tactic.NormNum

/-!
Properties C16, C27-C30 and C63: byte decoding, timestamps, `linspace`, statistics, angle
wrapping and `binomial`.
-/

set_option linter.unusedSectionVars false

namespace Yac.Num

/-! ## C16 -/

/-- The value of a little-endian word: the first byte is the least significant. -/
def leValue : List (BitVec 8) → Nat
  | [] => 0
  | b :: bs => b.toNat + 256 * leValue bs

/-- Two's complement reading of an unsigned value of `bits` bits. -/
def twos (bits n : Nat) : ℤ := if n < 2 ^ (bits - 1) then (n : ℤ) else (n : ℤ) - 2 ^ bits

/-- The word of `n` bytes at `off`, if it lies within the buffer. -/
def word (data : List (BitVec 8)) (off n : Nat) : Option (List (BitVec 8)) :=
  if off + n ≤ data.length then some ((data.drop off).take n) else none

theorem promote_toNat (b : BitVec 8) : (promote b).toNat = b.toNat := by
  have := b.isLt
  simp [promote]; omega

theorem or_shift (x y n : Nat) (hy : y < 2 ^ n) : (x <<< n) ||| y = x * 2 ^ n + y := by
  rw [← Nat.shiftLeft_add_eq_or_of_lt hy, Nat.shiftLeft_eq]

theorem comb16 (b0 b1 : BitVec 8) :
    (((promote b1 <<< 8) ||| promote b0).setWidth 16).toNat = b0.toNat + 256 * b1.toNat := by
  have h0 := b0.isLt
  have h1 := b1.isLt
  have : ((promote b1 <<< 8) ||| promote b0).toNat = b0.toNat + 256 * b1.toNat := by
    rw [BitVec.toNat_or, BitVec.toNat_shiftLeft, promote_toNat, promote_toNat,
      Nat.mod_eq_of_lt (by rw [Nat.shiftLeft_eq]; omega), or_shift _ _ _ (by omega)]
    omega
  rw [BitVec.toNat_setWidth, this]; omega

theorem or_step (A x n : Nat) (h : x < 256) :
    (A <<< (8 + n)) ||| (x <<< n) = (A * 256 + x) <<< n := by
  rw [Nat.shiftLeft_add, ← Nat.shiftLeft_or_distrib, or_shift A x 8 h]; rfl

theorem comb32_nat (x0 x1 x2 x3 : Nat) (h0 : x0 < 256) (h1 : x1 < 256) (h2 : x2 < 256) :
    ((x3 <<< 24 ||| x2 <<< 16) ||| x1 <<< 8) ||| x0 =
      x0 + 256 * x1 + 65536 * x2 + 16777216 * x3 := by
  have s1 := or_step x3 x2 16 h2
  have s2 := or_step (x3 * 256 + x2) x1 8 h1
  have s3 := or_step ((x3 * 256 + x2) * 256 + x1) x0 0 h0
  simp only [Nat.shiftLeft_zero] at s3
  have t1 : ((x3 <<< 24 ||| x2 <<< 16) ||| x1 <<< 8) ||| x0 =
      ((x3 * 256 + x2) * 256 + x1) * 256 + x0 := by
    refine Eq.trans ?_ s3
    refine congrArg (· ||| x0) ?_
    refine Eq.trans ?_ s2
    exact congrArg (· ||| x1 <<< 8) s1
  refine t1.trans ?_
  ring

theorem shl32 (b : BitVec 8) (n : Nat) (hn : n ≤ 24) :
    (promote b <<< n).toNat = b.toNat <<< n := by
  have h := b.isLt
  rw [BitVec.toNat_shiftLeft, promote_toNat, Nat.mod_eq_of_lt]
  rw [Nat.shiftLeft_eq]
  calc b.toNat * 2 ^ n < 2 ^ 8 * 2 ^ n := Nat.mul_lt_mul_of_pos_right h (by positivity)
    _ = 2 ^ (8 + n) := by rw [pow_add]
    _ ≤ 2 ^ 32 := Nat.pow_le_pow_right (by norm_num) (by omega)

theorem comb32 (b0 b1 b2 b3 : BitVec 8) :
    ((((promote b3 <<< 24) ||| (promote b2 <<< 16)) ||| (promote b1 <<< 8)) ||| promote b0).toNat =
      b0.toNat + 256 * b1.toNat + 65536 * b2.toNat + 16777216 * b3.toNat := by
  rw [BitVec.toNat_or, BitVec.toNat_or, BitVec.toNat_or, shl32 _ _ (by norm_num),
    shl32 _ _ (by norm_num), shl32 _ _ (by norm_num), promote_toNat]
  exact comb32_nat _ _ _ _ b0.isLt b1.isLt b2.isLt

theorem word_cases (data : List (BitVec 8)) (off n : Nat) :
    (word data off n = none ∧ data.length < off + n) ∨
    (off + n ≤ data.length ∧ word data off n = some ((data.drop off).take n)) := by
  unfold word
  by_cases h : off + n ≤ data.length
  · right; exact ⟨h, if_pos h⟩
  · left; exact ⟨if_neg h, by omega⟩

theorem toInt_twos {n : Nat} (hn : 0 < n) (x : BitVec n) : x.toInt = twos n x.toNat := by
  rw [BitVec.toInt_eq_toNat_cond, twos]
  obtain ⟨m, rfl⟩ : ∃ m, n = m + 1 := ⟨n - 1, by omega⟩
  simp only [Nat.add_sub_cancel, pow_succ]
  have : (2 * x.toNat < 2 ^ m * 2) ↔ x.toNat < 2 ^ m := by omega
  simp only [this]
  push_cast
  rfl

/-- C16: each decoder returns the little-endian value of the bytes of its word (two's
complement for the signed ones), fails to read exactly when the word is not inside the
buffer, and depends on no other byte. -/
theorem C16_decode (data : List (BitVec 8)) (off : Nat) :
    (match word data off 1 with
     | some w => (∃ x, int8 data off = .ok x ∧ x.toInt = twos 8 (leValue w)) ∧
        ∃ x, uint8 data off = .ok x ∧ x.toNat = leValue w
     | none => int8 data off = .error .oob ∧ uint8 data off = .error .oob) ∧
    (match word data off 2 with
     | some w => (∃ x, int16 data off = .ok x ∧ x.toInt = twos 16 (leValue w)) ∧
        ∃ x, uint16 data off = .ok x ∧ x.toNat = leValue w
     | none => int16 data off = .error .oob ∧ uint16 data off = .error .oob) ∧
    (match word data off 4 with
     | some w => (∃ x, sint32 data off = .ok x ∧ x.toInt = twos 32 (leValue w)) ∧
        ∃ x, uint32 data off = .ok x ∧ x.toNat = leValue w
     | none => sint32 data off = .error .oob ∧ uint32 data off = .error .oob) := by
  have get : ∀ k (h : k < data.length), byteAt data k = .ok data[k] := by
    intro k h; simp [byteAt, List.getElem?_eq_getElem h]
  have miss : ∀ k, data.length ≤ k → byteAt data k = .error .oob := by
    intro k h; simp [byteAt, List.getElem?_eq_none h]
  refine ⟨?_, ?_, ?_⟩
  · rcases word_cases data off 1 with ⟨hw, hl⟩ | ⟨hl, hw⟩
    · rw [hw]; exact ⟨miss _ (by omega), miss _ (by omega)⟩
    · rw [hw]
      have e : (data.drop off).take 1 = [data[off]] := by
        rw [List.drop_eq_getElem_cons (by omega)]; rfl
      simp only [e, int8, uint8, get off (by omega)]
      refine ⟨⟨_, rfl, ?_⟩, _, rfl, ?_⟩
      · rw [toInt_twos (by omega)]; simp [leValue]
      · simp [leValue]
  · rcases word_cases data off 2 with ⟨hw, hl⟩ | ⟨hl, hw⟩
    · rw [hw]
      simp only [int16, uint16, miss (off + 1) (by omega)]
      exact ⟨rfl, rfl⟩
    · rw [hw]
      have e : (data.drop off).take 2 = [data[off], data[off + 1]] := by
        rw [List.drop_eq_getElem_cons (by omega), List.drop_eq_getElem_cons (by omega)]; rfl
      simp only [e, int16, uint16, get off (by omega), get (off + 1) (by omega)]
      refine ⟨⟨_, rfl, ?_⟩, _, rfl, ?_⟩
      · rw [toInt_twos (by omega), comb16]; simp [leValue]
      · rw [comb16]; simp [leValue]
  · rcases word_cases data off 4 with ⟨hw, hl⟩ | ⟨hl, hw⟩
    · rw [hw]
      simp only [sint32, uint32, miss (off + 3) (by omega)]
      exact ⟨rfl, rfl⟩
    · rw [hw]
      have e : (data.drop off).take 4 =
          [data[off], data[off + 1], data[off + 2], data[off + 3]] := by
        rw [List.drop_eq_getElem_cons (by omega), List.drop_eq_getElem_cons (by omega),
          List.drop_eq_getElem_cons (by omega), List.drop_eq_getElem_cons (by omega)]; rfl
      simp only [e, sint32, uint32, get off (by omega), get (off + 1) (by omega),
        get (off + 2) (by omega), get (off + 3) (by omega)]
      refine ⟨⟨_, rfl, ?_⟩, _, rfl, ?_⟩
      · rw [toInt_twos (by omega), comb32]; congr 1; simp [leValue]; ring
      · rw [comb32]; simp [leValue]; ring

example : word [0x01, 0xfe, 0xff, 0x80, 0x7f] 1 4 = some [0xfe, 0xff, 0x80, 0x7f] ∧
    sint32 [0x01, 0xfe, 0xff, 0x80, 0x7f] 1 = .ok 0x7f80fffe ∧
    ((0x80 : BitVec 8).toInt = -128) := by decide

/-! ## C27 -/

/-- C27: `tsform` inverts `tsdecomp` for every timestamp, whatever rounding the
floating-point operations do. -/
theorem C27_round_trip (fl : ℚ → ℚ) (ts : ℤ) :
    tsform fl (tsdecomp fl ts).1 (tsdecomp fl ts).2 = ts := by
  simp only [tsform, tsdecomp]; ring

/-- C27, meaning of the parts in exact arithmetic: for nonnegative timestamps the seconds and
nanoseconds are quotient and remainder by 10^9. -/
theorem C27_exact_parts (ts : ℤ) (h : 0 ≤ ts) :
    tsdecomp id ts = (ts / 1000000000, ts % 1000000000) := by
  have e1 : truncQ (id (id (ts : ℚ) * id (1 / 1000000000))) = ts / 1000000000 := by
    have hq : (0 : ℚ) ≤ (ts : ℚ) := by exact_mod_cast h
    simp only [id]
    rw [truncQ, if_pos (by positivity)]
    have : (ts : ℚ) * (1 / 1000000000) = (ts : ℚ) / ((1000000000 : ℤ) : ℚ) := by push_cast; ring
    rw [this]
    exact Rat.floor_intCast_div_natCast ts 1000000000
  have e2 : ∀ n : ℤ, 0 ≤ n → truncQ (id (id (n : ℚ) * id 1000000000)) = n * 1000000000 := by
    intro n hn
    have hq : (0 : ℚ) ≤ (n : ℚ) := by exact_mod_cast hn
    simp only [id]
    rw [truncQ, if_pos (by positivity)]
    have : (n : ℚ) * 1000000000 = ((n * 1000000000 : ℤ) : ℚ) := by push_cast; ring
    rw [this]; exact Rat.floor_intCast _
  unfold tsdecomp
  rw [e1]
  simp only
  rw [e2 _ (by omega)]
  refine Prod.ext rfl ?_
  simp only; omega

/-- `sec2ts` after `ts2sec` gives the timestamp back in exact arithmetic. -/
theorem C27_seconds_exact (ts : ℤ) : sec2ts id (ts2sec id ts) = ts := by
  have : sec2ts id (ts2sec id ts) = truncQ (ts : ℚ) := by
    simp only [sec2ts, ts2sec, id]; congr 1; ring
  rw [this, truncQ]
  split
  · exact Rat.floor_intCast ts
  · have : -(ts : ℚ) = ((-ts : ℤ) : ℚ) := by push_cast; ring
    rw [this, Rat.floor_intCast]; ring

/-- With `double` arithmetic the nanosecond part can be negative and the seconds part one too
large: the parts are not quotient and remainder for current epoch timestamps. -/
theorem C27_nsec_range_refuted :
    tsdecomp f64 1403636579999999999 = (1403636580, -1) := by decide +kernel

example : tsdecomp f64 1403636579763555584 = (1403636579, 763555584) := by decide +kernel

/-! ## C63 -/

/-- C63: for integers `0 ≤ k ≤ n` the recursion ends (depth `n + 1` suffices) with the number
of `k`-element subsets of an `n`-element set. -/
theorem C63_binomial {K : Type} [Ring K] [CharZero K] [DecidableEq K] (n k : Nat) (hk : k ≤ n)
    (depth : Nat) (hd : n < depth) :
    binomial depth (n : K) (k : K) = some ((((Finset.range n).powersetCard k).card : Nat) : K) := by
  rw [Finset.card_powersetCard, Finset.card_range]
  induction n generalizing k depth with
  | zero =>
    obtain ⟨d, rfl⟩ : ∃ d, depth = d + 1 := ⟨depth - 1, by omega⟩
    have : k = 0 := by omega
    subst this
    simp [binomial]
  | succ n ih =>
    obtain ⟨d, rfl⟩ : ∃ d, depth = d + 1 := ⟨depth - 1, by omega⟩
    rw [binomial]
    by_cases h : k = 0 ∨ k = n + 1
    · rw [if_pos (by rcases h with h | h <;> simp [h])]
      rcases h with h | h <;> simp [h]
    · push Not at h
      rw [if_neg (by
        rintro (h' | h')
        · exact h.1 (by exact_mod_cast h')
        · exact h.2 (by exact_mod_cast h'))]
      obtain ⟨j, rfl⟩ : ∃ j, k = j + 1 := ⟨k - 1, by omega⟩
      have e1 : ((n + 1 : Nat) : K) - 1 = (n : K) := by push_cast; simp
      have e2 : ((j + 1 : Nat) : K) - 1 = (j : K) := by push_cast; simp
      rw [e1, e2, ih j (by omega) d (by omega), ih (j + 1) (by omega) d (by omega)]
      simp only [Nat.choose_succ_succ]
      push_cast; rfl

/-- Outside that range the recursion never ends. -/
theorem C63_diverges {K : Type} [Ring K] [CharZero K] [DecidableEq K] (n k : ℤ) (hk0 : k ≠ 0)
    (hkn : n < k) (depth : Nat) : binomial depth (n : K) (k : K) = none := by
  induction depth generalizing n with
  | zero => rfl
  | succ d ih =>
    rw [binomial, if_neg (by
      rintro (h | h)
      · exact hk0 (by exact_mod_cast h)
      · have : k = n := by exact_mod_cast h
        omega)]
    have e1 : (n : K) - 1 = ((n - 1 : ℤ) : K) := by push_cast; rfl
    rw [e1, ih (n - 1) (by omega)]
    cases binomial d ((n - 1 : ℤ) : K) ((k : K) - 1) <;> rfl

example : binomial 7 (6 : ℚ) 3 = some 20 := by decide +kernel

/-! ## C28 -/

section field
variable {K : Type} [Field K] [LinearOrder K] [IsStrictOrderedRing K]

/-- C28: `linspace(a, b, n)` has `n` elements; for `n ≥ 2` element `i` is the point at
fraction `i / (n - 1)` of the way, so the first is `a` and the last is `b`. -/
theorem C28_linspace (a b : K) (n : Nat) :
    (linspace a b n).length = n ∧
    (n = 1 → linspace a b n = [a]) ∧
    (2 ≤ n → (∀ i (h : i < (linspace a b n).length),
        (linspace a b n)[i] = a + (b - a) * ((i : K) / ((n : K) - 1))) ∧
      (linspace a b n).head? = some a ∧ (linspace a b n).getLast? = some b) := by
  unfold linspace
  rcases Nat.lt_or_ge n 2 with h | h
  · obtain rfl | rfl : n = 0 ∨ n = 1 := by omega
    · simp
    · simp
  · have h0 : ((n : ℤ) ≠ 0) := by omega
    have h1 : ((n : ℤ) ≠ 1) := by omega
    rw [if_neg h0, if_neg h1]
    have hn : ((n : ℤ) - 1).toNat = n - 1 := by omega
    have hc : (((n : ℤ) - 1 : ℤ) : K) = (n : K) - 1 := by push_cast; rfl
    have hpos : (0 : K) < (n : K) - 1 := by
      have : (1 : K) < n := by exact_mod_cast h
      linarith
    simp only [hn, hc]
    have hlen : ((List.range (n - 1)).map (fun (i : Nat) => a + (b - a) / ((n : K) - 1) * (i : K))
        ++ [b]).length = n := by simp; omega
    refine ⟨hlen, by omega, fun _ => ⟨?_, ?_, by simp⟩⟩
    · intro i hi
      rw [hlen] at hi
      rcases Nat.lt_or_ge i (n - 1) with hi' | hi'
      · rw [List.getElem_append_left (by simpa using hi')]
        simp only [List.getElem_map, List.getElem_range]
        field_simp
      · have : i = n - 1 := by omega
        subst this
        rw [List.getElem_append_right (by simp)]
        have : (((n - 1 : Nat)) : K) = (n : K) - 1 := by
          rw [Nat.cast_sub (by omega)]; simp
        simp only [this, List.getElem_singleton, List.length_map, List.length_range]
        rw [div_self hpos.ne']; ring
    · obtain ⟨m, hm⟩ : ∃ m, n - 1 = m + 1 := ⟨n - 2, by omega⟩
      rw [hm, List.range_succ_eq_map]
      simp

/-- A negative count is not rejected: the result is the end point alone. -/
theorem C28_negative (a b : K) (n : ℤ) (h : n < 0) : linspace a b n = [b] := by
  unfold linspace
  rw [if_neg (by omega), if_neg (by omega)]
  have : (n - 1).toNat = 0 := by omega
  simp [this]

example : linspace (1 : ℚ) 2 5 = [1, 5/4, 3/2, 7/4, 2] := by decide +kernel

/-! ## C29 -/

/-- `a` is the element of rank `k` (counting from 0) of the sample. -/
def IsRank (v : List K) (k : Nat) (a : K) : Prop :=
  a ∈ v ∧ v.countP (fun x => x < a) ≤ k ∧ k < v.countP (fun x => x ≤ a)

theorem IsRank.unique {v : List K} {k : Nat} {a b : K} (ha : IsRank v k a) (hb : IsRank v k b) :
    a = b := by
  have key : ∀ a b : K, IsRank v k a → IsRank v k b → a < b → False := by
    intro a b ha hb hlt
    have h1 : v.countP (fun x => x ≤ a) ≤ v.countP (fun x => x < b) := by
      apply List.countP_mono_left
      intro x _ hx
      simp only [decide_eq_true_eq] at hx ⊢
      exact lt_of_le_of_lt hx hlt
    have := ha.2.2
    have := hb.2.1
    omega
  rcases lt_trichotomy a b with h | h | h
  · exact (key a b ha hb h).elim
  · exact h
  · exact (key b a hb ha h).elim

theorem IsRank.perm {v w : List K} {k : Nat} {a : K} (h : v.Perm w) (ha : IsRank v k a) :
    IsRank w k a :=
  ⟨h.mem_iff.mp ha.1, (h.countP_eq _) ▸ ha.2.1, (h.countP_eq _) ▸ ha.2.2⟩

theorem sorted_rank (s : List K) (hs : s.Pairwise (· ≤ ·)) (k : Nat) (hk : k < s.length) :
    IsRank s k s[k] := by
  refine ⟨List.getElem_mem hk, ?_, ?_⟩
  · have e : s = s.take k ++ s.drop k := (List.take_append_drop k s).symm
    have h0 : (s.drop k).countP (fun x => x < s[k]) = 0 := by
      rw [List.countP_eq_zero]
      intro x hx
      simp only [decide_eq_true_eq, not_lt]
      obtain ⟨i, hi, rfl⟩ := List.mem_iff_getElem.mp hx
      rw [List.getElem_drop]
      rcases Nat.eq_zero_or_pos i with rfl | hp
      · simp
      · exact List.pairwise_iff_getElem.mp hs k (k + i) hk (by simp at hi; omega) (by omega)
    calc s.countP (fun x => x < s[k])
        = (s.take k ++ s.drop k).countP (fun x => x < s[k]) := by rw [← e]
      _ = (s.take k).countP (fun x => x < s[k]) := by rw [List.countP_append, h0]; rfl
      _ ≤ (s.take k).length := List.countP_le_length
      _ ≤ k := by simp
  · have e : s = s.take (k + 1) ++ s.drop (k + 1) := (List.take_append_drop (k + 1) s).symm
    have h1 : (s.take (k + 1)).countP (fun x => x ≤ s[k]) = (s.take (k + 1)).length := by
      rw [List.countP_eq_length]
      intro x hx
      simp only [decide_eq_true_eq]
      obtain ⟨i, hi, rfl⟩ := List.mem_iff_getElem.mp hx
      rw [List.getElem_take]
      simp at hi
      rcases Nat.lt_or_ge i k with h | h
      · exact List.pairwise_iff_getElem.mp hs i k (by omega) hk h
      · have : i = k := by omega
        subst this; exact le_refl _
    have h2 : k < (s.take (k + 1)).length := by rw [List.length_take]; omega
    have h3 : (s.take (k + 1)).countP (fun x => x ≤ s[k]) ≤ s.countP (fun x => x ≤ s[k]) :=
      (List.take_sublist (k + 1) s).countP_le
    rw [h1] at h3
    exact lt_of_lt_of_le h2 h3

/-- C29: the median is the middle element in rank, or the average of the two middle ones. -/
theorem C29_median (v : List K) (hv : v ≠ []) :
    ∃ m, median v = .ok m ∧
      (v.length % 2 = 1 → IsRank v (v.length / 2) m) ∧
      (v.length % 2 = 0 → ∃ lo hi, IsRank v (v.length / 2 - 1) lo ∧ IsRank v (v.length / 2) hi ∧
        m = (lo + hi) / 2) := by
  have hp := v.perm_insertionSort (· ≤ ·)
  have hs : (v.insertionSort (· ≤ ·)).Pairwise (· ≤ ·) := v.pairwise_insertionSort (· ≤ ·)
  have hl : (v.insertionSort (· ≤ ·)).length = v.length := hp.length_eq
  have hpos : 0 < v.length := List.length_pos_iff.mpr hv
  unfold median
  generalize v.insertionSort (· ≤ ·) = s at hp hs hl
  simp only [hl]
  rcases Nat.mod_two_eq_zero_or_one v.length with h | h
  · rw [if_neg (by omega), if_neg (by omega), List.getElem?_eq_getElem (by omega),
      List.getElem?_eq_getElem (by omega)]
    exact ⟨_, rfl, by omega, fun _ => ⟨_, _, (sorted_rank s hs _ (by omega)).perm hp,
      (sorted_rank s hs _ (by omega)).perm hp, by rw [add_comm]⟩⟩
  · rw [if_pos h, List.getElem?_eq_getElem (by omega)]
    exact ⟨_, rfl, fun _ => (sorted_rank s hs _ (by omega)).perm hp, by omega⟩

/-- On an empty sample `median` and `max` read outside the vector. -/
theorem C29_empty_ub : median ([] : List K) = .error .oob ∧ max ([] : List K) = .error .oob ∧
    mean ([] : List K) = none := by
  refine ⟨rfl, rfl, rfl⟩

theorem sum_eq (x : List K) : sum x = x.sum := by
  unfold sum
  rw [List.sum_eq_foldl]

theorem foldl_add_map {α : Type} (f : α → K) (x : List α) (c : K) :
    x.foldl (fun s a => s + f a) c = c + (x.map f).sum := by
  induction x generalizing c with
  | nil => simp
  | cons a l ih => simp [ih, add_assoc]

/-- C29: `max` returns the greatest element. -/
theorem C29_max (x : List K) (hx : x ≠ []) : ∃ m, max x = .ok m ∧ m ∈ x ∧ ∀ a ∈ x, a ≤ m := by
  have key : ∀ (l : List K) (m0 : K), (l.foldl (fun m b => if b > m then b else m) m0 = m0 ∨
      l.foldl (fun m b => if b > m then b else m) m0 ∈ l) ∧
      m0 ≤ l.foldl (fun m b => if b > m then b else m) m0 ∧
      ∀ a ∈ l, a ≤ l.foldl (fun m b => if b > m then b else m) m0 := by
    intro l
    induction l with
    | nil => intro m0; simp
    | cons b l ih =>
      intro m0
      obtain ⟨h1, h2, h3⟩ := ih (if b > m0 then b else m0)
      simp only [List.foldl_cons]
      have hb : b ≤ (if b > m0 then b else m0) ∧ m0 ≤ (if b > m0 then b else m0) := by
        split <;> rename_i h
        · exact ⟨le_refl _, le_of_lt h⟩
        · exact ⟨not_lt.mp h, le_refl _⟩
      refine ⟨?_, hb.2.trans h2, ?_⟩
      · rcases h1 with h1 | h1
        · rw [h1]; split <;> simp
        · right; exact List.mem_cons_of_mem _ h1
      · intro a ha
        rcases List.mem_cons.mp ha with rfl | ha
        · exact hb.1.trans h2
        · exact h3 a ha
  cases x with
  | nil => exact absurd rfl hx
  | cons a l =>
    obtain ⟨h1, _, h3⟩ := key (a :: l) a
    refine ⟨_, rfl, ?_, h3⟩
    rcases h1 with h1 | h1
    · rw [h1]; simp
    · exact h1

/-- C29: the mean is the sum over the count, and (the defining property) the deviations from
it sum to zero. -/
theorem C29_mean (x : List K) (hx : x ≠ []) :
    ∃ m, mean x = some m ∧ m * (x.length : K) = x.sum ∧ (x.map (fun a => a - m)).sum = 0 := by
  have hl : 0 < x.length := List.length_pos_iff.mpr hx
  have hk : (x.length : K) ≠ 0 := by exact_mod_cast hl.ne'
  have hm : sum x / (x.length : K) * (x.length : K) = x.sum := by
    rw [sum_eq, div_mul_cancel₀ _ hk]
  refine ⟨sum x / (x.length : K), by rw [mean, if_neg hl.ne'], hm, ?_⟩
  have : ∀ (l : List K) (m : K), (l.map (fun a => a - m)).sum = l.sum - m * (l.length : K) := by
    intro l m
    induction l with
    | nil => simp
    | cons a l ih => simp only [List.map_cons, List.sum_cons, ih, List.length_cons]; push_cast; ring
  rw [this, hm, sub_self]

/-- C29: the variance of at least two samples is the sum of squared deviations from the mean
over `n - 1`; it is nonnegative, and zero exactly for a constant sample. -/
theorem C29_var (x : List K) (hx : 2 ≤ x.length) :
    ∃ m s, mean x = some m ∧ var x = some s ∧
      s * ((x.length : K) - 1) = (x.map (fun a => (a - m) ^ 2)).sum ∧
      0 ≤ s ∧ (s = 0 ↔ ∀ a ∈ x, ∀ b ∈ x, a = b) := by
  have hne : x ≠ [] := by rintro rfl; simp at hx
  obtain ⟨m, hm, hm2, hm3⟩ := C29_mean x hne
  have h1 : (0 : K) < (x.length : K) - 1 := by
    have : (1 : K) < x.length := by exact_mod_cast hx
    linarith
  have hsum : x.foldl (fun s a => s + (a - m) ^ 2) 0 = (x.map (fun a => (a - m) ^ 2)).sum := by
    rw [foldl_add_map (fun a => (a - m) ^ 2)]; simp
  have hv : var x = some ((x.map (fun a => (a - m) ^ 2)).sum / ((x.length : K) - 1)) := by
    simp only [var, hm]
    rw [if_neg (by omega), hsum]
  have hnn : 0 ≤ (x.map (fun a => (a - m) ^ 2)).sum := by
    apply List.sum_nonneg
    intro b hb
    obtain ⟨a, _, rfl⟩ := List.mem_map.mp hb
    positivity
  refine ⟨m, _, hm, hv, by rw [div_mul_cancel₀ _ h1.ne'], div_nonneg hnn h1.le, ?_⟩
  rw [div_eq_zero_iff, or_iff_left h1.ne']
  constructor
  · intro hz
    have hall : ∀ a ∈ x, a = m := by
      have : ∀ l : List K, (l.map (fun a => (a - m) ^ 2)).sum = 0 → ∀ a ∈ l, a = m := by
        intro l
        induction l with
        | nil => simp
        | cons b l ih =>
          intro hz a ha
          have hl : 0 ≤ (l.map (fun a => (a - m) ^ 2)).sum := by
            apply List.sum_nonneg
            intro b hb
            obtain ⟨a, _, rfl⟩ := List.mem_map.mp hb
            positivity
          simp only [List.map_cons, List.sum_cons] at hz
          have hb : 0 ≤ (b - m) ^ 2 := by positivity
          have hb0 : (b - m) ^ 2 = 0 := by linarith
          have hl0 : (l.map (fun a => (a - m) ^ 2)).sum = 0 := by linarith
          rcases List.mem_cons.mp ha with rfl | ha
          · have := pow_eq_zero_iff (two_ne_zero) |>.mp hb0
            linarith
          · exact ih hl0 a ha
      exact this x hz
    intro a ha b hb
    rw [hall a ha, hall b hb]
  · intro hc
    obtain ⟨a0, ha0⟩ := List.exists_mem_of_ne_nil x hne
    have hall : ∀ a ∈ x, a = a0 := fun a ha => hc a ha a0 ha0
    have hrep : x = List.replicate x.length a0 := List.eq_replicate_of_mem hall
    have hma : m = a0 := by
      rw [hrep] at hm2
      simp only [List.length_replicate, List.sum_replicate, nsmul_eq_mul] at hm2
      have hk : (x.length : K) ≠ 0 := by
        have : 0 < x.length := by omega
        exact_mod_cast this.ne'
      have : m * (x.length : K) = a0 * (x.length : K) := by rw [hm2]; ring
      exact mul_right_cancel₀ hk this
    apply List.sum_eq_zero
    intro b hb
    obtain ⟨a, ha, rfl⟩ := List.mem_map.mp hb
    rw [hall a ha, hma]; ring

/-- C29: order of the sample does not matter. -/
theorem C29_perm (x y : List K) (h : x.Perm y) :
    median x = median y ∧ mean x = mean y ∧ var x = var y ∧ sum x = sum y := by
  have hm : mean x = mean y := by
    unfold mean; rw [sum_eq, sum_eq, h.sum_eq, h.length_eq]
  refine ⟨?_, hm, ?_, by rw [sum_eq, sum_eq, h.sum_eq]⟩
  · have : x.insertionSort (· ≤ ·) = y.insertionSort (· ≤ ·) := by
      apply List.Perm.eq_of_pairwise (le := (· ≤ ·))
      · intro a b _ _ h1 h2; exact le_antisymm h1 h2
      · exact x.pairwise_insertionSort (· ≤ ·)
      · exact y.pairwise_insertionSort (· ≤ ·)
      · exact (x.perm_insertionSort _).trans (h.trans (y.perm_insertionSort _).symm)
    unfold median; rw [this]
  · unfold var
    rw [hm, h.length_eq]
    cases mean y with
    | none => rfl
    | some mu =>
      simp only
      rw [foldl_add_map (fun a => (a - mu) ^ 2), foldl_add_map (fun a => (a - mu) ^ 2),
        (h.map _).sum_eq]

/-- The variance of a single sample is 0/0. -/
theorem C29_var_single (a : K) : var [a] = none := by simp [var, mean]

/-- The vector version of the mean multiplies the sum by `1.0f / n`: it is the mean exactly if
that `float` is exactly `1 / n` (or the sum is zero). -/
theorem C29_mean_vec (recip : Nat → K) (x : List K) (hx : x ≠ []) :
    ∃ m, mean x = some m ∧ (meanVec recip x = m ↔
      x.sum = 0 ∨ recip x.length = 1 / (x.length : K)) := by
  obtain ⟨m, hm, hm2, _⟩ := C29_mean x hx
  have hl : 0 < x.length := List.length_pos_iff.mpr hx
  have hk : (x.length : K) ≠ 0 := by exact_mod_cast hl.ne'
  refine ⟨m, hm, ?_⟩
  have e : meanVec recip x = x.sum * recip x.length := by
    unfold meanVec
    rw [show (fun (s a : K) => s + a) = (fun s a => s + id a) from rfl, foldl_add_map]; simp
  have e2 : m = x.sum * (1 / (x.length : K)) := by rw [← hm2]; field_simp
  rw [e, e2]
  constructor
  · intro h
    by_cases h0 : x.sum = 0
    · exact Or.inl h0
    · exact Or.inr (mul_left_cancel₀ h0 h)
  · rintro (h | h)
    · rw [h]; ring
    · rw [h]

end field

/-- With IEEE single precision the mean of three equal vectors is not that vector. -/
theorem C29_mean_vec_refuted :
    meanVec (fun n => f32 (1 / (n : ℚ))) [1, 1, 1] ≠ (1 : ℚ) ∧ mean [1, 1, (1 : ℚ)] = some 1 := by
  decide +kernel

/-- C29 over the reals: standard deviation and root mean square error. -/
theorem C29_stddev_rmse (x : List ℝ) :
    (∀ s, var x = some s → 2 ≤ x.length → ∃ d, stddev x = some d ∧ 0 ≤ d ∧ d ^ 2 = s) ∧
    (x ≠ [] → ∃ e, rmse x = some e ∧ 0 ≤ e ∧
      e ^ 2 * (x.length : ℝ) = (x.map (fun a => a ^ 2)).sum ∧
      (e = 0 ↔ ∀ a ∈ x, a = 0)) ∧
    (∀ y, x.Perm y → stddev x = stddev y ∧ rmse x = rmse y) := by
  refine ⟨?_, ?_, ?_⟩
  · intro s hs hl
    obtain ⟨_, s', _, h2, _, h4, _⟩ := C29_var x hl
    rw [hs] at h2; cases h2
    exact ⟨Real.sqrt s, by rw [stddev, hs]; rfl, Real.sqrt_nonneg _, Real.sq_sqrt h4⟩
  · intro hx
    have hl : 0 < x.length := List.length_pos_iff.mpr hx
    have hk : (0 : ℝ) < (x.length : ℝ) := by exact_mod_cast hl
    have hs : x.foldl (fun s a => s + a * a) 0 = (x.map (fun a => a ^ 2)).sum := by
      rw [foldl_add_map (fun a => a * a)]; simp [pow_two]
    have hnn : ∀ l : List ℝ, 0 ≤ (l.map (fun a => a ^ 2)).sum := by
      intro l
      apply List.sum_nonneg
      intro b hb
      obtain ⟨a, _, rfl⟩ := List.mem_map.mp hb
      positivity
    have hq : 0 ≤ (x.map (fun a => a ^ 2)).sum / (x.length : ℝ) := div_nonneg (hnn x) hk.le
    refine ⟨_, by rw [rmse, if_neg hl.ne', hs], Real.sqrt_nonneg _, ?_, ?_⟩
    · rw [Real.sq_sqrt hq, div_mul_cancel₀ _ hk.ne']
    · rw [Real.sqrt_eq_zero hq, div_eq_zero_iff, or_iff_left hk.ne']
      constructor
      · have : ∀ l : List ℝ, (l.map (fun a => a ^ 2)).sum = 0 → ∀ a ∈ l, a = 0 := by
          intro l
          induction l with
          | nil => simp
          | cons b l ih =>
            intro hz a ha
            simp only [List.map_cons, List.sum_cons] at hz
            have hb : 0 ≤ b ^ 2 := by positivity
            have := hnn l
            rcases List.mem_cons.mp ha with rfl | ha
            · have : a ^ 2 = 0 := by linarith
              exact pow_eq_zero_iff (two_ne_zero) |>.mp this
            · exact ih (by linarith) a ha
        exact this x
      · intro h
        apply List.sum_eq_zero
        intro b hb
        obtain ⟨a, ha, rfl⟩ := List.mem_map.mp hb
        rw [h a ha]; ring
  · intro y h
    refine ⟨by rw [stddev, stddev, (C29_perm x y h).2.2.1], ?_⟩
    unfold rmse
    rw [h.length_eq, foldl_add_map (fun a => a * a), foldl_add_map (fun a => a * a),
      (h.map _).sum_eq]

example : median [3, 1, 2, (10 : ℚ)] = .ok (5 / 2) ∧ var [1, 2, (3 : ℚ)] = some 1 := by
  decide +kernel

/-! ## C30 -/

section wrap
variable {K : Type} [Field K] [LinearOrder K] [IsStrictOrderedRing K] [FloorRing K]

theorem fmod_congr (x y : K) : ∃ n : ℤ, fmod x y = x - y * n := by
  unfold fmod
  split
  · exact ⟨_, rfl⟩
  · exact ⟨_, rfl⟩

theorem fmod_range (x y : K) (hy : 0 < y) :
    (0 ≤ x → 0 ≤ fmod x y ∧ fmod x y < y) ∧ (x < 0 → -y < fmod x y ∧ fmod x y ≤ 0) := by
  unfold fmod
  have hc : y * (x / y) = x := by field_simp
  constructor
  · intro h
    rw [if_pos h]
    have h1 := mul_le_mul_of_nonneg_left (Int.floor_le (x / y)) hy.le
    have h2 := mul_lt_mul_of_pos_left (Int.lt_floor_add_one (x / y)) hy
    rw [mul_add] at h2
    rw [hc] at h1
    try rw [hc] at h2
    constructor <;> linarith
  · intro h
    rw [if_neg (not_le.mpr h)]
    have h1 := mul_le_mul_of_nonneg_left (Int.le_ceil (x / y)) hy.le
    have h2 := mul_lt_mul_of_pos_left (Int.ceil_lt_add_one (x / y)) hy
    rw [mul_add] at h2
    rw [hc] at h1
    try rw [hc] at h2
    constructor <;> linarith

/-- C30, partial: the result is always congruent to the input modulo 360.  It lies in
[-180, 180) if the input is at least -180, otherwise in (-540, -180]; respectively in [0, 360)
if the input is at least -360, otherwise in (-360, 0].  Missing: the range for the other
inputs, see `C30_range_refuted`. -/
theorem C30_wrap_partial (a : K) :
    (∃ n : ℤ, wrap180 a = a + 360 * n) ∧ (∃ n : ℤ, wrap360 a = a + 360 * n) ∧
    (-180 ≤ a → -180 ≤ wrap180 a ∧ wrap180 a < 180) ∧
    (a < -180 → -540 < wrap180 a ∧ wrap180 a ≤ -180) ∧
    (-360 ≤ a → 0 ≤ wrap360 a ∧ wrap360 a < 360) ∧
    (a < -360 → -360 < wrap360 a ∧ wrap360 a ≤ 0) := by
  have h360 : (0 : K) < 360 := by norm_num
  refine ⟨?_, ?_, ?_, ?_, ?_, ?_⟩
  · obtain ⟨n, hn⟩ := fmod_congr (a + 180) 360
    exact ⟨-n, by rw [wrap180, hn]; push_cast; ring⟩
  · unfold wrap360
    split
    · obtain ⟨n, hn⟩ := fmod_congr a 360
      exact ⟨-n, by rw [hn]; push_cast; ring⟩
    · obtain ⟨n, hn⟩ := fmod_congr (a + 360) 360
      exact ⟨1 - n, by rw [hn]; push_cast; ring⟩
  · intro h
    obtain ⟨h1, h2⟩ := (fmod_range (a + 180) 360 h360).1 (by linarith)
    unfold wrap180; constructor <;> linarith
  · intro h
    obtain ⟨h1, h2⟩ := (fmod_range (a + 180) 360 h360).2 (by linarith)
    unfold wrap180; constructor <;> linarith
  · intro h
    unfold wrap360
    split
    · rename_i hp; exact (fmod_range a 360 h360).1 (le_of_lt hp)
    · exact (fmod_range (a + 360) 360 h360).1 (by linarith)
  · intro h
    unfold wrap360
    rw [if_neg (by linarith)]
    exact (fmod_range (a + 360) 360 h360).2 (by linarith)

/-- Within the range nothing is changed. -/
theorem C30_wrap_id (a : K) :
    (-180 ≤ a → a < 180 → wrap180 a = a) ∧ (0 ≤ a → a < 360 → wrap360 a = a) := by
  constructor
  · intro h1 h2
    unfold wrap180 fmod
    rw [if_pos (by linarith)]
    have : ⌊(a + 180) / 360⌋ = 0 := by
      rw [Int.floor_eq_zero_iff]
      constructor
      · apply div_nonneg <;> linarith
      · rw [div_lt_one (by norm_num)]; linarith
    rw [this]; push_cast; ring
  · intro h1 h2
    unfold wrap360
    split
    · unfold fmod
      rw [if_pos h1]
      have : ⌊a / 360⌋ = 0 := by
        rw [Int.floor_eq_zero_iff]
        constructor
        · apply div_nonneg <;> linarith
        · rw [div_lt_one (by norm_num)]; linarith
      rw [this]; push_cast; ring
    · rename_i h
      have : a = 0 := le_antisymm (not_lt.mp h) h1
      subst this
      unfold fmod
      rw [if_pos (by norm_num)]
      have : ⌊((0 : K) + 360) / 360⌋ = 1 := by
        rw [zero_add, div_self (by norm_num)]; exact Int.floor_one
      rw [this]; norm_num

end wrap

/-- C30 fails for sufficiently negative angles. -/
theorem C30_range_refuted : wrap180 (-200 : ℚ) = -200 ∧ wrap360 (-400 : ℚ) = -40 := by
  decide +kernel

/-- `wrapPi` and `wrap2Pi`: congruent modulo 2π, and in range for inputs not below -π
respectively -2π. -/
theorem C30_wrapPi_partial (r : ℝ) :
    (∃ n : ℤ, wrapPi r = r + 2 * Real.pi * n) ∧ (∃ n : ℤ, wrap2Pi r = r + 2 * Real.pi * n) ∧
    (-Real.pi ≤ r → -Real.pi ≤ wrapPi r ∧ wrapPi r < Real.pi) ∧
    (-(2 * Real.pi) ≤ r → 0 ≤ wrap2Pi r ∧ wrap2Pi r < 2 * Real.pi) := by
  have hpi := Real.pi_pos
  obtain ⟨⟨n, hn⟩, ⟨k, hk⟩, h3, _, h5, _⟩ := C30_wrap_partial (rad2deg r)
  have hinv : rad2deg r * (Real.pi / 180) = r := by unfold rad2deg; field_simp
  have hmul : ∀ c : ℝ, c * (Real.pi / 180) ≤ r → c ≤ rad2deg r := by
    intro c h
    have h' : c * (Real.pi / 180) ≤ rad2deg r * (Real.pi / 180) := by rw [hinv]; exact h
    exact le_of_mul_le_mul_right h' (by positivity)
  refine ⟨⟨n, ?_⟩, ⟨k, ?_⟩, ?_, ?_⟩
  · rw [wrapPi, hn, deg2rad, add_mul, hinv]; ring
  · rw [wrap2Pi, hk, deg2rad, add_mul, hinv]; ring
  · intro h
    obtain ⟨h6, h7⟩ := h3 (hmul _ (by linarith))
    have e : (0 : ℝ) < Real.pi / 180 := by positivity
    have h6' := mul_le_mul_of_nonneg_right h6 e.le
    have h7' := mul_lt_mul_of_pos_right h7 e
    unfold wrapPi deg2rad
    constructor <;> linarith
  · intro h
    obtain ⟨h6, h7⟩ := h5 (hmul _ (by linarith))
    have e : (0 : ℝ) < Real.pi / 180 := by positivity
    have h6' := mul_le_mul_of_nonneg_right h6 e.le
    have h7' := mul_lt_mul_of_pos_right h7 e
    unfold wrap2Pi deg2rad
    constructor <;> linarith

example : wrap180 (190 : ℚ) = -170 ∧ wrap360 (-10 : ℚ) = 350 ∧ wrap360 (725 : ℚ) = 5 := by
  decide +kernel

/-! ## C65 -/

section cmp
variable {K : Type} [Field K] [LinearOrder K] [IsStrictOrderedRing K]

/-- C65. -/
theorem C65_fltcmp (a b : K) :
    (fltcmp a b = 0 ↔ b - 1 / 10000 ≤ a ∧ a ≤ b + 1 / 10000) ∧
    (fltcmp a b = 1 ↔ b + 1 / 10000 < a) ∧ (fltcmp a b = -1 ↔ a < b - 1 / 10000) ∧
    fltcmp b a = - fltcmp a b ∧ sign a = fltcmp a 0 := by
  have hsub : ∀ a b : K, |a - b| ≤ 1 / 10000 ↔ b - 1 / 10000 ≤ a ∧ a ≤ b + 1 / 10000 := by
    intro a b
    rw [abs_le]; constructor <;> rintro ⟨h1, h2⟩ <;> constructor <;> linarith
  have h0 : (0 : K) < 1 / 10000 := by norm_num
  refine ⟨?_, ?_, ?_, ?_, ?_⟩
  · unfold fltcmp
    rw [← hsub]
    split_ifs with h1 h2
    · exact iff_of_true rfl h1
    · exact iff_of_false (by decide) h1
    · exact iff_of_false (by decide) h1
  · unfold fltcmp
    split_ifs with h1 h2
    · have := (hsub a b).mp h1
      simp only [zero_ne_one, false_iff, not_lt]; exact this.2
    · have : ¬ (b - 1 / 10000 ≤ a ∧ a ≤ b + 1 / 10000) := fun h => h1 ((hsub a b).mpr h)
      simp only [true_iff]
      by_contra hc
      exact this ⟨by linarith [show b < a from h2], by linarith⟩
    · simp only [reduceCtorEq, false_iff, not_lt]
      linarith [not_lt.mp h2]
  · unfold fltcmp
    split_ifs with h1 h2
    · have := (hsub a b).mp h1
      simp only [reduceCtorEq, false_iff, not_lt]; exact this.1
    · simp only [reduceCtorEq, false_iff, not_lt]
      linarith [show b < a from h2]
    · have : ¬ (b - 1 / 10000 ≤ a ∧ a ≤ b + 1 / 10000) := fun h => h1 ((hsub a b).mpr h)
      simp only [true_iff]
      by_contra hc
      exact this ⟨by linarith, by linarith [not_lt.mp h2]⟩
  · unfold fltcmp
    rw [abs_sub_comm b a]
    split_ifs with h1 h2 h3 h3
    · rfl
    · exact absurd h3 (not_lt.mpr (le_of_lt h2))
    · rfl
    · rfl
    · exfalso
      have : a = b := le_antisymm (not_lt.mp h3) (not_lt.mp h2)
      apply h1; rw [this, sub_self, abs_zero]; exact h0.le
  · unfold sign fltcmp
    split_ifs with h1 h2 h3 h4 h5 <;> first
      | rfl
      | (exfalso; simp_all; done)
      | (exfalso; simp_all; linarith)
      | (exfalso; have hz : a = 0 := le_antisymm (not_lt.mp (by assumption)) (not_lt.mp (by assumption))
         subst hz; simp_all)

/-- The tolerance comparison is not transitive. -/
theorem C65_not_transitive :
    fltcmp (0 : ℚ) (1 / 10000) = 0 ∧ fltcmp (1 / 10000 : ℚ) (2 / 10000) = 0 ∧
    fltcmp (0 : ℚ) (2 / 10000) = -1 := by decide +kernel

/-! ## C66 -/

/-- C66 for `randf`: the result lies between the bounds, in whichever order they are given,
and both bounds are reached. -/
theorem C66_randf (randMax r : Nat) (hr : r ≤ randMax) (hm : 0 < randMax) (ub lb : K) :
    min ub lb ≤ randf randMax r ub lb ∧ randf randMax r ub lb ≤ Max.max ub lb ∧
    randf randMax 0 ub lb = lb ∧ randf randMax randMax ub lb = ub := by
  have hpos : (0 : K) < randMax := by exact_mod_cast hm
  have h1 : (0 : K) ≤ (r : K) / randMax := by positivity
  have h2 : (r : K) / randMax ≤ 1 := by
    rw [div_le_one hpos]; exact_mod_cast hr
  unfold randf
  refine ⟨?_, ?_, by simp, by rw [div_self hpos.ne']; ring⟩
  · rcases le_total ub lb with h | h
    · rw [min_eq_left h]; nlinarith
    · rw [min_eq_right h]; nlinarith
  · rcases le_total ub lb with h | h
    · rw [max_eq_right h]; nlinarith
    · rw [max_eq_left h]; nlinarith

end cmp

/-- `randi(a, n)` with `n > 0` is between `a` and `a + n - 1`: the second argument acts as a
count.  So with first argument 0 it is an index below `n`. -/
theorem C66_randi_partial (r : Nat) (a n : ℤ) (hn : 0 < n) :
    ∃ x, randi r a n = .ok x ∧ a ≤ x ∧ x < a + n := by
  refine ⟨_, by rw [randi, if_neg (by omega)], ?_, ?_⟩
  · have := Int.tmod_nonneg n (show (0 : ℤ) ≤ (r : ℤ) by omega)
    omega
  · have := Int.tmod_lt_of_pos (r : ℤ) hn
    omega

/-- C66 fails for `randi` with the documented meaning (upper bound, lower bound): values above
the upper bound come out, and a lower bound 0 is a division by zero. -/
theorem C66_randi_refuted :
    randi 4 10 5 = .ok 14 ∧ randi 7 10 0 = .error .divZero := by decide

example : randi 11 0 4 = .ok 3 ∧ randf 100 25 (3 : ℚ) 1 = 3 / 2 := by decide +kernel

end Yac.Num
