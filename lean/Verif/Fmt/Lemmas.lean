import Verif.Fmt.Model
import Verif.Fmt.Round
import Verif.Text.Lemmas

/-! # Reading back printed numbers -/

namespace Yac.Fmt
open Yac.Num Yac.Text

/-- The decimal value of significant digits. -/
def dec (P : ℕ) (s : ℕ × ℤ) : ℚ := (s.1 : ℚ) * 10 ^ (s.2 - ((P : ℤ) - 1))

theorem sig_close (P : ℕ) (x : ℚ) : abs (dec (P + 1) (sig (P + 1) x) - |x|) ≤ 1 / 2 * 10 ^ (Int.log 10 |x| - P) := by
  unfold sig dec
  simp only
  generalize Int.log 10 |x| = e
  have h0 := rneInt_nonneg (x := |x| * 10 ^ (((P + 1 : ℕ) : ℤ) - 1 - e)) (by positivity)
  have h1 := rneInt_close (|x| * 10 ^ (((P + 1 : ℕ) : ℤ) - 1 - e))
  have en : (((rneInt (|x| * 10 ^ (((P + 1 : ℕ) : ℤ) - 1 - e))).natAbs : ℕ) : ℚ) = (rneInt (|x| * 10 ^ (((P + 1 : ℕ) : ℤ) - 1 - e)) : ℚ) := by
    rw [← Int.cast_natCast, Int.natAbs_of_nonneg h0]
  rw [← en] at h1
  generalize (rneInt (|x| * 10 ^ (((P + 1 : ℕ) : ℤ) - 1 - e))).natAbs = u at h1 ⊢
  have hs : ((P + 1 : ℕ) : ℤ) - 1 - e = P - e := by push_cast; ring
  rw [hs] at h1
  have hp : (0 : ℚ) < 10 ^ (e - (P : ℤ)) := zpow_pos (by norm_num) _
  have hi : (10 : ℚ) ^ ((P : ℤ) - e) * 10 ^ (e - (P : ℤ)) = 1 := by
    rw [← zpow_add₀ (by norm_num)]
    simp
  have main : abs ((u : ℚ) * 10 ^ (e - (P : ℤ)) - |x|) ≤ 1 / 2 * 10 ^ (e - (P : ℤ)) := by
    have : (u : ℚ) * 10 ^ (e - (P : ℤ)) - |x| = -((|x| * 10 ^ ((P : ℤ) - e) - u) * 10 ^ (e - (P : ℤ))) := by
      rw [sub_mul, mul_assoc, hi]
      ring
    rw [this, abs_neg, abs_mul, abs_of_pos hp]
    exact mul_le_mul_of_nonneg_right h1 hp.le
  split_ifs with hu
  · have : ((10 ^ (P + 1 - 1) : ℕ) : ℚ) * 10 ^ (e + 1 - (((P + 1 : ℕ) : ℤ) - 1)) = (u : ℚ) * 10 ^ (e - (P : ℤ)) := by
      rw [hu]
      push_cast
      rw [show e + 1 - ((P : ℤ) + 1 - 1) = (e - P) + 1 by ring, zpow_add₀ (by norm_num)]
      ring
    simp only [this]
    exact main
  · have : e - (((P + 1 : ℕ) : ℤ) - 1) = e - P := by push_cast; ring
    simp only [this]
    exact main

theorem natOf_zeros (l : List Char) (n : ℕ) : natOf (l ++ List.replicate n '0') = natOf l * 10 ^ n := by
  induction n with
  | zero => simp
  | succ n ih =>
    rw [List.replicate_succ', ← List.append_assoc, natOf_append, ih]
    simp
    ring

theorem rdrop_zeros (l : List Char) : ∃ n, l = l.rdropWhile (fun c => c = '0') ++ List.replicate n '0' := by
  induction l using List.reverseRecOn with
  | nil => exact ⟨0, rfl⟩
  | append_singleton l c ih =>
    by_cases h : c = '0'
    · obtain ⟨n, hn⟩ := ih
      refine ⟨n + 1, ?_⟩
      rw [List.rdropWhile_concat_pos _ _ _ (by simpa using h), List.replicate_succ', ← List.append_assoc, ← hn, h]
    · refine ⟨0, ?_⟩
      rw [List.rdropWhile_concat_neg _ _ _ (by simpa using h)]
      simp

/-- The decimals keep their value without the zeros at the end. -/
theorem rdrop_value (l : List Char) : (natOf (l.rdropWhile (fun c => c = '0')) : ℚ) / 10 ^ (l.rdropWhile (fun c => c = '0')).length =
    (natOf l : ℚ) / 10 ^ l.length := by
  obtain ⟨n, hn⟩ := rdrop_zeros l
  generalize l.rdropWhile (fun c => c = '0') = t at hn ⊢
  rw [hn, natOf_zeros]
  simp only [List.length_append, List.length_replicate, pow_add]
  push_cast
  field_simp

theorem rdrop_dig (l : List Char) (h : ∀ c ∈ l, isDig c = true) : ∀ c ∈ l.rdropWhile (fun c => c = '0'), isDig c = true := by
  intro c hc
  obtain ⟨n, hn⟩ := rdrop_zeros l
  exact h c (by rw [hn]; exact List.mem_append_left _ hc)

/-- What may come after the digits of a number: nothing or an exponent. -/
def Tail (ex : List Char) : Prop := ∀ c, ex.head? = some c → isDig c = false ∧ c ≠ '.'

theorem decimals_tail {ex : List Char} (h : Tail ex) : decimals ex = ([], ex) := by
  cases ex with
  | nil => rfl
  | cons c r =>
    unfold decimals
    split
    · rename_i r' he
      cases he
      exact absurd rfl (h '.' rfl).2
    · rfl

theorem decimals_point {ds ex : List Char} (hd : ∀ c ∈ ds, isDig c = true) (h : Tail ex) : decimals ('.' :: (ds ++ ex)) = (ds, ex) := by
  obtain ⟨t1, t2⟩ := takeWhile_dig ds ex hd (fun c hc => (h c hc).1)
  show ((ds ++ ex).takeWhile isDig, (ds ++ ex).dropWhile isDig) = (ds, ex)
  rw [t1, t2]

theorem decimals_fraction {ds ex : List Char} (hd : ∀ c ∈ ds, isDig c = true) (h : Tail ex) :
    decimals (fraction ds ++ ex) = (ds.rdropWhile (fun c => c = '0'), ex) := by
  unfold fraction
  simp only
  split_ifs with hn
  · rw [hn]
    exact decimals_tail h
  · exact decimals_point (rdrop_dig ds hd) h

theorem exponent_expText (e : ℤ) : exponent ('e' :: expText e) = (e, []) := by
  have key : ∀ ds : List Char, ds ≠ [] → (∀ c ∈ ds, isDig c = true) → natOf ds = e.natAbs →
      exponent ('e' :: (if e < 0 then '-' else '+') :: ds) = (e, []) := by
    intro ds h0 hd hv
    obtain ⟨t1, t2⟩ := takeWhile_dig ds [] hd (by intro c hc; cases hc)
    rw [List.append_nil] at t1 t2
    have hu : ∀ r : List Char, exponent ('e' :: r) = if (Text.sign r).2.takeWhile isDig = [] then (0, 'e' :: r)
        else (if (Text.sign r).1 then -(natOf ((Text.sign r).2.takeWhile isDig) : ℤ) else natOf ((Text.sign r).2.takeWhile isDig),
          (Text.sign r).2.dropWhile isDig) := by
      intro r
      rw [exponent, if_pos (Or.inl rfl)]
    rw [hu]
    by_cases he : e < 0
    · simp only [if_pos he]
      show (if ds.takeWhile isDig = [] then _ else ((if true = true then -(natOf (ds.takeWhile isDig) : ℤ) else _), ds.dropWhile isDig)) = _
      rw [t1, t2, if_neg h0, if_pos rfl, hv]
      congr 1
      omega
    · simp only [if_neg he]
      show (if ds.takeWhile isDig = [] then _ else ((if false = true then _ else (natOf (ds.takeWhile isDig) : ℤ)), ds.dropWhile isDig)) = _
      rw [t1, t2, if_neg h0, if_neg (by decide), hv]
      congr 1
      omega
  unfold expText
  rw [List.cons_append]
  split_ifs with h1 h2 h2
  · rw [if_pos h1] at key
    refine key _ (by simp) ?_ ?_
    · intro c hc
      rcases List.mem_append.mp hc with hc | hc
      · rw [List.mem_singleton.mp hc]; rfl
      · exact natText_dig _ _ hc
    · have : natOf (['0'] ++ natText e.natAbs) = natOf (natText e.natAbs) := by simp [natOf]
      rw [this, natOf_natText]
  · rw [if_pos h1] at key
    exact key _ (natText_ne _) (natText_dig _) (natOf_natText _)
  · rw [if_neg h1] at key
    refine key _ (by simp) ?_ ?_
    · intro c hc
      rcases List.mem_append.mp hc with hc | hc
      · rw [List.mem_singleton.mp hc]; rfl
      · exact natText_dig _ _ hc
    · have : natOf (['0'] ++ natText e.natAbs) = natOf (natText e.natAbs) := by simp [natOf]
      rw [this, natOf_natText]
  · rw [if_neg h1] at key
    exact key _ (natText_ne _) (natText_dig _) (natOf_natText _)

theorem nodig_fraction (ds ex : List Char) (h : Tail ex) : NoDig (fraction ds ++ ex) := by
  intro c hc
  unfold fraction at hc
  simp only at hc
  split_ifs at hc with hn
  · exact (h c hc).1
  · cases hc
    rfl

/-- Reading a number with decimals and perhaps an exponent. -/
theorem strtod_text (x : ℚ) (n : ℕ) (fr ds : List Char) (ex : List Char) (e : ℤ) (hfr : decimals (fr ++ ex) = (ds, ex))
    (hnd : NoDig (fr ++ ex)) (hex : exponent ex = (e, [])) :
    strtod (minus x ++ natText n ++ fr ++ ex) =
      some (f64 (signed (decide (x < 0)) (((n : ℚ) + (natOf ds : ℚ) / 10 ^ ds.length) * 10 ^ e)), []) := by
  obtain ⟨c, h1, h2⟩ := head_natText n (fr ++ ex)
  have hs : sign (minus x ++ (natText n ++ (fr ++ ex))) = (decide (x < 0), natText n ++ (fr ++ ex)) := by
    unfold minus
    by_cases hx : x < 0
    · simp [hx, Text.sign]
    · simp only [hx, if_false, decide_false, List.nil_append]
      exact sign_dig h1 h2
  obtain ⟨t1, t2⟩ := takeWhile_dig (natText n) (fr ++ ex) (natText_dig _) hnd
  unfold strtod
  rw [List.append_assoc, List.append_assoc, hs]
  simp only [t1, t2, hfr, hex]
  rw [if_neg (fun h => natText_ne _ h.1), natOf_natText]

theorem tail_exp (e : ℤ) : Tail ('e' :: expText e) := by
  intro c hc
  cases hc
  exact ⟨rfl, by decide⟩

theorem split_value (u w : ℕ) : ((u / 10 ^ w : ℕ) : ℚ) + ((u % 10 ^ w : ℕ) : ℚ) / 10 ^ w = (u : ℚ) / 10 ^ w := by
  have := Nat.div_add_mod u (10 ^ w)
  have h' : (10 : ℚ) ^ w * ((u / 10 ^ w : Nat) : ℚ) + ((u % 10 ^ w : Nat) : ℚ) = (u : ℚ) := by exact_mod_cast this
  rw [← h']
  field_simp

/-- Reading back what `%.Pe` prints. -/
theorem strtod_fmtE (P : ℕ) (x : ℚ) :
    strtod (fmtE P x) = some (f64 (signed (decide (x < 0)) (dec (P + 1) (sig (P + 1) x))), []) := by
  obtain ⟨s, hs⟩ : ∃ s, s = sig (P + 1) x := ⟨_, rfl⟩
  have hd := decimals_point (fixedDigits_dig P (s.1 % 10 ^ P)) (tail_exp s.2)
  have := strtod_text x (s.1 / 10 ^ P) ('.' :: fixedDigits P (s.1 % 10 ^ P)) _ ('e' :: expText s.2) s.2 hd
    (by intro c hc; cases hc; rfl) (exponent_expText _)
  unfold fmtE
  simp only [← hs]
  rw [this, natOf_fixedDigits, fixedDigits_length, Nat.mod_mod, split_value]
  congr 4
  unfold dec
  rw [zpow_sub₀ (by norm_num)]
  have : ((P + 1 : ℕ) : ℤ) - 1 = P := by push_cast; ring
  rw [this, zpow_natCast]
  ring

/-- Reading back what `operator<<` prints. -/
theorem strtod_fmtG (P : ℕ) (x : ℚ) :
    strtod (fmtG (P + 1) x) = some (f64 (signed (decide (x < 0)) (dec (P + 1) (sig (P + 1) x))), []) := by
  obtain ⟨s, hs⟩ : ∃ s, s = sig (P + 1) x := ⟨_, rfl⟩
  have hP : ((P + 1 : ℕ) : ℤ) - 1 = P := by push_cast; ring
  unfold fmtG
  simp only [← hs, Nat.add_sub_cancel, hP]
  split_ifs with hc
  · have hd := decimals_fraction (fixedDigits_dig P (s.1 % 10 ^ P)) (tail_exp s.2)
    rw [strtod_text x (s.1 / 10 ^ P) _ _ ('e' :: expText s.2) s.2 hd (nodig_fraction _ _ (tail_exp _)) (exponent_expText _),
      rdrop_value, natOf_fixedDigits, fixedDigits_length, Nat.mod_mod, split_value]
    congr 4
    unfold dec
    rw [zpow_sub₀ (by norm_num), hP, zpow_natCast]
    ring
  · have ht : Tail [] := by intro c hc; cases hc
    have hd := decimals_fraction (fixedDigits_dig ((P : ℤ) - s.2).toNat (s.1 % 10 ^ ((P : ℤ) - s.2).toNat)) ht
    have := strtod_text x (s.1 / 10 ^ ((P : ℤ) - s.2).toNat) _ _ [] 0 hd (nodig_fraction _ _ ht) rfl
    rw [List.append_nil] at this
    rw [this, rdrop_value, natOf_fixedDigits, fixedDigits_length, Nat.mod_mod, split_value]
    congr 4
    unfold dec
    have hw : s.2 - ((P + 1 : ℕ) : ℤ) + 1 = -((((P : ℤ) - s.2).toNat : ℕ) : ℤ) := by
      push_cast at hc
      omega
    rw [show s.2 - (((P + 1 : ℕ) : ℤ) - 1) = s.2 - ((P + 1 : ℕ) : ℤ) + 1 by ring, hw, zpow_neg, zpow_natCast]
    simp
    rfl

theorem signed_abs (x v : ℚ) : |signed (decide (x < 0)) v - x| = abs (v - |x|) := by
  unfold signed
  by_cases hx : x < 0
  · simp only [hx, decide_true, if_true, abs_of_neg hx]
    rw [← abs_neg]
    congr 1
    ring
  · simp [hx, abs_of_nonneg (not_lt.mp hx)]

theorem log_zero : Int.log 10 |(0 : ℚ)| = 0 := by
  rw [abs_zero]
  exact Int.log_of_right_le_zero _ le_rfl

theorem asDouble_of {l : List Char} {v : ℚ} (h : strtod l = some (v, [])) : asDouble l = some v := by
  unfold asDouble
  rw [h]
  rfl

end Yac.Fmt
