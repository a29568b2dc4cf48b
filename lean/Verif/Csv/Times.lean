import Verif.Csv.SimProps

/-! # C130: the times of a saved trajectory; examples -/

namespace Yac.Csv
open Yac.Num Yac.Text Yac.Fmt Yac.Geom Matrix

theorem err {x B : ℚ} (h : |x| ≤ B) : |f64 x - x| ≤ B / 2 ^ 53 := by
  have := f64_err x
  rw [le_div_iff₀ (by norm_num)]
  exact this.trans h

/-- The 1000 times of a saved trajectory (up to the year 2116): the last is the end, the others are evenly spaced up to 4 µs. -/
theorem C130_times (start stop : ℤ) (h0 : 0 ≤ start) (h1 : start ≤ stop) (h2 : stop ≤ 2 ^ 62) :
    (linspaceTs start stop 1000).length = 1000 ∧ (linspaceTs start stop 1000).getLast? = some stop ∧
    ∀ i : ℕ, i < 999 → ∃ t : ℤ, (linspaceTs start stop 1000)[i]? = some t ∧ |(t : ℚ) - (start + (stop - start) * i / 999)| ≤ 4000 := by
  refine ⟨by rw [linspaceTs, List.length_append, List.length_map, List.length_range]; rfl, by rw [linspaceTs, List.getLast?_concat], fun i hi => ?_⟩
  refine ⟨truncQ (f64 (f64 (start : ℚ) + f64 (f64 (f64 ((stop - start : ℤ) : ℚ) / ((1000 - 1 : ℕ) : ℚ)) * (i : ℚ)))), ?_, ?_⟩
  · unfold linspaceTs
    rw [List.getElem?_append_left (by rw [List.length_map, List.length_range]; omega), List.getElem?_map, List.getElem?_range (by omega)]
    rfl
  · have hs0 : (0 : ℚ) ≤ start := by exact_mod_cast h0
    have hs1 : (start : ℚ) ≤ stop := by exact_mod_cast h1
    have hs2 : (stop : ℚ) ≤ 2 ^ 62 := by exact_mod_cast h2
    have hi0 : (0 : ℚ) ≤ i := by positivity
    have hi1 : (i : ℚ) ≤ 998 := by exact_mod_cast (by omega : i ≤ 998)
    push_cast
    norm_num only
    set s : ℚ := (start : ℚ)
    set d : ℚ := (stop : ℚ) - s
    have e1 : |f64 s - s| ≤ 2 ^ 62 / 2 ^ 53 := err (by rw [abs_of_nonneg hs0]; linarith)
    have e2 : |f64 d - d| ≤ 2 ^ 62 / 2 ^ 53 := err (by rw [abs_of_nonneg (by simp only [d]; linarith)]; simp only [d]; linarith)
    have hd0 : 0 ≤ d := by simp only [d]; linarith
    have hd1 : d ≤ 2 ^ 62 := by simp only [d]; linarith
    set D := f64 d
    rw [abs_le] at e1 e2
    have e3 : |f64 (D / 999) - D / 999| ≤ (2 ^ 63 / 999) / 2 ^ 53 := err (by
      rw [abs_div, abs_of_pos (by norm_num : (0 : ℚ) < 999)]
      apply div_le_div_of_nonneg_right _ (by norm_num)
      rw [abs_le]
      constructor <;> norm_num at e2 hd1 ⊢ <;> linarith [e2.1, e2.2])
    set p := f64 (D / 999)
    rw [abs_le] at e3
    have e4 : |p * i - d * i / 999| ≤ 2 ^ 9 + 2 ^ 10 := by
      have : p * i - d * i / 999 = (p - D / 999) * i + (D - d) * (i / 999) := by ring
      rw [this]
      have a1 : |(p - D / 999) * i| ≤ 2 ^ 10 := by
        rw [abs_mul, abs_of_nonneg hi0]
        have : |p - D / 999| ≤ (2 ^ 63 / 999) / 2 ^ 53 := abs_le.mpr e3
        calc |p - D / 999| * i ≤ (2 ^ 63 / 999) / 2 ^ 53 * 998 := mul_le_mul this hi1 hi0 (by norm_num)
          _ ≤ 2 ^ 10 := by norm_num
      have a2 : |(D - d) * (i / 999)| ≤ 2 ^ 9 := by
        rw [abs_mul, abs_of_nonneg (by positivity : (0 : ℚ) ≤ i / 999)]
        have : |D - d| ≤ 2 ^ 62 / 2 ^ 53 := abs_le.mpr e2
        calc |D - d| * (i / 999) ≤ 2 ^ 62 / 2 ^ 53 * 1 := mul_le_mul this (by rw [div_le_one (by norm_num)]; linarith) (by positivity) (by norm_num)
          _ ≤ 2 ^ 9 := by norm_num
      exact (abs_add_le _ _).trans (by linarith)
    have hq : 0 ≤ d * i / 999 ∧ d * i / 999 ≤ d := by
      constructor
      · positivity
      · rw [div_le_iff₀ (by norm_num)]
        nlinarith
    have e5 : |f64 (p * i) - p * i| ≤ (2 ^ 62 + 2000) / 2 ^ 53 := err (by
      rw [abs_le] at e4 ⊢
      constructor <;> norm_num at e4 hd1 ⊢ <;> linarith [e4.1, e4.2, hq.1, hq.2])
    set q := f64 (p * i)
    rw [abs_le] at e4 e5
    have hsd : s + d ≤ 2 ^ 62 := by simp only [d]; linarith
    have e6 : |f64 (f64 s + q) - (f64 s + q)| ≤ (2 ^ 62 + 4000) / 2 ^ 53 := err (by
      rw [abs_le]
      constructor <;> norm_num at e1 e4 e5 hsd ⊢ <;> linarith [e1.1, e1.2, e4.1, e4.2, e5.1, e5.2, hq.1, hq.2])
    rw [abs_le] at e6
    have e7 := (Save.trunc_near (f64 (f64 s + q))).2
    rw [abs_lt] at e7
    rw [abs_le]
    constructor <;> linarith [e1.1, e1.2, e4.1, e4.2, e5.1, e5.2, e6.1, e6.2, e7.1, e7.2]

/-- The first time of a recording of 2014 is not printed as it is. -/
theorem C130_times_refuted : (linspaceTs 1403636579763555585 1403636584763555585 1000).head? = some 1403636579763555584 := by decide +kernel

/-! ### Examples -/

/-- Two frames and one sample. -/
example := C130_sim_partial (fun _ => ⟨1, 0, 0, 0⟩) [![1, 2, 3]] [⟨0, [3, 5], [(1 / 2, 3), (100, 200)], ⟨1, 0, 0, 0⟩, ![0, 0, 1]⟩, ⟨50000000, [7], [(1, 1)], ⟨1, 0, 0, 0⟩, ![0, 0, 2]⟩]
  [⟨0, ![0, 0, 981 / 100], ![0, 0, 0], ⟨1, 0, 0, 0⟩, ![0, 0, 0], ![1, 0, 0]⟩]
  (by intro f hf; simp only [List.mem_cons, List.not_mem_nil, or_false] at hf; rcases hf with rfl | rfl <;> refine ⟨⟨?_, ?_⟩, ?_, ?_⟩ <;> simp)
  (by intro s hs; simp only [List.mem_cons, List.not_mem_nil, or_false] at hs; subst hs; exact ⟨by decide, by decide⟩)

/-- The text of the rows. -/
example : obsRow 50000000 [7, 12] = "50000000,2,7,12\n".toList ∧ dataRow 5 ![1 / 4, -2, 1234567] = "5,0.25,-2,1.23457e+06\n".toList := by decide +kernel

/-- The row of an empty frame and the next one. -/
example : sheet (obsRow 1 [] ++ obsRow 2 [7]) = [["1".toList, "0".toList, "2".toList, "1".toList, "7".toList]] := by decide +kernel

example := C130_times 1403636579763555584 1403636584763555584 (by norm_num) (by norm_num) (by norm_num)

end Yac.Csv
