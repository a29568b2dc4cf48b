import Verif.GridFile.Props

/-! Cases for C141. -/

namespace Yac.GridFile.Witness
open Yac.Text Yac.Num Yac.AprilGrid Yac.AprilGrid.Spec Yac.GridFile
open Yac.Data (V2 V2Line)

def ops : List (Op ℚ) := [.add 0 0 (1 / 3, 2), .add 3 2 (100, 201 / 7), .add 1 1 (5, 6), .remove 1 1]

theorem ops_ok : ∀ op ∈ ops, OpValid 2 2 op := by
  intro op h
  simp only [ops, List.mem_cons, List.not_mem_nil, or_false] at h
  rcases h with rfl | rfl | rfl | rfl <;> simp [OpValid, Valid]

theorem sized : Sized 1403636579763555584 2 2 := ⟨by norm_num, by norm_num, by norm_num, by norm_num⟩

theorem two : Spec.size 2 2 (Spec.run ops) = 2 := by decide +kernel

/-- C141 witness: the hypotheses of `C141_roundtrip` and `C141_torn_refuted` (the time without its last six digits). -/
example : ∃ g, AprilGrid.run (new 1403636579763555584 2 2 (88 / 1000) (3 / 10)) ops = .ok g ∧
    (∃ t c, Valid 2 2 t c ∧ (Spec.run ops t c).isSome) ∧ (0 < 1 ∧ 1 < Spec.size 2 2 (Spec.run ops)) ∧
    (10 : ℤ) ^ 6 ≤ 1403636579763555584 ∧
    ∃ file part g', saveText g = .ok file ∧ part <+: file ∧ loadText default part = .ok (-1, g') ∧
      g'.timestamp = 1403636579763 ∧ g'.detected = true := by
  obtain ⟨g, hg, -⟩ := run_rel 1403636579763555584 2 2 (88 / 1000 : ℚ) (3 / 10) ops ops_ok
  refine ⟨g, hg, ⟨0, 0, by simp [Valid], by decide +kernel⟩, ⟨by decide, by rw [two]; decide⟩, by norm_num, ?_⟩
  obtain ⟨file, part, g', h1, h2, h3, h4, h5, -⟩ := C141_torn_refuted 1403636579763555584 2 2 (88 / 1000) (3 / 10) sized ops ops_ok g hg
    1 (by decide) (by rw [two]; decide) 6 (by norm_num)
  exact ⟨file, part, g', h1, h2, h3, by rw [h4]; norm_num, h5⟩

theorem big2 : (1 : ℚ) < 2 ^ 1024 := one_lt_pow₀ (by norm_num) (by norm_num)

def v2 : V2 ℚ := ⟨1403636579763555584, 2, 2, 88 / 1000, 3 / 10, 2, [⟨0, 0, 1 / 3, 2, 0, 0, 0⟩, ⟨3, 2, 100, 201 / 7, 1, 1, 0⟩]⟩

/-- C141 witness: the hypotheses of `C141_second` and `C141_formats_refuted`. -/
example : Fits2 v2 [] "tag_id,corner_idx,kp_x,kp_y,p_x,p_y,p_z".toList := by
  refine ⟨by simp [v2], by simp [v2], by simp [v2], by simp [v2], ?_, ?_, by simp, by decide +kernel, ?_⟩
  · exact lt_trans (by norm_num [v2, abs_lt] : |v2.size| < 1) big2
  · exact lt_trans (by norm_num [v2, abs_lt] : |v2.spacing| < 1) big2
  · intro l hl
    simp only [v2, List.mem_cons, List.not_mem_nil, or_false] at hl
    rcases hl with rfl | rfl <;> norm_num

end Yac.GridFile.Witness
