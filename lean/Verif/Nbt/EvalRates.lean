import Verif.Nbt.EvalEnd

/-!
# C133: the rates of the sensors, and the limits
-/

namespace Yac.Nbt

open Yac.AprilGrid (Grid)
open Yac.Geom (Mat4 Vec3)
open Yac.VI (St VEnv Ev Par feed frame tg GridsOk WF EqLen seenIn CamFlags)

/-- The number of samples up to a time. -/
theorem before_times {ts te dt f : ℤ} (hd : 0 < dt) (h1 : ts ≤ f) (h2 : f ≤ te) :
    (before (sampleTimes ts te dt) f : ℤ) = (f - ts) / dt + 1 := by
  have e : (sampleTimes ts te dt).filter (fun t => decide (t ≤ f)) = sampleTimes ts f dt := by
    refine List.Perm.eq_of_pairwise (le := (· < ·)) ?_ ((C78_times ts te dt hd).2.1.filter _) (C78_times ts f dt hd).2.1 ?_
    · intro a b _ _ h h'; omega
    · rw [List.perm_ext_iff_of_nodup (((C78_times ts te dt hd).2.1.filter _).imp (fun h => ne_of_lt h))
        ((C78_times ts f dt hd).2.1.imp (fun h => ne_of_lt h))]
      intro a
      rw [List.mem_filter, mem_sampleTimes hd, mem_sampleTimes hd, decide_eq_true_eq]
      constructor
      · rintro ⟨⟨a1, -⟩, a2⟩; exact ⟨a1, a2⟩
      · rintro ⟨a1, a2⟩; exact ⟨⟨a1, by omega⟩, a2⟩
  unfold before
  rw [e]
  exact (C78_times ts f dt hd).2.2 h1

/-- C133: the rates.  Samples every `di` and frames every `dc` from `ts` to `te`, the frames not faster
than the samples: the used frames are those from the second on after which there is a sample.  Every
used frame but the first has four samples before it exactly if three sample periods are not longer
than two frame periods, or the third frame is not used. -/
theorem C133_rates (ts te di dc : ℤ) (hi : 0 < di) (hc : di ≤ dc) :
    (∀ f ∈ sampleTimes ts te dc, Used (sampleTimes ts te dc) (sampleTimes ts te di) f ↔
      f ≠ ts ∧ ∃ t ∈ sampleTimes ts te di, f < t) ∧
    ((∀ f ∈ sampleTimes ts te dc, f ≠ ts + dc → Used (sampleTimes ts te dc) (sampleTimes ts te di) f →
        4 ≤ before (sampleTimes ts te di) f) ↔
      3 * di ≤ 2 * dc ∨ ¬ ∃ t ∈ sampleTimes ts te di, ts + 2 * dc < t) := by
  have hdc : 0 < dc := by omega
  have main : ∀ f ∈ sampleTimes ts te dc, Used (sampleTimes ts te dc) (sampleTimes ts te di) f ↔
      f ≠ ts ∧ ∃ t ∈ sampleTimes ts te di, f < t := by
    intro f hf
    obtain ⟨⟨j, rfl⟩, hle⟩ := (mem_sampleTimes hdc f).1 hf
    have hj0 : 0 ≤ (j : ℤ) * dc := by positivity
    have hb := before_times (ts := ts) (te := te) (dt := di) (f := ts + j * dc) hi (by omega) hle
    rw [add_sub_cancel_left] at hb
    constructor
    · rintro ⟨h2, t, ht, hlt, -⟩
      refine ⟨?_, t, ht, hlt⟩
      intro e
      have : (j : ℤ) * dc = 0 := by omega
      rw [this] at hb h2
      rw [Int.zero_ediv] at hb
      omega
    · rintro ⟨hne, t, ht, hlt⟩
      have hjp : 0 < j := by
        rcases Nat.eq_zero_or_pos j with e | e
        · subst e; simp at hne
        · exact e
      have hj1 : dc ≤ (j : ℤ) * dc := by
        have : (1 : ℤ) ≤ j := by exact_mod_cast hjp
        nlinarith
      have hq : 1 ≤ (j : ℤ) * dc / di := (Int.le_ediv_iff_mul_le hi).2 (by omega)
      obtain ⟨q, hqe⟩ : ∃ q, q = (j : ℤ) * dc / di := ⟨_, rfl⟩
      have hq1 : q * di ≤ (j : ℤ) * dc := by rw [hqe]; exact Int.ediv_mul_le _ hi.ne'
      have hq2 : (j : ℤ) * dc < (q + 1) * di := by rw [hqe]; exact Int.lt_ediv_add_one_mul_self _ hi
      refine ⟨by omega, ts + ((q + 1).toNat : ℤ) * di, ?_, ?_, ?_⟩
      · rw [mem_sampleTimes hi]
        refine ⟨⟨_, rfl⟩, ?_⟩
        obtain ⟨⟨m, rfl⟩, hm⟩ := (mem_sampleTimes hi t).1 ht
        have : q < m := by
          by_contra hcon
          have : (m : ℤ) * di ≤ q * di := mul_le_mul_of_nonneg_right (by omega) hi.le
          omega
        have hle' : (q + 1) * di ≤ m * di := mul_le_mul_of_nonneg_right (by omega) hi.le
        rw [Int.toNat_of_nonneg (by omega)]
        omega
      · rw [Int.toNat_of_nonneg (by omega)]; omega
      · intro g hg hlt'
        obtain ⟨⟨m, rfl⟩, hm⟩ := (mem_sampleTimes hdc g).1 hg
        have hjm : (j : ℤ) + 1 ≤ m := by
          by_contra hcon
          have : (m : ℤ) * dc ≤ j * dc := mul_le_mul_of_nonneg_right (by omega) hdc.le
          omega
        have := mul_le_mul_of_nonneg_right hjm hdc.le
        rw [Int.toNat_of_nonneg (by omega)]
        nlinarith
  refine ⟨main, ?_⟩
  constructor
  · intro h
    by_contra hcon
    push Not at hcon
    obtain ⟨h3, t, ht, hlt⟩ := hcon
    obtain ⟨-, hte⟩ := (mem_sampleTimes hi t).1 ht
    have hf : ts + 2 * dc ∈ sampleTimes ts te dc := (mem_sampleTimes hdc _).2 ⟨⟨2, by norm_num⟩, by omega⟩
    have := h _ hf (by omega) ((main _ hf).2 ⟨by omega, t, ht, hlt⟩)
    have hb := before_times (ts := ts) (te := te) (dt := di) (f := ts + 2 * dc) hi (by omega) (by omega)
    rw [add_sub_cancel_left] at hb
    have : 2 * dc / di < 3 := Int.ediv_lt_of_lt_mul hi (by omega)
    omega
  · intro h f hf hne hu
    obtain ⟨hne0, t, ht, hlt⟩ := (main f hf).1 hu
    obtain ⟨⟨j, rfl⟩, hle⟩ := (mem_sampleTimes hdc f).1 hf
    have hj2 : 2 ≤ j := by
      rcases j with _ | _ | j
      · simp at hne0
      · simp at hne
      · omega
    have hjd : 2 * dc ≤ (j : ℤ) * dc := mul_le_mul_of_nonneg_right (by exact_mod_cast hj2) hdc.le
    have h3 : 3 * di ≤ 2 * dc := by
      rcases h with h | h
      · exact h
      · exact absurd ⟨t, ht, by omega⟩ h
    have hb := before_times (ts := ts) (te := te) (dt := di) (f := ts + j * dc) hi (by omega) hle
    rw [add_sub_cancel_left] at hb
    have : 3 ≤ (j : ℤ) * dc / di := (Int.le_ediv_iff_mul_le hi).2 (by omega)
    omega

open Classical in
/-- The used frames but the first are those other than the second frame. -/
theorem used_tail (ts te di dc : ℤ) (hi : 0 < di) (hc : di ≤ dc) (f : ℤ) :
    f ∈ ((sampleTimes ts te dc).filter fun f => decide (Used (sampleTimes ts te dc) (sampleTimes ts te di) f)).tail ↔
      f ∈ sampleTimes ts te dc ∧ f ≠ ts + dc ∧ Used (sampleTimes ts te dc) (sampleTimes ts te di) f := by
  have hdc : 0 < dc := by omega
  have main := (C133_rates ts te di dc hi hc).1
  have hs := ((C78_times ts te dc hdc).2.1.filter fun f =>
    decide (Used (sampleTimes ts te dc) (sampleTimes ts te di) f))
  have hmem : ∀ g, g ∈ (sampleTimes ts te dc).filter (fun f =>
      decide (Used (sampleTimes ts te dc) (sampleTimes ts te di) f)) ↔
      g ∈ sampleTimes ts te dc ∧ Used (sampleTimes ts te dc) (sampleTimes ts te di) g := by
    intro g; rw [List.mem_filter, decide_eq_true_eq]
  generalize (sampleTimes ts te dc).filter (fun f =>
    decide (Used (sampleTimes ts te dc) (sampleTimes ts te di) f)) = L at hs hmem
  have hmin : ∀ g ∈ L, ts + dc ≤ g := by
    intro g hg
    obtain ⟨h1, h2⟩ := (hmem g).1 hg
    have hne := ((main g h1).1 h2).1
    obtain ⟨⟨j, rfl⟩, -⟩ := (mem_sampleTimes hdc g).1 h1
    have hjp : 1 ≤ j := by
      rcases Nat.eq_zero_or_pos j with e | e
      · subst e; simp at hne
      · exact e
    have : (1 : ℤ) * dc ≤ j * dc := mul_le_mul_of_nonneg_right (by exact_mod_cast hjp) hdc.le
    omega
  have hfirst : ∀ g ∈ L, ts + dc ∈ L := by
    intro g hg
    obtain ⟨h1, h2⟩ := (hmem g).1 hg
    have hge := hmin g hg
    obtain ⟨-, t, ht, hlt⟩ := (main g h1).1 h2
    have hle := ((mem_sampleTimes hdc g).1 h1).2
    have hin : ts + dc ∈ sampleTimes ts te dc := (mem_sampleTimes hdc _).2 ⟨⟨1, by norm_num⟩, by omega⟩
    exact (hmem _).2 ⟨hin, (main _ hin).2 ⟨by omega, t, ht, by omega⟩⟩
  cases L with
  | nil =>
    constructor
    · intro h; cases h
    · rintro ⟨h1, -, h2⟩
      exact absurd ((hmem f).2 ⟨h1, h2⟩) (by simp)
  | cons a L =>
    obtain ⟨s1, -⟩ := List.pairwise_cons.1 hs
    have ha : a = ts + dc := by
      have h1 := hmin a (by simp)
      rcases List.mem_cons.1 (hfirst a (by simp)) with h2 | h2
      · exact h2.symm
      · have := s1 _ h2; omega
    rw [List.tail_cons]
    constructor
    · intro h
      have := s1 f h
      obtain ⟨h1, h2⟩ := (hmem f).1 (by simp [h])
      exact ⟨h1, by omega, h2⟩
    · rintro ⟨h1, h2, h3⟩
      rcases List.mem_cons.1 ((hmem f).2 ⟨h1, h3⟩) with h | h
      · exact absurd (h.trans ha) h2
      · exact h

/-- C133: frames at most as fast as two thirds of the samples: the evaluation does not end the program. -/
theorem C133_rates_ok (env : VEnv ℝ (Vec3 ℝ)) (cov : St ℝ (Vec3 ℝ) → (Par → Bool) → VI.Recover.Cov)
    (res : VI.Fid ℝ → ℝ × ℝ) (noise : ℕ → Vec3 ℝ) (H : Matrix (Fin 6) (Fin 6) ℝ) {tr : Traj} {n : Data}
    (h : Sound tr n) (hs : InSight env tr n) (fuel : ℕ) (hfi : (imuTimes tr n).length < fuel)
    (hfc : (camTimes tr n).length < fuel) (hr : 3 * secToTs (1 / n.imu.rate) ≤ 2 * secToTs (1 / n.rate)) :
    ∃ (r : Option (Matrix (Fin 6) (Fin 6) ℝ)) (t : St ℝ (Vec3 ℝ)), nbtEval fuel noise env cov res tr n H = .ok r ∧
      nbtEval fuel noise env cov res tr n H = finish cov res H t ∧
      ∀ f, f ∈ t.views.map (fun v => v.ts) ↔ f ∈ camTimes tr n ∧ f ≠ tr.ts_start ∧ ∃ k ∈ imuTimes tr n, f < k := by
  classical
  have hdi := secToTs_pos h.imuRate.1 h.imuRate.2
  have hdc := secToTs_pos h.camRate.1 h.camRate.2
  have hle : secToTs (1 / n.imu.rate) ≤ secToTs (1 / n.rate) := by omega
  obtain ⟨r1, r2⟩ := C133_rates tr.ts_start (tr.ts_start + secToTs tr.T) _ _ hdi hle
  obtain ⟨t, gr, e1, -, -, -, e5, -⟩ := (C133_eval_partial env cov res noise H h hs fuel hfi hfc).1 (by
    intro f hf
    obtain ⟨a, b, c⟩ := (used_tail _ _ _ _ hdi hle f).1 hf
    exact r2.2 (Or.inl hr) f a b c)
  obtain ⟨c, -, -, c1, c2⟩ := C133_result cov res H t
  have hviews : ∀ f, f ∈ t.views.map (fun v => v.ts) ↔
      f ∈ camTimes tr n ∧ f ≠ tr.ts_start ∧ ∃ k ∈ imuTimes tr n, f < k := by
    intro f
    have : t.views.map (fun v => v.ts) = (t.views.map tg).map Prod.fst := by rw [List.map_map]; rfl
    rw [this, e5, List.map_map]
    simp only [List.mem_map, List.mem_filter, decide_eq_true_eq, Function.comp_def]
    constructor
    · rintro ⟨g, ⟨hg, hu⟩, rfl⟩
      exact ⟨hg, (r1 g hg).1 hu⟩
    · rintro ⟨hg, hu⟩
      exact ⟨f, ⟨hg, (r1 f hg).2 hu⟩, rfl⟩
  by_cases hc : (cov t c).compute = true ∧ (cov t c).block.rank = 6
  · exact ⟨_, t, by rw [e1]; exact c1 hc.1 hc.2, e1, hviews⟩
  · exact ⟨_, t, by rw [e1]; exact c2 (by
      by_cases hx : (cov t c).compute = false
      · exact Or.inl hx
      · exact Or.inr fun hy => hc ⟨by simpa using hx, hy⟩), e1, hviews⟩

/-- C133 (limit): cameras as fast as the IMU, or nearly so, end the program on every trajectory of more
than two frame periods. -/
theorem C133_rates_refuted (env : VEnv ℝ (Vec3 ℝ)) (cov : St ℝ (Vec3 ℝ) → (Par → Bool) → VI.Recover.Cov)
    (res : VI.Fid ℝ → ℝ × ℝ) (noise : ℕ → Vec3 ℝ) (H : Matrix (Fin 6) (Fin 6) ℝ) {tr : Traj} {n : Data}
    (h : Sound tr n) (hs : InSight env tr n) (fuel : ℕ) (hfi : (imuTimes tr n).length < fuel)
    (hfc : (camTimes tr n).length < fuel) (hle : secToTs (1 / n.imu.rate) ≤ secToTs (1 / n.rate))
    (hr : 2 * secToTs (1 / n.rate) < 3 * secToTs (1 / n.imu.rate))
    (hlong : ∃ k ∈ imuTimes tr n, tr.ts_start + 2 * secToTs (1 / n.rate) < k) :
    nbtEval fuel noise env cov res tr n H = .error .fatal := by
  classical
  have hdi := secToTs_pos h.imuRate.1 h.imuRate.2
  obtain ⟨-, r2⟩ := C133_rates tr.ts_start (tr.ts_start + secToTs tr.T) _ _ hdi hle
  refine (C133_eval_partial env cov res noise H h hs fuel hfi hfc).2 ?_
  by_contra hcon
  push Not at hcon
  have := r2.1 (fun f a b c => hcon f ((used_tail _ _ _ _ hdi hle f).2 ⟨a, b, c⟩))
  rcases this with h1 | h1
  · omega
  · exact h1 hlong

end Yac.Nbt
