import Verif.VI.QueryProps

/-!
# C90: rates, pose queries and reprojection errors of `calib_vi_t`
-/

namespace Yac.VI

open Yac.AprilGrid (Grid)
open Yac.Num (IsRank median ts2sec)

variable {K D : Type} [DecidableEq K]

/-! ### Rates -/

theorem timeDiffs_eq (fl : ℚ → ℚ) (ts : List Int) :
    timeDiffs fl ts = (gaps ts).map (ts2sec fl) := by
  induction ts with
  | nil => rfl
  | cons a l ih =>
    cases l with
    | nil => rfl
    | cons b l =>
      simp only [timeDiffs, gaps, List.map_cons]
      rw [ih]

theorem gaps_length (ts : List Int) : (gaps ts).length = ts.length - 1 := by
  induction ts with
  | nil => rfl
  | cons a l ih =>
    cases l with
    | nil => rfl
    | cons b l =>
      simp only [gaps, List.length_cons] at ih ⊢
      omega

theorem gaps_get (ts : List Int) (k : Nat) (a b : Int) (ha : ts[k]? = some a)
    (hb : ts[k + 1]? = some b) : (gaps ts)[k]? = some (b - a) := by
  induction ts generalizing k with
  | nil => simp at ha
  | cons x l ih =>
    cases l with
    | nil => simp at hb
    | cons y l =>
      cases k with
      | zero => simp at ha hb; simp [gaps, ha, hb]
      | succ k =>
        simp only [gaps, List.getElem?_cons_succ]
        exact ih k (by simpa using ha) (by simpa using hb)

theorem mem_gaps {ts : List Int} {g : Int} (h : g ∈ gaps ts) :
    ∃ (k : Nat) (a b : Int), ts[k]? = some a ∧ ts[k + 1]? = some b ∧ g = b - a := by
  obtain ⟨k, hk, rfl⟩ := List.mem_iff_getElem.1 h
  rw [gaps_length] at hk
  have h1 : k < ts.length := by omega
  have h2 : k + 1 < ts.length := by omega
  refine ⟨k, ts[k], ts[k + 1], List.getElem?_eq_getElem h1, List.getElem?_eq_getElem h2, ?_⟩
  have := gaps_get ts k _ _ (List.getElem?_eq_getElem h1) (List.getElem?_eq_getElem h2)
  rw [List.getElem?_eq_some_iff] at this
  exact this.2

theorem gaps_pos {ts : List Int} (h : ts.Pairwise (· < ·)) {g : Int} (hg : g ∈ gaps ts) : 0 < g := by
  obtain ⟨k, a, b, ha, hb, rfl⟩ := mem_gaps hg
  obtain ⟨h1, rfl⟩ := List.getElem?_eq_some_iff.1 ha
  obtain ⟨h2, rfl⟩ := List.getElem?_eq_some_iff.1 hb
  have := List.pairwise_iff_getElem.1 h k (k + 1) h1 h2 (by omega)
  omega

theorem rank_map {v : List Int} {k : Nat} {a : Int} (h : IsRank v k a) (f : Int → ℚ)
    (hf : Monotone f) : IsRank (v.map f) k (f a) := by
  obtain ⟨h1, h2, h3⟩ := h
  refine ⟨List.mem_map_of_mem h1, ?_, ?_⟩
  · rw [List.countP_map]
    refine le_trans (List.countP_mono_left ?_) h2
    intro x _ hx
    simp only [Function.comp_apply, decide_eq_true_eq] at hx ⊢
    exact lt_of_not_ge fun hle => absurd (hf hle) (not_le.2 hx)
  · rw [List.countP_map]
    refine lt_of_lt_of_le h3 (List.countP_mono_left ?_)
    intro x _ hx
    simp only [Function.comp_apply, decide_eq_true_eq] at hx ⊢
    exact hf hx

theorem exists_rank (v : List Int) (k : Nat) (hk : k < v.length) : ∃ a, IsRank v k a := by
  have hp := v.perm_insertionSort (· ≤ ·)
  have hs : (v.insertionSort (· ≤ ·)).Pairwise (· ≤ ·) := v.pairwise_insertionSort (· ≤ ·)
  have hl := hp.length_eq
  have h1 := hp.countP_eq
  have h2 := fun a => hp.mem_iff (a := a)
  generalize v.insertionSort (· ≤ ·) = s at *
  have hk' : k < s.length := by omega
  refine ⟨s[k], (h2 _).1 (List.getElem_mem hk'), ?_, ?_⟩
  · rw [← h1]
    have e : s = s.take k ++ s.drop k := (List.take_append_drop k s).symm
    have h0 : (s.drop k).countP (fun x => x < s[k]) = 0 := by
      rw [List.countP_eq_zero]
      intro x hx
      simp only [decide_eq_true_eq, not_lt]
      obtain ⟨i, hi, rfl⟩ := List.mem_iff_getElem.mp hx
      rw [List.getElem_drop]
      rcases Nat.eq_zero_or_pos i with rfl | hp
      · simp
      · exact List.pairwise_iff_getElem.mp hs k (k + i) hk' (by simp at hi; omega) (by omega)
    calc s.countP (fun x => x < s[k])
        = (s.take k ++ s.drop k).countP (fun x => x < s[k]) := by rw [← e]
      _ = (s.take k).countP (fun x => x < s[k]) := by rw [List.countP_append, h0]; rfl
      _ ≤ (s.take k).length := List.countP_le_length
      _ ≤ k := by simp
  · rw [← h1]
    have h4 : (s.take (k + 1)).countP (fun x => x ≤ s[k]) = (s.take (k + 1)).length := by
      rw [List.countP_eq_length]
      intro x hx
      simp only [decide_eq_true_eq]
      obtain ⟨i, hi, rfl⟩ := List.mem_iff_getElem.mp hx
      rw [List.getElem_take]
      simp at hi
      rcases Nat.lt_or_ge i k with h | h
      · exact List.pairwise_iff_getElem.mp hs i k (by omega) hk' h
      · have : i = k := by omega
        subst this; exact le_refl _
    have h5 : k < (s.take (k + 1)).length := by rw [List.length_take]; omega
    have h3 : (s.take (k + 1)).countP (fun x => x ≤ s[k]) ≤ s.countP (fun x => x ≤ s[k]) :=
      (List.take_sublist (k + 1) s).countP_le
    rw [h4] at h3
    exact lt_of_lt_of_le h5 h3

theorem ts2sec_mono {fl : ℚ → ℚ} (hfl : Monotone fl) (h0 : 0 ≤ fl (1 / 1000000000)) :
    Monotone (ts2sec fl) := by
  intro a b h
  unfold ts2sec
  exact hfl (mul_le_mul_of_nonneg_right (hfl (by exact_mod_cast h)) h0)

/-- The reported rate of a sequence of times: the reciprocal of the median gap in seconds. -/
theorem rate_spec (fl : ℚ → ℚ) (hfl : Monotone fl) (h0 : 0 ≤ fl (1 / 1000000000))
    (ts : List Int) (h2 : 2 ≤ ts.length) :
    ∃ m, rate fl ts = .ok (if m = 0 then none else some (fl (1 / m))) ∧
      ((gaps ts).length % 2 = 1 →
        ∃ g, IsRank (gaps ts) ((gaps ts).length / 2) g ∧ m = ts2sec fl g) ∧
      ((gaps ts).length % 2 = 0 → ∃ lo hi, IsRank (gaps ts) ((gaps ts).length / 2 - 1) lo ∧
        IsRank (gaps ts) ((gaps ts).length / 2) hi ∧ m = (ts2sec fl lo + ts2sec fl hi) / 2) := by
  have hg := gaps_length ts
  have hm := ts2sec_mono hfl h0
  have hne : timeDiffs fl ts ≠ [] := by
    rw [timeDiffs_eq, ne_eq, List.map_eq_nil_iff]
    intro he
    rw [he] at hg
    simp at hg
    omega
  obtain ⟨m, h1, h3, h4⟩ := Num.C29_median _ hne
  have hlen : (timeDiffs fl ts).length = (gaps ts).length := by rw [timeDiffs_eq, List.length_map]
  refine ⟨m, ?_, ?_, ?_⟩
  · unfold rate
    rw [if_neg (by omega), h1, AprilGrid.ok_bind]
  · intro ho
    obtain ⟨g, hr⟩ := exists_rank (gaps ts) ((gaps ts).length / 2) (by omega)
    refine ⟨g, hr, ?_⟩
    have := h3 (by rw [hlen]; exact ho)
    rw [hlen, timeDiffs_eq] at this
    exact this.unique (rank_map hr _ hm)
  · intro he
    obtain ⟨lo, hi, r1, r2, e⟩ := h4 (by rw [hlen]; exact he)
    rw [hlen, timeDiffs_eq] at r1 r2
    obtain ⟨glo, q1⟩ := exists_rank (gaps ts) ((gaps ts).length / 2 - 1) (by omega)
    obtain ⟨ghi, q2⟩ := exists_rank (gaps ts) ((gaps ts).length / 2) (by omega)
    exact ⟨glo, ghi, q1, q2, by rw [e, r1.unique (rank_map q1 _ hm), r2.unique (rank_map q2 _ hm)]⟩

/-- **C90, rates.**  For at least two times, the rate is the reciprocal of the median of the gaps
between consecutive ones, in seconds; for fewer the query is fatal.  This is how both queries
work, the camera rate on the times of the views and the IMU rate on the times in the buffer. -/
theorem C90_rate (fl : ℚ → ℚ) (hfl : Monotone fl) (h0 : 0 ≤ fl (1 / 1000000000)) (s : St K D)
    (ts : List Int) (q : Except Fault (Option ℚ))
    (hq : (ts = s.views.map View.ts ∧ q = cameraRate fl s) ∨ (ts = s.imu.ts ∧ q = imuRate fl s)) :
    (ts.length < 2 → q = .error .fatal) ∧
    (2 ≤ ts.length → ∃ m, q = .ok (if m = 0 then none else some (fl (1 / m))) ∧
      ((gaps ts).length % 2 = 1 →
        ∃ g, IsRank (gaps ts) ((gaps ts).length / 2) g ∧ m = ts2sec fl g) ∧
      ((gaps ts).length % 2 = 0 → ∃ lo hi, IsRank (gaps ts) ((gaps ts).length / 2 - 1) lo ∧
        IsRank (gaps ts) ((gaps ts).length / 2) hi ∧ m = (ts2sec fl lo + ts2sec fl hi) / 2)) := by
  have hr : q = rate fl ts := by
    rcases hq with ⟨rfl, rfl⟩ | ⟨rfl, rfl⟩ <;> rfl
  rw [hr]
  exact ⟨fun h => by unfold rate; rw [if_pos h], rate_spec fl hfl h0 ts⟩

/-- **C90, finite.**  (Exact arithmetic.)  If the times increase by at least `lo > 0`, the rate is a positive number, at
most the rate of the shortest gap `lo` and at least the rate of the longest gap `hi` (in
nanoseconds). -/
theorem C90_finite (s : St K D) (ts : List Int) (q : Except Fault (Option ℚ))
    (hq : (ts = s.views.map View.ts ∧ q = cameraRate id s) ∨ (ts = s.imu.ts ∧ q = imuRate id s))
    (h2 : 2 ≤ ts.length) (lo hi : Int) (hlo : 0 < lo)
    (hb : ∀ g ∈ gaps ts, lo ≤ g ∧ g ≤ hi) :
    ∃ r : ℚ, q = .ok (some r) ∧ 0 < r ∧ r ≤ 1000000000 / lo ∧ 1000000000 / hi ≤ r := by
  obtain ⟨m, hr, ho, he⟩ := (C90_rate id monotone_id (by norm_num) s ts q hq).2 h2
  have key : (lo : ℚ) / 1000000000 ≤ m ∧ m ≤ (hi : ℚ) / 1000000000 := by
    have each : ∀ k g, IsRank (gaps ts) k g →
        (lo : ℚ) / 1000000000 ≤ ts2sec id g ∧ ts2sec id g ≤ (hi : ℚ) / 1000000000 := by
      intro k g hg
      obtain ⟨h3, h4⟩ := hb g hg.1
      have h3' : (lo : ℚ) ≤ g := by exact_mod_cast h3
      have h4' : (g : ℚ) ≤ hi := by exact_mod_cast h4
      unfold ts2sec
      simp only [id]
      constructor <;> linarith
    rcases Nat.mod_two_eq_zero_or_one (gaps ts).length with h | h
    · obtain ⟨a, b, r1, r2, e⟩ := he h
      have := each _ _ r1
      have := each _ _ r2
      rw [e]
      constructor <;> linarith
    · obtain ⟨g, r1, e⟩ := ho h
      rw [e]
      exact each _ _ r1
  have hlo' : (0 : ℚ) < lo := by exact_mod_cast hlo
  have hm : 0 < m := lt_of_lt_of_le (by positivity) key.1
  rw [if_neg hm.ne'] at hr
  refine ⟨_, hr, by simp only [id]; positivity, ?_, ?_⟩
  · simp only [id]
    rw [div_le_div_iff₀ hm hlo']
    linarith [key.1]
  · have hhi : (0 : ℚ) < hi := by
      have := key.2
      have : 0 < (hi : ℚ) / 1000000000 := lt_of_lt_of_le hm key.2
      linarith
    simp only [id]
    rw [div_le_div_iff₀ hhi hm]
    linarith [key.2]

/-! ### Poses -/

theorem find_ts {l : List (View K)} (hl : l.Pairwise (fun a b => a.ts < b.ts)) {v : View K}
    (hv : v ∈ l) : l.find? (fun x => decide (x.ts = v.ts)) = some v := by
  induction l with
  | nil => simp at hv
  | cons x l ih =>
    rw [List.pairwise_cons] at hl
    simp only [List.mem_cons] at hv
    rcases hv with rfl | hv
    · simp
    · rw [List.find?_cons_of_neg, ih hl.2 hv]
      have := hl.1 v hv
      simp only [decide_eq_true_eq]
      omega

/-- **C90, poses.**  If every grid handed in was later than the views present, the queries by
time answer with the pose (speed and biases) of the one view at that time, the query without a
time with that of the newest view; where there is no view at the time, the pose query is fatal
and the others give nothing. -/
theorem C90_poses (env : VEnv K D) (m : Bool) (w : Int) (fe fd : Bool)
    (cs : List (Call K D)) (t : St K D) (h : RunO env (St.new m w fe fd) cs t) :
    (∀ v ∈ t.views, imuPose t v.ts = .ok (.pose v.num) ∧ poseParam t v.ts = some (.pose v.num) ∧
      sbParam t v.ts = some (.sb v.num)) ∧
    (∀ ts, (∀ v ∈ t.views, v.ts ≠ ts) → imuPose t ts = .error .fatal ∧ poseParam t ts = none ∧
      sbParam t ts = none) ∧
    (∀ v ∈ t.views, (∀ x ∈ t.views, x.ts ≤ v.ts) → lastImuPose t = .ok (.pose v.num)) := by
  have hs := C58_order_partial env m w fe fd cs t h
  refine ⟨?_, ?_, ?_⟩
  · intro v hv
    unfold imuPose poseParam sbParam
    rw [find_ts hs hv]
    exact ⟨rfl, rfl, rfl⟩
  · intro ts hn
    have : t.views.find? (fun v => decide (v.ts = ts)) = none := by
      rw [List.find?_eq_none]
      intro v hv
      simpa using hn v hv
    unfold imuPose poseParam sbParam
    rw [this]
    exact ⟨rfl, rfl, rfl⟩
  · intro v hv hmax
    unfold lastImuPose
    cases hl : t.views.getLast? with
    | none => rw [List.getLast?_eq_none_iff] at hl; rw [hl] at hv; simp at hv
    | some x =>
      obtain ⟨l, he⟩ := List.getLast?_eq_some_iff.1 hl
      rw [he, List.pairwise_append] at hs
      rw [he] at hv
      simp only [List.mem_append, List.mem_singleton] at hv
      rcases hv with hv | rfl
      · have h1 := hs.2.2 v hv x (by simp)
        have h2 := hmax x (by rw [he]; simp)
        omega
      · rfl

/-- Before the first view, the query without a time reads outside the container. -/
theorem C90_no_view_refuted (s : St K D) (h : s.views = []) : lastImuPose s = .error .oob := by
  unfold lastImuPose
  rw [h]; rfl

/-! ### Reprojection errors -/

/-- **C90, errors.**  After any history with a view, the errors are listed for each camera, in the
order of the views and of the measurements within them: each entry is the length of the error of
one measurement by that camera, and together they are as many as the measurements. -/
theorem C90_errors (env : VEnv K D) (m : Bool) (w : Int) (fe fd : Bool)
    (as : List (Act K D)) (t : St K D) (h : Hist env (St.new m w fe fd) as t) (hv : t.views ≠ [])
    (res : Fid K → ℝ × ℝ) :
    (reprojErrors res t).map Prod.fst = t.cams.map Prod.fst ∧
    (∀ ce ∈ reprojErrors res t, ce.2 =
      (((t.views.flatMap View.fids).filter (fun f => decide (f.cam = ce.1))).map
        (fun f => len (res f)))) ∧
    (∀ v ∈ t.views, ∀ f ∈ v.fids, ∃ ce ∈ reprojErrors res t, ce.1 = f.cam ∧ len (res f) ∈ ce.2) := by
  obtain ⟨hw, -⟩ := h.wf (WF.new _ _ _ _) (Distinct.new _ _ _ _)
  unfold reprojErrors
  rw [if_neg hv]
  have e : ∀ c, t.views.flatMap (fun v => v.errors res c) =
      ((t.views.flatMap View.fids).filter (fun f => decide (f.cam = c))).map
        (fun f => len (res f)) := by
    intro c
    rw [List.filter_flatMap, List.map_flatMap]
    rfl
  refine ⟨by simp, ?_, ?_⟩
  · intro ce hce
    obtain ⟨c, -, rfl⟩ := List.mem_map.1 hce
    exact e c.1
  · intro v hvm f hf
    have hc := SMap.find_isSome.1 (hw.fids v hvm f hf).2
    obtain ⟨c, hc1, hc2⟩ := List.mem_map.1 hc
    refine ⟨_, List.mem_map_of_mem hc1, hc2, ?_⟩
    simp only
    rw [e]
    refine List.mem_map_of_mem (List.mem_filter.2 ⟨List.mem_flatMap.2 ⟨v, hvm, hf⟩, ?_⟩)
    simp [hc2]

end Yac.VI
