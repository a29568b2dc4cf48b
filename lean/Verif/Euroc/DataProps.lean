import Verif.Euroc.Props
import Verif.Num.FloatLemmas
import Mathlib.Tactic.Linarith
import Mathlib.Tactic.Ring

/-! # C122: whole datasets -/

namespace Yac.Euroc
open Yac.Config Yac.Num Yac.Ctor
open Yac.Text (isDig natOf isSpace fmtLd)

/-! ### Relative time -/

/-- C122: the relative time of an event is its distance from the start in seconds, up to five roundings of the timestamps. -/
theorem C122_relative (start ts : ℤ) :
    |relative start ts - ((ts - start : ℤ) : ℚ) / 10 ^ 9| ≤ 5 * (|(ts : ℚ)| + |(start : ℚ)|) / 2 ^ 53 / 10 ^ 9 := by
  unfold relative
  have key : ∀ x : ℚ, |f64 x - x| ≤ |x| / 2 ^ 53 := by
    intro x
    have := f64_err x
    rw [le_div_iff₀ (by positivity)]
    exact this
  have h1 := key ts
  have h2 := key start
  set a := f64 (ts : ℚ)
  set b := f64 (start : ℚ)
  have h3 := key (a - b)
  set d := f64 (a - b)
  have h4 := key (1 / 10 ^ 9)
  set c := f64 (1 / 10 ^ 9)
  have h5 := key (d * c)
  set r := f64 (d * c)
  set T := (ts : ℚ)
  set S := (start : ℚ)
  have hT := abs_nonneg T
  have hS := abs_nonneg S
  push_cast
  have e1 : |a - b| ≤ (1 + 1 / 2 ^ 53) * (|T| + |S|) := by
    have : a - b = (a - T) - (b - S) + (T - S) := by ring
    rw [this]
    have t1 := abs_add_le ((a - T) - (b - S)) (T - S)
    have t2 := abs_sub (a - T) (b - S)
    have t3 := abs_sub T S
    nlinarith
  have e2 : |d - (T - S)| ≤ (2 / 2 ^ 53 + 1 / 2 ^ 106) * (|T| + |S|) := by
    have : d - (T - S) = (d - (a - b)) + ((a - T) - (b - S)) := by ring
    rw [this]
    have t1 := abs_add_le (d - (a - b)) ((a - T) - (b - S))
    have t2 := abs_sub (a - T) (b - S)
    nlinarith
  have e3 : |d| ≤ (1 + 3 / 2 ^ 53) * (|T| + |S|) := by
    have : d = (d - (T - S)) + (T - S) := by ring
    have t1 := abs_add_le (d - (T - S)) (T - S)
    rw [← this] at t1
    have t3 := abs_sub T S
    nlinarith
  have hc : |(1 : ℚ) / 10 ^ 9| = 1 / 10 ^ 9 := abs_of_nonneg (by positivity)
  rw [hc] at h4
  have e4 : |c| ≤ (1 + 1 / 2 ^ 53) * (1 / 10 ^ 9) := by
    have t1 := abs_add_le (c - 1 / 10 ^ 9) (1 / 10 ^ 9)
    rw [sub_add_cancel, hc] at t1
    linarith
  have hd0 := abs_nonneg d
  have hc0 := abs_nonneg c
  have e5 : |d * c - (T - S) / 10 ^ 9| ≤ (31 / 10 / 2 ^ 53) * (|T| + |S|) * (1 / 10 ^ 9) := by
    have : d * c - (T - S) / 10 ^ 9 = d * (c - 1 / 10 ^ 9) + (d - (T - S)) * (1 / 10 ^ 9) := by ring
    rw [this]
    have t1 := abs_add_le (d * (c - 1 / 10 ^ 9)) ((d - (T - S)) * (1 / 10 ^ 9))
    rw [abs_mul, abs_mul, hc] at t1
    have t2 : |d| * |c - 1 / 10 ^ 9| ≤ (1 + 3 / 2 ^ 53) * (|T| + |S|) * (1 / 10 ^ 9 / 2 ^ 53) :=
      mul_le_mul e3 h4 (abs_nonneg _) (by positivity)
    nlinarith
  have e6 : |r - d * c| ≤ (11 / 10 / 2 ^ 53) * (|T| + |S|) * (1 / 10 ^ 9) := by
    rw [abs_mul] at h5
    have t2 : |d| * |c| ≤ ((1 + 3 / 2 ^ 53) * (|T| + |S|)) * ((1 + 1 / 2 ^ 53) * (1 / 10 ^ 9)) :=
      mul_le_mul e3 e4 hc0 (by positivity)
    nlinarith
  have t := abs_add_le (r - d * c) (d * c - (T - S) / 10 ^ 9)
  have : r - (T - S) / 10 ^ 9 = (r - d * c) + (d * c - (T - S) / 10 ^ 9) := by ring
  rw [this]
  have : 5 * (|T| + |S|) / 2 ^ 53 / 10 ^ 9 = (5 / 2 ^ 53) * (|T| + |S|) * (1 / 10 ^ 9) := by ring
  rw [this]
  nlinarith

/-- C122 is false of nanoseconds: two events one nanosecond apart, at a time of the order of EuRoC's, have the same relative time. -/
theorem C122_relative_refuted : relative (10 ^ 18) (10 ^ 18) = 0 ∧ relative (10 ^ 18) (10 ^ 18 + 1) = 0 := by decide +kernel

/-- ... but the sequence is not lost altogether: 1 ms after the start is 1 ms after the start, nearly. -/
example : |relative (1403636579763555584) (1403636579763555584 + 10 ^ 6) - 1 / 1000| ≤ 1 / 10 ^ 6 := by decide +kernel

/-! ### The time loop -/

theorem advance_pos {past : Option ℤ} {ts x : ℤ} {l : List ℤ} (h : ts < x) : advance past ts (x :: l) = .ok (x :: l) := by
  unfold advance
  rw [if_neg (by omega)]

theorem timeLoop_none (start : ℤ) : ∀ (n : ℕ) (l : List ℤ) (m : List (ℤ × ℚ)), l ≠ [] → ∀ r, timeLoop none start n l m ≠ .ok r := by
  have key : ∀ (ts : ℤ) (l l' : List ℤ), advance none ts l = .ok l' → l' ≠ [] := by
    intro ts l
    induction l with
    | nil => intro l' h; cases h
    | cons x l ih =>
      intro l' h
      unfold advance at h
      split at h
      · exact ih l' h
      · cases h; intro h; cases h
  intro n
  induction n with
  | zero =>
    intro l m hl r h
    obtain ⟨x, l, rfl⟩ := List.exists_cons_of_ne_nil hl
    cases h
  | succ n ih =>
    intro l m hl r h
    obtain ⟨x, l, rfl⟩ := List.exists_cons_of_ne_nil hl
    obtain ⟨l', h1, h2⟩ := (bind_iff _ _ _).mp h
    exact ih l' _ (key _ _ _ h1) r h2

theorem timeLoop_some (g start : ℤ) : ∀ (l : List ℤ) (m : List (ℤ × ℚ)) (n : ℕ), l.length ≤ n → Spec.Ascending l → l.getLast? ≠ some g →
    ∃ r, timeLoop (some g) start n l m = .ok r ∧
      ∀ ts, SMap.find ts r = if ts ∈ l then some (relative start ts) else SMap.find ts m := by
  intro l
  induction l with
  | nil => intro m n _ _ _; cases n <;> exact ⟨m, rfl, by simp⟩
  | cons x l ih =>
    intro m n hn hs hg
    obtain ⟨n, rfl⟩ : ∃ k, n = k + 1 := ⟨n - 1, by rw [List.length_cons] at hn; omega⟩
    rw [List.length_cons] at hn
    have hs' := List.pairwise_cons.mp hs
    have ha : advance (some g) x l = .ok l := by
      cases l with
      | nil =>
        unfold advance
        simp only
        rw [if_neg (by intro h; apply hg; rw [h]; rfl)]
      | cons y l => exact advance_pos (hs'.1 y List.mem_cons_self)
    obtain ⟨r, h1, h2⟩ := ih (SMap.set x (relative start x) m) n (by omega) hs'.2 (by
      cases l with
      | nil => intro h; cases h
      | cons y l => rw [List.getLast?_cons_cons] at hg; exact hg)
    refine ⟨r, ?_, ?_⟩
    · rw [timeLoop, ha]; exact h1
    · intro ts
      rw [h2 ts, SMap.find_set]
      by_cases hx : ts = x
      · subst hx
        simp
      · simp [hx]

theorem timeLoop_bad (start : ℤ) : ∀ (l : List ℤ) (m : List (ℤ × ℚ)) (n : ℕ) (g : ℤ), Spec.Ascending l → l.getLast? = some g →
    ∀ r, timeLoop (some g) start n l m ≠ .ok r := by
  intro l
  induction l with
  | nil => intro m n g _ hg; cases hg
  | cons x l ih =>
    intro m n g hs hg r h
    cases n with
    | zero => cases h
    | succ n =>
      have hs' := List.pairwise_cons.mp hs
      cases l with
      | nil =>
        have hg : x = g := by simpa using hg
        rw [timeLoop] at h
        unfold advance at h
        simp only at h
        rw [if_pos hg.symm] at h
        cases h
      | cons y l =>
        rw [timeLoop, advance_pos (hs'.1 y List.mem_cons_self)] at h
        rw [List.getLast?_cons_cons] at hg
        exact ih _ n g hs'.2 hg r h

/-! ### Events -/

theorem run_append (l l' : List (ℤ × Event)) : Timeline.run (l ++ l') = l'.foldl (fun t a => Timeline.add t a.1 a.2) (Timeline.run l) := by
  unfold Timeline.run
  rw [List.foldl_append]

theorem allEvents_run (i : Imu) (c0 c1 : Camera) :
    data.allEvents i c0 c1 = Timeline.run ((imuEvents i ++ camEvents 0 c0) ++ camEvents 1 c1) := by
  rw [run_append, run_append]
  unfold data.allEvents addCam addImu imuEvents camEvents Timeline.run
  simp only [List.foldl_map]

theorem calibTimeline_run (c : Calib) : calibTimeline c = Timeline.run ((camEvents 0 c.cam0 ++ camEvents 1 c.cam1) ++ imuEvents c.imu) := by
  rw [run_append, run_append]
  unfold calibTimeline addCam addImu imuEvents camEvents Timeline.run
  simp only [List.foldl_map]

theorem atTime_append (ts : ℤ) (l l' : List (ℤ × Event)) : atTime ts (l ++ l') = atTime ts l ++ atTime ts l' := by
  unfold atTime
  rw [List.filter_append, List.map_append]

/-- The columns of a recording have the same length. -/
theorem imu_lengths {D : Dec} {disk : Disk} {dir : Str} {i : Imu} (h : imu D disk dir = .ok i) :
    i.gyr.length = i.timestamps.length ∧ i.acc.length = i.timestamps.length := by
  unfold imu at h
  split at h
  · cases h
  · obtain ⟨rows, h1, h2⟩ := (bind_iff _ _ _).mp h
    obtain ⟨s, h3, h4⟩ := (bind_iff _ _ _).mp h2
    cases h4
    simp

theorem camera_lengths {D : Dec} {disk : Disk} {dir : Str} {b : Bool} {c : Camera} (h : camera D disk dir b = .ok c) :
    c.paths.length = c.timestamps.length := by
  unfold camera at h
  split at h
  · cases h
  · obtain ⟨rows, h1, h2⟩ := (bind_iff _ _ _).mp h
    unfold camSensor at h2
    split at h2
    · cases h2
    · repeat (obtain ⟨_, -, h2⟩ := (bind_iff _ _ _).mp h2)
      cases h2
      simp

/-- Every path of a camera is that of a file that exists, below `data` of its directory. -/
theorem camera_paths {D : Dec} {disk : Disk} {dir : Str} {b : Bool} {c : Camera} (h : camera D disk dir b = .ok c) :
    ∀ p ∈ c.paths, disk.isFile p = true ∧ ∃ name, p = dir ++ "/data/".toList ++ name := by
  have key : ∀ (n : ℕ) (l : Str) rows, Text.rowsM (camEntry disk dir) n l = .ok rows →
      ∀ e ∈ rows, disk.isFile e.2 = true ∧ ∃ name, e.2 = dir ++ "/data/".toList ++ name := by
    intro n
    induction n with
    | zero => intro l rows h; cases h; intro e he; cases he
    | succ n ih =>
      intro l rows h
      obtain ⟨a, h1, h2⟩ := (bind_iff _ _ _).mp h
      obtain ⟨as, h3, h4⟩ := (bind_iff _ _ _).mp h2
      cases h4
      intro e he
      rcases List.mem_cons.mp he with rfl | he
      · obtain ⟨r, h5, h6⟩ := (bind_iff _ _ _).mp h1
        split at h6
        · rename_i hf
          cases h6
          exact ⟨hf, r.1.2, rfl⟩
        · cases h6
      · exact ih _ _ h3 e he
  unfold camera at h
  split at h
  · cases h
  · obtain ⟨rows, h1, h2⟩ := (bind_iff _ _ _).mp h
    unfold camSensor at h2
    split at h2
    · cases h2
    · repeat (obtain ⟨_, -, h2⟩ := (bind_iff _ _ _).mp h2)
      cases h2
      unfold Text.loadRows at h1
      intro p hp
      obtain ⟨e, he, rfl⟩ := List.mem_map.mp hp
      split at h1
      · cases h1; cases he
      · obtain ⟨l, -, h1⟩ := (bind_iff _ _ _).mp h1
        exact key _ _ _ h1 e he

/-! ### `euroc_data_t` -/

/-- C122 is false of `euroc_data_t`: after the last timestamp the loop reads the element behind the end of the set.  So no
execution of the constructor is free of undefined behaviour. -/
theorem C122_data_refuted (D : Dec) (disk : Disk) (path : Str) (d : Data) : data D none disk path ≠ .ok d := by
  intro h
  unfold data at h
  obtain ⟨i, h1, h⟩ := (bind_iff _ _ _).mp h
  obtain ⟨c0, h2, h⟩ := (bind_iff _ _ _).mp h
  obtain ⟨c1, h3, h⟩ := (bind_iff _ _ _).mp h
  split at h
  · cases h
  · obtain ⟨g, h4, h⟩ := (bind_iff _ _ _).mp h
    obtain ⟨a, h5, h⟩ := (bind_iff _ _ _).mp h
    obtain ⟨b, h6, h⟩ := (bind_iff _ _ _).mp h
    obtain ⟨t, h7, h⟩ := (bind_iff _ _ _).mp h
    refine timeLoop_none a _ _ _ ?_ t h7
    intro hn
    have hmem := (Timeline.C11_timeline ((imuEvents i ++ camEvents 0 c0) ++ camEvents 1 c1) 0).2.1
    rw [← allEvents_run, hn] at hmem
    unfold minTimestamp at h5
    split at h5
    · rename_i x l y l' e1 e2
      obtain ⟨f1, f2⟩ := imu_lengths h1
      rw [e2] at f1 f2
      have : ∃ e, (y, e) ∈ (imuEvents i ++ camEvents 0 c0) ++ camEvents 1 c1 := by
        obtain ⟨p, ps, hp⟩ := List.exists_cons_of_ne_nil (l := i.gyr) (by intro h; rw [h] at f1; cases f1)
        obtain ⟨q, qs, hq⟩ := List.exists_cons_of_ne_nil (l := i.acc) (by intro h; rw [h] at f2; cases f2)
        refine ⟨.imu q p, ?_⟩
        unfold imuEvents
        rw [e2, hp, hq]
        simp
      exact absurd ((hmem y).mpr this) (by simp)
    · cases h5

/-- C122, what `euroc_data_t` gives when the memory behind the end of the set holds a number other than the last timestamp:
the sensors, the ground truth, the first and the last timestamp, all events at each time, and the relative time of every timestamp. -/
theorem C122_data_partial (D : Dec) (behind : ℤ) (disk : Disk) (path : Str) (i : Imu) (c : Camera) (gt : List Truth)
    (hi : imu D disk (path ++ "/mav0/imu0".toList) = .ok i) (hc : camera D disk (path ++ "/mav0/cam0".toList) false = .ok c)
    (hg : truth disk (path ++ "/mav0/state_groundtruth_estimate0".toList) = .ok gt)
    (hi0 : i.timestamps ≠ []) (hc0 : c.timestamps ≠ [])
    (hi1 : i.timestamps.Pairwise (· ≤ ·)) (hc1 : c.timestamps.Pairwise (· ≤ ·))
    (hb : ∀ ts ∈ i.timestamps ++ c.timestamps, ts < behind ∨ behind < ts) :
    ∃ d, data D (some behind) disk path = .ok d ∧ d.imu = i ∧ d.cam0 = c ∧ d.cam1 = c ∧ d.truth = gt ∧
      (d.start ∈ i.timestamps ++ c.timestamps ∧ ∀ ts ∈ i.timestamps ++ c.timestamps, d.start ≤ ts) ∧
      (d.stop ∈ i.timestamps ++ c.timestamps ∧ ∀ ts ∈ i.timestamps ++ c.timestamps, ts ≤ d.stop) ∧
      (∀ ts, Timeline.getEvents d.timeline ts = atTime ts (imuEvents i) ++ atTime ts (camEvents 0 c) ++ atTime ts (camEvents 1 c)) ∧
      (∀ ts, SMap.find ts d.time = if ts ∈ i.timestamps ++ c.timestamps then some (relative d.start ts) else none) := by
  obtain ⟨f1, f2⟩ := imu_lengths hi
  have f3 := camera_lengths hc
  obtain ⟨y, l', e2⟩ := List.exists_cons_of_ne_nil hi0
  obtain ⟨x, l, e1⟩ := List.exists_cons_of_ne_nil hc0
  -- the timestamps of the timeline
  have hmem : ∀ ts, ts ∈ (data.allEvents i c c).timestamps ↔ ts ∈ i.timestamps ++ c.timestamps := by
    intro ts
    rw [allEvents_run, (Timeline.C11_timeline _ 0).2.1]
    have z1 : (imuEvents i).map Prod.fst = i.timestamps := by
      unfold imuEvents
      rw [List.map_map]
      show List.map Prod.fst _ = _
      rw [List.map_fst_zip]
      rw [List.length_zip, f1, f2, min_self]
    have z2 : ∀ k, (camEvents k c).map Prod.fst = c.timestamps := by
      intro k
      unfold camEvents
      rw [List.map_map]
      show List.map Prod.fst _ = _
      rw [List.map_fst_zip]
      rw [f3]
    have key : ∀ l : List (ℤ × Event), (∃ e, (ts, e) ∈ l) ↔ ts ∈ l.map Prod.fst := by
      intro l
      simp
    rw [key, List.map_append, List.map_append, z1, z2, z2]
    simp only [List.mem_append]
    tauto
  have hasc := (Timeline.C11_timeline ((imuEvents i ++ camEvents 0 c) ++ camEvents 1 c) 0).1
  rw [← allEvents_run] at hasc
  obtain ⟨b', hb'⟩ : ∃ b, maxTimestamp c i = .ok b ∧ b ∈ i.timestamps ++ c.timestamps ∧ ∀ ts ∈ i.timestamps ++ c.timestamps, ts ≤ b := by
    unfold maxTimestamp
    have top : ∀ {l : List ℤ} (h0 : l ≠ []) (hs : l.Pairwise (· ≤ ·)), ∃ m, l.getLast? = some m ∧ m ∈ l ∧ ∀ ts ∈ l, ts ≤ m := by
      intro l h0 hs
      refine ⟨l.getLast h0, List.getLast?_eq_some_getLast h0, List.getLast_mem h0, ?_⟩
      intro ts hts
      obtain ⟨n, hn, rfl⟩ := List.mem_iff_getElem.mp hts
      rw [List.getLast_eq_getElem]
      rcases Nat.lt_or_ge n (l.length - 1) with h | h
      · exact List.pairwise_iff_getElem.mp hs n (l.length - 1) hn (by omega) h
      · have : n = l.length - 1 := by omega
        subst this
        exact le_refl _
    obtain ⟨m1, t1, t2, t3⟩ := top hc0 hc1
    obtain ⟨m2, s1, s2, s3⟩ := top hi0 hi1
    rw [t1, s1]
    refine ⟨max m1 m2, rfl, ?_, ?_⟩
    · rcases max_choice m1 m2 with h | h <;> rw [h]
      · exact List.mem_append_right _ t2
      · exact List.mem_append_left _ s2
    · intro ts hts
      rcases List.mem_append.mp hts with h | h
      · exact le_max_of_le_right (s3 ts h)
      · exact le_max_of_le_left (t3 ts h)
  have hmin : minTimestamp c i = .ok (min x y) := by unfold minTimestamp; rw [e1, e2]
  have hstart : min x y ∈ i.timestamps ++ c.timestamps ∧ ∀ ts ∈ i.timestamps ++ c.timestamps, min x y ≤ ts := by
    rw [e1] at hc1 ⊢
    rw [e2] at hi1 ⊢
    constructor
    · rcases min_choice x y with h | h <;> rw [h] <;> simp
    · intro ts hts
      rcases List.mem_append.mp hts with h | h
      · rcases List.mem_cons.mp h with rfl | h
        · exact min_le_right _ _
        · exact min_le_of_right_le ((List.pairwise_cons.mp hi1).1 ts h)
      · rcases List.mem_cons.mp h with rfl | h
        · exact min_le_left _ _
        · exact min_le_of_left_le ((List.pairwise_cons.mp hc1).1 ts h)
  obtain ⟨r, hr1, hr2⟩ := timeLoop_some behind (min x y) (data.allEvents i c c).timestamps [] _ (le_refl _) hasc (by
    intro h
    have := hb behind ((hmem behind).mp (List.mem_of_getLast? h))
    omega)
  refine ⟨⟨i, c, c, gt, min x y, b', data.allEvents i c c, r⟩, ?_, rfl, rfl, rfl, rfl, hstart, hb'.2, ?_, ?_⟩
  · unfold data
    rw [hi, okb, hc, okb, okb, if_neg (by intro h; rw [h, e1] at f3; cases f3), hg, okb, hmin, okb, hb'.1, okb, hr1, okb]
  · intro ts
    show Timeline.getEvents (data.allEvents i c c) ts = _
    rw [allEvents_run, (Timeline.C11_timeline _ ts).2.2.1]
    show atTime ts _ = _
    rw [atTime_append, atTime_append]
  · intro ts
    show SMap.find ts r = _
    rw [hr2 ts]
    by_cases h : ts ∈ i.timestamps ++ c.timestamps
    · rw [if_pos h, if_pos ((hmem ts).mpr h)]
    · rw [if_neg h, if_neg (fun h' => h ((hmem ts).mp h'))]
      rfl

/-- C122: if the memory behind the end of the set holds the last timestamp, the loop goes on behind the end. -/
theorem C122_data_behind_refuted (D : Dec) (disk : Disk) (path : Str) (i : Imu) (c : Camera) (last : ℤ)
    (hi : imu D disk (path ++ "/mav0/imu0".toList) = .ok i) (hc : camera D disk (path ++ "/mav0/cam0".toList) false = .ok c)
    (hl : (data.allEvents i c c).timestamps.getLast? = some last) (d : Data) : data D (some last) disk path ≠ .ok d := by
  intro h
  unfold data at h
  rw [hi, okb, hc, okb, okb] at h
  split at h
  · cases h
  · obtain ⟨g, h4, h⟩ := (bind_iff _ _ _).mp h
    obtain ⟨a, h5, h⟩ := (bind_iff _ _ _).mp h
    obtain ⟨b, h6, h⟩ := (bind_iff _ _ _).mp h
    obtain ⟨t, h7, h⟩ := (bind_iff _ _ _).mp h
    have hasc := (Timeline.C11_timeline ((imuEvents i ++ camEvents 0 c) ++ camEvents 1 c) 0).1
    rw [← allEvents_run] at hasc
    exact timeLoop_bad a _ _ _ last hasc hl t h7

/-- C122 is false of the second camera: `cam1` of a dataset is always a copy of `cam0`, and all its images are those of `cam0`,
whatever is in the directory `cam1`. -/
theorem C122_second_camera_refuted (D : Dec) (past : Option ℤ) (disk : Disk) (path : Str) (d : Data) (h : data D past disk path = .ok d) :
    d.cam1 = d.cam0 ∧ ∀ p ∈ d.cam1.paths, ∃ name, p = path ++ "/mav0/cam0/data/".toList ++ name := by
  unfold data at h
  obtain ⟨i, h1, h⟩ := (bind_iff _ _ _).mp h
  obtain ⟨c0, h2, h⟩ := (bind_iff _ _ _).mp h
  obtain ⟨c1, h3, h⟩ := (bind_iff _ _ _).mp h
  split at h
  · cases h
  · repeat (obtain ⟨_, -, h⟩ := (bind_iff _ _ _).mp h)
    cases h
    rw [h2] at h3
    cases h3
    refine ⟨rfl, fun p hp => ?_⟩
    obtain ⟨-, name, rfl⟩ := camera_paths h2 p hp
    refine ⟨name, ?_⟩
    rw [show "/mav0/cam0/data/".toList = "/mav0/cam0".toList ++ "/data/".toList from by decide]
    simp [List.append_assoc]

/-! ### `euroc_calib_t` -/

theorem first_all (c : Camera) (n : ℕ) (h1 : c.timestamps.length ≤ n) (h2 : c.paths.length ≤ n) : first n c = c := by
  unfold first
  rw [List.take_of_length_le h1, List.take_of_length_le h2]

theorem dropLast_first (c : Camera) (n : ℕ) (h1 : c.timestamps.length = n + 1) (h2 : c.paths.length = n + 1) : dropLast c = first n c := by
  unfold dropLast first
  rw [List.dropLast_eq_take, List.dropLast_eq_take, h1, h2]
  rfl

/-- C122: calibration data.  When one camera has at most one image more than the other, both keep as many images as both have, from the
first on. -/
theorem C122_calib_partial (D : Dec) (disk : Disk) (path : Str) (i : Imu) (c0 c1 : Camera) (t : List (Str × Val))
    (hi : imu D disk (path ++ "/mav0/imu0".toList) = .ok i)
    (h0 : camera D disk (path ++ "/mav0/cam0".toList) true = .ok c0) (h1 : camera D disk (path ++ "/mav0/cam1".toList) true = .ok c1)
    (ht : target D disk (path ++ "/april_6x6.yaml".toList) = .ok t)
    (hn : c0.paths.length ≤ c1.paths.length + 1) (hn' : c1.paths.length ≤ c0.paths.length + 1)
    (hne : 0 < min c0.paths.length c1.paths.length) :
    calib D disk path = .ok ⟨i, first (min c0.paths.length c1.paths.length) c0, first (min c0.paths.length c1.paths.length) c1, t⟩ := by
  have l0 := camera_lengths h0
  have l1 := camera_lengths h1
  have he : evenOut c0 c1 = (first (min c0.paths.length c1.paths.length) c0, first (min c0.paths.length c1.paths.length) c1) := by
    unfold evenOut
    split
    · rename_i h
      rw [min_eq_right (by omega), dropLast_first c0 c1.paths.length (by omega) (by omega),
        first_all c1 _ (by omega) (by omega)]
    · split
      · rename_i h h'
        rw [min_eq_left (by omega), dropLast_first c1 c0.paths.length (by omega) (by omega),
          first_all c0 _ (by omega) (by omega)]
      · rw [first_all c0 _ (by omega) (by omega), first_all c1 _ (by omega) (by omega)]
  unfold calib
  rw [hi, okb, h0, okb, h1, okb, he, if_neg, ht, okb]
  intro h
  have : (first (min c0.paths.length c1.paths.length) c0).paths.length = 0 := by rw [h]; rfl
  unfold first at this
  simp only [List.length_take] at this
  omega

/-- C122 is false of larger differences: only one image is dropped, so two or more too many leave the cameras with different
numbers of images. -/
theorem C122_calib_refuted (D : Dec) (disk : Disk) (path : Str) (c0 c1 : Camera) (k : Calib)
    (h0 : camera D disk (path ++ "/mav0/cam0".toList) true = .ok c0) (h1 : camera D disk (path ++ "/mav0/cam1".toList) true = .ok c1)
    (hk : calib D disk path = .ok k) (hn : c1.paths.length + 1 < c0.paths.length ∨ c0.paths.length + 1 < c1.paths.length) :
    k.cam0.paths.length ≠ k.cam1.paths.length := by
  unfold calib at hk
  obtain ⟨i, -, hk⟩ := (bind_iff _ _ _).mp hk
  rw [h0, okb, h1, okb] at hk
  split at hk
  · cases hk
  · obtain ⟨t, -, hk⟩ := (bind_iff _ _ _).mp hk
    cases hk
    unfold evenOut
    rcases hn with hn | hn
    · rw [if_pos (by omega)]
      simp only [dropLast, List.length_dropLast]
      omega
    · rw [if_neg (by omega), if_pos (by omega)]
      simp only [dropLast, List.length_dropLast]
      omega

/-- C122: at each time the timeline of calibration data has the images of camera 0, those of camera 1, and the IMU samples; there are no
other times. -/
theorem C122_calib_timeline (k : Calib) (ts : ℤ) :
    Timeline.getEvents (calibTimeline k) ts = atTime ts (camEvents 0 k.cam0) ++ atTime ts (camEvents 1 k.cam1) ++ atTime ts (imuEvents k.imu) ∧
    Spec.Ascending (calibTimeline k).timestamps ∧
    (ts ∈ (calibTimeline k).timestamps ↔ ts ∈ (camEvents 0 k.cam0 ++ camEvents 1 k.cam1 ++ imuEvents k.imu).map Prod.fst) := by
  rw [calibTimeline_run]
  obtain ⟨h1, h2, h3, -⟩ := Timeline.C11_timeline ((camEvents 0 k.cam0 ++ camEvents 1 k.cam1) ++ imuEvents k.imu) ts
  refine ⟨?_, h1, ?_⟩
  · rw [h3]
    show atTime ts _ = _
    rw [atTime_append, atTime_append]
  · rw [h2]
    simp only [List.mem_map, Prod.exists, exists_and_right, exists_eq_right]

/-- C122: the calibration target has the five values of its file, all of which must be there. -/
theorem C122_target (D : Dec) (disk : Disk) (file : Str) (m : List (Str × Y)) (hm : disk.doc file = some (.map m)) (t : List (Str × Val)) :
    target D disk file = .ok t ↔ TopIs D (.map m) false [("target_type", .text []), ("tagRows", .int 0), ("tagCols", .int 0),
      ("tagSize", .real 0), ("tagSpacing", .real 0)] t := by
  unfold target
  rw [hm]
  simp only
  rw [bind_readTop D m false [("target_type", .text []), ("tagRows", .int 0), ("tagCols", .int 0),
      ("tagSize", .real 0), ("tagSpacing", .real 0)] targetFields rfl (by decide)]
  constructor
  · rintro ⟨v, h, h'⟩
    cases h'
    exact h
  · intro h
    exact ⟨t, h, rfl⟩

end Yac.Euroc
