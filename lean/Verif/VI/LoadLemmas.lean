import Verif.VI.LoadModel

/-!
Lemmas for C118.
-/

namespace Yac.VI

open Yac.AprilGrid (Grid)

variable {K D : Type} [DecidableEq K]

/-! ## Specification -/

/-- The grids of all cameras at a time. -/
def frame (cams : List Int) (shot : Int → Int → Grid K) (t : Int) : List (Int × Grid K) :=
  cams.map (fun c => (c, shot c t))

/-- The newest frame after `lo` and not after `hi`. -/
def newest (F : List Int) (lo hi : Int) : Option Int :=
  (F.filter (fun f => decide (lo < f ∧ f ≤ hi))).getLast?

/-- One IMU sample: it is buffered, and the newest frame since the previous sample is processed.
State: the calibrator and the time of the previous sample. -/
def sample (env : VEnv K D) (F : List Int) (fr : Int → List (Int × Grid K)) (p : St K D × Option Int)
    (r : Int × D × D) : Except Fault (St K D × Option Int) :=
  match p.2.bind (fun lo => newest F lo r.1) with
  | none => .ok ({ p.1 with imu := p.1.imu.add r.1 r.2.1 r.2.2, imuStarted := true }, some r.1)
  | some f =>
    process env { p.1 with imu := p.1.imu.add r.1 r.2.1 r.2.2, imuStarted := true, visionStarted := true }
      (fr f) >>= fun q => .ok (q.1, some r.1)

/-- Frames after the last sample stay in the buffer. -/
def pending (F : List Int) (fr : Int → List (Int × Grid K)) (p : St K D × Option Int) : St K D :=
  match p.2.bind (fun lo => (F.filter (fun f => decide (lo < f))).getLast?) with
  | none => p.1
  | some f => { p.1 with gridBuf := fr f, visionStarted := true }

/-- All cameras have a grid at each of the times `F`, and no other. -/
structure Sync (cams : List Int) (d : LoadIn K D) (F : List Int) (shot : Int → Int → Grid K) : Prop where
  asc : F.Pairwise (· < ·)
  stamp : ∀ c t, (shot c t).timestamp = t
  grids : ∀ c ∈ cams, (d.grids c).Perm (F.map (shot c))
  imu : d.imu.Pairwise (fun a b => a.1 ≤ b.1)

/-! ## Lists -/

/-- A list in ascending order of keys splits at a prefix of the keys. -/
theorem filter_snoc {α : Type} (key : α → Int) (l : List Int) (ts : Int) (hl : ∀ x ∈ l, x < ts) :
    ∀ (xs : List α), xs.Pairwise (fun a b => key a ≤ key b) →
    xs.filter (fun x => decide (key x ∈ l ++ [ts])) =
      xs.filter (fun x => decide (key x ∈ l)) ++ xs.filter (fun x => decide (key x = ts))
  | [], _ => rfl
  | x :: xs, h => by
    obtain ⟨h1, h2⟩ := List.pairwise_cons.1 h
    have ih := filter_snoc key l ts hl xs h2
    by_cases hx : key x ∈ l
    · have hne : key x ≠ ts := ne_of_lt (hl _ hx)
      rw [List.filter_cons, if_pos (by simp [hx]), List.filter_cons, if_pos (by simpa using hx),
        List.filter_cons, if_neg (by simpa using hne), ih]
      rfl
    · by_cases he : key x = ts
      · have hno : xs.filter (fun x => decide (key x ∈ l)) = [] := by
          rw [List.filter_eq_nil_iff]
          intro y hy hm
          have := hl _ (by simpa using hm)
          have := h1 y hy
          omega
        rw [List.filter_cons, if_pos (by simp [he]), List.filter_cons, if_neg (by simpa using hx),
          List.filter_cons, if_pos (by simpa using he), ih, hno]
        rfl
      · rw [List.filter_cons, if_neg (by simp [hx, he]), List.filter_cons, if_neg (by simpa using hx),
          List.filter_cons, if_neg (by simpa using he), ih]

theorem filter_key {F : List Int} (h : F.Pairwise (· < ·)) (t : Int) :
    F.filter (fun f => decide (f = t)) = if t ∈ F then [t] else [] := by
  induction F with
  | nil => rfl
  | cons f F ih =>
    obtain ⟨h1, h2⟩ := List.pairwise_cons.1 h
    by_cases he : f = t
    · subst he
      have : f ∉ F := fun hm => lt_irrefl _ (h1 f hm)
      rw [List.filter_cons, if_pos (by simp), ih h2, if_neg this, if_pos (by simp)]
    · rw [List.filter_cons, if_neg (by simpa using he), ih h2]
      simp [Ne.symm he]

theorem perm_filter_single {α : Type} {l : List α} {a : α} (h : l.Perm [a]) : l = [a] :=
  List.perm_singleton.1 h

/-! ## The events of a timestamp -/

theorem Sync.events {cams : List Int} {d : LoadIn K D} {F : List Int} {shot : Int → Int → Grid K}
    (h : Sync cams d F shot) (ts : Int) :
    Timeline.getEvents (Timeline.run (entries cams d)) ts =
      (if ts ∈ F then cams.map (fun c => Ev.grid c (shot c ts)) else []) ++
      (d.imu.filter (fun r => decide (r.1 = ts))).map (fun r => Ev.imu r.1 r.2.1 r.2.2) := by
  rw [(Timeline.C11_timeline (entries cams d) ts).2.2.1]
  unfold entries
  rw [List.filter_append, List.map_append]
  congr 1
  · have hc : ∀ l : List Int, (∀ c ∈ l, c ∈ cams) →
        ((l.flatMap (fun c => (d.grids c).map (fun g => (g.timestamp, Ev.grid (D := D) c g)))).filter
          (fun a => decide (a.1 = ts))).map Prod.snd =
        if ts ∈ F then l.map (fun c => Ev.grid c (shot c ts)) else [] := by
      intro l
      induction l with
      | nil => intro _; simp
      | cons c l ih =>
        intro hm
        rw [List.flatMap_cons, List.filter_append, List.map_append, ih (fun x hx => hm x (by simp [hx]))]
        have hp : ((d.grids c).filter (fun g => decide (g.timestamp = ts))).Perm
            ((F.map (shot c)).filter (fun g => decide (g.timestamp = ts))) :=
          (h.grids c (hm c (by simp))).filter _
        have hF : (F.map (shot c)).filter (fun g => decide (g.timestamp = ts)) =
            (F.filter (fun f => decide (f = ts))).map (shot c) := by
          rw [List.filter_map]
          congr 1
          refine List.filter_congr (fun f _ => ?_)
          simp [h.stamp]
        rw [hF, filter_key h.asc] at hp
        have e : (((d.grids c).map (fun g => (g.timestamp, Ev.grid (D := D) c g))).filter
            (fun a => decide (a.1 = ts))).map Prod.snd =
            ((d.grids c).filter (fun g => decide (g.timestamp = ts))).map (fun g => Ev.grid c g) := by
          rw [List.filter_map, List.map_map]
          rfl
        rw [e]
        by_cases ht : ts ∈ F
        · rw [if_pos ht] at hp ⊢
          rw [if_pos ht, List.perm_singleton.1 hp]
          rfl
        · rw [if_neg ht] at hp ⊢
          rw [if_neg ht, List.perm_nil.1 hp]
          rfl
    exact hc cams (fun _ h => h)
  · rw [List.filter_map, List.map_map]
    rfl

theorem Sync.stamps {cams : List Int} {d : LoadIn K D} {F : List Int} {shot : Int → Int → Grid K}
    (h : Sync cams d F shot) (hc : cams ≠ []) (ts : Int) :
    ts ∈ (Timeline.run (entries cams d)).timestamps ↔ ts ∈ F ∨ ∃ r ∈ d.imu, r.1 = ts := by
  rw [(Timeline.C11_timeline (entries cams d) ts).2.1]
  unfold entries
  constructor
  · rintro ⟨e, he⟩
    rcases List.mem_append.1 he with he | he
    · obtain ⟨c, hc, he⟩ := List.mem_flatMap.1 he
      obtain ⟨g, hg, e'⟩ := List.mem_map.1 he
      obtain ⟨f, hf, rfl⟩ := List.mem_map.1 ((h.grids c hc).mem_iff.1 hg)
      rw [h.stamp] at e'
      injection e' with e1 e2
      exact Or.inl (e1 ▸ hf)
    · obtain ⟨r, hr, e'⟩ := List.mem_map.1 he
      injection e' with e1 e2
      exact Or.inr ⟨r, hr, e1⟩
  · rintro (hf | ⟨r, hr, rfl⟩)
    · obtain ⟨c, hc⟩ := List.exists_mem_of_ne_nil _ hc
      refine ⟨.grid c (shot c ts), List.mem_append_left _ (List.mem_flatMap.2 ⟨c, hc, List.mem_map.2
        ⟨shot c ts, (h.grids c hc).mem_iff.2 (List.mem_map.2 ⟨ts, hf, rfl⟩), ?_⟩⟩)⟩
      rw [h.stamp]
    · exact ⟨_, List.mem_append_right _ (List.mem_map.2 ⟨r, hr, rfl⟩)⟩

/-! ## The grids of a frame -/

/-- The calibrator with a buffer of grids. -/
def withBuf (s : St K D) (b : List (Int × Grid K)) : St K D := { s with gridBuf := b, visionStarted := true }

theorem fold_set_find {ν : Type} (f : Int → ν) : ∀ (cams : List Int) (m : List (Int × ν)) (k : Int),
    SMap.find k (cams.foldl (fun m c => SMap.set c (f c) m) m) =
      if k ∈ cams then some (f k) else SMap.find k m
  | [], m, k => by simp
  | c :: cams, m, k => by
    rw [List.foldl_cons, fold_set_find f cams]
    by_cases hk : k ∈ cams
    · simp [hk]
    · rw [if_neg hk, SMap.find_set]
      by_cases hc : k = c
      · subst hc; simp
      · simp [hc, hk]

theorem fold_set_sorted {ν : Type} (f : Int → ν) : ∀ (cams : List Int) (m : List (Int × ν)),
    SMap.Sorted m → SMap.Sorted (cams.foldl (fun m c => SMap.set c (f c) m) m)
  | [], _, h => h
  | c :: cams, m, h => fold_set_sorted f cams _ (SMap.set_sorted _ _ _ h)

theorem frame_sorted {cams : List Int} (h : cams.Pairwise (· < ·)) (shot : Int → Int → Grid K) (t : Int) :
    SMap.Sorted (frame cams shot t) := by
  unfold SMap.Sorted frame
  rw [List.pairwise_map]
  exact h

theorem frame_find {cams : List Int} (shot : Int → Int → Grid K) (t k : Int) :
    SMap.find k (frame cams shot t) = if k ∈ cams then some (shot k t) else none := by
  unfold frame
  induction cams with
  | nil => rfl
  | cons c cams ih =>
    rw [List.map_cons, SMap.find]
    by_cases h : c = k
    · subst h; simp
    · rw [if_neg h, ih]; simp [Ne.symm h]

/-- Filling the buffer with a frame, over an empty buffer or another frame. -/
theorem fold_frame {cams : List Int} (h : cams.Pairwise (· < ·)) (shot : Int → Int → Grid K) (t : Int)
    (m : List (Int × Grid K)) (hm : m = [] ∨ ∃ t', m = frame cams shot t') :
    cams.foldl (fun m c => SMap.set c (shot c t) m) m = frame cams shot t := by
  have hs : SMap.Sorted m := by
    rcases hm with rfl | ⟨t', rfl⟩
    · simp [SMap.Sorted]
    · exact frame_sorted h shot t'
  refine SMap.sorted_ext (fold_set_sorted _ cams m hs) (frame_sorted h shot t) (fun k => ?_)
  rw [fold_set_find (fun c => shot c t), frame_find]
  by_cases hk : k ∈ cams
  · rw [if_pos hk, if_pos hk]
  · rw [if_neg hk, if_neg hk]
    rcases hm with rfl | ⟨t', rfl⟩
    · rfl
    · rw [frame_find, if_neg hk]

theorem feed_grids (env : VEnv K D) (shot : Int → Int → Grid K) (t : Int) : ∀ (cams : List Int) (s : St K D),
    s.imuStarted = true → cams ≠ [] →
    (cams.map (fun c => Ev.grid (D := D) c (shot c t))).foldlM (feed env) s =
      .ok (withBuf s (cams.foldl (fun m c => SMap.set c (shot c t) m) s.gridBuf))
  | [], _, _, h => absurd rfl h
  | [c], s, hs, _ => by
    have : feed env s (.grid c (shot c t)) = .ok (withBuf s (SMap.set c (shot c t) s.gridBuf)) := by
      simp only [feed, addGrid, hs, withBuf]
      rfl
    rw [List.map_cons, List.map_nil, List.foldlM_cons, this]
    rfl
  | c :: c' :: cams, s, hs, _ => by
    have : feed env s (.grid c (shot c t)) = .ok (withBuf s (SMap.set c (shot c t) s.gridBuf)) := by
      simp only [feed, addGrid, hs, withBuf]
      rfl
    rw [List.map_cons, List.foldlM_cons, this, AprilGrid.ok_bind,
      feed_grids env shot t (c' :: cams) (withBuf s (SMap.set c (shot c t) s.gridBuf)) hs (by simp)]
    rfl

theorem feed_grids_off (env : VEnv K D) (shot : Int → Int → Grid K) (t : Int) : ∀ (cams : List Int) (s : St K D),
    s.imuStarted = false →
    (cams.map (fun c => Ev.grid (D := D) c (shot c t))).foldlM (feed env) s = .ok s
  | [], _, _ => rfl
  | c :: cams, s, hs => by
    have : feed env s (.grid c (shot c t)) = .ok s := by
      simp only [feed, addGrid, hs]
      rfl
    rw [List.map_cons, List.foldlM_cons, this, AprilGrid.ok_bind]
    exact feed_grids_off env shot t cams s hs

/-! ## One IMU sample -/

theorem process_keeps {env : VEnv K D} {s t : St K D} {grids : List (Int × Grid K)} {b : Bool}
    (h : process env s grids = .ok (t, b)) : t.imuStarted = s.imuStarted := by
  unfold process at h
  split_ifs at h with hc
  · obtain ⟨s1, h1, h2⟩ := bindOk h
    simp only [Except.ok.injEq, Prod.mk.injEq] at h2
    obtain ⟨rfl, -⟩ := h2
    obtain ⟨g, t', hg, hd, -, -, h3, rfl⟩ := initVI_eq h1
    obtain ⟨fids, n, p, hn, -, rfl⟩ := newView_eq h3
    rfl
  · obtain ⟨s1, h1, h2⟩ := bindOk h
    obtain ⟨s2, h3, h4⟩ := bindOk h2
    simp only [Except.ok.injEq, Prod.mk.injEq] at h4
    obtain ⟨rfl, -⟩ := h4
    have hs : s2.imuStarted = s1.imuStarted := by
      unfold slide at h3
      split_ifs at h3
      · obtain ⟨s3, h5, h6⟩ := bindOk h3
        injection h6 with h6
        subst h6
        obtain ⟨v, rest, p, m, out, hv, -, -, -, rfl⟩ := marginalize_eq h5
        rfl
      · injection h3 with h3
        rw [h3]
    rw [hs]
    rcases addView_eq h1 with ⟨rfl, -⟩ | ⟨cg, u1, u2, hi, hd, hne, b1, -, b2, b3⟩
    · rfl
    · obtain ⟨fids, n, p, hn, -, rfl⟩ := newView_eq b1
      obtain ⟨l, vj, hl⟩ := list_concat_of_ne hne
      obtain ⟨out, -, rfl⟩ := linkViews_eq (l := l) (vj := vj)
        (vk := ⟨s.next, cg.2.timestamp, grids, fids, none⟩) (by simp [hl]) b2
      obtain ⟨bb, rfl⟩ := trimImu_eq b3
      rfl

/-- What is known of the specification's state. -/
structure Known (cams : List Int) (p : St K D × Option Int) : Prop where
  buf : p.1.gridBuf = []
  cams : p.1.cams.map Prod.fst = cams
  started : p.1.imuStarted = p.2.isSome

/-- Frames of the times `l` after the last sample stay in the buffer. -/
def pendIn (F l : List Int) (fr : Int → List (Int × Grid K)) (p : St K D × Option Int) : St K D :=
  match p.2.bind (fun lo => (F.filter (fun f => decide (f ∈ l) && decide (lo < f))).getLast?) with
  | none => p.1
  | some f => withBuf p.1 (fr f)

theorem sample_known {env : VEnv K D} {F : List Int} {fr : Int → List (Int × Grid K)} {cams : List Int}
    {p q : St K D × Option Int} {r : Int × D × D} (h : Known cams p) (hq : sample env F fr p r = .ok q) :
    Known cams q ∧ q.2 = some r.1 := by
  unfold sample at hq
  split at hq
  · rw [Except.ok.injEq] at hq
    subst hq
    exact ⟨⟨h.buf, h.cams, rfl⟩, rfl⟩
  · obtain ⟨⟨t, b⟩, h1, h2⟩ := bindOk hq
    rw [Except.ok.injEq] at h2
    subst h2
    have hp := process_views h1
    refine ⟨⟨hp.2.2.2.2.1.trans h.buf, ?_, ?_⟩, rfl⟩
    · simp only
      rw [hp.2.2.2.2.2.1]; exact h.cams
    · exact process_keeps h1

theorem samples_known {env : VEnv K D} {F : List Int} {fr : Int → List (Int × Grid K)} {cams : List Int} :
    ∀ (rs : List (Int × D × D)) {p q : St K D × Option Int}, Known cams p →
    rs.foldlM (sample env F fr) p = .ok q → Known cams q ∧ (q.2 = p.2 ∨ ∃ r ∈ rs, q.2 = some r.1)
  | [], p, q, h, hq => by
    rw [List.foldlM_nil, AprilGrid.pure_eq_ok, Except.ok.injEq] at hq
    subst hq
    exact ⟨h, Or.inl rfl⟩
  | r :: rs, p, q, h, hq => by
    rw [List.foldlM_cons] at hq
    obtain ⟨p1, h1, h2⟩ := bindOk hq
    obtain ⟨k1, e1⟩ := sample_known h h1
    obtain ⟨k2, e2⟩ := samples_known rs k1 h2
    refine ⟨k2, Or.inr ?_⟩
    rcases e2 with e2 | ⟨x, hx, e2⟩
    · exact ⟨r, by simp, e2.trans e1⟩
    · exact ⟨x, by simp [hx], e2⟩

theorem newest_eq {F l : List Int} {ts : Int} (hl : ∀ f ∈ F, f ∈ l ↔ f ≤ ts) (lo : Int) :
    F.filter (fun f => decide (f ∈ l) && decide (lo < f)) = F.filter (fun f => decide (lo < f ∧ f ≤ ts)) := by
  refine List.filter_congr (fun f hf => ?_)
  rw [Bool.eq_iff_iff]
  simp only [Bool.and_eq_true, decide_eq_true_eq, hl f hf]
  exact and_comm

theorem feed_sample (env : VEnv K D) {F l cams : List Int} {fr : Int → List (Int × Grid K)}
    (hc : cams ≠ []) (hfr : ∀ f, (fr f).length = cams.length) {p : St K D × Option Int} (h : Known cams p)
    (r : Int × D × D) (hl : ∀ f ∈ F, f ∈ l ↔ f ≤ r.1) :
    feed env (pendIn F l fr p) (.imu r.1 r.2.1 r.2.2) =
      sample env F fr p r >>= fun q => .ok (pendIn F l fr q) := by
  have hend : ∀ s : St K D, pendIn F l fr (s, some r.1) = s := by
    intro s
    unfold pendIn
    have : (F.filter (fun f => decide (f ∈ l) && decide (r.1 < f))) = [] := by
      rw [List.filter_eq_nil_iff]
      intro f hf hh
      simp only [Bool.and_eq_true, decide_eq_true_eq, hl f hf] at hh
      omega
    rw [Option.bind_some, this]
    rfl
  have hlen : p.1.cams.length = cams.length := by rw [← h.cams, List.length_map]
  have hpos : cams.length ≠ 0 := by rwa [Ne, List.length_eq_zero_iff]
  unfold sample
  have hb : (p.2.bind (fun lo => (F.filter (fun f => decide (f ∈ l) && decide (lo < f))).getLast?)) =
      p.2.bind (fun lo => newest F lo r.1) := by
    unfold newest
    simp only [newest_eq hl]
  cases hn : p.2.bind (fun lo => newest F lo r.1) with
  | none =>
    have hp : pendIn F l fr p = p.1 := by unfold pendIn; rw [hb, hn]
    rw [hp, feed, addImu]
    simp only [h.buf, List.length_nil, AprilGrid.ok_bind]
    rw [if_pos (by rw [hlen]; exact Ne.symm hpos), AprilGrid.ok_bind, hend]
  | some f =>
    have hp : pendIn F l fr p = withBuf p.1 (fr f) := by unfold pendIn; rw [hb, hn]
    have hadd : addImu env (withBuf p.1 (fr f)) r.1 r.2.1 r.2.2 =
        process env { p.1 with imu := p.1.imu.add r.1 r.2.1 r.2.2, imuStarted := true, visionStarted := true,
                               gridBuf := [] } (fr f) := by
      unfold addImu
      exact if_neg (by
        show ¬ (fr f).length ≠ p.1.cams.length
        rw [hfr, hlen]; simp)
    rw [hp, feed, hadd]
    obtain ⟨s, lo⟩ := p
    have hbuf : s.gridBuf = [] := h.buf
    have he : ({ s with imu := s.imu.add r.1 r.2.1 r.2.2, imuStarted := true, visionStarted := true, gridBuf := [] } : St K D) =
        { s with imu := s.imu.add r.1 r.2.1 r.2.2, imuStarted := true, visionStarted := true } := by
      rw [← hbuf]
    simp only
    rw [he]
    cases process env { s with imu := s.imu.add r.1 r.2.1 r.2.2, imuStarted := true, visionStarted := true } (fr f) with
    | error e => rfl
    | ok q => simp only [AprilGrid.ok_bind, hend]

theorem feed_samples (env : VEnv K D) {F l cams : List Int} {fr : Int → List (Int × Grid K)}
    (hc : cams ≠ []) (hfr : ∀ f, (fr f).length = cams.length) (ts : Int) (hl : ∀ f ∈ F, f ∈ l ↔ f ≤ ts) :
    ∀ (rs : List (Int × D × D)), (∀ r ∈ rs, r.1 = ts) → ∀ {p : St K D × Option Int}, Known cams p →
    (rs.map (fun r => Ev.imu r.1 r.2.1 r.2.2)).foldlM (feed env) (pendIn F l fr p) =
      rs.foldlM (sample env F fr) p >>= fun q => .ok (pendIn F l fr q)
  | [], _, p, _ => rfl
  | r :: rs, hr, p, h => by
    rw [List.map_cons, List.foldlM_cons, feed_sample env hc hfr h r (by rw [hr r (by simp)]; exact hl),
      List.foldlM_cons]
    cases hs : sample env F fr p r with
    | error e => rfl
    | ok q =>
      rw [AprilGrid.ok_bind, AprilGrid.ok_bind, AprilGrid.ok_bind]
      exact feed_samples env hc hfr ts hl rs (fun x hx => hr x (by simp [hx])) (sample_known h hs).1

/-! ## All timestamps -/

theorem filter_last {F l : List Int} (hF : F.Pairwise (· < ·)) {ts lo : Int} (hl : ∀ x ∈ l, x < ts) (hlo : lo < ts) :
    F.filter (fun f => decide (f ∈ l ++ [ts]) && decide (lo < f)) =
      F.filter (fun f => decide (f ∈ l) && decide (lo < f)) ++ if ts ∈ F then [ts] else [] := by
  have h := filter_snoc (fun f : Int => f) l ts hl (F.filter (fun f => decide (lo < f)))
    ((hF.imp (fun h => le_of_lt h)).filter _)
  simp only [List.filter_filter] at h
  rw [h]
  congr 1
  rw [← filter_key hF]
  refine List.filter_congr (fun f _ => ?_)
  rw [Bool.eq_iff_iff]
  simp only [Bool.and_eq_true, decide_eq_true_eq]
  constructor
  · exact fun h => h.1
  · rintro rfl; exact ⟨rfl, hlo⟩

theorem replay_prefix (env : VEnv K D) {cams F : List Int} {d : LoadIn K D} {shot : Int → Int → Grid K}
    (h : Sync cams d F shot) (hc : cams ≠ []) (hcs : cams.Pairwise (· < ·)) {s : St K D}
    (hs : Known cams (s, none)) : ∀ (l rest : List Int),
    (Timeline.run (entries cams d)).timestamps = l ++ rest →
    l.foldlM (feedAt env (Timeline.run (entries cams d))) s =
      (d.imu.filter (fun r => decide (r.1 ∈ l))).foldlM (sample env F (frame cams shot)) (s, none) >>=
        fun q => .ok (pendIn F l (frame cams shot) q) := by
  intro l
  induction l using List.reverseRecOn with
  | nil =>
    intro rest _
    have : d.imu.filter (fun r => decide (r.1 ∈ ([] : List Int))) = [] := by simp
    rw [this]
    rfl
  | append_singleton l ts ih =>
    intro rest hT
    rw [List.append_assoc] at hT
    have hasc : (Timeline.run (entries cams d)).timestamps.Pairwise (· < ·) := (Timeline.run_inv _).2.1
    rw [hT] at hasc
    have hlt : ∀ x ∈ l, x < ts := fun x hx => (List.pairwise_append.1 hasc).2.2 x hx ts (by simp)
    have hrest : ∀ x ∈ rest, ts < x :=
      (List.pairwise_cons.1 (List.pairwise_append.1 hasc).2.1).1
    have hl' : ∀ f ∈ F, f ∈ l ++ [ts] ↔ f ≤ ts := by
      intro f hf
      have hm : f ∈ l ++ ([ts] ++ rest) := by rw [← hT, h.stamps hc]; exact Or.inl hf
      simp only [List.mem_append, List.mem_singleton] at hm ⊢
      constructor
      · rintro (h | h)
        · exact le_of_lt (hlt f h)
        · exact le_of_eq h
      · intro hle
        rcases hm with h | h | h
        · exact Or.inl h
        · exact Or.inr h
        · have := hrest f h; omega
    rw [List.foldlM_append, ih ([ts] ++ rest) hT, filter_snoc (fun r : Int × D × D => r.1) l ts hlt _ h.imu,
      List.foldlM_append]
    cases hq : (d.imu.filter (fun r => decide (r.1 ∈ l))).foldlM (sample env F (frame cams shot)) (s, none) with
    | error e => rfl
    | ok q =>
      simp only [AprilGrid.ok_bind]
      obtain ⟨hk, hlast⟩ := samples_known _ hs hq
      have hlo : ∀ lo, q.2 = some lo → lo < ts := by
        intro lo e
        rcases hlast with e' | ⟨r, hr, e'⟩
        · rw [e'] at e; cases e
        · rw [e', Option.some.injEq] at e
          have := (List.mem_filter.1 hr).2
          rw [decide_eq_true_eq] at this
          rw [← e]; exact hlt _ this
      have one : [ts].foldlM (feedAt env (Timeline.run (entries cams d))) (pendIn F l (frame cams shot) q) =
          feedAt env (Timeline.run (entries cams d)) (pendIn F l (frame cams shot) q) ts := by
        rw [List.foldlM_cons]
        cases feedAt env (Timeline.run (entries cams d)) (pendIn F l (frame cams shot) q) ts <;> rfl
      rw [one, feedAt, h.events, List.foldlM_append]
      have hgr : (if ts ∈ F then cams.map (fun c => Ev.grid (D := D) c (shot c ts)) else []).foldlM (feed env)
          (pendIn F l (frame cams shot) q) = .ok (pendIn F (l ++ [ts]) (frame cams shot) q) := by
        cases e : q.2 with
        | none =>
          have hp : ∀ l, pendIn F l (frame cams shot) q = q.1 := by
            intro l; unfold pendIn; rw [e]; rfl
          rw [hp, hp]
          have hst : q.1.imuStarted = false := by rw [hk.started, e]; rfl
          split_ifs
          · exact feed_grids_off env shot ts cams q.1 hst
          · rfl
        | some lo =>
          have hst : q.1.imuStarted = true := by rw [hk.started, e]; rfl
          by_cases hF : ts ∈ F
          · rw [if_pos hF]
            have hp : pendIn F (l ++ [ts]) (frame cams shot) q = withBuf q.1 (frame cams shot ts) := by
              unfold pendIn
              rw [e, Option.bind_some, filter_last h.asc hlt (hlo lo e), if_pos hF, List.getLast?_concat]
            rw [hp]
            unfold pendIn
            cases hb : (q.2.bind (fun lo => (F.filter (fun f => decide (f ∈ l) && decide (lo < f))).getLast?)) with
            | none =>
              simp only
              rw [feed_grids env shot ts cams q.1 hst hc, hk.buf, fold_frame hcs shot ts [] (Or.inl rfl)]
            | some f =>
              simp only
              rw [feed_grids env shot ts cams (withBuf q.1 (frame cams shot f)) hst hc]
              simp only [withBuf]
              rw [fold_frame hcs shot ts _ (Or.inr ⟨f, rfl⟩)]
          · rw [if_neg hF]
            have hp : pendIn F (l ++ [ts]) (frame cams shot) q = pendIn F l (frame cams shot) q := by
              unfold pendIn
              rw [e, Option.bind_some, filter_last h.asc hlt (hlo lo e), if_neg hF, List.append_nil]
              rfl
            rw [hp]
            rfl
      rw [hgr, AprilGrid.ok_bind]
      exact feed_samples env hc (by simp [frame]) ts hl' _ (by
        intro r hr
        simpa using (List.mem_filter.1 hr).2) hk

end Yac.VI
