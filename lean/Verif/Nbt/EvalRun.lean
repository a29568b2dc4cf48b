import Verif.Nbt.EvalLemmas

/-!
Lemmas for C133: the calibrator while the timeline is replayed.
-/

namespace Yac.Nbt

open Yac.AprilGrid (Grid)
open Yac.VI (St VEnv Ev feed frame tg GridsOk WF EqLen withBuf seenIn)

variable {K D : Type} [DecidableEq K]

/-- Every camera sees the target in the frame, well enough to tell where it is. -/
def Clear (env : VEnv K D) (C : List ℤ) (shot : ℤ → ℤ → Grid K) (f : ℤ) : Prop :=
  ∀ c ∈ C, (∃ ms, env.meas false (shot c f) = .ok ms) ∧ (shot c f).detected = true ∧ env.estimate (shot c f) = true

/-- The state between two events. -/
structure Calm (C : List ℤ) (shot : ℤ → ℤ → Grid K) (s : St K D) (n : ℕ) (pend : Option ℤ) : Prop where
  wf : WF s
  len : EqLen s.imu
  marg : s.enableMarg = false
  cams : s.cams.map Prod.fst = C
  size : s.imu.size = n
  started : s.imuStarted = decide (0 < n)
  buf : s.gridBuf = (pend.map (frame C shot)).getD []
  pend : pend.isSome → 0 < n
  init : s.initialized = true → 2 ≤ n

theorem find_cams {C : List ℤ} {s : St K D} (h : s.cams.map Prod.fst = C) {c : ℤ} (hc : c ∈ C) :
    (SMap.find c s.cams).isSome := by
  rw [← h] at hc
  clear h
  generalize s.cams = m at hc
  induction m with
  | nil => simp at hc
  | cons x m ih =>
    rw [SMap.find]
    by_cases e : x.1 = c
    · rw [if_pos e]; rfl
    · rw [if_neg e]
      apply ih
      simpa [Ne.symm e] using hc

theorem gridsOk_frame {env : VEnv K D} {C : List ℤ} {shot : ℤ → ℤ → Grid K} {f : ℤ} (h : Clear env C shot f)
    {s : St K D} (hm : s.enableMarg = false) (hc : s.cams.map Prod.fst = C) : GridsOk env s (frame C shot f) := by
  intro cg hcg
  obtain ⟨c, h1, rfl⟩ := List.mem_map.1 hcg
  obtain ⟨h2, h3, h4⟩ := h c h1
  exact ⟨by rw [hm]; exact h2, find_cams hc h1, fun _ => h4⟩

theorem seen_frame {env : VEnv K D} {C : List ℤ} {shot : ℤ → ℤ → Grid K} {f : ℤ} (h : Clear env C shot f)
    (h0 : (0 : ℤ) ∈ C) : seenIn C shot f = true := by
  unfold seenIn
  rw [List.any_eq_true]
  exact ⟨0, h0, (h 0 h0).2.1⟩

theorem slide_off {s : St K D} (h : s.enableMarg = false) : VI.slide s = .ok s := by
  unfold VI.slide
  rw [if_neg (by simp [h])]

/-- A sample while a clear frame waits. -/
theorem process_clear {env : VEnv K D} {C : List ℤ} {shot : ℤ → ℤ → Grid K} (hst : ∀ c t, (shot c t).timestamp = t)
    (h0 : (0 : ℤ) ∈ C) {f : ℤ} (hf : Clear env C shot f) {s : St K D} (hwf : WF s) (hlen : EqLen s.imu)
    (hm : s.enableMarg = false) (hc : s.cams.map Prod.fst = C) :
    (s.initialized = true → s.imu.size < 5 → VI.process env s (frame C shot f) = .error .fatal) ∧
    ((s.initialized = true → 5 ≤ s.imu.size) → ∃ t b, VI.process env s (frame C shot f) = .ok (t, b)) := by
  have hg := gridsOk_frame hf hm hc
  obtain ⟨cg, hd, hts⟩ := (VI.firstDetected_frame (cams := C) hst f).1 (seen_frame hf h0)
  constructor
  · intro hi h5
    unfold VI.process
    rw [if_neg (by rw [hi]; simp)]
    have : VI.addView env s (frame C shot f) = .error .fatal := by
      unfold VI.addView
      obtain ⟨hcg, hdet⟩ := VI.firstDetected_mem hd
      obtain ⟨-, hk, he⟩ := hg cg hcg
      have hne : s.views ≠ [] := hwf.init.1 hi
      have hk' : ¬ (SMap.find cg.1 s.cams).isNone = true := by
        rw [Option.isNone_iff_eq_none]
        intro hn
        rw [hn] at hk; cases hk
      rw [if_neg (by rw [hi]; simp), hd]
      simp only
      rw [if_neg hk', if_neg (by rw [he hdet]; simp), if_neg hne]
      obtain ⟨s1, e1⟩ := VI.newView_ok (s := { s with counter := s.counter + 1 }) cg.2.timestamp
        (grids := frame C shot f) hg
      rw [e1, AprilGrid.ok_bind]
      obtain ⟨fids, n, p, -, -, rfl⟩ := VI.newView_eq e1
      simp only
      rw [if_pos h5]
    rw [this]; rfl
  · intro h5
    unfold VI.process
    by_cases hi : s.initialized = false ∧ s.imu.size > 2 ∧ (VI.firstDetected (frame C shot f)).isSome
    · rw [if_pos hi]
      have hfind : SMap.find 0 (frame C shot f) = some (shot 0 f) := by
        rw [VI.frame_find, if_pos h0]
      unfold VI.initVI
      rw [hfind]
      simp only
      have hk : ¬ (SMap.find 0 s.cams).isNone = true := by
        have := find_cams hc h0
        rw [Option.isNone_iff_eq_none]
        intro hn
        rw [hn] at this; cases this
      rw [if_neg (by rw [(hf 0 h0).2.1]; simp), if_neg hk, if_neg (by rw [(hf 0 h0).2.2]; simp)]
      obtain ⟨u, e⟩ := VI.newView_ok (s := { s with
          prob := if s.fiducial then s.prob else VI.addParam s.prob .fiducial
          fiducial := true }) (shot 0 f).timestamp (grids := frame C shot f) hg
      rw [e]
      exact ⟨_, _, rfl⟩
    · rw [if_neg hi]
      by_cases hin : s.initialized = true
      · obtain ⟨u, e⟩ := VI.addView_good (env := env) (grids := frame C shot f) hwf hlen hg (h5 hin)
        rw [e, AprilGrid.ok_bind]
        have hu : u.enableMarg = false := by
          have e' : VI.process env s (frame C shot f) = .ok (u, true) := by
            unfold VI.process
            rw [if_neg hi, e, AprilGrid.ok_bind]
            have hset : u.enableMarg = s.enableMarg := by
              rcases VI.addView_eq e with ⟨rfl, -⟩ | ⟨cg, s1, s2, -, -, hne, b1, -, b2, b3⟩
              · rfl
              · obtain ⟨fids, n, p, -, -, rfl⟩ := VI.newView_eq b1
                obtain ⟨l, vj, hl'⟩ := VI.list_concat_of_ne hne
                obtain ⟨out, -, rfl⟩ := VI.linkViews_eq (l := l) (vj := vj)
                  (vk := ⟨s.next, cg.2.timestamp, frame C shot f, fids, none⟩) (by simp [hl']) b2
                obtain ⟨bb, rfl⟩ := VI.trimImu_eq b3
                rfl
            rw [slide_off (hset.trans hm)]; rfl
          exact (VI.process_views e').2.2.1.trans hm
        rw [slide_off hu]
        exact ⟨_, _, rfl⟩
      · have hin' : s.initialized = false := by simpa using hin
        unfold VI.addView
        rw [if_pos hin', AprilGrid.ok_bind, slide_off hm]
        exact ⟨_, _, rfl⟩

/-- One sample. -/
theorem feed_imu {env : VEnv K D} {C : List ℤ} {shot : ℤ → ℤ → Grid K} (hst : ∀ c t, (shot c t).timestamp = t)
    (h0 : (0 : ℤ) ∈ C) {s : St K D} {n : ℕ} {pend : Option ℤ} (h : Calm C shot s n pend)
    (hp : ∀ p, pend = some p → Clear env C shot p) (r : ℤ × D × D) :
    (s.initialized = true → pend.isSome → n + 1 < 5 → feed env s (.imu r.1 r.2.1 r.2.2) = .error .fatal) ∧
    ((s.initialized = true → pend.isSome → 5 ≤ n + 1) → ∃ t, feed env s (.imu r.1 r.2.1 r.2.2) = .ok t ∧
      Calm C shot t (n + 1) none ∧ t.imu = s.imu.add r.1 r.2.1 r.2.2 ∧ t.cams = s.cams ∧
      t.initialized = (s.initialized || (decide (2 ≤ n) && pend.isSome)) ∧
      t.views.map tg = s.views.map tg ++ (emit n pend).map (fun u => (u.2, frame C shot u.2))) := by
  have hpos : C.length ≠ 0 := by
    intro e
    rw [List.length_eq_zero_iff] at e
    rw [e] at h0; cases h0
  have hlen : s.cams.length = C.length := by rw [← h.cams, List.length_map]
  have hsz : (s.imu.add r.1 r.2.1 r.2.2).size = n + 1 := by
    have := h.size
    simp only [Stream.Imu.size, Stream.Imu.add, List.length_append, List.length_singleton] at this ⊢
    omega
  have hwf : WF ({ s with imu := s.imu.add r.1 r.2.1 r.2.2, imuStarted := true } : St K D) := { h.wf with }
  cases pend with
  | none =>
    have hb : s.gridBuf = [] := h.buf
    have e : feed env s (.imu r.1 r.2.1 r.2.2) =
        .ok { s with imu := s.imu.add r.1 r.2.1 r.2.2, imuStarted := true } := by
      rw [feed, VI.addImu]
      simp only [hb, List.length_nil]
      rw [if_pos (by rw [hlen]; exact Ne.symm hpos), AprilGrid.ok_bind]
    refine ⟨fun _ h => (by cases h), fun _ => ⟨_, e, ?_, rfl, rfl, by simp, by simp [emit]⟩⟩
    exact ⟨hwf, h.len.add _ _ _, h.marg, h.cams, hsz, by simp, hb, by simp, fun hi => by have := h.init hi; omega⟩
  | some p =>
    have hb : s.gridBuf = frame C shot p := h.buf
    have hn : 0 < n := h.pend rfl
    have e : feed env s (.imu r.1 r.2.1 r.2.2) =
        VI.process env { s with imu := s.imu.add r.1 r.2.1 r.2.2, imuStarted := true, gridBuf := [] }
          (frame C shot p) >>= fun q => .ok q.1 := by
      rw [feed, VI.addImu]
      simp only [hb]
      rw [if_neg (by simp [frame, hlen])]
    have hwf' : WF ({ s with imu := s.imu.add r.1 r.2.1 r.2.2, imuStarted := true, gridBuf := [] } : St K D) :=
      { h.wf with }
    obtain ⟨p1, p2⟩ := process_clear (env := env) hst h0 (hp p rfl) hwf' (h.len.add _ _ _) h.marg h.cams
    refine ⟨fun hi _ h5 => ?_, fun h5 => ?_⟩
    · rw [e, p1 hi (by show (s.imu.add _ _ _).size < 5; rw [hsz]; exact h5)]; rfl
    · obtain ⟨t, b, ht⟩ := p2 (fun hi => by show 5 ≤ (s.imu.add _ _ _).size; rw [hsz]; exact h5 hi rfl)
      rw [e, ht, AprilGrid.ok_bind]
      obtain ⟨q1, q2, q3, q4⟩ := VI.process_frame hst (by exact h.marg) ht
      have v := VI.process_views ht
      have hin : t.initialized = (s.initialized || (decide (2 ≤ n) && (some p).isSome)) ∧
          t.views.map tg = s.views.map tg ++ (if 2 ≤ n then [(p, frame C shot p)] else []) := by
        cases hi : s.initialized with
        | true =>
          obtain ⟨a, b⟩ := q4 hi
          have := h.init hi
          rw [if_pos (seen_frame (hp p rfl) h0)] at b
          rw [a, b, if_pos this]
          simp
        | false =>
          have a := q3 hi
          simp only [hsz] at a
          by_cases h2 : 2 ≤ n
          · rw [if_pos ⟨by omega, seen_frame (hp p rfl) h0⟩] at a
            rw [a.1, a.2, if_pos h2]
            simp [h2]
          · rw [if_neg (by omega)] at a
            rw [a.1, a.2, if_neg h2]
            simp [h2]
      refine ⟨t, rfl, ⟨hwf'.process ht, VI.process_len (h.len.add _ _ _) ht, q1, ?_, ?_, ?_, ?_, by simp, ?_⟩,
        q2, v.2.2.2.2.2.1, hin.1, by rw [hin.2]; unfold emit; split_ifs <;> rfl⟩
      · rw [v.2.2.2.2.2.1]; exact h.cams
      · rw [q2]; exact hsz
      · rw [VI.process_keeps ht]; simp
      · exact v.2.2.2.2.1
      · intro hi
        rw [hin.1] at hi
        simp only [Option.isSome_some, Bool.and_true, Bool.or_eq_true, decide_eq_true_eq] at hi
        rcases hi with hi | hi
        · have := h.init hi; omega
        · omega

/-- One frame. -/
theorem feed_frame {env : VEnv K D} {C : List ℤ} {shot : ℤ → ℤ → Grid K} (hC : C.Pairwise (· < ·)) (hne : C ≠ [])
    {s : St K D} {n : ℕ} {pend : Option ℤ} (h : Calm C shot s n pend) (f : ℤ) :
    ∃ t, (frameEvs C shot f).foldlM (fun s p => feed env s p.2) s = .ok t ∧
      Calm C shot t n (if 0 < n then some f else none) ∧ t.imu = s.imu ∧ t.cams = s.cams ∧
      t.initialized = s.initialized ∧ t.views = s.views := by
  have e : (frameEvs C shot f).foldlM (fun s p => feed env s p.2) s =
      (C.map (fun c => Ev.grid (D := D) c (shot c f))).foldlM (feed env) s := by
    unfold frameEvs
    rw [List.foldlM_map, List.foldlM_map]
  rw [e]
  by_cases hn : 0 < n
  · rw [VI.feed_grids env shot f C s (by rw [h.started]; simp [hn]) hne, if_pos hn]
    rw [VI.fold_frame hC shot f s.gridBuf (by
      rw [h.buf]
      cases pend with
      | none => exact Or.inl rfl
      | some p => exact Or.inr ⟨p, rfl⟩)]
    refine ⟨_, rfl, ⟨{ h.wf with }, h.len, h.marg, h.cams, h.size, h.started, rfl, fun _ => hn, h.init⟩, rfl, rfl, rfl, rfl⟩
  · rw [VI.feed_grids_off env shot f C s (by rw [h.started]; simp [hn]), if_neg hn]
    have hp : pend = none := by
      cases hx : pend with
      | none => rfl
      | some p => exact absurd (h.pend (by rw [hx]; rfl)) hn
    subst hp
    exact ⟨_, rfl, h, rfl, rfl, rfl, rfl⟩

/-- The frames that must have five samples. -/
def later (init : Bool) (l : List (ℕ × ℤ)) : List (ℕ × ℤ) := if init then l else l.tail

/-- The buffer after the samples. -/
def addAll (b : Stream.Imu D) (I : List (ℤ × D × D)) : Stream.Imu D :=
  I.foldl (fun b r => b.add r.1 r.2.1 r.2.2) b

theorem later_nil (b : Bool) : later b [] = [] := by cases b <;> rfl

/-- What is to be shown of a run: `R` from the state `s`, with the frames `U` and the samples `I`. -/
def Runs (C : List ℤ) (shot : ℤ → ℤ → Grid K) (s : St K D) (U : List (ℕ × ℤ)) (I : List (ℤ × D × D))
    (R : Except Fault (St K D)) : Prop :=
  ((∀ u ∈ later s.initialized U, 5 ≤ u.1) →
    ∃ t n' pend', R = .ok t ∧ Calm C shot t n' pend' ∧ t.imu = addAll s.imu I ∧ t.cams = s.cams ∧
      t.views.map tg = s.views.map tg ++ U.map (fun u => (u.2, frame C shot u.2))) ∧
  ((∃ u ∈ later s.initialized U, u.1 < 5) → R = .error .fatal)

theorem runs_imu {env : VEnv K D} {C : List ℤ} {shot : ℤ → ℤ → Grid K} (hst : ∀ c t, (shot c t).timestamp = t)
    (h0 : (0 : ℤ) ∈ C) {s : St K D} {n : ℕ} {pend : Option ℤ} (h : Calm C shot s n pend)
    (hp : ∀ p, pend = some p → Clear env C shot p) (r : ℤ × D × D) (U : List (ℕ × ℤ)) (I : List (ℤ × D × D))
    (R : St K D → Except Fault (St K D))
    (hR : ∀ t, Calm C shot t (n + 1) none → Runs C shot t U I (R t)) :
    Runs C shot s (emit n pend ++ U) (r :: I) (feed env s (.imu r.1 r.2.1 r.2.2) >>= R) := by
  obtain ⟨a1, a2⟩ := feed_imu hst h0 h hp r
  by_cases hbad : s.initialized = true ∧ pend.isSome = true ∧ n + 1 < 5
  · obtain ⟨b1, b2, b3⟩ := hbad
    refine ⟨fun hall => ?_, fun _ => by rw [a1 b1 b2 b3]; rfl⟩
    exfalso
    obtain ⟨p, rfl⟩ := Option.isSome_iff_exists.1 b2
    have := hall (n + 1, p) (by
      rw [b1]
      simp [later, emit, h.init b1])
    simp only at this
    omega
  · obtain ⟨t, e, ht, e1, e2, e3, e4⟩ := a2 (fun x y => by
      by_contra hc
      exact hbad ⟨x, y, by omega⟩)
    rw [e, AprilGrid.ok_bind]
    obtain ⟨r1, r2⟩ := hR t ht
    have hlater : ∀ u, u ∈ later t.initialized U → u ∈ later s.initialized (emit n pend ++ U) := by
      intro u hu
      unfold later at hu ⊢
      cases hi : s.initialized with
      | true =>
        rw [e3, hi, Bool.true_or, if_pos rfl] at hu
        rw [if_pos rfl]
        exact List.mem_append_right _ hu
      | false =>
        rw [e3, hi, Bool.false_or] at hu
        rw [if_neg (by simp)]
        cases pend with
        | none => simpa [emit] using hu
        | some p =>
          by_cases h2 : 2 ≤ n
          · simpa [emit, h2] using hu
          · simpa [emit, h2] using hu
    have hback : ∀ u, u ∈ later s.initialized (emit n pend ++ U) → u.1 < 5 → u ∈ later t.initialized U := by
      intro u hu h5
      unfold later at hu ⊢
      cases hi : s.initialized with
      | true =>
        rw [e3, hi, Bool.true_or, if_pos rfl]
        rw [hi, if_pos rfl] at hu
        rcases List.mem_append.1 hu with hu | hu
        · exfalso
          cases pend with
          | none => simp [emit] at hu
          | some p =>
            rw [emit, if_pos (h.init hi), List.mem_singleton] at hu
            rw [hu] at h5
            exact hbad ⟨hi, rfl, h5⟩
        · exact hu
      | false =>
        rw [e3, hi, Bool.false_or]
        rw [hi, if_neg (by simp)] at hu
        cases pend with
        | none => simpa [emit] using hu
        | some p =>
          by_cases h2 : 2 ≤ n
          · simpa [emit, h2] using hu
          · simpa [emit, h2] using hu
    refine ⟨fun hall => ?_, fun ⟨u, hu, h5⟩ => r2 ⟨u, hback u hu h5, h5⟩⟩
    obtain ⟨t', n', p', k1, k2, k3, k4, k5⟩ := r1 (fun u hu => hall u (hlater u hu))
    refine ⟨t', n', p', k1, k2, by rw [k3, e1]; rfl, k4.trans e2, ?_⟩
    rw [k5, e4, List.map_append, List.append_assoc]

theorem run_weave {env : VEnv K D} {C : List ℤ} {shot : ℤ → ℤ → Grid K} (hst : ∀ c t, (shot c t).timestamp = t)
    (h0 : (0 : ℤ) ∈ C) (hC : C.Pairwise (· < ·)) (F : List ℤ) (I : List (ℤ × D × D))
    (hF : ∀ f ∈ F, Clear env C shot f) (s : St K D) (n : ℕ) (pend : Option ℤ) (h : Calm C shot s n pend)
    (hp : ∀ p, pend = some p → Clear env C shot p) :
    Runs C shot s (useOf F (I.map Prod.fst) n pend) I
      ((weave C shot F I).foldlM (fun s p => feed env s p.2) s) := by
  have hne : C ≠ [] := by rintro rfl; cases h0
  fun_induction weave C shot F I generalizing s n pend with
  | case1 F =>
    rw [List.map_nil, useOf_nil]
    refine ⟨fun _ => ?_, by rw [later_nil]; rintro ⟨u, hu, -⟩; cases hu⟩
    have key : ∀ (F : List ℤ) (s : St K D) (pend : Option ℤ), (∀ f ∈ F, Clear env C shot f) → Calm C shot s n pend →
        ∃ t n' pend', (F.flatMap (frameEvs C shot)).foldlM (fun s p => feed env s p.2) s = .ok t ∧
          Calm C shot t n' pend' ∧ t.imu = s.imu ∧ t.cams = s.cams ∧ t.views = s.views := by
      intro F
      induction F with
      | nil => intro s pend _ h; exact ⟨s, n, pend, rfl, h, rfl, rfl, rfl⟩
      | cons f F ih =>
        intro s pend hF h
        obtain ⟨t, e, ht, e1, e2, e3, e4⟩ := feed_frame (env := env) hC hne h f
        obtain ⟨t', n', p', e', ht', e1', e2', e3'⟩ := ih t _ (fun g hg => hF g (by simp [hg])) ht
        refine ⟨t', n', p', ?_, ht', by rw [e1', e1], by rw [e2', e2], by rw [e3', e4]⟩
        rw [List.flatMap_cons, List.foldlM_append, e]
        exact e'
    obtain ⟨t, n', p', k1, k2, k3, k4, k5⟩ := key F s pend hF h
    exact ⟨t, n', p', k1, k2, k3, k4, by rw [k5]; simp⟩
  | case2 r I =>
    have hstep : ∀ (I : List (ℤ × D × D)) (s : St K D) (n : ℕ) (pend : Option ℤ), Calm C shot s n pend →
        (∀ p, pend = some p → Clear env C shot p) →
        Runs C shot s (useOf [] (I.map Prod.fst) n pend) I
          ((I.map imuEv).foldlM (fun s p => feed env s p.2) s) := by
      intro I
      induction I with
      | nil =>
        intro s n pend h hp
        rw [List.map_nil, useOf_nil]
        exact ⟨fun _ => ⟨s, n, pend, rfl, h, rfl, rfl, by simp⟩,
          by rw [later_nil]; rintro ⟨u, hu, -⟩; cases hu⟩
      | cons r I ih =>
        intro s n pend h hp
        rw [List.map_cons, List.map_cons, List.foldlM_cons, useOf]
        exact runs_imu hst h0 h hp r _ I _ (fun t ht => ih t _ _ ht (by simp))
    exact hstep (r :: I) s n pend h hp
  | case3 f F r I hle ih =>
    rw [List.map_cons, List.foldlM_cons, useOf, if_pos hle]
    exact runs_imu hst h0 h hp r _ I _ (fun t ht => ih hF t _ _ ht (by simp))
  | case4 f F r I hle ih =>
    obtain ⟨t, e, ht, e1, e2, e3, e4⟩ := feed_frame (env := env) hC hne h f
    have hu : useOf (f :: F) ((r :: I).map Prod.fst) n pend =
        useOf F ((r :: I).map Prod.fst) n (if 0 < n then some f else none) := by
      rw [List.map_cons, useOf, if_neg hle]
    rw [hu, List.foldlM_append, e, AprilGrid.ok_bind]
    have := ih (fun g hg => hF g (by simp [hg])) t n _ ht (by
      intro p hp'
      split_ifs at hp' with hn
      · cases hp'; exact hF _ (by simp))
    unfold Runs at this ⊢
    rw [e1, e2, e3, e4] at this
    exact this

end Yac.Nbt

namespace Yac.Nbt

/-! ### Which frames are used -/

/-- The samples not after `f`. -/
def before (I : List ℤ) (f : ℤ) : ℕ := (I.filter fun t => decide (t ≤ f)).length

/-- A sample follows the frame before the next frame, and two samples precede it. -/
def Used (F I : List ℤ) (f : ℤ) : Prop :=
  2 ≤ before I f ∧ ∃ t ∈ I, f < t ∧ ∀ g ∈ F, f < g → t ≤ g

theorem before_cons_le {r f : ℤ} (I : List ℤ) (h : r ≤ f) : before (r :: I) f = before I f + 1 := by
  simp [before, h]

theorem before_cons_gt {r f : ℤ} (I : List ℤ) (h : ¬ r ≤ f) : before (r :: I) f = before I f := by
  simp [before, h]

theorem before_zero {I : List ℤ} {f : ℤ} (h : ∀ r ∈ I, f < r) : before I f = 0 := by
  unfold before
  rw [List.length_eq_zero_iff, List.filter_eq_nil_iff]
  intro r hr hh
  have := h r hr
  rw [decide_eq_true_eq] at hh
  omega

open Classical in
/-- `useOf` in closed form. -/
theorem useOf_eq (F I : List ℤ) (n : ℕ) (pend : Option ℤ) (hF : F.Pairwise (· < ·)) (hI : I.Pairwise (· < ·))
    (hp : ∀ p, pend = some p → (∀ r ∈ I, p < r) ∧ ∀ f ∈ F, p < f) :
    useOf F I n pend =
      (pend.toList.filter fun _ => decide (2 ≤ n ∧ ∃ t ∈ I, ∀ g ∈ F, t ≤ g)).map (fun p => (n + 1, p)) ++
      (F.filter fun f => decide (2 ≤ n + before I f ∧ (0 < n + before I f) ∧
        ∃ t ∈ I, f < t ∧ ∀ g ∈ F, f < g → t ≤ g)).map
        (fun f => (n + before I f + 1, f)) := by
  fun_induction useOf F I n pend with
  | case1 F n pend => simp
  | case2 r I n pend ih =>
    rw [ih hF (List.pairwise_cons.1 hI).2 (by simp)]
    cases pend with
    | none => simp [emit]
    | some p => by_cases h2 : 2 ≤ n <;> simp [emit, h2]
  | case3 f F r I n pend hle ih =>
    obtain ⟨i1, i2⟩ := List.pairwise_cons.1 hI
    obtain ⟨f1, f2⟩ := List.pairwise_cons.1 hF
    rw [ih hF i2 (by simp)]
    have hrF : ∀ g ∈ f :: F, r ≤ g := by
      intro g hg
      rcases List.mem_cons.1 hg with rfl | hg
      · exact hle
      · have := f1 g hg; omega
    congr 1
    · cases pend with
      | none => simp [emit]
      | some p =>
        by_cases h2 : 2 ≤ n
        · have : ∃ t ∈ r :: I, ∀ g ∈ f :: F, t ≤ g := ⟨r, by simp, hrF⟩
          simp only [emit, if_pos h2, Option.toList_some]
          rw [List.filter_cons, if_pos (by simpa using ⟨h2, by simpa using this⟩)]
          simp
        · simp [emit, h2]
    · simp only [Option.toList_none, List.filter_nil, List.map_nil, List.nil_append]
      have hb : ∀ g ∈ f :: F, n + 1 + before I g = n + before (r :: I) g := by
        intro g hg
        rw [before_cons_le I (hrF g hg)]; omega
      have hcond : ∀ g ∈ f :: F, (∃ t ∈ I, g < t ∧ ∀ g' ∈ f :: F, g < g' → t ≤ g') ↔
          ∃ t ∈ r :: I, g < t ∧ ∀ g' ∈ f :: F, g < g' → t ≤ g' := by
        intro g hg
        constructor
        · rintro ⟨t, ht, h⟩; exact ⟨t, by simp [ht], h⟩
        · rintro ⟨t, ht, h1, h2⟩
          rcases List.mem_cons.1 ht with rfl | ht
          · have := hrF g hg; omega
          · exact ⟨t, ht, h1, h2⟩
      rw [List.filter_congr (q := fun g => decide (2 ≤ n + before (r :: I) g ∧ (0 < n + before (r :: I) g) ∧
        ∃ t ∈ r :: I, g < t ∧ ∀ g' ∈ f :: F, g < g' → t ≤ g'))
        (fun g hg => by rw [hb g hg]; simp only [hcond g hg])]
      refine List.map_congr_left (fun g hg => ?_)
      rw [hb g (List.mem_of_mem_filter hg)]
  | case4 f F r I n pend hle ih =>
    simp only [dite_eq_ite] at ih
    obtain ⟨i1, i2⟩ := List.pairwise_cons.1 hI
    obtain ⟨f1, f2⟩ := List.pairwise_cons.1 hF
    have hfr : ∀ t ∈ r :: I, f < t := by
      intro t ht
      rcases List.mem_cons.1 ht with rfl | ht
      · omega
      · have := i1 t ht; omega
    rw [ih f2 hI (by
      intro p hp'
      split_ifs at hp' with hn
      · cases hp'; exact ⟨hfr, f1⟩)]
    have hpend : (pend.toList.filter fun _ => decide (2 ≤ n ∧ ∃ t ∈ r :: I, ∀ g ∈ f :: F, t ≤ g)) = [] := by
      rw [List.filter_eq_nil_iff]
      intro p _ hh
      rw [decide_eq_true_eq] at hh
      obtain ⟨-, t, ht, h⟩ := hh
      have := hfr t ht
      have := h f (by simp)
      omega
    rw [hpend, List.map_nil, List.nil_append]
    have hb0 : before (r :: I) f = 0 := before_zero hfr
    have hrest : ∀ g ∈ F, (∃ t ∈ r :: I, g < t ∧ ∀ g' ∈ F, g < g' → t ≤ g') ↔
        ∃ t ∈ r :: I, g < t ∧ ∀ g' ∈ f :: F, g < g' → t ≤ g' := by
      intro g hg
      constructor
      · rintro ⟨t, ht, h1, h2⟩
        refine ⟨t, ht, h1, fun g' hg' hlt => ?_⟩
        rcases List.mem_cons.1 hg' with rfl | hg'
        · have := f1 g hg; omega
        · exact h2 g' hg' hlt
      · rintro ⟨t, ht, h1, h2⟩
        exact ⟨t, ht, h1, fun g' hg' hlt => h2 g' (by simp [hg']) hlt⟩
    have hF' : (F.filter fun g => decide (2 ≤ n + before (r :: I) g ∧ (0 < n + before (r :: I) g) ∧
          ∃ t ∈ r :: I, g < t ∧ ∀ g' ∈ F, g < g' → t ≤ g')) =
        F.filter fun g => decide (2 ≤ n + before (r :: I) g ∧ (0 < n + before (r :: I) g) ∧
          ∃ t ∈ r :: I, g < t ∧ ∀ g' ∈ f :: F, g < g' → t ≤ g') :=
      List.filter_congr (fun g hg => by simp only [hrest g hg])
    rw [hF', List.filter_cons]
    have hfc : (∃ t ∈ r :: I, f < t ∧ ∀ g' ∈ f :: F, f < g' → t ≤ g') ↔ ∃ t ∈ r :: I, ∀ g ∈ F, t ≤ g := by
      constructor
      · rintro ⟨t, ht, h1, h2⟩
        exact ⟨t, ht, fun g hg => h2 g (by simp [hg]) (f1 g hg)⟩
      · rintro ⟨t, ht, h2⟩
        refine ⟨t, ht, hfr t ht, fun g hg hlt => ?_⟩
        rcases List.mem_cons.1 hg with rfl | hg
        · omega
        · exact h2 g hg
    rw [hb0]
    by_cases hn : 2 ≤ n
    · have h0n : 0 < n := by omega
      rw [if_pos h0n]
      by_cases hx : ∃ t ∈ r :: I, ∀ g ∈ F, t ≤ g
      · rw [if_pos (by simpa using ⟨hn, h0n, by simpa using hfc.2 hx⟩)]
        simp only [Option.toList_some, List.filter_cons, List.filter_nil]
        rw [if_pos (by simpa using ⟨hn, by simpa using hx⟩)]
        simp [hb0]
      · rw [if_neg (by
          rw [decide_eq_true_eq]
          rintro ⟨-, -, h⟩
          exact hx (hfc.1 h))]
        simp only [Option.toList_some, List.filter_cons, List.filter_nil]
        rw [if_neg (by
          rw [decide_eq_true_eq]
          rintro ⟨-, h⟩
          exact hx h)]
        simp
    · have : ∀ o : Option ℤ, (o.toList.filter fun _ => decide (2 ≤ n ∧ ∃ t ∈ r :: I, ∀ g ∈ F, t ≤ g)) = [] := by
        intro o
        rw [List.filter_eq_nil_iff]
        intro p _ hh
        rw [decide_eq_true_eq] at hh
        exact hn hh.1
      rw [this, List.map_nil, List.nil_append]
      congr 1
      rw [if_neg (by
          rw [decide_eq_true_eq]
          rintro ⟨h, -⟩
          omega)]

end Yac.Nbt
