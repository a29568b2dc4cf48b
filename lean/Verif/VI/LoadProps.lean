import Verif.VI.LoadLemmas
import Verif.VI.Witness

/-!
# C118: `load_data` of the visual-inertial calibrator
-/

namespace Yac.VI

open Yac.AprilGrid (Grid)

variable {K D : Type} [DecidableEq K]

/-- C118, order: the measurements are handed over in the order of their timestamps; at the same
timestamp grids come before IMU samples and grids in the order of the cameras (the order in which they
were entered). -/
theorem C118_order (env : VEnv K D) (d : LoadIn K D) (s : St K D) :
    ∃ l : List (Int × Ev K D), loadData env d s = (l.map Prod.snd).foldlM (feed env) s ∧
      l.Perm (entries (s.cams.map Prod.fst) d) ∧ l.Pairwise (fun a b => a.1 ≤ b.1) ∧
      ∀ ts, l.filter (fun p => decide (p.1 = ts)) =
        (entries (s.cams.map Prod.fst) d).filter (fun p => decide (p.1 = ts)) := by
  set es := entries (s.cams.map Prod.fst) d with hes
  have key : ∀ (T : List Int) (s : St K D), T.foldlM (feedAt env (Timeline.run es)) s =
      ((T.flatMap (Timeline.equalRange (Timeline.run es))).map Prod.snd).foldlM (feed env) s := by
    intro T
    induction T with
    | nil => intro s; rfl
    | cons t T ih =>
      intro s
      rw [List.foldlM_cons, List.flatMap_cons, List.map_append, List.foldlM_append]
      unfold feedAt Timeline.getEvents
      cases ((Timeline.equalRange (Timeline.run es) t).map Prod.snd).foldlM (feed env) s with
      | error e => rfl
      | ok u => exact ih u
  obtain ⟨h1, h2, h3, h4⟩ := Timeline.run_inv es
  have hr : ∀ t, Timeline.equalRange (Timeline.run es) t = es.filter (fun p => decide (p.1 = t)) := by
    intro t
    rw [Timeline.equalRange, Timeline.range_filter _ _ h1, h4]
  have hfl : ∀ ts, ((Timeline.run es).timestamps.flatMap (Timeline.equalRange (Timeline.run es))).filter
      (fun p => decide (p.1 = ts)) = es.filter (fun p => decide (p.1 = ts)) := by
    intro ts
    have hgen : ∀ T : List Int, T.Nodup →
        (T.flatMap (Timeline.equalRange (Timeline.run es))).filter (fun p => decide (p.1 = ts)) =
          if ts ∈ T then es.filter (fun p => decide (p.1 = ts)) else [] := by
      intro T
      induction T with
      | nil => intro _; rfl
      | cons t T ih =>
        intro hn
        obtain ⟨n1, n2⟩ := List.nodup_cons.1 hn
        rw [List.flatMap_cons, List.filter_append, ih n2, hr, List.filter_filter]
        by_cases ht : t = ts
        · subst ht
          rw [if_neg n1, if_pos (by simp), List.append_nil]
          refine List.filter_congr (fun p _ => ?_)
          simp
        · have : es.filter (fun a => decide (a.1 = ts) && decide (a.1 = t)) = [] := by
            rw [List.filter_eq_nil_iff]
            intro a _ hh
            simp only [Bool.and_eq_true, decide_eq_true_eq] at hh
            exact ht (hh.2.symm.trans hh.1)
          rw [this, List.nil_append]
          simp [Ne.symm ht]
    rw [hgen _ (h2.imp (fun h => ne_of_lt h))]
    by_cases hm : ts ∈ (Timeline.run es).timestamps
    · rw [if_pos hm]
    · rw [if_neg hm]
      symm
      rw [List.filter_eq_nil_iff]
      intro p hp hh
      rw [decide_eq_true_eq] at hh
      exact hm ((h3 ts).2 (List.mem_map.2 ⟨p, hp, hh⟩))
  refine ⟨_, key _ s, ?_, ?_, hfl⟩
  · classical
    rw [List.perm_iff_count]
    intro a
    have hc : ∀ l : List (Int × Ev K D), l.count a = (l.filter (fun p => decide (p.1 = a.1))).count a := by
      intro l
      rw [List.count_filter]
      simp
    rw [hc, hfl, ← hc]
  · have hgen : ∀ T : List Int, T.Pairwise (· < ·) →
        (T.flatMap (Timeline.equalRange (Timeline.run es))).Pairwise (fun a b => a.1 ≤ b.1) := by
      intro T hT
      rw [List.pairwise_flatMap]
      refine ⟨?_, ?_⟩
      · intro t _
        rw [hr]
        refine List.Pairwise.imp_of_mem (R := fun _ _ => True) ?_ (by simp [List.pairwise_iff_getElem])
        intro a b ha hb _
        have h1 := (List.mem_filter.1 ha).2
        have h2 := (List.mem_filter.1 hb).2
        rw [decide_eq_true_eq] at h1 h2
        omega
      · refine hT.imp ?_
        intro t u htu a ha b hb
        rw [hr] at ha hb
        have h1 := (List.mem_filter.1 ha).2
        have h2 := (List.mem_filter.1 hb).2
        rw [decide_eq_true_eq] at h1 h2
        omega
    exact hgen _ h2

/-- C118, frames: if all cameras have grids at the same times, in whatever order the threads of the
preprocessing returned them, every IMU sample is buffered and then the newest frame since the previous
sample is processed; frames before the first sample are dropped, and the newest frame after the last
one waits in the buffer. -/
theorem C118_frames (env : VEnv K D) {d : LoadIn K D} {F : List Int} {shot : Int → Int → Grid K} {s : St K D}
    (h : Sync (s.cams.map Prod.fst) d F shot) (hc : s.cams ≠ []) (hs : SMap.Sorted s.cams)
    (hb : s.gridBuf = []) (hi : s.imuStarted = false) :
    loadData env d s = d.imu.foldlM (sample env F (frame (s.cams.map Prod.fst) shot)) (s, none) >>= fun q =>
      .ok (pending F (frame (s.cams.map Prod.fst) shot) q) := by
  have hc' : s.cams.map Prod.fst ≠ [] := by simpa using hc
  have hcs : (s.cams.map Prod.fst).Pairwise (· < ·) := by
    rw [List.pairwise_map]; exact hs
  have hk : Known (s.cams.map Prod.fst) (s, none) := ⟨hb, rfl, hi⟩
  unfold loadData
  rw [replay_prefix env h hc' hcs hk _ [] (List.append_nil _).symm]
  have hall : d.imu.filter (fun r => decide (r.1 ∈ (Timeline.run (entries (s.cams.map Prod.fst) d)).timestamps)) =
      d.imu := by
    rw [List.filter_eq_self]
    intro r hr
    rw [decide_eq_true_eq, h.stamps hc']
    exact Or.inr ⟨r, hr, rfl⟩
  rw [hall]
  congr 1
  funext q
  congr 1
  unfold pendIn pending
  have hf : ∀ lo, F.filter (fun f => decide (f ∈ (Timeline.run (entries (s.cams.map Prod.fst) d)).timestamps) &&
      decide (lo < f)) = F.filter (fun f => decide (lo < f)) := by
    intro lo
    refine List.filter_congr (fun f hf => ?_)
    have : f ∈ (Timeline.run (entries (s.cams.map Prod.fst) d)).timestamps := (h.stamps hc' f).2 (Or.inl hf)
    simp [this]
  simp only [hf]
  rfl

/-! ## The views -/

/-- The frames that are processed, each with the number of samples buffered by then. -/
def uses (F : List Int) : Nat → Option Int → List Int → List (Nat × Int)
  | _, _, [] => []
  | n, last, t :: ts =>
    (match last.bind (fun lo => newest F lo t) with
    | none => []
    | some f => [(n + 1, f)]) ++ uses F (n + 1) (some t) ts

/-- Some camera saw the target. -/
def seenIn (cams : List Int) (shot : Int → Int → Grid K) (f : Int) : Bool := cams.any (fun c => (shot c f).detected)

theorem newest_some {F : List Int} (hF : F.Pairwise (· < ·)) {lo hi f : Int} :
    newest F lo hi = some f ↔ f ∈ F ∧ lo < f ∧ f ≤ hi ∧ ∀ f' ∈ F, f < f' → hi < f' := by
  unfold newest
  constructor
  · intro h
    have hm := List.mem_of_getLast? h
    rw [List.mem_filter, decide_eq_true_eq] at hm
    refine ⟨hm.1, hm.2.1, hm.2.2, fun f' hf' hlt => ?_⟩
    by_contra hle
    have hm' : f' ∈ F.filter (fun f => decide (lo < f ∧ f ≤ hi)) := by
      rw [List.mem_filter, decide_eq_true_eq]
      exact ⟨hf', by omega, by omega⟩
    obtain ⟨l, hl⟩ := List.getLast?_eq_some_iff.1 h
    have hp := hF.filter (fun f => decide (lo < f ∧ f ≤ hi))
    rw [hl] at hp hm'
    rcases List.mem_append.1 hm' with hh | hh
    · have := (List.pairwise_append.1 hp).2.2 f' hh f (by simp)
      omega
    · rw [List.mem_singleton] at hh; omega
  · rintro ⟨h1, h2, h3, h4⟩
    have hm : f ∈ F.filter (fun f => decide (lo < f ∧ f ≤ hi)) := by
      rw [List.mem_filter, decide_eq_true_eq]; exact ⟨h1, h2, h3⟩
    cases hg : (F.filter (fun f => decide (lo < f ∧ f ≤ hi))).getLast? with
    | none => rw [List.getLast?_eq_none_iff] at hg; rw [hg] at hm; simp at hm
    | some x =>
      obtain ⟨l, hl⟩ := List.getLast?_eq_some_iff.1 hg
      have hx : x ∈ F.filter (fun f => decide (lo < f ∧ f ≤ hi)) := List.mem_of_getLast? hg
      have hp := hF.filter (fun f => decide (lo < f ∧ f ≤ hi))
      rw [List.mem_filter, decide_eq_true_eq] at hx
      rw [hl] at hm hp
      rcases List.mem_append.1 hm with hh | hh
      · have := (List.pairwise_append.1 hp).2.2 f hh x (by simp)
        have := h4 x hx.1 this
        omega
      · rw [List.mem_singleton] at hh; rw [hh]

theorem uses_some {F : List Int} (hF : F.Pairwise (· < ·)) (f : Int) : ∀ (ts : List Int) (n : Nat) (lo : Int),
    ts.Pairwise (· ≤ ·) → (∀ t ∈ ts, lo ≤ t) →
    ((∃ k, (k, f) ∈ uses F n (some lo) ts) ↔
      f ∈ F ∧ lo < f ∧ ∃ t ∈ ts, f ≤ t ∧ ∀ f' ∈ F, f < f' → t < f')
  | [], n, lo, _, _ => by simp [uses]
  | t :: ts, n, lo, h, hlo => by
    obtain ⟨h1, h2⟩ := List.pairwise_cons.1 h
    have ih := uses_some hF f ts (n + 1) t h2 h1
    have hstep : (∃ k, (k, f) ∈ uses F n (some lo) (t :: ts)) ↔
        newest F lo t = some f ∨ ∃ k, (k, f) ∈ uses F (n + 1) (some t) ts := by
      simp only [uses, Option.bind_some, List.mem_append]
      cases newest F lo t with
      | none => simp
      | some x =>
        simp only [List.mem_singleton, Prod.mk.injEq, Option.some.injEq]
        constructor
        · rintro ⟨k, ⟨-, e⟩ | e⟩
          · exact Or.inl e.symm
          · exact Or.inr ⟨k, e⟩
        · rintro (e | ⟨k, e⟩)
          · exact ⟨n + 1, Or.inl ⟨rfl, e.symm⟩⟩
          · exact ⟨k, Or.inr e⟩
    rw [hstep, ih, newest_some hF]
    have hlt := hlo t (by simp)
    constructor
    · rintro (⟨a, b, c, e⟩ | ⟨a, b, u, hu, c, e⟩)
      · exact ⟨a, b, t, by simp, c, e⟩
      · exact ⟨a, by omega, u, by simp [hu], c, e⟩
    · rintro ⟨a, b, u, hu, c, e⟩
      rcases List.mem_cons.1 hu with rfl | hu
      · exact Or.inl ⟨a, b, c, e⟩
      · by_cases hf : f ≤ t
        · refine Or.inl ⟨a, b, hf, fun f' hf' hlt => lt_of_le_of_lt (h1 u hu) (e f' hf' hlt)⟩
        · exact Or.inr ⟨a, by omega, u, hu, c, e⟩

/-- C118, which frames: a frame is processed if and only if there is a sample before it, and one at or
after it with no newer frame in between. -/
theorem C118_uses {F : List Int} (hF : F.Pairwise (· < ·)) (f : Int) (ts : List Int) (h : ts.Pairwise (· ≤ ·)) :
    (∃ k, (k, f) ∈ uses F 0 none ts) ↔
      f ∈ F ∧ (∃ t ∈ ts, t < f) ∧ ∃ t ∈ ts, f ≤ t ∧ ∀ f' ∈ F, f < f' → t < f' := by
  cases ts with
  | nil => simp [uses]
  | cons t ts =>
    obtain ⟨h1, h2⟩ := List.pairwise_cons.1 h
    have : uses F 0 none (t :: ts) = uses F 1 (some t) ts := rfl
    rw [this, uses_some hF f ts 1 t h2 h1]
    constructor
    · rintro ⟨a, b, u, hu, c⟩
      exact ⟨a, ⟨t, by simp, b⟩, u, by simp [hu], c⟩
    · rintro ⟨a, ⟨u, hu, b⟩, v, hv, c, e⟩
      have hb : t < f := by
        rcases List.mem_cons.1 hu with rfl | hu
        · exact b
        · have := h1 u hu; omega
      refine ⟨a, hb, ?_⟩
      rcases List.mem_cons.1 hv with rfl | hv
      · omega
      · exact ⟨v, hv, c, e⟩

/-- Time and grids of a view. -/
def tg (v : View K) : Int × List (Int × Grid K) := (v.ts, v.grids)

theorem firstDetected_frame {cams : List Int} {shot : Int → Int → Grid K} (hst : ∀ c t, (shot c t).timestamp = t)
    (f : Int) : (seenIn cams shot f = true → ∃ cg, firstDetected (frame cams shot f) = some cg ∧ cg.2.timestamp = f) ∧
    (seenIn cams shot f = false → firstDetected (frame cams shot f) = none) := by
  unfold firstDetected
  constructor
  · intro h
    cases hf : (frame cams shot f).find? (fun cg => cg.2.detected) with
    | none =>
      rw [List.find?_eq_none] at hf
      unfold seenIn at h
      obtain ⟨c, h1, h2⟩ := List.any_eq_true.1 h
      exact absurd h2 (hf (c, shot c f) (List.mem_map.2 ⟨c, h1, rfl⟩))
    | some cg =>
      obtain ⟨c, h1, rfl⟩ := List.mem_map.1 (List.mem_of_find?_eq_some hf)
      exact ⟨_, rfl, hst c f⟩
  · intro h
    rw [List.find?_eq_none]
    intro cg hcg hd
    obtain ⟨c, h1, rfl⟩ := List.mem_map.1 hcg
    unfold seenIn at h
    rw [List.any_eq_false] at h
    exact h c h1 hd

/-- Processing a frame without marginalisation. -/
theorem process_frame {env : VEnv K D} {cams : List Int} {shot : Int → Int → Grid K}
    (hst : ∀ c t, (shot c t).timestamp = t) {s t : St K D} {f : Int} {b : Bool} (hm : s.enableMarg = false)
    (h : process env s (frame cams shot f) = .ok (t, b)) :
    t.enableMarg = false ∧ t.imu = s.imu ∧
    (s.initialized = false → if 2 < s.imu.size ∧ seenIn cams shot f = true then
        t.initialized = true ∧ t.views.map tg = s.views.map tg ++ [(f, frame cams shot f)]
      else t.initialized = false ∧ t.views = s.views) ∧
    (s.initialized = true → t.initialized = true ∧ t.views.map tg = s.views.map tg ++
      if seenIn cams shot f = true then [(f, frame cams shot f)] else []) := by
  have hslide : ∀ u v : St K D, u.enableMarg = false → slide u = .ok v → v = u := by
    intro u v hu hh
    unfold slide at hh
    rw [if_neg (by simp [hu]), Except.ok.injEq] at hh
    exact hh.symm
  unfold process at h
  by_cases hc : s.initialized = false ∧ s.imu.size > 2 ∧ (firstDetected (frame cams shot f)).isSome
  · rw [if_pos hc] at h
    obtain ⟨s1, h1, h2⟩ := bindOk h
    simp only [Except.ok.injEq, Prod.mk.injEq] at h2
    obtain ⟨rfl, -⟩ := h2
    obtain ⟨g, t', hg, hd, -, -, h3, rfl⟩ := initVI_eq h1
    obtain ⟨fids, n, p, hn, -, rfl⟩ := newView_eq h3
    have hsee : seenIn cams shot f = true := by
      by_contra hh
      have := (firstDetected_frame (cams := cams) hst f).2 (by simpa using hh)
      rw [this] at hc; simp at hc
    have hgt : g.timestamp = f := by
      obtain ⟨c, _, e⟩ := List.mem_map.1 (find_mem hg)
      injection e with e1 e2
      rw [← e2]; exact hst c f
    refine ⟨hm, rfl, fun _ => ?_, fun hi => ?_⟩
    · rw [if_pos ⟨hc.2.1, hsee⟩]
      refine ⟨rfl, ?_⟩
      simp only [List.map_append, List.map_cons, List.map_nil, tg, hgt]
    · rw [hc.1] at hi; cases hi
  · rw [if_neg hc] at h
    obtain ⟨s1, h1, h2⟩ := bindOk h
    obtain ⟨s2, h3, h4⟩ := bindOk h2
    simp only [Except.ok.injEq, Prod.mk.injEq] at h4
    obtain ⟨rfl, -⟩ := h4
    rcases addView_eq h1 with ⟨rfl, hno⟩ | ⟨cg, u1, u2, hi, hd, hne, b1, -, b2, b3⟩
    · have e := hslide _ _ hm h3
      subst e
      refine ⟨hm, rfl, fun hi => ?_, fun hi => ⟨hi, ?_⟩⟩
      · rw [if_neg ?_]
        · exact ⟨hi, rfl⟩
        · rintro ⟨a1, a2⟩
          obtain ⟨cg, e, -⟩ := (firstDetected_frame (cams := cams) hst f).1 a2
          exact hc ⟨hi, a1, by rw [e]; rfl⟩
      · rcases hno with hno | hno
        · rw [hi] at hno; cases hno
        · rw [if_neg ?_, List.append_nil]
          intro hh
          obtain ⟨cg, e, -⟩ := (firstDetected_frame (cams := cams) hst f).1 hh
          rw [e] at hno; cases hno
    · obtain ⟨fids, n, p, hn, -, rfl⟩ := newView_eq b1
      obtain ⟨l, vj, hl⟩ := list_concat_of_ne hne
      obtain ⟨out, -, rfl⟩ := linkViews_eq (l := l) (vj := vj)
        (vk := ⟨s.next, cg.2.timestamp, frame cams shot f, fids, none⟩) (by simp [hl]) b2
      have hb3 : s1 = { s with
          counter := s.counter + 1, prob := out.2, next := n + 1,
          views := l ++ [{ vj with imu := some ⟨n, vj.num, s.next⟩ },
            ⟨s.next, cg.2.timestamp, frame cams shot f, fids, none⟩] } := by
        unfold trimImu at b3
        rw [if_neg (by simp [hm]), Except.ok.injEq] at b3
        rw [← b3]
      have e := hslide s1 _ (by rw [hb3]; exact hm) h3
      subst e
      have hsee : seenIn cams shot f = true := by
        by_contra hh
        have := (firstDetected_frame (cams := cams) hst f).2 (by simpa using hh)
        rw [this] at hd; cases hd
      have hgt : cg.2.timestamp = f := by
        obtain ⟨cg', e, e'⟩ := (firstDetected_frame (cams := cams) hst f).1 hsee
        rw [e, Option.some.injEq] at hd
        rw [← hd]; exact e'
      refine ⟨by rw [hb3]; exact hm, by rw [hb3], fun h => (by rw [h] at hi; cases hi), fun _ => ⟨by rw [hb3]; exact hi, ?_⟩⟩
      rw [if_pos hsee, hb3, hl]
      simp only [List.map_append, List.map_cons, List.map_nil, tg, hgt, List.append_assoc, List.cons_append,
        List.nil_append]

theorem samples_views {env : VEnv K D} {F cams : List Int} {shot : Int → Int → Grid K}
    (hst : ∀ c t, (shot c t).timestamp = t) : ∀ (rs : List (Int × D × D)) (p q : St K D × Option Int) (n : Nat),
    p.1.enableMarg = false → p.1.imu.size = n → rs.foldlM (sample env F (frame cams shot)) p = .ok q →
    (p.1.initialized = true → q.1.views.map tg = p.1.views.map tg ++
      (((uses F n p.2 (rs.map Prod.fst)).map Prod.snd).filter (seenIn cams shot)).map
        (fun f => (f, frame cams shot f))) ∧
    (p.1.initialized = false → q.1.views.map tg = p.1.views.map tg ++
      ((((uses F n p.2 (rs.map Prod.fst)).dropWhile (fun u => !(decide (2 < u.1) && seenIn cams shot u.2))).map
        Prod.snd).filter (seenIn cams shot)).map (fun f => (f, frame cams shot f)))
  | [], p, q, n, hm, hn, h => by
    rw [List.foldlM_nil, AprilGrid.pure_eq_ok, Except.ok.injEq] at h
    subst h
    simp [uses]
  | r :: rs, p, q, n, hm, hn, h => by
    rw [List.foldlM_cons] at h
    obtain ⟨p1, h1, h2⟩ := bindOk h
    have hsz : (p.1.imu.add r.1 r.2.1 r.2.2).size = n + 1 := by
      simp only [Stream.Imu.size, Stream.Imu.add, List.length_append, List.length_singleton] at hn ⊢
      omega
    unfold sample at h1
    rw [List.map_cons, uses]
    cases hb : p.2.bind (fun lo => newest F lo r.1) with
    | none =>
      rw [hb] at h1
      simp only [Except.ok.injEq] at h1
      subst h1
      have ih := samples_views hst rs ({ p.1 with imu := p.1.imu.add r.1 r.2.1 r.2.2, imuStarted := true }, some r.1) q
        (n + 1) hm hsz h2
      simp only [List.nil_append]
      exact ih
    | some f =>
      rw [hb] at h1
      obtain ⟨⟨t, b⟩, h3, h4⟩ := bindOk h1
      rw [Except.ok.injEq] at h4
      subst h4
      obtain ⟨a1, a2, a3, a4⟩ := process_frame (s := { p.1 with
        imu := p.1.imu.add r.1 r.2.1 r.2.2, imuStarted := true, visionStarted := true }) hst hm h3
      obtain ⟨i1, i2⟩ := samples_views hst rs (t, some r.1) q (n + 1) a1 (by rw [a2]; exact hsz) h2
      simp only at a3 a4 i1 i2
      rw [hsz] at a3
      constructor
      · intro hi
        obtain ⟨b1, b2⟩ := a4 hi
        rw [i1 b1, b2]
        by_cases hs : seenIn cams shot f = true
        · simp [hs]
        · simp [hs]
      · intro hi
        have a3 := a3 hi
        by_cases hc : 2 < n + 1 ∧ seenIn cams shot f = true
        · rw [if_pos hc] at a3
          rw [i1 a3.1, a3.2]
          simp [hc.1, hc.2]
        · rw [if_neg hc] at a3
          rw [i2 a3.1, a3.2]
          have : (!(decide (2 < n + 1) && seenIn cams shot f)) = true := by
            rw [Bool.not_eq_true', Bool.and_eq_false_iff]
            by_contra hh
            rw [not_or] at hh
            exact hc ⟨of_decide_eq_true (by simpa only [Bool.not_eq_false] using hh.1), by simpa using hh.2⟩
          simp only [List.singleton_append, List.dropWhile_cons, this, if_true]

/-- C118, views: without marginalisation, the views of a calibrator that had no data are, in order, the
processed frames in which some camera saw the target, from the first one of these with three samples
before; each consists of the grids of all cameras at its time. -/
theorem C118_views (env : VEnv K D) {d : LoadIn K D} {F : List Int} {shot : Int → Int → Grid K} {s t : St K D}
    (h : Sync (s.cams.map Prod.fst) d F shot) (hc : s.cams ≠ []) (hs : SMap.Sorted s.cams)
    (hb : s.gridBuf = []) (hi : s.imuStarted = false) (h0 : s.initialized = false) (h1 : s.views = [])
    (h2 : s.imu.size = 0) (hm : s.enableMarg = false) (ht : loadData env d s = .ok t) :
    t.views.map tg = ((((uses F 0 none (d.imu.map Prod.fst)).dropWhile
        (fun u => !(decide (2 < u.1) && seenIn (s.cams.map Prod.fst) shot u.2))).map Prod.snd).filter
      (seenIn (s.cams.map Prod.fst) shot)).map (fun f => (f, frame (s.cams.map Prod.fst) shot f)) := by
  rw [C118_frames env h hc hs hb hi] at ht
  obtain ⟨q, e1, e2⟩ := bindOk ht
  rw [Except.ok.injEq] at e2
  have := (samples_views h.stamp d.imu (s, none) q 0 hm h2 e1).2 h0
  have hv : t.views = q.1.views := by
    rw [← e2]; unfold pending; split <;> rfl
  rw [hv, this, h1]
  rfl

/-- C118 refuted: grids of different cameras are put into one view although they were taken at different
times, if each camera lacks a grid at the time of the other. -/
theorem C118_unsynchronised_refuted (env : VEnv K D) (s : St K D) (f0 f1 : CamFlags) (g0 g1 : Grid K)
    (t0 t3 : Int) (a0 w0 a3 w3 : D) (hc : s.cams = [(0, f0), (1, f1)]) (hb : s.gridBuf = [])
    (h01 : t0 < g0.timestamp) (h12 : g0.timestamp < g1.timestamp) (h23 : g1.timestamp < t3) :
    loadData env ⟨fun c => if c = 0 then [g0] else [g1], [(t0, a0, w0), (t3, a3, w3)]⟩ s =
      process env { s with imu := (s.imu.add t0 a0 w0).add t3 a3 w3, imuStarted := true, visionStarted := true }
        [(0, g0), (1, g1)] >>= fun r => .ok r.1 := by
  obtain ⟨l, h1, h2, h3, h4⟩ := C118_order env
    (⟨fun c => if c = 0 then [g0] else [g1], [(t0, a0, w0), (t3, a3, w3)]⟩ : LoadIn K D) s
  have hes : entries (s.cams.map Prod.fst)
      (⟨fun c => if c = 0 then [g0] else [g1], [(t0, a0, w0), (t3, a3, w3)]⟩ : LoadIn K D) =
      [(g0.timestamp, .grid 0 g0), (g1.timestamp, .grid 1 g1), (t0, .imu t0 a0 w0), (t3, .imu t3 a3 w3)] := by
    rw [hc]; rfl
  rw [hes] at h2 h4
  have hl : l = [(t0, .imu t0 a0 w0), (g0.timestamp, .grid 0 g0), (g1.timestamp, .grid 1 g1), (t3, .imu t3 a3 w3)] := by
    refine List.Perm.eq_of_pairwise ?_ h3 (by simp; omega) (h2.trans ?_)
    · intro a b ha hb e1 e2
      rw [h2.mem_iff] at ha
      simp only [List.mem_cons, List.not_mem_nil, or_false] at ha hb
      rcases ha with rfl | rfl | rfl | rfl <;> rcases hb with rfl | rfl | rfl | rfl <;> first | rfl | (simp only at e1 e2; omega)
    · exact (List.perm_append_comm (l₁ := [(g0.timestamp, Ev.grid 0 g0), (g1.timestamp, Ev.grid 1 g1)])
        (l₂ := [(t0, Ev.imu t0 a0 w0)])).append_right [(t3, Ev.imu t3 a3 w3)]
  rw [h1, hl]
  simp only [List.map_cons, List.map_nil, List.foldlM_cons, List.foldlM_nil, feed, addImu, hb, hc,
    AprilGrid.ok_bind, addGrid, List.length_nil, List.length_cons]
  rw [if_pos (by decide)]
  simp only [AprilGrid.ok_bind]
  simp [SMap.set]

/-! ## The tables -/

/-- `fl` is exact for numbers with a mantissa of at most 53 bits. -/
def Double (fl : ℚ → ℚ) : Prop := ∀ m : ℤ, |m| ≤ 2 ^ 53 → ∀ e : ℕ, fl (m * 2 ^ e) = m * 2 ^ e

theorem toLong_int (n : ℤ) : toLong (n : ℚ) = n := by
  unfold toLong
  split_ifs
  · exact Int.floor_intCast n
  · exact Int.ceil_intCast n

/-- C118, timestamps: seconds and nanoseconds are put together exactly up to the year 2116. -/
theorem C118_tsform (fl : ℚ → ℚ) (h : Double fl) (sec nsec : ℤ) (hs : |sec| ≤ 4611686018) :
    tsform fl sec nsec = sec * 1000000000 + nsec := by
  unfold tsform
  have e : ((sec : ℚ) * 1000000000) = ((sec * 1953125 : ℤ) : ℚ) * 2 ^ 9 := by push_cast; ring
  have hb : |sec * 1953125| ≤ 2 ^ 53 := by
    rw [abs_mul]
    have : |(1953125 : ℤ)| = 1953125 := rfl
    rw [this]
    omega
  rw [e, h _ hb, ← e]
  have : ((sec : ℚ) * 1000000000) = ((sec * 1000000000 : ℤ) : ℚ) := by push_cast; ring
  rw [this, toLong_int]

/-- The last of the rows with a timestamp. -/
def lastOf {V : Type} (rows : List (Int × V)) (t : Int) : Option V :=
  ((rows.filter (fun r => decide (r.1 = t))).getLast?).map Prod.snd

/-- A row of the table as it is in the configuration. -/
def rowOf {V : Type} (cols : V → List ℚ) (r : (Int × Int) × V) : List ℚ := r.1.1 :: r.1.2 :: cols r.2

/-- C118, tables: the value of every view whose time is in the table becomes that of the last row with
that time, the other views keep theirs. -/
theorem C118_tables {V : Type} (fl : ℚ → ℚ) (h : Double fl) (val : List ℚ → Except Fault V) (cols : V → List ℚ)
    (hv : ∀ v, val (cols v) = .ok v) (rows : List ((Int × Int) × V)) (hr : ∀ r ∈ rows, |r.1.1| ≤ 4611686018)
    (vals : List (Int × V)) :
    loadTable fl val (some (rows.map (rowOf cols))) vals = .ok (vals.map (fun p => (p.1,
      (lastOf (rows.map (fun r => (r.1.1 * 1000000000 + r.1.2, r.2))) p.1).getD p.2))) ∧
    loadTable fl val none vals = .ok vals := by
  refine ⟨?_, rfl⟩
  have key : ∀ (rows : List ((Int × Int) × V)), (∀ r ∈ rows, |r.1.1| ≤ 4611686018) → ∀ m : List (Int × V),
      ∃ m', (rows.map (rowOf cols)).foldlM (addRow fl val) m = .ok m' ∧ ∀ t, SMap.find t m' =
        (lastOf (rows.map (fun r => (r.1.1 * 1000000000 + r.1.2, r.2))) t).or (SMap.find t m) := by
    intro rows
    induction rows with
    | nil => intro _ m; exact ⟨m, rfl, fun t => by simp [lastOf]⟩
    | cons r rows ih =>
      intro hr m
      have h1 : addRow fl val m (rowOf cols r) =
          .ok (SMap.set (r.1.1 * 1000000000 + r.1.2) r.2 m) := by
        unfold addRow rowOf rowStamp
        simp only [toLong_int]
        rw [C118_tsform fl h _ _ (hr r (by simp)), AprilGrid.ok_bind]
        show val (cols r.2) >>= _ = _
        rw [hv, AprilGrid.ok_bind]
      obtain ⟨m', h2, h3⟩ := ih (fun x hx => hr x (by simp [hx])) (SMap.set (r.1.1 * 1000000000 + r.1.2) r.2 m)
      refine ⟨m', by rw [List.map_cons, List.foldlM_cons, h1, AprilGrid.ok_bind, h2], fun t => ?_⟩
      rw [h3, SMap.find_set]
      unfold lastOf
      rw [List.map_cons, List.filter_cons]
      by_cases ht : t = r.1.1 * 1000000000 + r.1.2
      · rw [if_pos ht, if_pos (by simp [ht])]
        cases hg : ((rows.map (fun r => (r.1.1 * 1000000000 + r.1.2, r.2))).filter
            (fun r => decide (r.1 = t))) with
        | nil => simp
        | cons x l =>
          rw [List.getLast?_cons_cons]
          cases hh : (x :: l).getLast? with
          | none => rw [List.getLast?_eq_none_iff] at hh; cases hh
          | some y => rfl
      · rw [if_neg ht, if_neg (by simpa using fun e => ht e.symm)]
  obtain ⟨m', h1, h2⟩ := key rows hr []
  unfold loadTable
  simp only
  rw [h1, AprilGrid.ok_bind]
  congr 1
  refine List.map_congr_left (fun p _ => ?_)
  unfold setFrom
  rw [h2]
  simp [SMap.find]

end Yac.VI
