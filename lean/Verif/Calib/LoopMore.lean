import Verif.Calib.BatchProps

/-!
# C81, C82: what each step of the loops does
-/

namespace Yac.Calib

open Yac.AprilGrid (Grid)

variable {K V : Type} [Field K] [LinearOrder K]

/-- **C82, the final values.**  After a batch calibration the parameters that the problem contains are
what the closing solve makes of the problem with all views, for every solver; all others are unchanged. -/
theorem C82_final (L : LoopEnv K V) {s s' : Cal K V} (h : Loaded s) (hs : solveBatch L s = .ok s') :
    ∃ c, c.views = s'.views ∧ c.data = s.data ∧
      s'.params = s.params.map (fun ip => (ip.1, ⟨if s'.solver.hasParam (.cam ip.1) then L.final c (.cam ip.1)
        else ip.2.val, ip.2.fixed⟩)) ∧
      s'.exts = s.exts.map (fun ip => (ip.1, ⟨if s'.solver.hasParam (.ext ip.1) then L.final c (.ext ip.1)
        else ip.2.val, ip.2.fixed⟩)) ∧
      ∀ t p, SMap.find t c.poses = some p → SMap.find t s'.poses =
        some { p with val := if s'.solver.hasParam (.pose p.id) then L.final c (.pose p.id) else p.val } := by
  obtain ⟨_, _, _, hd, c, rfl, hp, he, hv⟩ := C82_batch L h hs
  refine ⟨c, hv, hd, ?_, ?_, ?_⟩
  · rw [← hp]; rfl
  · rw [← he]; rfl
  · intro t p hp
    have := SMap.find_map (fun (_ : Int) (tp : PoseObj V) => ({ tp with
      val := (if c.solver.hasParam (.pose tp.id) then L.final c (.pose tp.id) else tp.val) } : PoseObj V)) t c.poses
    rw [hp] at this
    exact this

/-- **C81, the pose of a frame.**  The pose used to order the frames is that of the first camera whose
pose can be estimated, moved into camera 0 by the extrinsics of that camera; there is none exactly if no
camera gives one. -/
theorem C81_pose (L : LoopEnv K V) (s : Cal K V) (l : List (Int × Grid K)) :
    (∀ T, framePose L s l = .ok (some T) ↔ ∃ pre c g post p e T', l = pre ++ (c, g) :: post ∧
      (∀ cg ∈ pre, ∃ p, SMap.find cg.1 s.params = some p ∧ L.estimate cg.2 p.val = none) ∧
      SMap.find c s.params = some p ∧ L.estimate g p.val = some T' ∧ SMap.find c s.exts = some e ∧
      T = L.compose e.val T') ∧
    (framePose L s l = .ok none ↔
      ∀ cg ∈ l, ∃ p, SMap.find cg.1 s.params = some p ∧ L.estimate cg.2 p.val = none) := by
  induction l with
  | nil => simp [framePose]
  | cons x l ih =>
    obtain ⟨c, g⟩ := x
    rw [framePose]
    cases hp : SMap.find c s.params with
    | none =>
      refine ⟨fun T => ⟨(by rintro ⟨⟩), ?_⟩, ⟨(by rintro ⟨⟩), ?_⟩⟩
      · rintro ⟨pre, c', g', post, p, e, T', hl, hpre, hp', _⟩
        cases pre with
        | nil => cases hl; rw [hp] at hp'; cases hp'
        | cons y pre =>
          cases hl
          obtain ⟨p, h1, _⟩ := hpre _ List.mem_cons_self
          rw [hp] at h1; cases h1
      · intro h
        obtain ⟨p, h1, _⟩ := h _ List.mem_cons_self
        rw [hp] at h1; cases h1
    | some p =>
      simp only
      cases he : L.estimate g p.val with
      | none =>
        simp only
        constructor
        · intro T
          rw [ih.1]
          constructor
          · rintro ⟨pre, c', g', post, q, e, T', rfl, hpre, h⟩
            refine ⟨(c, g) :: pre, c', g', post, q, e, T', rfl, ?_, h⟩
            intro cg hcg
            rcases List.mem_cons.mp hcg with rfl | hcg
            · exact ⟨p, hp, he⟩
            · exact hpre cg hcg
          · rintro ⟨pre, c', g', post, q, e, T', hl, hpre, hq, hT, h⟩
            cases pre with
            | nil => cases hl; rw [hp] at hq; cases hq; rw [he] at hT; cases hT
            | cons y pre =>
              cases hl
              exact ⟨pre, c', g', post, q, e, T', rfl, fun cg hcg => hpre cg (List.mem_cons_of_mem _ hcg),
                hq, hT, h⟩
        · rw [ih.2]
          constructor
          · intro h cg hcg
            rcases List.mem_cons.mp hcg with rfl | hcg
            · exact ⟨p, hp, he⟩
            · exact h cg hcg
          · exact fun h cg hcg => h cg (List.mem_cons_of_mem _ hcg)
      | some T₀ =>
        simp only
        refine ⟨fun T => ?_, ?_⟩
        · constructor
          · intro h
            cases hx : SMap.find c s.exts with
            | none => rw [hx] at h; cases h
            | some e =>
              rw [hx] at h
              cases h
              exact ⟨[], c, g, l, p, e, T₀, rfl, by simp, hp, he, hx, rfl⟩
          · rintro ⟨pre, c', g', post, q, e, T', hl, hpre, hq, hT, hx, rfl⟩
            cases pre with
            | nil =>
              cases hl
              rw [hp] at hq; cases hq
              rw [he] at hT; cases hT
              rw [hx]
            | cons y pre =>
              cases hl
              obtain ⟨q', h1, h2⟩ := hpre _ List.mem_cons_self
              rw [hp] at h1; cases h1
              rw [he] at h2; cases h2
        · constructor
          · intro h
            cases hx : SMap.find c s.exts with
            | none => rw [hx] at h; cases h
            | some e => rw [hx] at h; cases h
          · intro h
            obtain ⟨q', h1, h2⟩ := h _ List.mem_cons_self
            rw [hp] at h1; cases h1
            rw [he] at h2; cases h2

theorem removeOutliers_frame {L : LoopEnv K V} {s : Sess K V} {all : Bool} {r : Sess K V × Nat}
    (h : removeOutliers L s all = .ok r) :
    r.1.stamps = s.stamps ∧ r.1.hist = s.hist ∧ r.1.filterAll = s.filterAll := by
  unfold removeOutliers at h
  obtain ⟨st, h1, h⟩ := bind_ok h
  obtain ⟨out, _, h⟩ := bind_ok h
  cases h
  unfold outlierStamps at h1
  split_ifs at h1
  · cases h1; exact ⟨rfl, rfl, rfl⟩
  · split at h1
    · cases h1
    · split_ifs at h1 <;> cases h1 <;> exact ⟨rfl, rfl, rfl⟩

/-- **C81, outlier removal.**  In the next-best-view loop, an accepted view is followed by outlier removal
exactly if it is enabled and there are at least `min_nbv_views` views (the new one included): on all views
if the flag to do so is set, which it clears, else on the latest view only.  Otherwise neither the flag nor
the list of filtered views changes.  A view that is not accepted changes neither. -/
theorem C81_filter (L : LoopEnv K V) (o : Opts) (s s' : Sess K V) (n n' ts : Int)
    (h : nbvStep L o s n ts = .ok (s', n')) :
    ∃ c acc, addNbvView L.toEnv s.cal ((SMap.find ts s.cal.data).getD []) = .ok (c, acc) ∧
      (acc = true → o.nbvFilter = true → o.minViews ≤ (c.views.length : Int) →
        ∃ r k, removeOutliers L { s with cal := c } s.filterAll = .ok (r, k) ∧
          s'.filtered = r.filtered ∧ s'.filterAll = false ∧
          ((o.marginalize = false ∨ (r.cal.views.length : Int) ≤ o.window) → s'.cal = r.cal)) ∧
      ((acc = false ∨ o.nbvFilter = false ∨ (c.views.length : Int) < o.minViews) →
        s'.filtered = s.filtered ∧ s'.filterAll = s.filterAll ∧
        ((acc = false ∨ o.marginalize = false ∨ (c.views.length : Int) ≤ o.window) → s'.cal = c)) := by
  unfold nbvStep at h
  obtain ⟨⟨c, acc⟩, ha, h⟩ := bind_ok h
  refine ⟨c, acc, ha, ?_⟩
  have hm : ∀ {a b : Sess K V}, nbvMargStep o a = .ok b → b.filtered = a.filtered ∧ b.filterAll = a.filterAll ∧
      ((o.marginalize = false ∨ (a.cal.views.length : Int) ≤ o.window) → b.cal = a.cal) := by
    intro a b hab
    unfold nbvMargStep at hab
    split_ifs at hab with hc
    · obtain ⟨d, _, hab⟩ := bind_ok hab
      cases hab
      refine ⟨rfl, rfl, ?_⟩
      rintro (hx | hx)
      · rw [hx] at hc; simp at hc
      · have := hc.2; unfold nbViews at this; omega
    · cases hab; exact ⟨rfl, rfl, fun _ => rfl⟩
  cases acc with
  | false =>
    rw [if_neg (by simp)] at h
    cases h
    exact ⟨fun hx => absurd hx (by simp), fun _ => ⟨rfl, rfl, fun _ => rfl⟩⟩
  | true =>
    rw [if_pos rfl] at h
    obtain ⟨s1, h1, h⟩ := bind_ok h
    obtain ⟨s2, h2, h⟩ := bind_ok h
    cases h
    obtain ⟨m1, m2, m3⟩ := hm h2
    unfold nbvFilterStep at h1
    split_ifs at h1 with hc
    · obtain ⟨⟨r, k⟩, hr, h1⟩ := bind_ok h1
      cases h1
      refine ⟨fun _ _ _ => ⟨r, k, hr, m1, m2, m3⟩, ?_⟩
      rintro (hx | hx | hx)
      · cases hx
      · rw [hx] at hc; simp at hc
      · have := hc.2; unfold nbViews at this; simp only at this; omega
    · cases h1
      refine ⟨fun _ hf hv => absurd ⟨hf, hv⟩ hc, fun _ => ⟨m1, m2, ?_⟩⟩
      rintro (hx | hx)
      · cases hx
      · exact m3 hx

/-- **C81, what is recorded.**  After every step of the next-best-view loop the history has one more
entry, for the frame tried: the intrinsics and extrinsics, the information and the entropy that the
calibrator has now, all residuals, and whether the view was accepted; the other entries are as they
were. -/
theorem C81_track (L : LoopEnv K V) (o : Opts) (s s' : Sess K V) (n n' ts : Int)
    (h : nbvStep L o s n ts = .ok (s', n')) :
    ∃ k : Track K V, SMap.find ts s'.hist = some k ∧ s'.stamps = s.stamps ++ [ts] ∧
      (∀ t, t ≠ ts → SMap.find t s'.hist = SMap.find t s.hist) ∧
      k.params = s'.cal.params.map (fun ip => (ip.1, ip.2.val)) ∧
      (∀ i p e, (i, p) ∈ s'.cal.params → SMap.find i s'.cal.exts = some e → (i, some e.val) ∈ k.exts) ∧
      k.info = s'.cal.infoK ∧ k.entropy = s'.cal.entropyK ∧
      k.errs = s'.cal.views.flatMap (fun tv => tv.2.residuals (L.resid s'.cal)) ∧
      ∃ c, addNbvView L.toEnv s.cal ((SMap.find ts s.cal.data).getD []) = .ok (c, k.accepted) := by
  unfold nbvStep at h
  obtain ⟨⟨c, acc⟩, ha, h⟩ := bind_ok h
  have key : ∀ a : Sess K V, a.stamps = s.stamps → a.hist = s.hist →
      ∃ k : Track K V, SMap.find ts (trackEstimates L a ts acc).hist = some k ∧
      (trackEstimates L a ts acc).stamps = s.stamps ++ [ts] ∧
      (∀ t, t ≠ ts → SMap.find t (trackEstimates L a ts acc).hist = SMap.find t s.hist) ∧
      k.params = a.cal.params.map (fun ip => (ip.1, ip.2.val)) ∧
      (∀ i p e, (i, p) ∈ a.cal.params → SMap.find i a.cal.exts = some e → (i, some e.val) ∈ k.exts) ∧
      k.info = a.cal.infoK ∧ k.entropy = a.cal.entropyK ∧
      k.errs = a.cal.views.flatMap (fun tv => tv.2.residuals (L.resid a.cal)) ∧
      ∃ c, addNbvView L.toEnv s.cal ((SMap.find ts s.cal.data).getD []) = .ok (c, k.accepted) := by
    intro a hs hh
    unfold trackEstimates
    refine ⟨_, by simp only [SMap.find_set, if_pos]; rfl, by simp only [hs], ?_, rfl, ?_, rfl, rfl, rfl, c, ha⟩
    · intro t ht
      simp only [SMap.find_set, if_neg ht, hh]
    · intro i p e hi he
      exact List.mem_map.mpr ⟨(i, p), hi, by simp only [he, Option.map_some]⟩
  cases acc with
  | false =>
    rw [if_neg (by simp)] at h
    cases h
    exact key { s with cal := c } rfl rfl
  | true =>
    rw [if_pos rfl] at h
    obtain ⟨s1, h1, h⟩ := bind_ok h
    obtain ⟨s2, h2, h⟩ := bind_ok h
    cases h
    have e1 : s1.stamps = s.stamps ∧ s1.hist = s.hist := by
      unfold nbvFilterStep at h1
      split_ifs at h1
      · obtain ⟨r, hr, h1⟩ := bind_ok h1
        cases h1
        obtain ⟨a, b, _⟩ := removeOutliers_frame hr
        exact ⟨a, b⟩
      · cases h1; exact ⟨rfl, rfl⟩
    have e2 : s2.stamps = s1.stamps ∧ s2.hist = s1.hist := by
      unfold nbvMargStep at h2
      split_ifs at h2
      · obtain ⟨d, _, h2⟩ := bind_ok h2
        cases h2; exact ⟨rfl, rfl⟩
      · cases h2; exact ⟨rfl, rfl⟩
    exact key s2 (e2.1.trans e1.1) (e2.2.trans e1.2)

end Yac.Calib
