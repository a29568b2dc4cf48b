import Verif.Mocap.Lemmas
import Mathlib.Data.List.Sort

namespace Yac.SMap

variable {κ ν : Type} [LinearOrder κ]

theorem sorted_nodup {m : List (κ × ν)} (h : Sorted m) : (m.map Prod.fst).Nodup := by
  rw [List.Nodup, List.pairwise_map]
  exact h.imp (fun hab => ne_of_lt hab)

theorem keys_eq {ν' : Type} {m : List (κ × ν)} {m' : List (κ × ν')} (h : Sorted m) (h' : Sorted m')
    (he : ∀ k, (find k m).isSome = (find k m').isSome) : m.map Prod.fst = m'.map Prod.fst := by
  have hs : ∀ {μ : Type} (l : List (κ × μ)), Sorted l → (l.map Prod.fst).Pairwise (· < ·) := by
    intro μ l hl; rw [List.pairwise_map]; exact hl
  refine List.Perm.eq_of_pairwise' ?_ ?_ ?_ (r := (· ≤ ·))
  · exact (hs m h).imp le_of_lt
  · exact (hs m' h').imp le_of_lt
  · rw [List.perm_ext_iff_of_nodup (sorted_nodup h) (sorted_nodup h')]
    intro k
    rw [← find_isSome, ← find_isSome, he]

end Yac.SMap

namespace Yac.Mocap

open Yac.AprilGrid (Grid Meas MadeBy)
open Yac.Solver (CBook)
open Yac.Calib (gridMeas bind_ok)

variable {K : Type} [Field K] [LinearOrder K] {rows cols : Nat}

/-! ## Adding a view -/

theorem WF.addView {s : Cal K} (h : WF rows cols s) {ts : Int} {g : Grid K}
    (hg : SMap.find ts s.grids = some g) (hv : SMap.find ts s.views = none)
    (hp : (SMap.find ts s.est.poses).isSome) :
    ∃ v b, Mocap.addView s g = .ok { s with viewTs := s.viewTs ++ [ts], views := SMap.set ts v s.views, solver := b,
                                            next := s.next + (gridMeas g).length } ∧
      WF rows cols { s with viewTs := s.viewTs ++ [ts], views := SMap.set ts v s.views, solver := b,
                            next := s.next + (gridMeas g).length } ∧
      v.grid = g ∧ v.resFns.map Res.key = gridMeas g := by
  obtain ⟨hts, hm⟩ := h.gkey ts g hg
  obtain ⟨Q, S, hb, hQ, hS⟩ := h.book
  obtain ⟨v, b, S', e1, e2, e3, e4, e5, e6, e7⟩ := View.new_ok (n := s.next) hm
    (by
      intro p hp'
      rw [hQ]
      simp only [List.mem_cons, List.not_mem_nil, or_false] at hp'
      rcases hp' with rfl | rfl | rfl | rfl
      · trivial
      · simp only [Known, hts]; exact hp
      · trivial
      · trivial) hb
    (by
      intro r hr
      obtain ⟨t, v, hv', hr'⟩ := (hS r).mp hr
      exact ((h.views t v hv').own r hr').2)
  rw [hts] at e3
  refine ⟨v, b, ?_, ?_, e2, e4⟩
  · rw [Mocap.addView, hts, if_neg (by simpa using Option.isSome_iff_ne_none.mp hp), e1, AprilGrid.ok_bind]
  · have hfind : ∀ t, SMap.find t (SMap.set ts v s.views) = if t = ts then some v else SMap.find t s.views :=
      fun t => SMap.find_set _ _ _ _
    refine ⟨h.gsorted, h.gkey, h.psorted, SMap.set_sorted _ _ _ h.vsorted, ?_, ?_, ?_, ?_, ?_, ?_⟩
    · intro t
      simp only [hfind]
      split_ifs with ht
      · intro _; rw [ht]; exact hp
      · exact h.posed t
    · intro t w hw
      simp only [hfind] at hw
      split_ifs at hw with ht
      · cases hw; rw [ht]; exact e3
      · have := h.views t w hw
        exact ⟨this.ts_eq, this.made, this.stamp, this.meas, fun r hr => by
          have := this.own r hr; exact ⟨this.1, by simp only; omega⟩⟩
    · intro t w hw
      simp only [hfind] at hw
      split_ifs at hw with ht
      · cases hw; rw [ht]; exact ⟨g, hg, by rw [e4]⟩
      · exact h.src t w hw
    · have : ts ∉ s.viewTs := by rw [h.tsMem, hv]; simp
      rw [List.nodup_append]
      exact ⟨h.tsNodup, by simp, fun a ha c hc => by simp at hc; rintro rfl; exact this (hc ▸ ha)⟩
    · intro t
      simp only [hfind, List.mem_append, List.mem_singleton, h.tsMem]
      split_ifs with ht <;> simp [ht]
    · refine ⟨Q, S', e6, hQ, fun r => ?_⟩
      rw [e7, hS]
      simp only [hfind]
      constructor
      · rintro (⟨t, w, hw, hr⟩ | hr)
        · refine ⟨t, w, ?_, hr⟩
          rw [if_neg (by rintro rfl; rw [hv] at hw; simp at hw)]; exact hw
        · exact ⟨ts, v, by simp, hr⟩
      · rintro ⟨t, w, hw, hr⟩
        split_ifs at hw with ht
        · cases hw; exact .inr hr
        · exact .inl ⟨t, w, hw, hr⟩

/-! ## Filtering -/

theorem Res.ts_of {s : Cal K} (h : WF rows cols s) {t : Int} {v : View K}
    (hv : SMap.find t s.views = some v) {r : Res K} (hr : r ∈ v.resFns) : r.ts = t :=
  ((h.views t v hv).own r hr).1

theorem WF.filterStep {s : Cal K} (h : WF rows cols s) (resid : Res K → Option (K × K)) (th : K × K)
    {ts : Int} {v : View K} (hv : SMap.find ts s.views = some v) (n : Nat) :
    ∃ v' b, Mocap.filterStep resid th (s, n) (ts, v) =
        .ok ({ s with views := SMap.set ts v' s.views, solver := b },
          n + (v.resFns.filter (fun r => isOutlier resid th r)).length) ∧
      WF rows cols { s with views := SMap.set ts v' s.views, solver := b } ∧
      Filtered rows cols resid th v v' := by
  obtain ⟨Q, S, hb, hQ, hS⟩ := h.book
  obtain ⟨v', b, S', e1, e2, e3, e4⟩ := View.filter_ok resid th (h.views ts v hv) hb
    (fun r hr => (hS r).mpr ⟨ts, v, hv, hr⟩)
  have hfind : ∀ t, SMap.find t (SMap.set ts v' s.views) = if t = ts then some v' else SMap.find t s.views :=
    fun t => SMap.find_set _ _ _ _
  have hsub : v'.resFns.Sublist v.resFns := by rw [e2.res]; exact List.filter_sublist
  refine ⟨v', b, by simp only [Mocap.filterStep, e1, AprilGrid.ok_bind], ?_, e2⟩
  refine ⟨h.gsorted, h.gkey, h.psorted, SMap.set_sorted _ _ _ h.vsorted, ?_, ?_, ?_, h.tsNodup, ?_, ?_⟩
  · intro t
    simp only [hfind]
    split_ifs with ht
    · intro _; rw [ht]; exact h.posed ts (by rw [hv]; rfl)
    · exact h.posed t
  · intro t w hw
    simp only [hfind] at hw
    split_ifs at hw with ht
    · cases hw; rw [ht]; exact e2.wf (h.views ts v hv)
    · exact h.views t w hw
  · intro t w hw
    simp only [hfind] at hw
    split_ifs at hw with ht
    · cases hw
      obtain ⟨g, hg, hk⟩ := h.src ts v hv
      exact ⟨g, by rw [ht]; exact hg, (hsub.map _).trans hk⟩
    · exact h.src t w hw
  · intro t
    simp only [hfind, h.tsMem]
    split_ifs with ht
    · rw [ht, hv]; simp
    · rfl
  · refine ⟨Q, S', e3, hQ, fun r => ?_⟩
    rw [e4, hS]
    simp only [hfind]
    constructor
    · rintro ⟨⟨t, w, hw, hr⟩, hn⟩
      by_cases ht : t = ts
      · subst ht
        rw [hv] at hw; cases hw
        refine ⟨t, v', by simp, ?_⟩
        rw [e2.res, List.mem_filter]
        refine ⟨hr, ?_⟩
        cases ho : isOutlier resid th r
        · rfl
        · exact absurd ⟨hr, ho⟩ hn
      · exact ⟨t, w, by rw [if_neg ht]; exact hw, hr⟩
    · rintro ⟨t, w, hw, hr⟩
      split_ifs at hw with ht
      · cases hw
        refine ⟨⟨ts, v, hv, hsub.subset hr⟩, ?_⟩
        rw [e2.res, List.mem_filter] at hr
        rintro ⟨_, ho⟩
        rw [ho] at hr; simp at hr
      · refine ⟨⟨t, w, hw, hr⟩, ?_⟩
        rintro ⟨h1, _⟩
        exact ht ((Res.ts_of h hw hr).symm.trans (Res.ts_of h hv h1))

theorem WF.filterFold (resid : Res K → Option (K × K)) (th : K × K) :
    ∀ (l : List (Int × View K)) (s : Cal K) (n : Nat), WF rows cols s → (l.map Prod.fst).Nodup →
      (∀ tv ∈ l, SMap.find tv.1 s.views = some tv.2) →
    ∃ s', l.foldlM (Mocap.filterStep resid th) (s, n) =
        .ok (s', n + ((l.flatMap (fun tv => tv.2.resFns)).filter (fun r => isOutlier resid th r)).length) ∧
      WF rows cols s' ∧ s' = { s with views := s'.views, solver := s'.solver } ∧
      (∀ t, t ∉ l.map Prod.fst → SMap.find t s'.views = SMap.find t s.views) ∧
      (∀ tv ∈ l, ∃ v', SMap.find tv.1 s'.views = some v' ∧ Filtered rows cols resid th tv.2 v') := by
  intro l
  induction l with
  | nil => intro s n h _ _; exact ⟨s, rfl, h, rfl, fun _ _ => rfl, by simp⟩
  | cons a l ih =>
    intro s n h hnd hl
    obtain ⟨ts, v⟩ := a
    have hv := hl (ts, v) (by simp)
    simp only at hv
    rw [List.map_cons, List.nodup_cons] at hnd
    obtain ⟨v', b, e1, e2, e3⟩ := h.filterStep resid th hv n
    obtain ⟨s', i1, i2, i3, i4, i5⟩ := ih _ (n + (v.resFns.filter (fun r => isOutlier resid th r)).length)
      e2 hnd.2
      (by
        intro tv htv
        have hne : tv.1 ≠ ts := by
          intro he; exact hnd.1 (List.mem_map.mpr ⟨tv, htv, he⟩)
        show SMap.find tv.1 (SMap.set ts v' s.views) = _
        rw [SMap.find_set, if_neg hne]
        exact hl tv (by simp [htv]))
    refine ⟨s', ?_, i2, ?_, ?_, ?_⟩
    · rw [List.foldlM_cons, e1, AprilGrid.ok_bind, i1]
      simp [List.filter_append, Nat.add_assoc]
    · rw [i3]
    · intro t ht
      rw [List.map_cons, List.mem_cons, not_or] at ht
      rw [i4 t ht.2]
      show SMap.find t (SMap.set ts v' s.views) = _
      rw [SMap.find_set, if_neg ht.1]
    · intro tv htv
      rcases List.mem_cons.mp htv with rfl | htv
      · refine ⟨v', ?_, e3⟩
        rw [i4 _ hnd.1]
        show SMap.find ts (SMap.set ts v' s.views) = _
        rw [SMap.find_set, if_pos rfl]
      · exact i5 tv htv

theorem WF.filterAll {s : Cal K} (h : WF rows cols s) (env : Env K) :
    ∃ s', filterAllViews env s =
        .ok (s', ((s.views.flatMap (fun tv => tv.2.resFns)).filter
          (fun r => isOutlier (env.resid s.est) (env.thresh (residuals env s)) r)).length) ∧
      WF rows cols s' ∧ s' = { s with views := s'.views, solver := s'.solver } ∧
      s'.views.map Prod.fst = s.views.map Prod.fst ∧
      (∀ t v, SMap.find t s.views = some v → ∃ v', SMap.find t s'.views = some v' ∧
        Filtered rows cols (env.resid s.est) (env.thresh (residuals env s)) v v') := by
  obtain ⟨s', h1, h2, h3, h4, h5⟩ := WF.filterFold (env.resid s.est) (env.thresh (residuals env s))
    s.views s 0 h (SMap.sorted_nodup h.vsorted)
    (fun tv htv => (SMap.find_eq_some h.vsorted).mpr htv)
  refine ⟨s', by rw [filterAllViews, h1]; simp, h2, h3, ?_, ?_⟩
  · refine SMap.keys_eq h2.vsorted h.vsorted (fun t => ?_)
    by_cases ht : t ∈ s.views.map Prod.fst
    · obtain ⟨⟨t', v⟩, hm, rfl⟩ := List.mem_map.mp ht
      obtain ⟨v', hv', _⟩ := h5 _ hm
      rw [hv', (SMap.find_eq_some h.vsorted).mpr hm]
      rfl
    · rw [h4 t ht]
  · intro t v hv
    exact h5 (t, v) (SMap.mem_of_find hv)

/-! ## Solving, caching, restoring, removing -/

theorem WF.not_dangling {s : Cal K} (h : WF rows cols s) : dangling s = false := by
  obtain ⟨Q, S, hb, hQ, hS⟩ := h.book
  unfold dangling
  rw [List.any_eq_false]
  intro r hr
  obtain ⟨ts, v, hv, hrv⟩ := (hS r).mp ((hb.base.rmem r).mp hr)
  simp only [Bool.not_eq_true', Bool.not_eq_false, List.any_eq_true]
  exact ⟨(ts, v), SMap.mem_of_find hv, by simpa using hrv⟩

theorem WF.hasParam {s : Cal K} (h : WF rows cols s) (p : Par) :
    s.solver.hasParam p = true ↔ Known s p := by
  obtain ⟨Q, S, hb, hQ, hS⟩ := h.book
  rw [hb.hasParam, decide_eq_true_eq, hQ]

theorem WF.optimised {s : Cal K} (h : WF rows cols s) (o : Est K) : Mocap.optimised s o = freed s o := by
  have hc : s.solver.hasParam .cam = true := (h.hasParam _).mpr trivial
  have hf : s.solver.hasParam .fid = true := (h.hasParam _).mpr trivial
  have he : s.solver.hasParam .ext = true := (h.hasParam _).mpr trivial
  unfold Mocap.optimised freed
  simp only [hc, hf, he, Bool.true_eq_false, or_false, if_false]
  congr 1
  refine List.map_congr_left (fun tp htp => ?_)
  have : s.solver.hasParam (.pose tp.1) = true := by
    rw [h.hasParam]
    simp only [Known]
    rw [(SMap.find_eq_some h.psorted).mpr htp]; rfl
  simp [this]

theorem find_freed {s : Cal K} (o : Est K) (t : Int) :
    SMap.find t (freed s o).poses =
      (SMap.find t s.est.poses).map (fun x => if s.fixPoses then x else (SMap.find t o.poses).getD x) :=
  SMap.find_map (fun t x => if s.fixPoses then x else (SMap.find t o.poses).getD x) t s.est.poses

/-- Only the estimates differ, and the same timestamps have poses. -/
theorem WF.setEst {s : Cal K} (h : WF rows cols s) {e : Est K} (hs : SMap.Sorted e.poses)
    (hk : ∀ t, (SMap.find t e.poses).isSome = (SMap.find t s.est.poses).isSome) :
    WF rows cols { s with est := e } := by
  refine ⟨h.gsorted, h.gkey, hs, h.vsorted, ?_, h.views, h.src, h.tsNodup, h.tsMem, ?_⟩
  · intro t ht
    have := h.posed t ht
    rw [← hk] at this; exact this
  · obtain ⟨Q, S, hb, hQ, hS⟩ := h.book
    refine ⟨Q, S, hb, fun p => ?_, hS⟩
    rw [hQ]
    cases p <;> simp [Known, hk]

theorem WF.setCache {s : Cal K} (h : WF rows cols s) (c : Est K) : WF rows cols { s with cache := c } :=
  ⟨h.gsorted, h.gkey, h.psorted, h.vsorted, h.posed, h.views, h.src, h.tsNodup, h.tsMem, h.book⟩

theorem WF.setInfo {s : Cal K} (h : WF rows cols s) (i e : K) :
    WF rows cols { s with infoK := i, entropyK := e } :=
  ⟨h.gsorted, h.gkey, h.psorted, h.vsorted, h.posed, h.views, h.src, h.tsNodup, h.tsMem, h.book⟩

theorem WF.solveWith {s : Cal K} (h : WF rows cols s) (f : Cal K → Est K) :
    Mocap.solveWith f s = .ok { s with est := freed s (f s) } ∧
      WF rows cols { s with est := freed s (f s) } := by
  refine ⟨by rw [Mocap.solveWith, h.not_dangling, h.optimised]; rfl, h.setEst ?_ ?_⟩
  · exact SMap.map_sorted
      (fun t x => if s.fixPoses then x else (SMap.find t (f s).poses).getD x) _ h.psorted
  · intro t; rw [find_freed]; simp

theorem restorePoses :
    ∀ (l : List (Int × (Fin 7 → K))) (m : List (Int × (Fin 7 → K))), SMap.Sorted m →
      (l.map Prod.fst).Nodup → (∀ tp ∈ l, (SMap.find tp.1 m).isSome) →
    ∃ m', l.foldlM restorePose m = .ok m' ∧ SMap.Sorted m' ∧
      (∀ tp ∈ l, SMap.find tp.1 m' = some tp.2) ∧
      (∀ t, t ∉ l.map Prod.fst → SMap.find t m' = SMap.find t m) := by
  intro l
  induction l with
  | nil => intro m hm _ _; exact ⟨m, rfl, hm, by simp, fun _ _ => rfl⟩
  | cons a l ih =>
    intro m hm hnd hl
    rw [List.map_cons, List.nodup_cons] at hnd
    obtain ⟨m', e1, e2, e3, e4⟩ := ih (SMap.set a.1 a.2 m) (SMap.set_sorted _ _ _ hm) hnd.2
      (by
        intro tp htp
        rw [SMap.find_set]
        split_ifs
        · rfl
        · exact hl tp (by simp [htp]))
    refine ⟨m', ?_, e2, ?_, ?_⟩
    · rw [List.foldlM_cons, restorePose, if_pos (hl a (by simp)), AprilGrid.ok_bind, e1]
    · intro tp htp
      rcases List.mem_cons.mp htp with rfl | htp
      · rw [e4 _ hnd.1, SMap.find_set, if_pos rfl]
      · exact e3 tp htp
    · intro t ht
      rw [List.map_cons, List.mem_cons, not_or] at ht
      rw [e4 t ht.2, SMap.find_set, if_neg ht.1]

theorem WF.restore {s : Cal K} (h : WF rows cols s) (hs : SMap.Sorted s.cache.poses)
    (hk : ∀ t, (SMap.find t s.cache.poses).isSome = (SMap.find t s.est.poses).isSome) :
    restoreEstimates s = .ok { s with est := putBack s.cache s.est } ∧
      WF rows cols { s with est := putBack s.cache s.est } := by
  obtain ⟨m', e1, e2, e3, e4⟩ := restorePoses s.cache.poses s.est.poses h.psorted
    (SMap.sorted_nodup hs) (fun tp htp => by
      rw [← hk, (SMap.find_eq_some hs).mpr htp]; rfl)
  have hm : m' = s.cache.poses := by
    refine SMap.sorted_ext e2 hs (fun t => ?_)
    by_cases ht : t ∈ s.cache.poses.map Prod.fst
    · obtain ⟨⟨t', p⟩, hm, rfl⟩ := List.mem_map.mp ht
      rw [e3 _ hm, (SMap.find_eq_some hs).mpr hm]
    · have h1 : SMap.find t s.cache.poses = none := SMap.find_none_of_not_mem ht
      rw [e4 t ht, h1]
      have := hk t
      rw [h1] at this
      simpa using this.symm
  subst hm
  refine ⟨by rw [restoreEstimates, e1, AprilGrid.ok_bind]; rfl, h.setEst hs hk⟩

/-- The calibrator without a view and its pose. -/
def without (s : Cal K) (ts : Int) (b : CBook Par (Res K)) : Cal K :=
  { s with
    solver := b
    viewTs := s.viewTs.erase ts
    views := SMap.erase ts s.views
    est := { s.est with poses := SMap.erase ts s.est.poses } }

theorem WF.removeView {s : Cal K} (h : WF rows cols s) {ts : Int}
    (hv : (SMap.find ts s.views).isSome) :
    ∃ b, Mocap.removeView s ts = .ok (without s ts b) ∧
      WF rows cols (without s ts b) := by
  have hp := h.posed ts hv
  obtain ⟨Q, S, hb, hQ, hS⟩ := h.book
  have hk : Par.pose ts ∈ Q := by rw [hQ]; exact hp
  obtain ⟨b, e1, e2⟩ := hb.removeParam (.pose ts) hk
  refine ⟨b, ?_, ?_⟩
  · rw [Mocap.removeView, if_pos hp, if_pos (by rw [hb.hasParam]; simpa using hk), e1, AprilGrid.ok_bind,
      AprilGrid.ok_bind]
    simp only
    rw [if_pos hv, if_pos ((h.tsMem ts).mpr hv)]
    rfl
  · refine ⟨h.gsorted, h.gkey, SMap.erase_sorted _ _ h.psorted, SMap.erase_sorted _ _ h.vsorted, ?_, ?_, ?_,
      h.tsNodup.erase _, ?_, ?_⟩
    · intro t
      simp only [without, SMap.find_erase]
      split_ifs
      · simp
      · exact h.posed t
    · intro t w hw
      simp only [without, SMap.find_erase] at hw
      split_ifs at hw
      exact h.views t w hw
    · intro t w hw
      simp only [without, SMap.find_erase] at hw
      split_ifs at hw
      exact h.src t w hw
    · intro t
      simp only [without, SMap.find_erase]
      rw [h.tsNodup.mem_erase_iff, h.tsMem]
      split_ifs with ht <;> simp [ht]
    · refine ⟨_, _, e2, fun p => ?_, fun r => ?_⟩
      · rw [Finset.mem_erase, hQ]
        cases p with
        | pose t => simp only [Known, without, SMap.find_erase, ne_eq, Par.pose.injEq]; split_ifs with ht <;> simp [ht]
        | _ => simp [Known]
      · rw [Finset.mem_filter, hS]
        simp only [without, SMap.find_erase]
        constructor
        · rintro ⟨⟨t, w, hw, hr⟩, hn⟩
          refine ⟨t, w, ?_, hr⟩
          rw [if_neg]
          · exact hw
          · rintro rfl
            exact hn (by simp [Res.blocks, Res.ts_of h hw hr])
        · rintro ⟨t, w, hw, hr⟩
          split_ifs at hw with ht
          refine ⟨⟨t, w, hw, hr⟩, ?_⟩
          simp only [Res.blocks, Res.ts_of h hw hr, List.mem_cons, reduceCtorEq, Par.pose.injEq,
            List.not_mem_nil, or_false, false_or]
          exact fun e => ht e.symm

end Yac.Mocap
