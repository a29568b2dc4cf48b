import Verif.Mocap.Create

namespace Yac.Mocap

open Yac.AprilGrid (Grid Meas MadeBy)
open Yac.Solver (CBook)
open Yac.Calib (gridMeas madeBy_meas bind_ok)

variable {K : Type} [Field K] [LinearOrder K] {rows cols : Nat}

theorem holds_of_made {g : Grid K} (h : ∃ ops, MadeBy rows cols ops g) :
    Holds rows cols g (gridMeas g) := by
  obtain ⟨ops, h⟩ := h
  exact ⟨ops, h, (madeBy_meas h).2.2.1.symm⟩

theorem corners_eq (v : View K) : corners v = v.resFns.map Res.key := rfl

theorem beyond_iff (resid : Res K → Option (K × K)) (th : K × K) (r : Res K) :
    isOutlier resid th r = true ↔ Beyond resid th r := by
  unfold isOutlier Beyond
  cases h : resid r with
  | none => simp
  | some e => simp

theorem Filtered.reduced {resid : Res K → Option (K × K)} {th : K × K} {v v' : View K}
    (h : Filtered rows cols resid th v v') : Reduced rows cols resid th v v' := by
  refine ⟨h.ts, by rw [h.res]; exact List.filter_sublist, ?_, ?_⟩
  · intro r hr
    rw [h.res, List.mem_filter, ← beyond_iff]
    simp [hr]
  · rw [corners_eq, ← h.meas]; exact holds_of_made h.made

theorem WF.sound {s : Cal K} (h : WF rows cols s) : Sound rows cols s := by
  obtain ⟨Q, S, hb, hQ, hS⟩ := h.book
  refine ⟨h.tsNodup, h.tsMem, ?_, ?_, ⟨hb.rnd, fun r => by rw [hb.rmem, hS]⟩,
    ⟨hb.pnd, fun p => by rw [hb.pmem, hQ]; cases p <;> simp [Known]⟩⟩
  · rw [← List.length_map (f := Prod.fst)]
    refine List.Perm.length_eq ?_
    rw [List.perm_ext_iff_of_nodup (SMap.sorted_nodup h.vsorted) h.tsNodup]
    intro t
    rw [h.tsMem, SMap.find_isSome]
  · intro ts v hv
    have w := h.views ts v hv
    obtain ⟨g, hg, hs⟩ := h.src ts v hv
    refine ⟨w.ts_eq, w.stamp, ?_, fun r hr => (w.own r hr).1, h.posed ts (by rw [hv]; rfl), g, gridMeas g,
      hg, holds_of_made (h.gkey ts g hg).2, hs⟩
    rw [corners_eq, ← w.meas]; exact holds_of_made w.made

/-! ## One trial -/

theorem half (a : K) : (1 / 2) * a = a / 2 := by ring

theorem WF.step {s : Cal K} (h : WF rows cols s) (env : Env K) {ts : Int}
    (hg : (SMap.find ts s.grids).isSome) (hv : SMap.find ts s.views = none)
    (hp : (SMap.find ts s.est.poses).isSome) :
    ∃ s' vd, nbvStep env s ts = .ok s' ∧ Tried rows cols env s ts s' vd ∧ WF rows cols s' ∧
      (vd = .early ↔ s.viewTs.length < 4) := by
  obtain ⟨g, hg⟩ := Option.isSome_iff_exists.mp hg
  obtain ⟨v, b, a1, a2, a3, a4⟩ := h.addView hg hv hp
  obtain ⟨t, b1, b2, b3, b4, b5⟩ := a2.filterAll env
  have hvw : ViewWF rows cols (s.next + (gridMeas g).length) ts v :=
    a2.views ts v (by show SMap.find ts (SMap.set ts v s.views) = _; rw [SMap.find_set, if_pos rfl])
  have hst : Staged rows cols env s ts t := by
    refine ⟨g, v, hg, ?_, hvw.ts_eq, fun r hr => (hvw.own r hr).1, ?_, b4, ?_⟩
    · rw [corners_eq, a4]; exact holds_of_made (h.gkey ts g hg).2
    · conv_lhs => rw [b3]
      have := congrArg Cal.next b3
      simp only at this
      rw [this]
    · intro u w hu
      obtain ⟨w', k1, k2⟩ := b5 u w hu
      exact ⟨w', k1, k2.reduced⟩
  have hinfo : t.infoK = s.infoK := by rw [b3]
  have hgain : t.gainMin = s.gainMin := by rw [b3]
  have hvts : t.viewTs = s.viewTs ++ [ts] := by rw [b3]
  have hvt : (SMap.find ts t.views).isSome := by
    rw [← b2.tsMem, hvts]; simp
  have hlen : t.views.length = s.viewTs.length + 1 := by
    rw [b2.sound.number, hvts]; simp
  have hc : WF rows cols (cacheEstimates t) := b2.setCache _
  obtain ⟨c1, c2⟩ := hc.solveWith env.few
  have hsol : ({ cacheEstimates t with est := freed (cacheEstimates t) (env.few (cacheEstimates t)) } : Cal K)
      = solved env t := rfl
  rw [hsol] at c1 c2
  have hstep : nbvStep env s ts = judge env (solved env t) ts := by
    rw [nbvStep, hg, Option.getD_some, a1, AprilGrid.ok_bind, b1, AprilGrid.ok_bind]
    simp only
    rw [c1, AprilGrid.ok_bind]
  have hkeys : ∀ u, (SMap.find u (solved env t).cache.poses).isSome =
      (SMap.find u (solved env t).est.poses).isSome := by
    intro u
    have h1 : SMap.find u (solved env t).est.poses = _ :=
      find_freed (s := cacheEstimates t) (env.few (cacheEstimates t)) u
    rw [h1, Option.isSome_map]
    rfl
  obtain ⟨d1, d2⟩ := c2.restore (show SMap.Sorted t.est.poses from b2.psorted) hkeys
  rw [hstep]
  unfold judge
  by_cases hn : numViews (solved env t) < 5
  · rw [if_pos hn]
    have hn' : t.views.length < 5 := hn
    exact ⟨_, .early, rfl, .early t hst hn, c2, by simp; omega⟩
  · rw [if_neg hn]
    have hn' : 5 ≤ t.views.length := by
      have : ¬ t.views.length < 5 := hn
      omega
    cases hi : env.info (solved env t) with
    | none => exact ⟨_, .unknown, d1, .unknown t hst hn' hi, d2, by simp; omega⟩
    | some i =>
      simp only
      by_cases hgn : (1 / 2) * ((solved env t).infoK - i.1) < (solved env t).gainMin
      · rw [if_pos hgn]
        obtain ⟨b', f1, f2⟩ := d2.removeView (ts := ts) hvt
        rw [d1, AprilGrid.ok_bind]
        refine ⟨_, .rejected, f1, ?_, f2, by simp; omega⟩
        have hk := Tried.rejected (rows := rows) (cols := cols) (env := env) (s := s) (ts := ts) t i b' hst hn' hi
          (by rw [half] at hgn; rw [← hinfo, ← hgain]; exact hgn)
        have he : s.viewTs = t.viewTs.erase ts := by
          rw [hvts, List.erase_append_right _ (by rw [h.tsMem, hv]; simp)]
          simp
        rw [he] at hk
        exact hk
      · rw [if_neg hgn]
        refine ⟨_, .kept, rfl, .kept t i hst hn' hi ?_, c2.setInfo _ _, by simp; omega⟩
        rw [half] at hgn
        rw [← hinfo, ← hgain]
        exact not_lt.mp hgn

/-- What a trial leaves alone. -/
theorem Tried.frame {env : Env K} {s s' : Cal K} {ts : Int} {vd : Verdict}
    (h : Tried rows cols env s ts s' vd) :
    s'.grids = s.grids ∧ s'.gainMin = s.gainMin ∧ s'.fixCam = s.fixCam ∧ s'.fixPoses = s.fixPoses ∧
    s'.fixFid = s.fixFid ∧
    s'.viewTs = (if vd = .rejected then s.viewTs else s.viewTs ++ [ts]) ∧
    (∀ u, u ≠ ts → (SMap.find u s'.est.poses).isSome = (SMap.find u s.est.poses).isSome) := by
  have key : ∀ t, Staged rows cols env s ts t → t.grids = s.grids ∧ t.gainMin = s.gainMin ∧
      t.fixCam = s.fixCam ∧ t.fixPoses = s.fixPoses ∧ t.fixFid = s.fixFid ∧
      t.viewTs = s.viewTs ++ [ts] ∧ t.est = s.est := by
    rintro t ⟨g, v, _, _, _, _, h, _⟩
    rw [h]; exact ⟨rfl, rfl, rfl, rfl, rfl, rfl, rfl⟩
  have hposes : ∀ t, t.est = s.est → ∀ u, (SMap.find u (solved env t).est.poses).isSome =
      (SMap.find u s.est.poses).isSome := by
    intro t he u
    have h1 : SMap.find u (solved env t).est.poses = _ := find_freed (s := t) (env.few (cacheEstimates t)) u
    rw [h1, Option.isSome_map, he]
  cases h with
  | early t hs _ =>
    obtain ⟨k1, k2, k3, k4, k5, k6, k7⟩ := key t hs
    exact ⟨k1, k2, k3, k4, k5, k6, fun u _ => hposes t k7 u⟩
  | unknown t hs _ _ =>
    obtain ⟨k1, k2, k3, k4, k5, k6, k7⟩ := key t hs
    exact ⟨k1, k2, k3, k4, k5, k6, fun u _ => by
      show (SMap.find u t.est.poses).isSome = _; rw [k7]⟩
  | rejected t i b hs _ _ _ =>
    obtain ⟨k1, k2, k3, k4, k5, k6, k7⟩ := key t hs
    exact ⟨k1, k2, k3, k4, k5, rfl, fun u hu => by
      show (SMap.find u (SMap.erase ts t.est.poses)).isSome = _
      rw [SMap.find_erase, if_neg hu, k7]⟩
  | kept t i hs _ _ _ =>
    obtain ⟨k1, k2, k3, k4, k5, k6, k7⟩ := key t hs
    exact ⟨k1, k2, k3, k4, k5, k6, fun u _ => hposes t k7 u⟩

/-- Which verdicts are `early`, from `n` views on. -/
def EarlyFrom : Nat → List Verdict → Prop
  | _, [] => True
  | n, v :: vs => (v = .early ↔ n < 4) ∧ EarlyFrom (if v = .rejected then n else n + 1) vs

theorem EarlyFrom.late : ∀ (vs : List Verdict) (n : Nat), 4 ≤ n → EarlyFrom n vs → Verdict.early ∉ vs := by
  intro vs
  induction vs with
  | nil => intro n _ _; simp
  | cons v vs ih =>
    rintro n hn ⟨h1, h2⟩
    have hv : v ≠ .early := fun e => by have := h1.mp e; omega
    rw [List.mem_cons, not_or]
    refine ⟨fun e => hv e.symm, ih _ ?_ h2⟩
    split_ifs <;> omega

theorem EarlyFrom.spec : ∀ (vs : List Verdict) (n : Nat), EarlyFrom n vs →
    vs.take (4 - n) = List.replicate (min (4 - n) vs.length) .early ∧
    Verdict.early ∉ vs.drop (4 - n) := by
  intro vs
  induction vs with
  | nil => intro n _; simp
  | cons v vs ih =>
    rintro n ⟨h1, h2⟩
    by_cases hn : n < 4
    · have hv := h1.mpr hn
      subst hv
      simp only [reduceCtorEq, if_false] at h2
      have := ih (n + 1) h2
      rw [show 4 - n = (4 - (n + 1)) + 1 by omega, List.take_succ_cons, List.drop_succ_cons, this.1,
        List.length_cons, Nat.add_min_add_right, List.replicate_succ]
      exact ⟨rfl, this.2⟩
    · rw [show 4 - n = 0 by omega]
      refine ⟨by simp, ?_⟩
      rw [List.drop_zero]
      exact EarlyFrom.late (v :: vs) n (by omega) ⟨h1, h2⟩

theorem WF.trials (env : Env K) : ∀ (l : List Int) (s : Cal K), WF rows cols s → l.Nodup →
    (∀ ts ∈ l, (SMap.find ts s.grids).isSome) → (∀ ts ∈ l, ts ∉ s.viewTs) →
    (∀ ts ∈ l, (SMap.find ts s.est.poses).isSome) →
    ∃ s' vs, l.foldlM (nbvStep env) s = .ok s' ∧ Trials rows cols env s l s' vs ∧ WF rows cols s' ∧
      EarlyFrom s.viewTs.length vs := by
  intro l
  induction l with
  | nil => intro s h _ _ _ _; exact ⟨s, [], rfl, .nil s, h, trivial⟩
  | cons ts l ih =>
    intro s h hnd hg hv hp
    rw [List.nodup_cons] at hnd
    have hnone : SMap.find ts s.views = none := by
      have := hv ts (by simp)
      rw [h.tsMem] at this
      simpa using this
    obtain ⟨s1, vd, a1, a2, a3, a4⟩ := h.step env (hg ts (by simp)) hnone (hp ts (by simp))
    obtain ⟨f1, _, _, _, _, f6, f7⟩ := a2.frame
    have hne : ∀ u ∈ l, u ≠ ts := fun u hu e => hnd.1 (e ▸ hu)
    obtain ⟨s', vs, b1, b2, b3, b4⟩ := ih s1 a3 hnd.2 (fun u hu => by rw [f1]; exact hg u (by simp [hu]))
      (fun u hu => by
        rw [f6]
        have := hv u (by simp [hu])
        split_ifs
        · exact this
        · simp [this, hne u hu])
      (fun u hu => by rw [f7 u (hne u hu)]; exact hp u (by simp [hu]))
    refine ⟨s', vd :: vs, ?_, .cons a2 b2, b3, a4, ?_⟩
    · rw [List.foldlM_cons, a1, AprilGrid.ok_bind, b1]
    · have : s1.viewTs.length = if vd = .rejected then s.viewTs.length else s.viewTs.length + 1 := by
        rw [f6]; split_ifs <;> simp
      rw [← this]; exact b4

theorem WF.addAll : ∀ (l : List (Int × Grid K)) (s : Cal K), WF rows cols s → (l.map Prod.fst).Nodup →
    (∀ tg ∈ l, SMap.find tg.1 s.grids = some tg.2 ∧ tg.1 ∉ s.viewTs ∧
      (SMap.find tg.1 s.est.poses).isSome) →
    ∃ s', l.foldlM (fun (s : Cal K) tg => Mocap.addView s tg.2) s = .ok s' ∧ WF rows cols s' ∧
      s' = { s with viewTs := s.viewTs ++ l.map Prod.fst, views := s'.views, solver := s'.solver,
                    next := s'.next } ∧
      (∀ tg ∈ l, ∃ v, SMap.find tg.1 s'.views = some v ∧ corners v = gridMeas tg.2) ∧
      (∀ u, u ∉ l.map Prod.fst → SMap.find u s'.views = SMap.find u s.views) := by
  intro l
  induction l with
  | nil => intro s h _ _; exact ⟨s, rfl, h, by simp, by simp, fun _ _ => rfl⟩
  | cons a l ih =>
    intro s h hnd hl
    obtain ⟨ts, g⟩ := a
    rw [List.map_cons, List.nodup_cons] at hnd
    obtain ⟨h1, h2, h3⟩ := hl (ts, g) (by simp)
    have hnone : SMap.find ts s.views = none := by
      rw [h.tsMem] at h2
      simpa using h2
    obtain ⟨v, b, a1, a2, a3, a4⟩ := h.addView h1 hnone h3
    obtain ⟨s', b1, b2, b3, b4, b5⟩ := ih _ a2 hnd.2 (by
      intro tg htg
      have hne : tg.1 ≠ ts := fun e => hnd.1 (List.mem_map.mpr ⟨tg, htg, e⟩)
      obtain ⟨k1, k2, k3⟩ := hl tg (by simp [htg])
      exact ⟨k1, by simp [k2, hne], k3⟩)
    refine ⟨s', ?_, b2, ?_, ?_, ?_⟩
    · rw [List.foldlM_cons]
      show (Mocap.addView s g >>= _) = _
      rw [a1, AprilGrid.ok_bind, b1]
    · rw [b3]; simp
    · intro tg htg
      rcases List.mem_cons.mp htg with rfl | htg
      · refine ⟨v, ?_, a4⟩
        rw [b5 _ hnd.1]
        show SMap.find ts (SMap.set ts v s.views) = _
        rw [SMap.find_set, if_pos rfl]
      · exact b4 tg htg
    · intro u hu
      rw [List.map_cons, List.mem_cons, not_or] at hu
      rw [b5 u hu.2]
      show SMap.find u (SMap.set ts v s.views) = _
      rw [SMap.find_set, if_neg hu.1]

/-- A new calibrator. -/
theorem Created.fresh {s : Cal K} (h : Created rows cols s) :
    WF rows cols s ∧ s.views = [] ∧ s.viewTs = [] ∧ s.infoK = 0 ∧ s.entropyK = 0 ∧
    (∀ ts, (SMap.find ts s.grids).isSome → (SMap.find ts s.est.poses).isSome) := by
  obtain ⟨fc, fp, ff, gm, estimate, cam, fid, grids, poses, hl, hnd, hm, hc⟩ := h
  obtain ⟨k1, k2⟩ := create_ok (rows := rows) (cols := cols) fc fp ff gm estimate cam fid grids poses hl hnd
  cases hE : ((grids.zip poses).filterMap (fun gp => estimate cam fid gp.2 gp.1)).getLast? with
  | none =>
    have := k1 (List.getLast?_eq_none_iff.mp hE)
    rw [hc] at this
    simp at this
  | some T =>
    obtain ⟨s', e1, e2, _, _, _, _, e7, e8, e9, e10, _, _, _, e14, e15, e16⟩ := k2 T hE
    rw [hc] at e1
    cases e1
    refine ⟨e2 hm, e9, e10, e7, e8, fun ts hts => ?_⟩
    obtain ⟨g, hg⟩ := Option.isSome_iff_exists.mp hts
    obtain ⟨p, h1, h2, _⟩ := (e16 ts g).mp hg
    have := e14 _ h1
    rw [← h2, this]; rfl

theorem Ran.wf {env : Env K} {s₀ s : Cal K} (h0 : WF rows cols s₀) (h : Ran env s₀ s) : WF rows cols s := by
  induction h with
  | start => exact h0
  | add _ hg hv hp hs ih =>
    obtain ⟨v, b, a1, a2, _⟩ := ih.addView hg hv hp
    rw [hs] at a1; cases a1; exact a2
  | attempt _ hg hv hp hs ih =>
    obtain ⟨s', vd, a1, _, a3, _⟩ := ih.step env hg hv hp
    rw [hs] at a1; cases a1; exact a3
  | remove _ hv hs ih =>
    obtain ⟨b, a1, a2⟩ := ih.removeView hv
    rw [hs] at a1; cases a1; exact a2
  | filter _ hs ih =>
    obtain ⟨s', a1, a2, _⟩ := ih.filterAll env
    rw [hs] at a1; cases a1; exact a2
  | @last s _ _ _ hs ih =>
    unfold filterLastView at hs
    cases hl : s.viewTs.getLast? with
    | none => rw [hl] at hs; simp at hs
    | some ts =>
      rw [hl] at hs
      simp only at hs
      cases hv : SMap.find ts s.views with
      | none => rw [hv] at hs; simp at hs
      | some v =>
        rw [hv] at hs
        simp only at hs
        obtain ⟨v', b, a1, a2, _⟩ := ih.filterStep (env.resid s.est) (env.thresh (residuals env s)) hv 0
        rw [hs] at a1; cases a1; exact a2
  | few _ hs ih =>
    obtain ⟨a1, a2⟩ := ih.solveWith env.few
    rw [hs] at a1; cases a1; exact a2
  | full _ hs ih =>
    obtain ⟨a1, a2⟩ := ih.solveWith env.full
    rw [hs] at a1; cases a1; exact a2

end Yac.Mocap
