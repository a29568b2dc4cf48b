import Verif.Mocap.Spec
import Verif.Calib.LoopOps

namespace Yac.Mocap

open Yac.AprilGrid (Grid Meas MadeBy)
open Yac.Solver (CBook)
open Yac.Calib (gridMeas hasCorner made_remove madeBy_meas madeBy_corners gridMeas_nodup
  gridMeas_has getMeasurements_list gridMeas_undetected remove_held remove_timestamp bind_ok)

variable {K : Type} [Field K] [LinearOrder K]

/-- What a residual measures. -/
def Res.key (r : Res K) : (Int × Int) × (K × K) := ((r.tag, r.corner), r.z)

theorem blocks_nodup (r : Res K) : r.blocks.Nodup := by simp [Res.blocks]

/-- A parameter of the calibrator. -/
def Known (s : Cal K) : Par → Prop
  | .cam => True
  | .fid => True
  | .ext => True
  | .pose ts => (SMap.find ts s.est.poses).isSome

/-- A view is consistent with itself. -/
structure ViewWF (rows cols next : Nat) (ts : Int) (v : View K) : Prop where
  ts_eq : v.ts = ts
  made : ∃ ops, MadeBy rows cols ops v.grid
  stamp : v.grid.timestamp = ts
  meas : gridMeas v.grid = v.resFns.map Res.key
  own : ∀ r ∈ v.resFns, r.ts = ts ∧ r.id < next

/-- The calibrator is consistent. -/
structure WF (rows cols : Nat) (s : Cal K) : Prop where
  gsorted : SMap.Sorted s.grids
  gkey : ∀ ts g, SMap.find ts s.grids = some g → g.timestamp = ts ∧ ∃ ops, MadeBy rows cols ops g
  psorted : SMap.Sorted s.est.poses
  vsorted : SMap.Sorted s.views
  posed : ∀ ts, (SMap.find ts s.views).isSome → (SMap.find ts s.est.poses).isSome
  views : ∀ ts v, SMap.find ts s.views = some v → ViewWF rows cols s.next ts v
  src : ∀ ts v, SMap.find ts s.views = some v →
    ∃ g, SMap.find ts s.grids = some g ∧ (v.resFns.map Res.key).Sublist (gridMeas g)
  tsNodup : s.viewTs.Nodup
  tsMem : ∀ ts, ts ∈ s.viewTs ↔ (SMap.find ts s.views).isSome
  book : ∃ Q S, Solver.CInv Res.blocks s.solver Q S ∧ (∀ p, p ∈ Q ↔ Known s p) ∧
    (∀ r, r ∈ S ↔ ∃ ts v, SMap.find ts s.views = some v ∧ r ∈ v.resFns)

/-! ## The constructor of a view -/

theorem addRes_fold (ts : Int) {Q : Finset Par} (hQ : ∀ p ∈ [Par.fid, .pose ts, .ext, .cam], p ∈ Q) :
    ∀ (ms : List ((Int × Int) × (K × K))) (rs : List (Res K)) (b : CBook Par (Res K)) (n : Nat)
      (S : Finset (Res K)), Solver.CInv Res.blocks b Q S → (∀ r ∈ S, r.id < n) →
    ∃ b' S' new, ms.foldlM (addRes ts) (rs, b, n) = .ok (rs ++ new, b', n + ms.length) ∧
      new.map Res.key = ms ∧ (∀ r ∈ new, r.ts = ts ∧ n ≤ r.id ∧ r.id < n + ms.length) ∧
      Solver.CInv Res.blocks b' Q S' ∧ (∀ r, r ∈ S' ↔ r ∈ S ∨ r ∈ new) := by
  intro ms
  induction ms with
  | nil =>
    intro rs b n S hb _
    exact ⟨b, S, [], by simp [pure, Except.pure], rfl, by simp, hb, by simp⟩
  | cons m ms ih =>
    intro rs b n S hb hid
    obtain ⟨b1, h1, hb1⟩ := hb.addResidual (⟨n, ts, m.1.1, m.1.2, m.2⟩ : Res K)
      (fun h => by have := hid _ h; simp at this) (by intro p hp; exact hQ p hp) (blocks_nodup _)
    obtain ⟨b', S', new, e1, e2, e3, e4, e5⟩ := ih (rs ++ [⟨n, ts, m.1.1, m.1.2, m.2⟩]) b1 (n + 1) _ hb1
      (by
        intro r hr
        rcases Finset.mem_insert.mp hr with rfl | hr
        · simp
        · have := hid r hr; omega)
    refine ⟨b', S', ⟨n, ts, m.1.1, m.1.2, m.2⟩ :: new, ?_, ?_, ?_, e4, ?_⟩
    · have hs : addRes ts (rs, b, n) m = .ok (rs ++ [⟨n, ts, m.1.1, m.1.2, m.2⟩], b1, n + 1) := by
        simp only [addRes, h1, AprilGrid.ok_bind]
      rw [List.foldlM_cons, hs, AprilGrid.ok_bind, e1]
      simp only [List.append_assoc, List.singleton_append, List.length_cons]
      rw [show n + 1 + ms.length = n + (ms.length + 1) by omega]
    · simp [e2, Res.key]
    · intro r hr
      simp only [List.length_cons]
      rcases List.mem_cons.mp hr with rfl | hr
      · exact ⟨rfl, le_rfl, by simp only; omega⟩
      · have := e3 r hr; exact ⟨this.1, by omega, by omega⟩
    · intro r
      rw [e5, Finset.mem_insert, List.mem_cons]; tauto

theorem View.new_ok {rows cols : Nat} {g : Grid K} (hm : ∃ ops, MadeBy rows cols ops g)
    {Q : Finset Par} {S : Finset (Res K)} {b : CBook Par (Res K)} {n : Nat}
    (hQ : ∀ p ∈ [Par.fid, .pose g.timestamp, .ext, .cam], p ∈ Q)
    (hb : Solver.CInv Res.blocks b Q S) (hid : ∀ r ∈ S, r.id < n) :
    ∃ v b' S', View.new g b n = .ok (v, b', n + (gridMeas g).length) ∧ v.grid = g ∧
      ViewWF rows cols (n + (gridMeas g).length) g.timestamp v ∧
      v.resFns.map Res.key = gridMeas g ∧ (∀ r ∈ v.resFns, n ≤ r.id) ∧
      Solver.CInv Res.blocks b' Q S' ∧ (∀ r, r ∈ S' ↔ r ∈ S ∨ r ∈ v.resFns) := by
  by_cases hd : g.detected = false
  · have h0 := gridMeas_undetected hm hd
    refine ⟨⟨g.timestamp, g, []⟩, b, S, by simp [View.new, hd, h0], rfl,
      ⟨rfl, hm, rfl, by simp [h0], by simp⟩, by simp [h0], by simp, hb, by simp⟩
  · obtain ⟨ops, hm'⟩ := hm
    obtain ⟨m, hmm⟩ := (madeBy_meas hm').2.1
    have hl := getMeasurements_list g m (by simpa using hd) hmm
    obtain ⟨b', S', new, e1, e2, e3, e4, e5⟩ := addRes_fold g.timestamp hQ (gridMeas g) [] b n S hb hid
    refine ⟨⟨g.timestamp, g, new⟩, b', S', ?_, rfl, ⟨rfl, ⟨ops, hm'⟩, rfl, e2.symm, ?_⟩, e2, ?_, e4, e5⟩
    · rw [View.new, if_neg hd, hmm, AprilGrid.ok_bind, hl, e1, AprilGrid.ok_bind]
      simp
    · intro r hr; have := e3 r hr; exact ⟨this.1, this.2.2⟩
    · intro r hr; exact (e3 r hr).2.1

/-! ## Filtering a view -/

theorem filterRes_ok (resid : Res K → Option (K × K)) (th : K × K) {rows cols : Nat}
    {Q : Finset Par} :
    ∀ (rs : List (Res K)) (g : Grid K) (b : CBook Par (Res K)) (S : Finset (Res K))
      (pre : List ((Int × Int) × (K × K))),
    (∃ ops, MadeBy rows cols ops g) → gridMeas g = pre ++ rs.map Res.key →
    Solver.CInv Res.blocks b Q S → (∀ r ∈ rs, r ∈ S) →
    ∃ g' b' S', filterRes resid th rs g b =
        .ok (rs.filter (fun r => !isOutlier resid th r), g', b',
          (rs.filter (fun r => isOutlier resid th r)).length) ∧
      (∃ ops, MadeBy rows cols ops g') ∧
      gridMeas g' = pre ++ (rs.filter (fun r => !isOutlier resid th r)).map Res.key ∧
      g'.timestamp = g.timestamp ∧ Solver.CInv Res.blocks b' Q S' ∧
      (∀ r, r ∈ S' ↔ r ∈ S ∧ ¬ (r ∈ rs ∧ isOutlier resid th r = true)) := by
  intro rs
  induction rs with
  | nil =>
    intro g b S pre hm hg hb _
    exact ⟨g, b, S, rfl, hm, hg, rfl, hb, by simp⟩
  | cons r rs ih =>
    intro g b S pre hm hg hb hS
    have hnd := gridMeas_nodup g
    rw [hg] at hnd
    simp only [List.map_append, List.map_cons, List.nodup_append, List.nodup_cons] at hnd
    have hrk : r.key ∈ gridMeas g := by rw [hg]; simp
    by_cases ho : isOutlier resid th r = true
    · obtain ⟨ops, hmm⟩ := hm
      have hc := madeBy_corners hmm _ hrk
      have hc' : 0 ≤ r.tag * 4 + r.corner := by
        have hc2 : 0 ≤ r.tag ∧ r.tag < rows * cols ∧ 0 ≤ r.corner ∧ r.corner < 4 :=
          of_decide_eq_true hc
        omega
      obtain ⟨g1, k1, k2, k3, k4, k5, _⟩ := remove_held g r.tag r.corner hc'
        (gridMeas_has g (madeBy_meas hmm).1 _ hrk)
      obtain ⟨m1, e1⟩ := made_remove ⟨ops, hmm⟩ hc k1
      have hpos : 1 ≤ g.nbDetections := by
        have h1 := (madeBy_meas hmm).2.2.2.1
        have h2 : 0 < (gridMeas g).length := List.length_pos_of_mem hrk
        simp only [Calib.setCorners] at h1
        omega
      have hpre : gridMeas g1 = pre ++ rs.map Res.key := by
        rw [hg] at e1
        rw [e1, List.filter_append, List.map_cons, List.filter_cons]
        rw [if_neg (by simp [Res.key])]
        congr 1
        · rw [List.filter_eq_self]
          intro x hx
          have := hnd.2.2 x.1 (List.mem_map_of_mem hx) (Res.key r).1 (by simp)
          exact decide_eq_true this
        · rw [List.filter_eq_self]
          intro x hx
          refine decide_eq_true (fun he => ?_)
          exact hnd.2.1.1 (List.mem_map.mpr ⟨x, hx, he⟩)
      obtain ⟨b1, q1, q2, _⟩ := hb.removeResidual r (hS r (by simp))
      have hrn : r ∉ rs := by
        intro hr
        exact hnd.2.1.1 (List.mem_map.mpr ⟨r.key, List.mem_map_of_mem hr, rfl⟩)
      obtain ⟨g', b', S', i1, i2, i3, i4, i5, i6⟩ := ih g1 b1 _ pre m1 hpre q2
        (fun x hx => Finset.mem_erase.mpr ⟨fun e => hrn (e ▸ hx), hS x (by simp [hx])⟩)
      refine ⟨g', b', S', ?_, i2, ?_, i4.trans k5, i5, ?_⟩
      · rw [filterRes, if_pos ho, k1, AprilGrid.ok_bind, k3, AprilGrid.ok_bind, if_neg (by simp),
          if_neg (by omega), q1, AprilGrid.ok_bind, i1, AprilGrid.ok_bind]
        simp [ho]
      · rw [i3]; simp [ho]
      · intro x
        rw [i6, Finset.mem_erase]
        simp only [List.mem_cons]
        constructor
        · rintro ⟨⟨h1, h2⟩, h3⟩
          exact ⟨h2, fun h => h3 ⟨h.1.resolve_left h1, h.2⟩⟩
        · rintro ⟨h1, h2⟩
          refine ⟨⟨fun e => h2 ⟨.inl e, e ▸ ho⟩, h1⟩, fun h => h2 ⟨.inr h.1, h.2⟩⟩
    · obtain ⟨g', b', S', i1, i2, i3, i4, i5, i6⟩ := ih g b S (pre ++ [r.key]) hm (by rw [hg]; simp) hb
        (fun x hx => hS x (by simp [hx]))
      refine ⟨g', b', S', ?_, i2, ?_, i4, i5, ?_⟩
      · rw [filterRes, if_neg ho, i1, AprilGrid.ok_bind]
        simp [ho]
      · rw [i3]; simp [ho]
      · intro x
        rw [i6]
        simp only [List.mem_cons]
        constructor
        · rintro ⟨h1, h2⟩
          refine ⟨h1, fun h => ?_⟩
          rcases h.1 with rfl | h'
          · exact ho h.2
          · exact h2 ⟨h', h.2⟩
        · rintro ⟨h1, h2⟩
          exact ⟨h1, fun h => h2 ⟨.inr h.1, h.2⟩⟩

/-- A view after `filter_view`. -/
structure Filtered (rows cols : Nat) (resid : Res K → Option (K × K)) (th : K × K) (v v' : View K) :
    Prop where
  ts : v'.ts = v.ts
  stamp : v'.grid.timestamp = v.grid.timestamp
  res : v'.resFns = v.resFns.filter (fun r => !isOutlier resid th r)
  made : ∃ ops, MadeBy rows cols ops v'.grid
  meas : gridMeas v'.grid = v'.resFns.map Res.key

theorem View.filter_ok (resid : Res K → Option (K × K)) (th : K × K) {rows cols next : Nat} {ts : Int}
    {v : View K} (hv : ViewWF rows cols next ts v) {Q : Finset Par} {S : Finset (Res K)}
    {b : CBook Par (Res K)} (hb : Solver.CInv Res.blocks b Q S) (hS : ∀ r ∈ v.resFns, r ∈ S) :
    ∃ v' b' S', v.filter resid th b =
        .ok (v', b', (v.resFns.filter (fun r => isOutlier resid th r)).length) ∧
      Filtered rows cols resid th v v' ∧ Solver.CInv Res.blocks b' Q S' ∧
      (∀ r, r ∈ S' ↔ r ∈ S ∧ ¬ (r ∈ v.resFns ∧ isOutlier resid th r = true)) := by
  obtain ⟨g', b', S', h1, h2, h3, h4, h5, h6⟩ := filterRes_ok resid th v.resFns v.grid b S [] hv.made
    (by rw [hv.meas]; rfl) hb hS
  exact ⟨⟨v.ts, g', v.resFns.filter (fun r => !isOutlier resid th r)⟩, b', S', by rw [View.filter, h1, AprilGrid.ok_bind], ⟨rfl, h4, rfl, h2, by rw [h3]; rfl⟩,
    h5, h6⟩

theorem Filtered.wf {rows cols next : Nat} {ts : Int} {resid : Res K → Option (K × K)} {th : K × K}
    {v v' : View K} (hf : Filtered rows cols resid th v v') (hv : ViewWF rows cols next ts v) :
    ViewWF rows cols next ts v' :=
  ⟨hf.ts.trans hv.ts_eq, hf.made, hf.stamp.trans hv.stamp, hf.meas, fun r hr => by
    rw [hf.res] at hr; exact hv.own r (List.mem_filter.mp hr).1⟩

end Yac.Mocap
