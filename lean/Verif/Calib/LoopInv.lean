import Verif.Calib.LoopModel
import Verif.Calib.CameraProps

namespace Yac.Calib

open Yac.AprilGrid (Grid Meas Row MadeBy)
open Yac.Solver (CBook)

variable {K V : Type} [Field K] [LinearOrder K]

/-- What a residual measures. -/
def Reproj.key (r : Reproj K) : (Int × Int) × (K × K) := ((r.tag, r.corner), r.z)

/-! ## Removing corners from a grid -/

theorem held_remove (rows cols : Nat) (m : AprilGrid.Spec.CMap K) (t c : Int) :
    AprilGrid.Spec.held rows cols (AprilGrid.Spec.step m (.remove t c)) =
      (AprilGrid.Spec.held rows cols m).filter (fun x => decide (x.1 ≠ (t, c))) := by
  unfold AprilGrid.Spec.held
  generalize AprilGrid.Spec.allCorners rows cols = l
  induction l with
  | nil => rfl
  | cons a l ih =>
    rw [List.filterMap_cons, List.filterMap_cons, ih]
    by_cases h : a.1 = t ∧ a.2 = c
    · have ha : a = (t, c) := Prod.ext h.1 h.2
      simp only [AprilGrid.Spec.step, h, and_self, if_true, Option.map_none]
      cases hm : m t c with
      | none => simp
      | some kp => simp [ha]
    · have ha : a ≠ (t, c) := fun e => h (by rw [e]; exact ⟨rfl, rfl⟩)
      simp only [AprilGrid.Spec.step, h, if_false]
      cases hm : m a.1 a.2 with
      | none => simp
      | some kp => simp [ha]

theorem remove_timestamp {g g' : Grid K} {t c : Int} (h : AprilGrid.remove g t c = .ok g') :
    g'.timestamp = g.timestamp := by
  unfold AprilGrid.remove at h
  obtain ⟨r, _, h⟩ := bind_ok h
  split_ifs at h
  · obtain ⟨d, _, h⟩ := bind_ok h
    simp only [AprilGrid.pure_eq_ok, Except.ok.injEq] at h
    rw [← h]
  · simp only [AprilGrid.pure_eq_ok, Except.ok.injEq] at h
    rw [← h]

theorem made_remove {rows cols : Nat} {g g' : Grid K} {t c : Int}
    (hm : ∃ ops, MadeBy rows cols ops g) (hc : hasCorner rows cols t c = true)
    (h : AprilGrid.remove g t c = .ok g') :
    (∃ ops, MadeBy rows cols ops g') ∧
      gridMeas g' = (gridMeas g).filter (fun x => decide (x.1 ≠ (t, c))) := by
  obtain ⟨ops, hmade⟩ := hm
  have hmade' : MadeBy rows cols (ops ++ [.remove t c]) g' := by
    obtain ⟨hv, ts, size, spacing, hr⟩ := hmade
    refine ⟨?_, ts, size, spacing, ?_⟩
    · intro op hop
      rw [List.mem_append, List.mem_singleton] at hop
      rcases hop with hop | rfl
      · exact hv op hop
      · simpa [hasCorner, AprilGrid.Spec.OpValid, AprilGrid.Spec.Valid] using hc
    · unfold AprilGrid.run at hr ⊢
      rw [AprilGrid.foldlM_concat, hr, AprilGrid.ok_bind]
      exact h
  refine ⟨⟨_, hmade'⟩, ?_⟩
  rw [(madeBy_meas hmade').2.2.1, (madeBy_meas hmade).2.2.1]
  rw [show AprilGrid.Spec.run (ops ++ [.remove t c]) =
    AprilGrid.Spec.step (AprilGrid.Spec.run ops) (.remove t c) by
      simp [AprilGrid.Spec.run]]
  exact held_remove _ _ _ _ _

theorem filterCam_made (resid : Reproj K → Option (K × K)) (th : K × K) {rows cols : Nat} :
    ∀ (rs : List (Reproj K)) (g : Grid K) (b : CBook Par (Res K)) (rs' : List (Reproj K))
      (g' : Grid K) (b' : CBook Par (Res K)) (n : Nat) (pre : List ((Int × Int) × (K × K))),
    (∃ ops, MadeBy rows cols ops g) →
    (∀ r ∈ rs, hasCorner rows cols r.tag r.corner = true) →
    gridMeas g = pre ++ rs.map Reproj.key →
    filterCam resid th rs g b = .ok (rs', g', b', n) →
    (∃ ops, MadeBy rows cols ops g') ∧ gridMeas g' = pre ++ rs'.map Reproj.key ∧
      g'.timestamp = g.timestamp ∧ rs' = rs.filter (fun r => !isOutlier resid th r) := by
  intro rs
  induction rs with
  | nil =>
    intro g b rs' g' b' n pre hm _ hg h
    simp only [filterCam, Except.ok.injEq, Prod.mk.injEq] at h
    obtain ⟨rfl, rfl, _, _⟩ := h
    exact ⟨hm, hg, rfl, rfl⟩
  | cons r rs ih =>
    intro g b rs' g' b' n pre hm hc hg h
    unfold filterCam at h
    by_cases ho : isOutlier resid th r = true
    · rw [if_pos ho] at h
      obtain ⟨g1, h1, h⟩ := bind_ok h
      obtain ⟨st, _, h⟩ := bind_ok h
      split_ifs at h
      obtain ⟨b1, _, h⟩ := bind_ok h
      obtain ⟨⟨rs2, g2, b2, n2⟩, h2, h⟩ := bind_ok h
      simp only [AprilGrid.pure_eq_ok, Except.ok.injEq, Prod.mk.injEq] at h
      obtain ⟨rfl, rfl, rfl, rfl⟩ := h
      obtain ⟨m1, e1⟩ := made_remove hm (hc r (by simp)) h1
      have hnd := gridMeas_nodup g
      rw [hg] at hnd e1
      have hpre : gridMeas g1 = pre ++ rs.map Reproj.key := by
        rw [e1, List.filter_append, List.map_cons, List.filter_cons]
        simp only [List.map_append, List.map_cons, List.nodup_append, List.nodup_cons] at hnd
        rw [if_neg (by simp [Reproj.key])]
        congr 1
        · rw [List.filter_eq_self]
          intro x hx
          have := hnd.2.2 x.1 (List.mem_map_of_mem hx) (Reproj.key r).1 (by simp)
          simpa [Reproj.key] using this
        · rw [List.filter_eq_self]
          intro x hx
          simp only [decide_eq_true_eq, ne_eq]
          intro he
          exact hnd.2.1.1 (List.mem_map.mpr ⟨x, hx, he⟩)
      obtain ⟨k1, k2, k3, k4⟩ := ih g1 b1 _ _ _ _ pre m1 (fun x hx => hc x (by simp [hx])) hpre h2
      refine ⟨k1, k2, k3.trans (remove_timestamp h1), ?_⟩
      simp [List.filter_cons, ho, k4]
    · rw [if_neg ho] at h
      obtain ⟨⟨rs2, g2, b2, n2⟩, h2, h⟩ := bind_ok h
      simp only [AprilGrid.pure_eq_ok, Except.ok.injEq, Prod.mk.injEq] at h
      obtain ⟨rfl, rfl, rfl, rfl⟩ := h
      obtain ⟨k1, k2, k3, k4⟩ := ih g b _ _ _ _ (pre ++ [r.key]) hm
        (fun x hx => hc x (by simp [hx])) (by rw [hg]; simp) h2
      refine ⟨k1, by rw [k2]; simp, k3, ?_⟩
      simp [List.filter_cons, ho, k4]

/-! ## Views whose residuals are exactly their detected corners -/

/-- The corners of one camera that a view holds. -/
def View.camKeys (v : View K) (c : Int) : List ((Int × Int) × (K × K)) :=
  ((SMap.find c v.resFns).getD []).map Reproj.key

/-- The grids of the view were made by valid calls, carry its timestamp, and the residuals of
every known camera are exactly the corners of its grid. -/
structure TidyView (rows cols : Nat) (known : Int → Prop) (ts : Int) (v : View K) : Prop where
  made : Detections rows cols v.grids
  stamp : ∀ cg ∈ v.grids, cg.2.timestamp = ts
  meas : ∀ c g, SMap.find c v.grids = some g → known c → v.camKeys c = gridMeas g
  own : ∀ c rs, SMap.find c v.resFns = some rs →
    (∀ r ∈ rs, hasCorner rows cols r.tag r.corner = true) ∧
    (rs ≠ [] → (SMap.find c v.grids).isSome = true)

/-- A corner recorded in the calibration data. -/
def InData (s : Cal K V) (ts c : Int) (m : (Int × Int) × (K × K)) : Prop :=
  ∃ gs g, SMap.find ts s.data = some gs ∧ SMap.find c gs = some g ∧ m ∈ gridMeas g

/-- The calibrator is consistent, every view is tidy and consists of recorded corners, and
the recorded data is a map of proper grids. -/
structure Tidy (s : Cal K V) : Prop where
  wf : WF s
  piv : PoseIffView s
  views : ∀ ts v, SMap.find ts s.views = some v →
    TidyView s.rows s.cols (fun i => (SMap.find i s.params).isSome) ts v
  src : ∀ ts v, SMap.find ts s.views = some v → ∀ c, ∀ m ∈ v.camKeys c, InData s ts c m
  has : ∀ ts v, SMap.find ts s.views = some v → (SMap.find ts s.data).isSome = true
  data : ∀ ts gs, SMap.find ts s.data = some gs → Detections s.rows s.cols gs ∧
    ∀ cg ∈ gs, cg.2.timestamp = ts

theorem filterStep_tidy (resid : Reproj K → Option (K × K)) (th : K × K) {rows cols : Nat}
    {known : Int → Prop} {ts : Int} {acc acc' : View K × CBook Par (Res K) × Nat} {c : Int}
    (hk : known c) (h : TidyView rows cols known ts acc.1)
    (hs : filterStep resid th acc c = .ok acc') : TidyView rows cols known ts acc'.1 := by
  unfold filterStep at hs
  obtain ⟨⟨rs', g', b', n⟩, h1, hs⟩ := bind_ok hs
  simp only [AprilGrid.pure_eq_ok, Except.ok.injEq] at hs
  subst hs
  cases hg : SMap.find c acc.1.grids with
  | none =>
    have hrs : (SMap.find c acc.1.resFns).getD [] = [] := by
      cases hr : SMap.find c acc.1.resFns with
      | none => rfl
      | some rs =>
        by_contra hne
        have := (h.own c rs hr).2 (by simpa using hne)
        rw [hg] at this; simp at this
    rw [hrs] at h1
    simp only [filterCam, Except.ok.injEq, Prod.mk.injEq] at h1
    obtain ⟨rfl, _, _, rfl⟩ := h1
    refine ⟨h.made, h.stamp, ?_, ?_⟩
    · intro c' g' hg' hk'
      simp only [if_true] at hg'
      have : c' ≠ c := by rintro rfl; rw [hg] at hg'; simp at hg'
      simp only [View.camKeys, SMap.find_set, if_neg this]
      exact h.meas c' g' hg' hk'
    · intro c' rs hr
      simp only [SMap.find_set] at hr
      split_ifs at hr with hc
      · simp only [Option.some.injEq] at hr
        subst hr
        simp
      · exact h.own c' rs hr
  | some g =>
    rw [hg] at h1
    simp only [Option.getD_some] at h1
    have hown : ∀ r ∈ (SMap.find c acc.1.resFns).getD [], hasCorner rows cols r.tag r.corner = true := by
      intro r hr
      cases hf : SMap.find c acc.1.resFns with
      | none => rw [hf] at hr; simp at hr
      | some rs => rw [hf] at hr; exact (h.own c rs hf).1 r hr
    have hm := h.made.2 (c, g) (SMap.mem_of_find hg)
    obtain ⟨k1, k2, k3, k4⟩ := filterCam_made resid th _ g _ _ _ _ _ [] hm hown
      (by rw [List.nil_append]; exact (h.meas c g hg hk).symm) h1
    have hfind : ∀ c', SMap.find c' (if n = 0 then acc.1.grids else SMap.set c g' acc.1.grids) =
        if c' = c ∧ n ≠ 0 then some g' else SMap.find c' acc.1.grids := by
      intro c'
      by_cases hn : n = 0
      · simp [hn]
      · rw [if_neg hn, SMap.find_set]
        simp [hn]
    have hsorted : SMap.Sorted (if n = 0 then acc.1.grids else SMap.set c g' acc.1.grids) := by
      split_ifs
      · exact h.made.1
      · exact SMap.set_sorted _ _ _ h.made.1
    have hzero : n = 0 → g' = g ∧ rs' = (SMap.find c acc.1.resFns).getD [] := by
      intro hn
      subst hn
      have aux : ∀ (rs : List (Reproj K)) (g : Grid K) (b b' : CBook Par (Res K)) (rs' g'),
          filterCam resid th rs g b = .ok (rs', g', b', 0) → g' = g ∧ rs' = rs := by
        intro rs
        induction rs with
        | nil =>
          intro g b b' rs' g' h
          simp only [filterCam, Except.ok.injEq, Prod.mk.injEq] at h
          exact ⟨h.2.1.symm, h.1.symm⟩
        | cons r rs ih =>
          intro g b b' rs' g' h
          unfold filterCam at h
          split_ifs at h
          · obtain ⟨g1, h1, h⟩ := bind_ok h
            obtain ⟨st, _, h⟩ := bind_ok h
            split_ifs at h
            obtain ⟨b1, _, h⟩ := bind_ok h
            obtain ⟨⟨rs2, g2, b2, n2⟩, h2, h⟩ := bind_ok h
            simp at h
          · obtain ⟨⟨rs2, g2, b2, n2⟩, h2, h⟩ := bind_ok h
            simp only [AprilGrid.pure_eq_ok, Except.ok.injEq, Prod.mk.injEq] at h
            obtain ⟨rfl, rfl, rfl, rfl⟩ := h
            obtain ⟨e1, e2⟩ := ih _ _ _ _ _ h2
            exact ⟨e1, by rw [e2]⟩
      exact aux _ _ _ _ _ _ h1
    refine ⟨⟨hsorted, ?_⟩, ?_, ?_, ?_⟩
    · rintro ⟨c', x⟩ hx
      have := (SMap.find_eq_some hsorted).mpr hx
      rw [hfind] at this
      split_ifs at this with hc
      · simp only [Option.some.injEq] at this
        rw [← this]; exact k1
      · exact h.made.2 (c', x) (SMap.mem_of_find this)
    · rintro ⟨c', x⟩ hx
      have := (SMap.find_eq_some hsorted).mpr hx
      rw [hfind] at this
      split_ifs at this with hc
      · simp only [Option.some.injEq] at this
        rw [← this]
        exact k3.trans (h.stamp (c, g) (SMap.mem_of_find hg))
      · exact h.stamp (c', x) (SMap.mem_of_find this)
    · intro c' x hx hk'
      simp only [hfind] at hx
      simp only [View.camKeys, SMap.find_set]
      by_cases hc : c' = c
      · subst hc
        rw [if_pos rfl, Option.getD_some]
        rw [List.nil_append] at k2
        rw [← k2]
        by_cases hn : n = 0
        · simp only [hn, ne_eq, not_true_eq_false, and_false, if_false, hg, Option.some.injEq] at hx
          rw [← hx, (hzero hn).1]
        · simp only [hn, ne_eq, not_false_eq_true, and_self, if_true, Option.some.injEq] at hx
          rw [← hx]
      · rw [if_neg hc]
        simp only [hc, false_and, if_false] at hx
        exact h.meas c' x hx hk'
    · intro c' rs hr
      simp only [SMap.find_set] at hr
      simp only [hfind]
      split_ifs at hr with hc
      · simp only [Option.some.injEq] at hr
        subst hr hc
        refine ⟨?_, ?_⟩
        · intro r hr
          rw [k4] at hr
          exact hown r (List.mem_filter.mp hr).1
        · intro _
          split_ifs
          · rfl
          · rw [hg]; rfl
      · have := h.own c' rs hr
        refine ⟨this.1, fun hne => ?_⟩
        simp only [hc, false_and, if_false]
        exact this.2 hne

theorem foldlM_inv {α β : Type} {P : β → Prop} {f : β → α → Except Fault β} :
    ∀ (l : List α) (b b' : β), (∀ x ∈ l, ∀ b b', P b → f b x = .ok b' → P b') → P b →
      l.foldlM f b = .ok b' → P b'
  | [], b, b', _, hb, h => by
    simp only [List.foldlM_nil, AprilGrid.pure_eq_ok, Except.ok.injEq] at h
    exact h ▸ hb
  | x :: l, b, b', hf, hb, h => by
    rw [List.foldlM_cons] at h
    obtain ⟨b1, h1, h2⟩ := bind_ok h
    exact foldlM_inv l b1 b' (fun y hy => hf y (by simp [hy])) (hf x (by simp) b b1 hb h1) h2

theorem filterAll_tidy (resid : Reproj K → Option (K × K)) {cams : List Int}
    {ths : List (Int × (K × K))} {rows cols : Nat} {known : Int → Prop} {ts : Int} {v v' : View K}
    {b b' : CBook Par (Res K)} {n : Nat} (hk : ∀ c ∈ cams, known c)
    (h : TidyView rows cols known ts v) (hs : View.filterAll resid cams ths v b = .ok (v', b', n)) :
    TidyView rows cols known ts v' := by
  unfold View.filterAll at hs
  refine foldlM_inv (P := fun x : View K × CBook Par (Res K) × Nat => TidyView rows cols known ts x.1)
    ths (v, b, 0) (v', b', n) ?_ h hs
  rintro ct _ ⟨v1, b1, n1⟩ ⟨v2, b2, n2⟩ h1 h2
  obtain ⟨⟨v3, b3, n3⟩, h3, h2⟩ := bind_ok h2
  simp only [AprilGrid.pure_eq_ok, Except.ok.injEq, Prod.mk.injEq] at h2
  obtain ⟨rfl, rfl, _⟩ := h2
  unfold View.filter at h3
  refine foldlM_inv (P := fun x : View K × CBook Par (Res K) × Nat => TidyView rows cols known ts x.1)
    cams (v1, b1, 0) (v3, b3, n3) ?_ h1 h3
  intro c hc x y hx hy
  exact filterStep_tidy resid ct.2 (hk c hc) hx hy

end Yac.Calib
