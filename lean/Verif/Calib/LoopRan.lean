import Verif.Calib.LoopVisit

namespace Yac.Calib

open Yac.AprilGrid (Grid Meas Row MadeBy)
open Yac.Solver (CBook)

variable {K V : Type} [Field K] [LinearOrder K]

/-- A calibrator with cameras and recorded detections but without views. -/
inductive Loaded : Cal K V → Prop
  | new (rows cols : Nat) (th : K) : Loaded (Cal.new rows cols th)
  | addCamera {s s' : Cal K V} (i : Int) (p e : V) (fp fe : Bool) : Loaded s →
      addCamera s i p e fp fe = .ok s' → Loaded s'
  | addCameraData {s : Cal K V} (cam : Int) (grids : List (Grid K)) : Loaded s →
      (∀ g ∈ grids, ∃ ops, MadeBy s.rows s.cols ops g) → Loaded (addCameraData s cam grids)

/-- What holds for a calibrator without views. -/
structure Blank (s : Cal K V) : Prop where
  tidy : Tidy s
  views : s.views = []
  sorted : s.timestamps.Pairwise (· < ·)
  stamps : ∀ t, t ∈ s.timestamps ↔ (SMap.find t s.data).isSome = true

theorem setInsert_mem {a b : Int} : ∀ {l : List Int}, b ∈ setInsert a l ↔ b = a ∨ b ∈ l
  | [] => by simp [setInsert]
  | x :: l => by
    unfold setInsert
    split_ifs with h1 h2
    · simp
    · simp only [List.mem_cons, setInsert_mem (l := l)]; tauto
    · have : a = x := le_antisymm (not_lt.mp h2) (not_lt.mp h1)
      simp [this]

theorem setInsert_sorted {a : Int} : ∀ {l : List Int}, l.Pairwise (· < ·) →
    (setInsert a l).Pairwise (· < ·)
  | [], _ => by simp [setInsert]
  | x :: l, h => by
    unfold setInsert
    rw [List.pairwise_cons] at h
    split_ifs with h1 h2
    · rw [List.pairwise_cons, List.pairwise_cons]
      refine ⟨?_, h⟩
      intro b hb
      rcases List.mem_cons.mp hb with rfl | hb
      · exact h1
      · exact lt_trans h1 (h.1 b hb)
    · rw [List.pairwise_cons]
      refine ⟨?_, setInsert_sorted h.2⟩
      intro b hb
      rcases setInsert_mem.mp hb with rfl | hb
      · exact h2
      · exact h.1 b hb
    · exact List.pairwise_cons.mpr h

theorem Blank.addGrid {s : Cal K V} (h : Blank s) (cam : Int) (g : Grid K)
    (hg : ∃ ops, MadeBy s.rows s.cols ops g) : Blank (addGrid cam s g) := by
  refine ⟨⟨{ h.tidy.wf with }, ?_, ?_, ?_, ?_, ?_⟩, h.views, setInsert_sorted h.sorted, ?_⟩
  · exact h.tidy.piv
  · intro ts v hv
    have : SMap.find ts s.views = some v := hv
    rw [h.views] at this; simp [SMap.find] at this
  · intro ts v hv
    have : SMap.find ts s.views = some v := hv
    rw [h.views] at this; simp [SMap.find] at this
  · intro ts v hv
    have : SMap.find ts s.views = some v := hv
    rw [h.views] at this; simp [SMap.find] at this
  · intro ts gs hgs
    simp only [Calib.addGrid, SMap.find_set] at hgs
    split_ifs at hgs with ht
    · simp only [Option.some.injEq] at hgs
      subst hgs ht
      have hold : Detections s.rows s.cols ((SMap.find g.timestamp s.data).getD []) ∧
          ∀ cg ∈ (SMap.find g.timestamp s.data).getD [], cg.2.timestamp = g.timestamp := by
        cases hf : SMap.find g.timestamp s.data with
        | none => exact ⟨⟨by simp [SMap.Sorted], by simp⟩, by simp⟩
        | some gs => exact h.tidy.data _ gs hf
      refine ⟨⟨SMap.set_sorted _ _ _ hold.1.1, ?_⟩, ?_⟩
      · intro cg hcg
        rcases SMap.mem_set hcg with rfl | hcg
        · exact hg
        · exact hold.1.2 cg hcg
      · intro cg hcg
        rcases SMap.mem_set hcg with rfl | hcg
        · rfl
        · exact hold.2 cg hcg
    · exact h.tidy.data ts gs hgs
  · intro t
    simp only [Calib.addGrid, SMap.find_set]
    rw [setInsert_mem, h.stamps]
    by_cases ht : t = g.timestamp
    · simp [ht]
    · simp [ht]

theorem Loaded.blank {s : Cal K V} (h : Loaded s) : Blank s := by
  induction h with
  | new rows cols th =>
    refine ⟨⟨WF.new rows cols th, fun _ => rfl, ?_, ?_, ?_, ?_⟩, rfl, by simp [Cal.new], ?_⟩ <;>
      simp [Cal.new, SMap.find]
  | @addCamera s s' i p e fp fe _ hs ih =>
    have hw := ih.tidy.wf.addCamera hs
    unfold Calib.addCamera at hs
    split_ifs at hs
    simp only [Except.ok.injEq] at hs
    subst hs
    have hno : ∀ ts (v : View K), SMap.find ts s.views = some v → False := by
      intro ts v hv
      rw [ih.views] at hv; simp [SMap.find] at hv
    exact ⟨⟨hw, ih.tidy.piv, fun ts v hv => (hno ts v hv).elim, fun ts v hv => (hno ts v hv).elim,
      fun ts v hv => (hno ts v hv).elim, ih.tidy.data⟩, ih.views, ih.sorted, ih.stamps⟩
  | @addCameraData s cam grids _ hg ih =>
    unfold Calib.addCameraData
    revert hg ih
    generalize s = s0
    induction grids generalizing s0 with
    | nil => intro _ ih; exact ih
    | cons g l ihl =>
      intro hg ih
      rw [List.foldl_cons]
      exact ihl (addGrid cam s0 g) (fun x hx => hg x (by simp [hx])) (ih.addGrid cam g (hg g (by simp)))

/-- A chain of visits: outliers and dropped views are added up. -/
inductive Visits (L : LoopEnv K V) : Cal K V → List Int → Cal K V → Nat → Nat → Prop
  | nil (s : Cal K V) : Visits L s [] s 0 0
  | cons {s s1 s' : Cal K V} {ts : Int} {l : List Int} {n d n' d' : Nat} :
      Visit L s ts s1 n d → Visits L s1 l s' n' d' → Visits L s (ts :: l) s' (n + n') (d + d')

theorem outlierFold_spec {L : LoopEnv K V} : ∀ (l : List Int) (s : Cal K V) (cnt : Nat × Nat)
    (out : Cal K V × Nat × Nat), Tidy s → l.foldlM (outlierStep L) (s, cnt) = .ok out →
    Tidy out.1 ∧ ∃ n d, out.2 = (cnt.1 + d, cnt.2 + n) ∧ Visits L s l out.1 n d
  | [], s, cnt, out, h, hs => by
    simp only [List.foldlM_nil, AprilGrid.pure_eq_ok, Except.ok.injEq] at hs
    subst hs
    exact ⟨h, 0, 0, by simp, .nil s⟩
  | ts :: l, s, cnt, out, h, hs => by
    rw [List.foldlM_cons] at hs
    obtain ⟨⟨s1, c1⟩, h1, h2⟩ := bind_ok hs
    obtain ⟨t1, n, d, e1, v1⟩ := outlierStep_spec h h1
    obtain ⟨t2, n', d', e2, v2⟩ := outlierFold_spec l s1 c1 out t1 h2
    refine ⟨t2, n + n', d + d', ?_, .cons v1 v2⟩
    rw [e2]
    simp only at e1
    rw [e1]
    simp only [Nat.add_assoc]

theorem refreshInfo_eq (L : LoopEnv K V) (s : Cal K V) : ∃ i e, refreshInfo L s = { s with infoK := i, entropyK := e } := by
  unfold refreshInfo
  cases L.info s with
  | none => exact ⟨_, _, rfl⟩
  | some ie => exact ⟨_, _, rfl⟩

theorem Tidy.refresh {L : LoopEnv K V} {s : Cal K V} (h : Tidy s) : Tidy (refreshInfo L s) := by
  obtain ⟨i, e, hr⟩ := refreshInfo_eq L s
  rw [hr]
  exact h.of_eq { h.wf with } (fun _ => rfl) (fun _ => rfl) rfl rfl rfl rfl

/-- The views `_remove_outliers` visits. -/
def toVisit (s : Sess K V) (all : Bool) : List Int :=
  if all then (s.cal.views.map Prod.fst).reverse
  else match s.cal.views.getLast? with
    | none => []
    | some (last, _) => if last ∈ s.filtered then [] else [last]

theorem outlierStamps_spec {s : Sess K V} {all : Bool} {o : Sess K V × List Int}
    (h : outlierStamps s all = .ok o) : o.2 = toVisit s all ∧
      o.1 = { s with filtered := (if all = true ∨ toVisit s all = [] then s.filtered
          else setInsert ((s.cal.views.map Prod.fst).getLastD 0) s.filtered) } ∧
      (all = false → s.cal.views ≠ []) := by
  unfold outlierStamps at h
  unfold toVisit
  cases all with
  | true =>
    simp only [if_true, Except.ok.injEq] at h
    subst h
    simp
  | false =>
    simp only [Bool.false_eq_true, if_false] at h ⊢
    cases hl : s.cal.views.getLast? with
    | none => rw [hl] at h; simp at h
    | some x =>
      obtain ⟨last, v⟩ := x
      have hne : s.cal.views ≠ [] := by rintro e; rw [e] at hl; simp at hl
      have hlast : (s.cal.views.map Prod.fst).getLastD 0 = last := by
        rw [List.getLastD_eq_getLast?, List.getLast?_map, hl]; rfl
      rw [hl] at h
      simp only at h
      split_ifs at h with hm
      · simp only [Except.ok.injEq] at h
        subst h
        simp [hm, hne]
      · simp only [Except.ok.injEq] at h
        subst h
        simp only [hm, if_false, hlast, List.cons_ne_nil, or_self, Bool.false_eq_true]
        exact ⟨trivial, trivial, fun _ => hne⟩

theorem removeOutliers_spec {L : LoopEnv K V} {s s' : Sess K V} {all : Bool} {n : Nat}
    (h : Tidy s.cal) (hs : removeOutliers L s all = .ok (s', n)) :
    Tidy s'.cal ∧ (all = false → s.cal.views ≠ []) ∧
      s'.filterAll = s.filterAll ∧ s'.stamps = s.stamps ∧ s'.hist = s.hist ∧
      s'.filtered = (if all = true ∨ toVisit s all = [] then s.filtered else
        setInsert ((s.cal.views.map Prod.fst).getLastD 0) s.filtered) ∧
      ∃ c d, Visits L s.cal (toVisit s all) c n d ∧ Tidy c ∧
        s'.cal = if toVisit s all = [] then c else refreshInfo L c := by
  unfold removeOutliers at hs
  obtain ⟨⟨s1, l⟩, h1, hs⟩ := bind_ok hs
  obtain ⟨e1, e2, e3⟩ := outlierStamps_spec h1
  simp only at e1 e2
  obtain ⟨⟨c, d, m⟩, h2, hs⟩ := bind_ok hs
  simp only [Except.ok.injEq, Prod.mk.injEq] at hs
  obtain ⟨rfl, rfl⟩ := hs
  obtain ⟨t2, n', d', e4, v2⟩ := outlierFold_spec l s1.cal (0, 0) _ (by rw [e2]; exact h) h2
  simp only [Prod.mk.injEq, Nat.zero_add] at e4
  obtain ⟨rfl, rfl⟩ := e4
  have hc1 : s1.cal = s.cal := by rw [e2]
  rw [hc1, e1] at v2
  refine ⟨?_, e3, by rw [e2], by rw [e2], by rw [e2], by rw [e2], c, d, v2, t2, by rw [e1]⟩
  show Tidy (if l = [] then c else refreshInfo L c)
  split_ifs
  · exact t2
  · exact t2.refresh

/-- The calibrator during and after its loops.  The views are always those of recorded
frames that are not yet views. -/
inductive Ran (L : LoopEnv K V) : Sess K V → Prop
  | loaded {s : Cal K V} : Loaded s → Ran L ⟨s, [], true, [], []⟩
  | addFrame {s : Sess K V} {c : Cal K V} {b : Bool} (ts : Int) : Ran L s →
      SMap.find ts s.cal.views = none →
      addView L.toEnv s.cal ((SMap.find ts s.cal.data).getD []) = .ok (c, b) →
      Ran L { s with cal := c }
  | addNbvFrame {s : Sess K V} {c : Cal K V} {b : Bool} (ts : Int) : Ran L s →
      SMap.find ts s.cal.views = none →
      addNbvView L.toEnv s.cal ((SMap.find ts s.cal.data).getD []) = .ok (c, b) →
      Ran L { s with cal := c }
  | removeView {s : Sess K V} {c : Cal K V} (ts : Int) : Ran L s →
      removeView s.cal ts = .ok c → Ran L { s with cal := c }
  | marginalize {s : Sess K V} {c : Cal K V} : Ran L s →
      marginalize s.cal = .ok c → Ran L { s with cal := c }
  | solve {s : Sess K V} (f : Cal K V → Par → V) : Ran L s →
      Ran L { s with cal := solve { L.toEnv with solve := f } s.cal }
  | removeOutliers {s s' : Sess K V} {n : Nat} (all : Bool) : Ran L s →
      removeOutliers L s all = .ok (s', n) → Ran L s'
  | setFilterAll {s : Sess K V} (b : Bool) : Ran L s → Ran L { s with filterAll := b }
  | track {s : Sess K V} (ts : Int) (b : Bool) : Ran L s → Ran L (trackEstimates L s ts b)
  | finish {s s' : Sess K V} : Ran L s → nbvFinish L s = .ok s' → Ran L s'

theorem Tidy.addNbvFrame {env : Env K V} {s s' : Cal K V} {t : Int} {b : Bool} (h : Tidy s)
    (hnew : SMap.find t s.views = none)
    (hs : addNbvView env s ((SMap.find t s.data).getD []) = .ok (s', b)) :
    Tidy s' ∧ s'.data = s.data ∧ s'.timestamps = s.timestamps ∧ s'.threshold = s.threshold ∧
    ((b = false ∧ s'.views = s.views ∧ s'.infoK = s.infoK) ∨
     (b = true ∧ ∃ s1 v p, Calib.addView env s ((SMap.find t s.data).getD []) = .ok (s1, true) ∧
        Added s s1 t v p ∧ s'.views = SMap.set t v s.views ∧
        env.info (Calib.solve env (cacheEstimates s1)) = some (s'.infoK, s'.entropyK) ∧
        ¬ (1 / 2) * (s.infoK - s'.infoK) < s.threshold)) := by
  have hdet : Detections s.rows s.cols ((SMap.find t s.data).getD []) ∧
      ∀ cg ∈ (SMap.find t s.data).getD [], cg.2.timestamp = t := by
    cases hf : SMap.find t s.data with
    | none => exact ⟨⟨by simp [SMap.Sorted], by simp⟩, by simp⟩
    | some gs => exact h.data t gs hf
  have hnew' : ∀ ts, viewStamp ((SMap.find t s.data).getD []) = some ts → SMap.find ts s.views = none := by
    intro ts hts
    rcases viewStamp_cases hdet.2 with ⟨h1, _⟩ | ⟨h1, _⟩
    · rw [h1] at hts; simp at hts
    · rw [h1] at hts
      simp only [Option.some.injEq] at hts
      rw [← hts]; exact hnew
  rcases addNbvView_spec h.wf hdet.1 hnew' hs with ⟨_, rfl, rfl⟩ | ⟨ts, s₁, v, p, hst, hadd, hw, ha, hcase⟩
  · exact ⟨h, rfl, rfl, rfl, Or.inl ⟨rfl, rfl, rfl⟩⟩
  · have hts : ts = t := by
      rcases viewStamp_cases hdet.2 with ⟨h1, _⟩ | ⟨h1, _⟩
      · rw [h1] at hst; simp at hst
      · rw [h1] at hst; exact (Option.some.inj hst).symm
    subst hts
    obtain ⟨t1, d1, _⟩ := h.addFrame hnew hadd
    rcases hcase with ⟨rfl, info, ent, hinf, hgain, rfl⟩ | ⟨rfl, _, b', hw', rfl⟩
    · have t2 := t1.cache.solve env
      refine ⟨t2.of_eq { t2.wf with } (fun _ => rfl) (fun _ => rfl) rfl rfl rfl rfl, d1, ha.timestamps,
        ha.threshold, Or.inr ⟨rfl, s₁, v, p, hadd, ha, ha.views, hinf, hgain⟩⟩
    · refine ⟨t1.erase hw' rfl rfl rfl rfl rfl rfl, d1, ha.timestamps, ha.threshold,
        Or.inl ⟨rfl, ?_, ha.infoK⟩⟩
      show SMap.erase ts s₁.views = s.views
      rw [ha.views]
      exact erase_set_none _ _ _ h.wf.viewsSorted hnew

theorem FilteredViews.find {out : Reproj K → Bool} : ∀ {l l' : List (Int × View K)},
    FilteredViews out l l' → ∀ t v', SMap.find t l' = some v' → ∃ v, SMap.find t l = some v ∧
      v'.all = v.all.filter (fun r => !out r)
  | [], [], _, t, v', h => by simp [SMap.find] at h
  | (a, v) :: l, (a', w) :: l', h, t, v', hf => by
    obtain ⟨rfl, _, _, ha, hr⟩ := h
    by_cases ht : a' = t
    · simp only [SMap.find, ht, if_true, Option.some.injEq] at hf
      subst hf
      exact ⟨v, by simp [SMap.find, ht], ha⟩
    · simp only [SMap.find, ht, if_false] at hf
      obtain ⟨x, h1, h2⟩ := FilteredViews.find hr t v' hf
      exact ⟨x, by simp [SMap.find, ht, h1], h2⟩
  | [], _ :: _, h, _, _, _ => h.elim
  | _ :: _, [], h, _, _, _ => h.elim

/-- Filtering all views one after the other. -/
theorem filterFold_tidy {s : Cal K V} (resid : Reproj K → Option (K × K)) (ths : List (Int × (K × K)))
    {cams : List Int} (hc : ∀ c ∈ cams, (SMap.find c s.params).isSome = true)
    (ht : ∀ tv ∈ s.views, TidyView s.rows s.cols (fun i => (SMap.find i s.params).isSome = true) tv.1 tv.2) :
    ∀ (todo : List (Int × View K)) (acc out : List (Int × View K) × CBook Par (Res K) × Nat),
    (∀ tv ∈ todo, tv ∈ s.views) →
    (∀ tv ∈ acc.1, TidyView s.rows s.cols (fun i => (SMap.find i s.params).isSome = true) tv.1 tv.2) →
    todo.foldlM (fun (acc : List (Int × View K) × CBook Par (Res K) × Nat) tv => do
      let (v, b, n) ← View.filterAll resid cams ths tv.2 acc.2.1
      pure (acc.1 ++ [(tv.1, v)], b, acc.2.2 + n)) acc = (.ok out : Except Fault _) →
    ∀ tv ∈ out.1, TidyView s.rows s.cols (fun i => (SMap.find i s.params).isSome = true) tv.1 tv.2
  | [], acc, out, _, h, hs => by
    simp only [List.foldlM_nil, AprilGrid.pure_eq_ok, Except.ok.injEq] at hs
    exact hs ▸ h
  | tv :: todo, acc, out, hm, h, hs => by
    rw [List.foldlM_cons] at hs
    obtain ⟨a1, h1, h2⟩ := bind_ok hs
    obtain ⟨⟨v, b, n⟩, h3, h4⟩ := bind_ok h1
    simp only [AprilGrid.pure_eq_ok, Except.ok.injEq] at h4
    subst h4
    refine filterFold_tidy resid ths hc ht todo _ out (fun x hx => hm x (by simp [hx])) ?_ h2
    intro x hx
    rcases List.mem_append.mp hx with hx | hx
    · exact h x hx
    · simp only [List.mem_singleton] at hx
      subst hx
      exact filterAll_tidy (known := fun i => (SMap.find i s.params).isSome = true) resid hc
        (ht tv (hm tv (by simp))) h3

theorem key_of_all {rows cols next : Nat} {known : Int → Prop} {v : View K}
    (h : ViewWF rows cols next known v) (c : Int) (m : (Int × Int) × (K × K)) :
    m ∈ v.camKeys c ↔ ∃ r ∈ v.all, r.cam = c ∧ r.key = m := by
  unfold View.camKeys
  rw [List.mem_map]
  constructor
  · rintro ⟨r, hr, rfl⟩
    cases hf : SMap.find c v.resFns with
    | none => rw [hf] at hr; simp at hr
    | some rs =>
      rw [hf] at hr
      exact ⟨r, (mem_all h.rsorted r).mpr ⟨c, rs, hf, hr⟩, ((h.res c rs hf).own r hr).1, rfl⟩
  · rintro ⟨r, hr, rfl, rfl⟩
    obtain ⟨_, _, _, rs, h1, h2⟩ := h.of_mem hr
    exact ⟨r, by rw [h1]; exact h2, rfl⟩

theorem Tidy.filterAllViews {s s' : Cal K V} {n : Nat} (h : Tidy s)
    (resid : Reproj K → Option (K × K)) (thresh : List (K × K) → K × K)
    (hs : Calib.filterAllViews resid thresh s = .ok (s', n)) :
    Tidy s' ∧ s'.data = s.data ∧ s'.params = s.params ∧ s'.exts = s.exts ∧ s'.poses = s.poses ∧
      (∀ t, (SMap.find t s'.views).isSome = (SMap.find t s.views).isSome) := by
  obtain ⟨vs, b, m, e, w, f, c⟩ := filterAllViews_spec resid thresh h.wf
  have e' := hs
  rw [hs] at e
  simp only [Except.ok.injEq, Prod.mk.injEq] at e
  obtain ⟨rfl, rfl⟩ := e
  have hkeys := filteredViews_keys f
  refine ⟨⟨w, ?_, ?_, ?_, ?_, h.data⟩, rfl, rfl, rfl, rfl, hkeys⟩
  · intro t
    show (SMap.find t s.poses).isSome = (SMap.find t vs).isSome
    rw [hkeys t]; exact h.piv t
  · intro ts v hv
    unfold Calib.filterAllViews at e'
    obtain ⟨⟨vs', b', n'⟩, h1, h2⟩ := bind_ok e'
    simp only [AprilGrid.pure_eq_ok, Except.ok.injEq, Prod.mk.injEq, Cal.mk.injEq, true_and, and_true] at h2
    have hvs : vs' = vs := h2.1.1
    have := filterFold_tidy (s := s) resid _ (fun c hc => (mem_camIdxs c).mp hc)
      (fun tv htv => h.views tv.1 tv.2 ((SMap.find_eq_some h.wf.viewsSorted).mpr htv)) s.views _ _
      (fun _ hx => hx) (by simp) h1
    simp only at this hv
    rw [hvs] at this
    exact this (ts, v) (SMap.mem_of_find hv)
  · intro ts v hv cc x hx
    obtain ⟨v0, h1, h2⟩ := FilteredViews.find f ts v hv
    obtain ⟨r, hr, rc, rk⟩ := (key_of_all (w.views ts v hv).2.2 cc x).mp hx
    rw [h2] at hr
    exact h.src ts v0 h1 cc x ((key_of_all (h.wf.views ts v0 h1).2.2 cc x).mpr
      ⟨r, (List.mem_filter.mp hr).1, rc, rk⟩)
  · intro ts v hv
    obtain ⟨v0, h1, _⟩ := FilteredViews.find f ts v hv
    exact h.has ts v0 h1

theorem Ran.tidy {L : LoopEnv K V} {s : Sess K V} (h : Ran L s) : Tidy s.cal := by
  induction h with
  | loaded h => exact h.blank.tidy
  | addFrame ts _ hn hs ih => exact (ih.addFrame hn hs).1
  | addNbvFrame ts _ hn hs ih => exact (ih.addNbvFrame hn hs).1
  | removeView ts _ hs ih => exact ih.removeView hs
  | marginalize _ hs ih => exact (ih.marginalize hs).1
  | solve f _ ih => exact ih.solve _
  | removeOutliers all _ hs ih => exact (removeOutliers_spec ih hs).1
  | setFilterAll b _ ih => exact ih
  | track ts b _ ih => exact ih
  | @finish s s' _ hs ih =>
    unfold nbvFinish at hs
    obtain ⟨⟨c, n⟩, h1, hs⟩ := bind_ok hs
    simp only [Except.ok.injEq] at hs
    subst hs
    have t1 := (ih.filterAllViews _ _ h1).1
    have t2 : Tidy { c with removedOutliers := (n : Int) } :=
      t1.of_eq { t1.wf with } (fun _ => rfl) (fun _ => rfl) rfl rfl rfl rfl
    exact t2.solve _

end Yac.Calib
