import Verif.Calib.CameraMarg

namespace Yac.Calib

open Yac.AprilGrid (Grid Meas Row)
open Yac.Solver (CBook insSet mem_insSet nodup_insSet)

variable {K V : Type} [Field K] [LinearOrder K]

theorem hasCorner_inj {rows cols : Nat} {t c t' c' : Int} (h : hasCorner rows cols t c = true)
    (hc : 0 ≤ c' ∧ c' < 4) (he : t' * 4 + c' = t * 4 + c) : t' = t ∧ c' = c := by
  have := hasCorner_idx h
  omega

theorem filterCam_spec (resid : Reproj K → Option (K × K)) (th : K × K) {rows cols : Nat}
    {Q : Finset Par} :
    ∀ (rs : List (Reproj K)) (g : Grid K) (b : CBook Par (Res K)) (S : Finset (Res K)),
    Solver.CInv Res.blocks b Q S →
    (∀ r ∈ rs, hasCorner rows cols r.tag r.corner = true ∧
      AprilGrid.has g r.tag r.corner = .ok true ∧ Res.reproj r ∈ S) →
    (rs.map (fun r => (r.tag, r.corner))).Nodup →
    (rs = [] ∨ (rs.length : Int) ≤ g.nbDetections) →
    ∃ g' b' S', filterCam resid th rs g b =
        .ok (rs.filter (fun r => !isOutlier resid th r), g', b', rs.countP (isOutlier resid th)) ∧
      Solver.CInv Res.blocks b' Q S' ∧
      (∀ x, x ∈ S' ↔ x ∈ S ∧ ¬ ∃ r ∈ rs, isOutlier resid th r = true ∧ x = .reproj r) ∧
      g'.nbDetections = g.nbDetections - rs.countP (isOutlier resid th) ∧
      g'.timestamp = g.timestamp ∧
      (∀ t c, 0 ≤ t → 0 ≤ c → c < 4 →
        (AprilGrid.has g' t c = if ∃ r ∈ rs, isOutlier resid th r = true ∧ r.tag = t ∧ r.corner = c
          then .ok false else AprilGrid.has g t c)) := by
  intro rs
  induction rs with
  | nil =>
    intro g b S hc _ _ _
    exact ⟨g, b, S, rfl, hc, by simp, by simp, rfl, by simp⟩
  | cons r rs ih =>
    intro g b S hc hall hnd hlen
    rw [List.map_cons, List.nodup_cons] at hnd
    obtain ⟨hcn, hhas, hinS⟩ := hall r (by simp)
    have hidx := hasCorner_idx hcn
    have hlen' : ((r :: rs).length : Int) ≤ g.nbDetections := by simpa using hlen
    rw [List.length_cons] at hlen'
    push_cast at hlen'
    by_cases hout : isOutlier resid th r = true
    · obtain ⟨g1, hg1, hnb, hgone, hinit, hts, hother⟩ := remove_held g r.tag r.corner (by omega) hhas
      obtain ⟨b1, hb1, hc1, _, _⟩ := hc.removeResidual _ hinS
      have hne : ∀ r' ∈ rs, (r'.tag, r'.corner) ≠ (r.tag, r.corner) := by
        intro r' hr' he
        exact hnd.1 (List.mem_map.mpr ⟨r', hr', he⟩)
      obtain ⟨g', b', S', e1, e2, e3, e4, e5, e6⟩ := ih g1 b1 _ hc1 (by
        intro r' hr'
        obtain ⟨k1, k2, k3⟩ := hall r' (by simp [hr'])
        have hidx' := hasCorner_idx k1
        refine ⟨k1, ?_, ?_⟩
        · rw [hother r'.tag r'.corner ?_ (by omega), k2]
          intro he
          have := hasCorner_inj hcn ⟨hidx'.2.1, hidx'.2.2⟩ he
          exact hne r' hr' (by rw [this.1, this.2])
        · rw [Finset.mem_erase]
          refine ⟨?_, k3⟩
          intro he
          simp only [Res.reproj.injEq] at he
          exact hne r' hr' (by rw [he])) hnd.2 (by right; rw [hnb]; omega)
      have hlt : rs.countP (isOutlier resid th) ≤ rs.length := List.countP_le_length
      refine ⟨g', b', S', ?_, e2, ?_, ?_, by rw [e5, hts], ?_⟩
      · have hnbne : g.nbDetections ≠ g1.nbDetections := by rw [hnb]; omega
        simp only [filterCam, hout, if_true, hg1, AprilGrid.ok_bind, hgone, Bool.false_eq_true,
          if_false, if_neg hnbne, hb1, e1, AprilGrid.pure_eq_ok]
        simp [List.filter_cons, hout]
      · intro x
        rw [e3, Finset.mem_erase]
        simp only [List.mem_cons, exists_eq_or_imp]
        constructor
        · rintro ⟨⟨h1, h2⟩, h3⟩
          refine ⟨h2, ?_⟩
          rintro (⟨_, h4⟩ | h4)
          · exact h1 h4
          · exact h3 h4
        · rintro ⟨h2, h3⟩
          exact ⟨⟨fun he => h3 (Or.inl ⟨hout, he⟩), h2⟩, fun h4 => h3 (Or.inr h4)⟩
      · rw [e4, hnb, List.countP_cons_of_pos hout]
        push_cast; omega
      · intro t c ht hc0 hc4
        rw [e6 t c ht hc0 hc4]
        simp only [List.mem_cons, exists_eq_or_imp]
        by_cases h1 : ∃ r' ∈ rs, isOutlier resid th r' = true ∧ r'.tag = t ∧ r'.corner = c
        · rw [if_pos h1, if_pos (Or.inr h1)]
        · rw [if_neg h1]
          by_cases h2 : r.tag = t ∧ r.corner = c
          · rw [if_pos (Or.inl ⟨hout, h2⟩), ← h2.1, ← h2.2]; exact hgone
          · rw [if_neg (by rintro (h3 | h3); exacts [h2 h3.2, h1 h3])]
            refine hother t c ?_ (by omega)
            intro he
            have := hasCorner_inj hcn ⟨hc0, hc4⟩ he
            exact h2 ⟨this.1.symm, this.2.symm⟩
    · obtain ⟨g', b', S', e1, e2, e3, e4, e5, e6⟩ := ih g b S hc (fun r' hr' => hall r' (by simp [hr']))
        hnd.2 (Or.inr (by omega))
      refine ⟨g', b', S', ?_, e2, ?_, ?_, e5, ?_⟩
      · simp only [filterCam, hout, if_false, e1, AprilGrid.ok_bind, AprilGrid.pure_eq_ok,
          Bool.false_eq_true]
        simp [List.filter_cons, hout]
      · intro x
        rw [e3]
        simp only [List.mem_cons, exists_eq_or_imp]
        simp [hout]
      · rw [e4, List.countP_cons_of_neg hout]
      · intro t c ht hc0 hc4
        rw [e6 t c ht hc0 hc4]
        simp only [List.mem_cons, exists_eq_or_imp]
        simp [hout]

theorem flatMap_set_filter {α : Type} (f : α → Int) (p : α → Bool) (c : Int)
    (m : List (Int × List α)) (h : SMap.Sorted m) (hf : ∀ x ∈ m, ∀ a ∈ x.2, f a = x.1) :
    (SMap.set c (((SMap.find c m).getD []).filter p) m).flatMap (·.2) =
      (m.flatMap (·.2)).filter (fun a => decide (f a ≠ c) || p a) := by
  induction m with
  | nil => simp [SMap.set, SMap.find]
  | cons x m ih =>
    obtain ⟨q, w⟩ := x
    have h1 := List.pairwise_cons.mp h
    have hq : ∀ a ∈ w, f a = q := hf (q, w) (by simp)
    have hrest : q ≥ c → (m.flatMap (·.2)).filter (fun a => decide (f a ≠ c) || p a) =
        m.flatMap (·.2) := by
      intro hqc
      rw [List.filter_eq_self]
      intro a ha
      obtain ⟨y, hy, ha⟩ := List.mem_flatMap.mp ha
      have h2 := hf y (by simp [hy]) a ha
      have h3 := h1.1 y hy
      simp only at h3
      have : f a ≠ c := by omega
      simp [this]
    rw [SMap.set]
    rcases lt_trichotomy c q with hlt | heq | hgt
    · rw [if_pos hlt]
      have hnone : SMap.find c ((q, w) :: m) = none := by
        apply SMap.find_none_of_not_mem
        intro hmem
        rw [List.map_cons, List.mem_cons] at hmem
        rcases hmem with he | hmem
        · exact absurd he (ne_of_lt hlt)
        · obtain ⟨y, hy, he⟩ := List.mem_map.mp hmem
          have := h1.1 y hy
          simp only at this
          omega
      rw [hnone, List.flatMap_cons, List.flatMap_cons, List.filter_append, hrest (by omega)]
      have : w.filter (fun a => decide (f a ≠ c) || p a) = w := by
        rw [List.filter_eq_self]
        intro a ha
        have := hq a ha
        have : f a ≠ c := by omega
        simp [this]
      rw [this]
      simp
    · subst heq
      rw [if_neg (lt_irrefl _), if_neg (lt_irrefl _), List.flatMap_cons, List.flatMap_cons,
        List.filter_append, hrest le_rfl]
      simp only [SMap.find, if_true, Option.getD_some]
      congr 1
      apply List.filter_congr
      intro a ha
      simp [hq a ha]
    · rw [if_neg (by omega), if_pos hgt]
      have ih' := ih h1.2 (fun y hy => hf y (by simp [hy]))
      rw [List.flatMap_cons, List.flatMap_cons, List.filter_append]
      rw [show SMap.find c ((q, w) :: m) = SMap.find c m from by
        simp [SMap.find, ne_of_lt hgt]]
      rw [ih']
      congr 1
      symm
      rw [List.filter_eq_self]
      intro a ha
      have := hq a ha
      have : f a ≠ c := by omega
      simp [this]

theorem all_key {rows cols next : Nat} {known : Int → Prop} {v : View K}
    (h : ViewWF rows cols next known v) : ∀ x ∈ v.resFns, ∀ a ∈ x.2, a.cam = x.1 := by
  intro x hx a ha
  exact ((h.res x.1 x.2 ((SMap.find_eq_some h.rsorted).mpr hx)).own a ha).1

/-- The residuals of one camera are those of the view with that camera index. -/
theorem of_eq_filter {rows cols next : Nat} {known : Int → Prop} {v : View K}
    (h : ViewWF rows cols next known v) (c : Int) :
    (SMap.find c v.resFns).getD [] = v.all.filter (fun r => decide (r.cam = c)) := by
  have key := all_key h
  have hs := h.rsorted
  rw [View.all]
  generalize v.resFns = m at key hs
  induction m with
  | nil => simp [SMap.find]
  | cons x m ih =>
    obtain ⟨q, w⟩ := x
    have h1 := List.pairwise_cons.mp hs
    rw [List.flatMap_cons, List.filter_append]
    by_cases hc : c = q
    · subst hc
      have e1 : w.filter (fun r => decide (r.cam = c)) = w := by
        rw [List.filter_eq_self]; intro a ha; simp [key (c, w) (by simp) a ha]
      have e2 : (m.flatMap (·.2)).filter (fun r : Reproj K => decide (r.cam = c)) = [] := by
        rw [List.filter_eq_nil_iff]
        intro a ha
        obtain ⟨y, hy, ha⟩ := List.mem_flatMap.mp ha
        have h2 := key y (by simp [hy]) a ha
        have h3 := h1.1 y hy
        simp only at h3
        simp only [decide_eq_true_eq]; omega
      rw [e1, e2]; simp [SMap.find]
    · have e1 : w.filter (fun r => decide (r.cam = c)) = [] := by
        rw [List.filter_eq_nil_iff]
        intro a ha
        have := key (q, w) (by simp) a ha
        simp only [decide_eq_true_eq]; omega
      rw [e1, List.nil_append, ← ih (fun y hy => key y (by simp [hy])) h1.2]
      simp [SMap.find, Ne.symm hc]

/-- What removing exactly the residuals with `out` from a view does to the view, to the
solver's residuals and to the count. -/
structure Filtered (out : Reproj K → Bool) (rows cols next : Nat) (known : Int → Prop)
    (Q : Finset Par) (v₀ : View K) (S₀ : Finset (Res K))
    (v : View K) (b : CBook Par (Res K)) (S : Finset (Res K)) (n : Nat) : Prop where
  wf : ViewWF rows cols next known v
  ts : v.ts = v₀.ts
  pose : v.pose = v₀.pose
  res : v.all = v₀.all.filter (fun r => !out r)
  count : n = v₀.all.countP out
  book : Solver.CInv Res.blocks b Q S
  mem : ∀ x, x ∈ S ↔ x ∈ S₀ ∧ ¬ ∃ r ∈ v₀.all, out r = true ∧ x = .reproj r
  gnone : ∀ c, SMap.find c v₀.grids = none → SMap.find c v.grids = none
  grids : ∀ c g₀, SMap.find c v₀.grids = some g₀ → ∃ g, SMap.find c v.grids = some g ∧
    g.timestamp = g₀.timestamp ∧
    g.nbDetections = g₀.nbDetections - v₀.all.countP (fun r => out r && decide (r.cam = c)) ∧
    ∀ t k, 0 ≤ t → 0 ≤ k → k < 4 → AprilGrid.has g t k =
      if ∃ r ∈ v₀.all, out r = true ∧ r.cam = c ∧ r.tag = t ∧ r.corner = k
      then .ok false else AprilGrid.has g₀ t k

variable {rows cols next : Nat} {known : Int → Prop} {Q : Finset Par}

theorem Filtered.refl {v : View K} {b : CBook Par (Res K)} {S : Finset (Res K)}
    (h : ViewWF rows cols next known v) (hb : Solver.CInv Res.blocks b Q S) :
    Filtered (fun _ => false) rows cols next known Q v S v b S 0 where
  wf := h
  ts := rfl
  pose := rfl
  res := by simp
  count := by simp
  book := hb
  mem := by simp
  gnone := fun _ h => h
  grids := fun c g hg => ⟨g, hg, rfl, by simp, by simp⟩

theorem Filtered.trans {o₁ o₂ : Reproj K → Bool} {v₀ v₁ v₂ : View K} {b₁ b₂ : CBook Par (Res K)}
    {S₀ S₁ S₂ : Finset (Res K)} {n₁ n₂ : Nat}
    (h₁ : Filtered o₁ rows cols next known Q v₀ S₀ v₁ b₁ S₁ n₁)
    (h₂ : Filtered o₂ rows cols next known Q v₁ S₁ v₂ b₂ S₂ n₂) :
    Filtered (fun r => o₁ r || o₂ r) rows cols next known Q v₀ S₀ v₂ b₂ S₂ (n₁ + n₂) where
  wf := h₂.wf
  ts := h₂.ts.trans h₁.ts
  pose := h₂.pose.trans h₁.pose
  res := by
    rw [h₂.res, h₁.res, List.filter_filter]
    apply List.filter_congr; intro a _; cases o₁ a <;> cases o₂ a <;> rfl
  count := by
    rw [h₁.count, h₂.count, h₁.res, List.countP_filter]
    induction v₀.all with
    | nil => rfl
    | cons a l ih =>
      simp only [List.countP_cons]
      cases o₁ a <;> cases o₂ a <;> simp <;> omega
  book := h₂.book
  mem := by
    intro x
    rw [h₂.mem, h₁.mem, h₁.res]
    constructor
    · rintro ⟨⟨k1, k2⟩, k3⟩
      refine ⟨k1, ?_⟩
      rintro ⟨r, hr, ho, rfl⟩
      cases ho₁ : o₁ r with
      | true => exact k2 ⟨r, hr, ho₁, rfl⟩
      | false =>
        refine k3 ⟨r, List.mem_filter.mpr ⟨hr, by simp [ho₁]⟩, ?_, rfl⟩
        simpa [ho₁] using ho
    · rintro ⟨k1, k2⟩
      refine ⟨⟨k1, ?_⟩, ?_⟩
      · rintro ⟨r, hr, ho, rfl⟩; exact k2 ⟨r, hr, by simp [ho], rfl⟩
      · rintro ⟨r, hr, ho, rfl⟩
        exact k2 ⟨r, (List.mem_filter.mp hr).1, by simp [ho], rfl⟩
  gnone := fun c h => h₂.gnone c (h₁.gnone c h)
  grids := by
    intro c g₀ hg₀
    obtain ⟨g₁, k1, k2, k3, k4⟩ := h₁.grids c g₀ hg₀
    obtain ⟨g₂, l1, l2, l3, l4⟩ := h₂.grids c g₁ k1
    refine ⟨g₂, l1, l2.trans k2, ?_, ?_⟩
    · rw [l3, k3, h₁.res, List.countP_filter]
      have : ∀ l : List (Reproj K), l.countP (fun r => (o₁ r || o₂ r) && decide (r.cam = c)) =
          l.countP (fun r => o₁ r && decide (r.cam = c)) +
          l.countP (fun r => (o₂ r && decide (r.cam = c)) && !o₁ r) := by
        intro l
        induction l with
        | nil => rfl
        | cons a l ih =>
          simp only [List.countP_cons]
          rw [ih]
          cases o₁ a <;> cases o₂ a <;> cases decide (a.cam = c) <;> simp <;> omega
      rw [this]; push_cast; omega
    · intro t k ht hk hk4
      rw [l4 t k ht hk hk4, k4 t k ht hk hk4, h₁.res]
      by_cases e1 : ∃ r ∈ v₀.all, o₁ r = true ∧ r.cam = c ∧ r.tag = t ∧ r.corner = k
      · obtain ⟨r, hr, h3, h4⟩ := e1
        have e1 : ∃ r ∈ v₀.all, o₁ r = true ∧ r.cam = c ∧ r.tag = t ∧ r.corner = k :=
          ⟨r, hr, h3, h4⟩
        have e2 : ∃ r ∈ v₀.all, (o₁ r || o₂ r) = true ∧ r.cam = c ∧ r.tag = t ∧ r.corner = k :=
          ⟨r, hr, by simp [h3], h4⟩
        rw [if_pos e1, if_pos e2, ite_self]
      · rw [if_neg e1]
        congr 1
        apply propext
        constructor
        · rintro ⟨r, hr, h3, h4⟩
          exact ⟨r, (List.mem_filter.mp hr).1, by simp [h3], h4⟩
        · rintro ⟨r, hr, h3, h4⟩
          have hf : o₁ r = false := by
            cases ho : o₁ r with
            | false => rfl
            | true => exact absurd ⟨r, hr, ho, h4⟩ e1
          exact ⟨r, List.mem_filter.mpr ⟨hr, by simp [hf]⟩, by simpa [hf] using h3, h4⟩

theorem Filtered.congr {o o' : Reproj K → Bool} {v₀ v : View K} {b : CBook Par (Res K)}
    {S₀ S : Finset (Res K)} {n : Nat}
    (h : Filtered o rows cols next known Q v₀ S₀ v b S n) (he : ∀ r ∈ v₀.all, o r = o' r) :
    Filtered o' rows cols next known Q v₀ S₀ v b S n where
  wf := h.wf
  ts := h.ts
  pose := h.pose
  res := by rw [h.res]; apply List.filter_congr; intro a ha; rw [he a ha]
  count := by rw [h.count]; apply List.countP_congr; intro a ha; rw [he a ha]
  book := h.book
  mem := by
    intro x
    rw [h.mem]
    constructor
    · rintro ⟨k1, k2⟩
      exact ⟨k1, fun ⟨r, hr, ho, e⟩ => k2 ⟨r, hr, by rw [he r hr]; exact ho, e⟩⟩
    · rintro ⟨k1, k2⟩
      exact ⟨k1, fun ⟨r, hr, ho, e⟩ => k2 ⟨r, hr, by rw [← he r hr]; exact ho, e⟩⟩
  gnone := h.gnone
  grids := by
    intro c g₀ hg₀
    obtain ⟨g, k1, k2, k3, k4⟩ := h.grids c g₀ hg₀
    refine ⟨g, k1, k2, ?_, ?_⟩
    · rw [k3]; congr 2; apply List.countP_congr; intro a ha; rw [he a ha]
    · intro t k ht hk hk4
      rw [k4 t k ht hk hk4]
      congr 1
      apply propext
      constructor
      · rintro ⟨r, hr, h3, h4⟩; exact ⟨r, hr, by rw [← he r hr]; exact h3, h4⟩
      · rintro ⟨r, hr, h3, h4⟩; exact ⟨r, hr, by rw [he r hr]; exact h3, h4⟩

/-- One camera of `filter_view`. -/
theorem filterStep_spec (resid : Reproj K → Option (K × K)) (th : K × K) {v : View K}
    {b : CBook Par (Res K)} {S : Finset (Res K)} (n : Nat) (c : Int)
    (h : ViewWF rows cols next known v) (hk : known c) (hb : Solver.CInv Res.blocks b Q S)
    (hS : ∀ r ∈ v.all, Res.reproj r ∈ S) :
    ∃ v' b' S' m, filterStep resid th (v, b, n) c = .ok (v', b', n + m) ∧
      Filtered (fun r => isOutlier resid th r && decide (r.cam = c)) rows cols next known Q v S
        v' b' S' m := by
  set rs := (SMap.find c v.resFns).getD [] with hrs
  have hof : rs = v.all.filter (fun r => decide (r.cam = c)) := of_eq_filter h c
  have hwf : CamWF rows cols next v.pose v.grids c rs := by
    rw [hrs]
    cases hf : SMap.find c v.resFns with
    | some rs' => exact h.res c rs' hf
    | none => exact ⟨by simp, by simp, by simp, Or.inl (by simp)⟩
  have hmem : ∀ r, r ∈ rs ↔ r ∈ v.all ∧ r.cam = c := by
    intro r; rw [hof]; simp [List.mem_filter]
  have hres : ∀ rs' : List (Reproj K), rs' = rs.filter (fun r => !isOutlier resid th r) →
      (SMap.set c rs' v.resFns).flatMap (·.2) =
        v.all.filter (fun r => !(isOutlier resid th r && decide (r.cam = c))) := by
    rintro rs' rfl
    rw [hrs, flatMap_set_filter Reproj.cam _ c v.resFns h.rsorted (all_key h)]
    apply List.filter_congr
    intro a _
    by_cases e : a.cam = c <;> simp [e]
  have hcount : ∀ P : Reproj K → Bool, rs.countP P =
      v.all.countP (fun r => P r && decide (r.cam = c)) := by
    intro P; rw [hof, List.countP_filter]
  by_cases hnil : rs = []
  · -- nothing recorded for this camera
    have e1 : filterStep resid th (v, b, n) c =
        .ok ({ v with resFns := SMap.set c [] v.resFns }, b, n + 0) := by
      simp only [filterStep]
      rw [← hrs, hnil]
      simp [filterCam]
    refine ⟨_, b, S, 0, e1, ?_⟩
    have hno : ∀ r ∈ v.all, r.cam ≠ c := by
      intro r hr he
      have := (hmem r).mpr ⟨hr, he⟩
      rw [hnil] at this; simp at this
    have hfilt := hres [] (by rw [hnil]; rfl)
    have hself : v.all.filter (fun r => !(isOutlier resid th r && decide (r.cam = c))) = v.all := by
      rw [List.filter_eq_self]; intro a ha; simp [hno a ha]
    refine ⟨⟨h.gsorted, SMap.set_sorted _ _ _ h.rsorted, ?_, ?_⟩, rfl, rfl, hfilt, ?_, hb, ?_,
      fun _ h => h, ?_⟩
    · intro c' rs' hf
      simp only [SMap.find_set] at hf
      split_ifs at hf with e
      · rw [e]; exact hk
      · exact h.cams c' rs' hf
    · intro c' rs' hf
      simp only [SMap.find_set] at hf
      split_ifs at hf with e
      · simp only [Option.some.injEq] at hf
        subst hf
        exact ⟨by simp, by simp, by simp, Or.inl rfl⟩
      · exact h.res c' rs' hf
    · rw [← hcount, hnil]; rfl
    · intro x
      constructor
      · intro hx
        refine ⟨hx, ?_⟩
        rintro ⟨r, hr, ho, _⟩
        simp [hno r hr] at ho
      · exact fun hx => hx.1
    · intro c' g hg
      refine ⟨g, hg, rfl, ?_, ?_⟩
      · have : v.all.countP (fun r => (isOutlier resid th r && decide (r.cam = c)) &&
            decide (r.cam = c')) = 0 := by
          rw [List.countP_eq_zero]; intro a ha; simp [hno a ha]
        rw [this]; simp
      · intro t k _ _ _
        rw [if_neg]
        rintro ⟨r, hr, ho, _⟩
        simp [hno r hr] at ho
  · obtain ⟨r₀, hr₀⟩ := List.exists_mem_of_ne_nil _ hnil
    obtain ⟨g, hg, _⟩ := hwf.held r₀ hr₀
    obtain ⟨g', b', S', e1, e2, e3, e4, e5, e6⟩ := filterCam_spec resid th (rows := rows)
      (cols := cols) rs g b S hb (by
        intro r hr
        obtain ⟨g1, k1, k2⟩ := hwf.held r hr
        rw [hg] at k1
        simp only [Option.some.injEq] at k1
        exact ⟨(hwf.own r hr).2.2.2, k1 ▸ k2, hS r ((hmem r).mp hr).1⟩) hwf.corners
      (hwf.count.imp id (fun k => k g hg))
    have hlen : (rs.length : Int) ≤ g.nbDetections := by
      rcases hwf.count with k | k
      · exact absurd k hnil
      · exact k g hg
    refine ⟨⟨v.ts, if rs.countP (isOutlier resid th) = 0 then v.grids else SMap.set c g' v.grids,
      v.pose, SMap.set c (rs.filter (fun r => !isOutlier resid th r)) v.resFns⟩,
      b', S', rs.countP (isOutlier resid th), ?_, ?_⟩
    · simp only [filterStep]
      rw [← hrs, hg, Option.getD_some, e1]
      rfl
    -- the grid of this camera afterwards
    have hgrid : ∃ g1, SMap.find c (if rs.countP (isOutlier resid th) = 0 then v.grids else
          SMap.set c g' v.grids) = some g1 ∧ g1.nbDetections = g'.nbDetections ∧
        g1.timestamp = g'.timestamp ∧ ∀ t k, 0 ≤ t → 0 ≤ k → k < 4 →
          AprilGrid.has g1 t k = AprilGrid.has g' t k := by
      by_cases h0 : rs.countP (isOutlier resid th) = 0
      · rw [if_pos h0]
        refine ⟨g, hg, by rw [e4, h0]; simp, e5.symm, ?_⟩
        intro t k ht hk0 hk4
        rw [e6 t k ht hk0 hk4, if_neg]
        rintro ⟨r, hr, ho, _⟩
        exact (List.countP_eq_zero.mp h0) r hr ho
      · rw [if_neg h0]
        exact ⟨g', by simp [SMap.find_set], rfl, rfl, fun _ _ _ _ _ => rfl⟩
    obtain ⟨g1, hg1, hnb1, hts1, hhas1⟩ := hgrid
    have hother : ∀ c', c' ≠ c → SMap.find c' (if rs.countP (isOutlier resid th) = 0 then v.grids else
          SMap.set c g' v.grids) = SMap.find c' v.grids := by
      intro c' hc'
      split_ifs
      · rfl
      · rw [SMap.find_set, if_neg hc']
    have hgs : SMap.Sorted (if rs.countP (isOutlier resid th) = 0 then v.grids else
          SMap.set c g' v.grids) := by
      split_ifs
      · exact h.gsorted
      · exact SMap.set_sorted _ _ _ h.gsorted
    have hfl : ((rs.filter (fun r => !isOutlier resid th r)).length : Int) +
        rs.countP (isOutlier resid th) = rs.length := by
      have h1 := List.length_eq_countP_add_countP (isOutlier resid th) (l := rs)
      have h2 : (rs.filter (fun r => !isOutlier resid th r)).length =
          rs.countP (fun a => decide ¬ isOutlier resid th a = true) := by
        rw [← List.countP_eq_length_filter]
        apply List.countP_congr
        intro a _; cases isOutlier resid th a <;> simp
      rw [h2]; omega
    refine ⟨⟨hgs, SMap.set_sorted _ _ _ h.rsorted, ?_, ?_⟩, rfl, rfl, hres _ rfl, hcount _, e2, ?_,
      ?_, ?_⟩
    · intro c' rs' hf
      simp only [SMap.find_set] at hf
      split_ifs at hf with e
      · rw [e]; exact hk
      · exact h.cams c' rs' hf
    · intro c' rs' hf
      simp only [SMap.find_set] at hf
      split_ifs at hf with e
      · simp only [Option.some.injEq] at hf
        subst hf e
        refine ⟨fun r hr => hwf.own r (List.mem_filter.mp hr).1,
          hwf.corners.sublist (List.filter_sublist.map _), ?_, Or.inr ?_⟩
        · intro r hr
          obtain ⟨hr1, hr2⟩ := List.mem_filter.mp hr
          have hown := hwf.own r hr1
          have hidx := hasCorner_idx hown.2.2.2
          refine ⟨g1, hg1, ?_⟩
          rw [hhas1 _ _ hidx.1 hidx.2.1 hidx.2.2, e6 _ _ hidx.1 hidx.2.1 hidx.2.2, if_neg]
          · obtain ⟨g2, k1, k2⟩ := hwf.held r hr1
            rw [hg] at k1
            simp only [Option.some.injEq] at k1
            exact k1 ▸ k2
          · rintro ⟨r', hr', ho, ht, hcn⟩
            have : r' = r := List.inj_on_of_nodup_map hwf.corners hr' hr1 (by simp [ht, hcn])
            subst this
            simp [ho] at hr2
        · intro g2 hg2
          rw [hg1] at hg2
          simp only [Option.some.injEq] at hg2
          subst hg2
          rw [hnb1, e4]
          omega
      · obtain ⟨k1, k2, k3, k4⟩ := h.res c' rs' hf
        refine ⟨k1, k2, ?_, ?_⟩
        · intro r hr
          simp only [hother c' e]; exact k3 r hr
        · simp only [hother c' e]; exact k4
    · intro x
      rw [e3]
      constructor
      · rintro ⟨k1, k2⟩
        refine ⟨k1, ?_⟩
        rintro ⟨r, hr, ho, e⟩
        simp only [Bool.and_eq_true, decide_eq_true_eq] at ho
        exact k2 ⟨r, (hmem r).mpr ⟨hr, ho.2⟩, ho.1, e⟩
      · rintro ⟨k1, k2⟩
        refine ⟨k1, ?_⟩
        rintro ⟨r, hr, ho, e⟩
        exact k2 ⟨r, ((hmem r).mp hr).1, by simp [ho, ((hmem r).mp hr).2], e⟩
    · intro c' hc'
      have : c' ≠ c := by rintro rfl; rw [hg] at hc'; simp at hc'
      simp only [hother c' this]; exact hc'
    · intro c' g₀ hg₀
      by_cases e : c' = c
      · subst e
        rw [hg] at hg₀
        simp only [Option.some.injEq] at hg₀
        subst hg₀
        refine ⟨g1, hg1, hts1.trans e5, ?_, ?_⟩
        · rw [hnb1, e4, hcount]
          congr 2
          apply List.countP_congr
          intro a _
          cases isOutlier resid th a <;> simp
        · intro t k ht hk0 hk4
          rw [hhas1 t k ht hk0 hk4, e6 t k ht hk0 hk4]
          congr 1
          apply propext
          constructor
          · rintro ⟨r, hr, ho, e⟩
            have := (hmem r).mp hr
            exact ⟨r, this.1, by simp [ho, this.2], this.2, e⟩
          · rintro ⟨r, hr, ho, hc1, e⟩
            simp only [Bool.and_eq_true, decide_eq_true_eq] at ho
            exact ⟨r, (hmem r).mpr ⟨hr, hc1⟩, ho.1, e⟩
      · refine ⟨g₀, by simp only [hother c' e]; exact hg₀, rfl, ?_, ?_⟩
        · have : v.all.countP (fun r => (isOutlier resid th r && decide (r.cam = c)) &&
              decide (r.cam = c')) = 0 := by
            rw [List.countP_eq_zero]
            intro a _
            by_cases ha : a.cam = c
            · simp [ha, Ne.symm e]
            · simp [ha]
          rw [this]; simp
        · intro t k _ _ _
          rw [if_neg]
          rintro ⟨r, hr, ho, hc1, _⟩
          simp only [Bool.and_eq_true, decide_eq_true_eq] at ho
          exact e (hc1.symm.trans ho.2)

theorem Filtered.inS {o : Reproj K → Bool} {v₀ v : View K} {b : CBook Par (Res K)}
    {S₀ S : Finset (Res K)} {n : Nat} (h : Filtered o rows cols next known Q v₀ S₀ v b S n)
    (hS : ∀ r ∈ v₀.all, Res.reproj r ∈ S₀) : ∀ r ∈ v.all, Res.reproj r ∈ S := by
  intro r hr
  rw [h.res] at hr
  obtain ⟨h1, h2⟩ := List.mem_filter.mp hr
  rw [h.mem]
  refine ⟨hS r h1, ?_⟩
  rintro ⟨r', hr', ho, e⟩
  simp only [Res.reproj.injEq] at e
  subst e
  simp [ho] at h2

theorem filter_fold (resid : Reproj K → Option (K × K)) (th : K × K) :
    ∀ (cams : List Int) (v : View K) (b : CBook Par (Res K)) (S : Finset (Res K)) (n : Nat),
    ViewWF rows cols next known v → (∀ c ∈ cams, known c) → Solver.CInv Res.blocks b Q S →
    (∀ r ∈ v.all, Res.reproj r ∈ S) →
    ∃ v' b' S' m, cams.foldlM (filterStep resid th) (v, b, n) = .ok (v', b', n + m) ∧
      Filtered (fun r => isOutlier resid th r && decide (r.cam ∈ cams)) rows cols next known Q v S
        v' b' S' m := by
  intro cams
  induction cams with
  | nil =>
    intro v b S n h _ hb _
    exact ⟨v, b, S, 0, rfl, (Filtered.refl h hb).congr (by simp)⟩
  | cons c cams ih =>
    intro v b S n h hk hb hS
    obtain ⟨v1, b1, S1, m1, e1, f1⟩ := filterStep_spec resid th n c h (hk c (by simp)) hb hS
    obtain ⟨v2, b2, S2, m2, e2, f2⟩ := ih v1 b1 S1 (n + m1) f1.wf
      (fun c' hc' => hk c' (by simp [hc'])) f1.book (f1.inS hS)
    refine ⟨v2, b2, S2, m1 + m2, ?_, ?_⟩
    · rw [List.foldlM_cons, e1, AprilGrid.ok_bind, e2, Nat.add_assoc]
    · refine (f1.trans f2).congr ?_
      intro r _
      cases isOutlier resid th r <;> simp [List.mem_cons]

/-- `filter_view(threshold)` on a consistent view: never faults and removes exactly the
residuals that are outliers. -/
theorem filter_spec (resid : Reproj K → Option (K × K)) (th : K × K) (cams : List Int)
    {v : View K} {b : CBook Par (Res K)} {S : Finset (Res K)}
    (h : ViewWF rows cols next known v) (hk : ∀ c, c ∈ cams ↔ known c)
    (hb : Solver.CInv Res.blocks b Q S) (hS : ∀ r ∈ v.all, Res.reproj r ∈ S) :
    ∃ v' b' S' m, View.filter resid cams th v b = .ok (v', b', m) ∧
      Filtered (isOutlier resid th) rows cols next known Q v S v' b' S' m := by
  obtain ⟨v', b', S', m, e, f⟩ := filter_fold resid th cams v b S 0 h (fun c hc => (hk c).mp hc) hb hS
  refine ⟨v', b', S', m, by rw [View.filter, e, Nat.zero_add], f.congr ?_⟩
  intro r hr
  have := (h.of_mem hr).2.2.1
  simp [(hk _).mpr this]

/-- `filter_view(thresholds)`: a residual goes if it is an outlier for any of the
thresholds. -/
theorem filterAll_spec (resid : Reproj K → Option (K × K)) (cams : List Int)
    (hk : ∀ c, c ∈ cams ↔ known c) :
    ∀ (ths : List (Int × (K × K))) (v : View K) (b : CBook Par (Res K)) (S : Finset (Res K)),
    ViewWF rows cols next known v → Solver.CInv Res.blocks b Q S →
    (∀ r ∈ v.all, Res.reproj r ∈ S) →
    ∃ v' b' S' m, View.filterAll resid cams ths v b = .ok (v', b', m) ∧
      Filtered (fun r => ths.any (fun ct => isOutlier resid ct.2 r)) rows cols next known Q v S
        v' b' S' m := by
  have gen : ∀ (ths : List (Int × (K × K))) (v : View K) (b : CBook Par (Res K))
      (S : Finset (Res K)) (n : Nat),
      ViewWF rows cols next known v → Solver.CInv Res.blocks b Q S →
      (∀ r ∈ v.all, Res.reproj r ∈ S) →
      ∃ v' b' S' m, ths.foldlM (fun acc ct => do
          let (v, b, n) ← View.filter resid cams ct.2 acc.1 acc.2.1
          pure (v, b, acc.2.2 + n)) (v, b, n) = (.ok (v', b', n + m) :
            Except Fault (View K × CBook Par (Res K) × Nat)) ∧
        Filtered (fun r => ths.any (fun ct => isOutlier resid ct.2 r)) rows cols next known Q v S
          v' b' S' m := by
    intro ths
    induction ths with
    | nil =>
      intro v b S n h hb _
      exact ⟨v, b, S, 0, rfl, (Filtered.refl h hb).congr (by simp)⟩
    | cons ct ths ih =>
      intro v b S n h hb hS
      obtain ⟨v1, b1, S1, m1, e1, f1⟩ := filter_spec resid ct.2 cams h hk hb hS
      obtain ⟨v2, b2, S2, m2, e2, f2⟩ := ih v1 b1 S1 (n + m1) f1.wf f1.book (f1.inS hS)
      refine ⟨v2, b2, S2, m1 + m2, ?_, (f1.trans f2).congr ?_⟩
      · rw [List.foldlM_cons]
        simp only [e1, AprilGrid.ok_bind, AprilGrid.pure_eq_ok]
        simp only [AprilGrid.pure_eq_ok] at e2
        rw [e2, Nat.add_assoc]
      · intro r _; simp
  intro ths v b S h hb hS
  obtain ⟨v', b', S', m, e, f⟩ := gen ths v b S 0 h hb hS
  refine ⟨v', b', S', m, ?_, f⟩
  rw [View.filterAll, e, Nat.zero_add]

/-! ## In the calibrator -/

/-- The residuals of another view are not those of this view. -/
theorem WF.view_disjoint {s : Cal K V} (h : WF s) {t t' : Int} {v v' : View K}
    (hv : SMap.find t s.views = some v) (hv' : SMap.find t' s.views = some v') {x : Reproj K}
    (hx : x ∈ v.all) (hx' : x ∈ v'.all) : t = t' := by
  obtain ⟨_, ⟨p, k1, k2⟩, k3⟩ := h.views t v hv
  obtain ⟨_, ⟨p', l1, l2⟩, l3⟩ := h.views t' v' hv'
  exact h.poseInj t t' p p' k1 l1 (by rw [k2, l2, ← (k3.of_mem hx).1, ← (l3.of_mem hx').1])

/-- Replacing a view by its filtered self keeps the calibrator consistent. -/
theorem WF.withFiltered {s : Cal K V} (h : WF s) {ts : Int} {v v' : View K}
    (hv : SMap.find ts s.views = some v) {out : Reproj K → Bool} {Q : Finset Par}
    {S S' : Finset (Res K)} {b : CBook Par (Res K)} {n : Nat}
    (hQ : ∀ p, p ∈ Q ↔ Known s p) (hS : ∀ r, r ∈ S ↔ OfView s r ∨ s.marg = some r)
    (hf : Filtered out s.rows s.cols s.next (fun i => (SMap.find i s.params).isSome) Q v S v' b S' n) :
    WF { s with views := SMap.set ts v' s.views, solver := b } where
  psorted := h.psorted
  esorted := h.esorted
  keys := h.keys
  posesSorted := h.posesSorted
  viewsSorted := SMap.set_sorted _ _ _ h.viewsSorted
  poseInj := h.poseInj
  poseLt := h.poseLt
  views := by
    intro t w hw
    simp only [SMap.find_set] at hw
    split_ifs at hw with ht
    · simp only [Option.some.injEq] at hw
      subst hw ht
      obtain ⟨k1, k2, k3⟩ := h.views t v hv
      exact ⟨hf.ts.trans k1, by simp only [hf.pose]; exact k2, hf.wf⟩
    · exact h.views t w hw
  tsNodup := h.tsNodup
  tsMem := by
    intro t
    rw [h.tsMem, SMap.find_set]
    by_cases ht : t = ts
    · rw [if_pos ht, ht, hv]; simp
    · rw [if_neg ht]
  marg := h.marg
  book := by
    refine ⟨Q, S', hf.book, hQ, ?_⟩
    intro r
    rw [hf.mem, hS]
    constructor
    · rintro ⟨⟨t, w, x, k1, k2, rfl⟩ | hm, hnot⟩
      · left
        by_cases ht : t = ts
        · subst ht
          rw [hv] at k1
          simp only [Option.some.injEq] at k1
          subst k1
          refine ⟨t, v', x, by simp [SMap.find_set], ?_, rfl⟩
          rw [hf.res]
          refine List.mem_filter.mpr ⟨k2, ?_⟩
          cases ho : out x with
          | false => rfl
          | true => exact absurd ⟨x, k2, ho, rfl⟩ hnot
        · exact ⟨t, w, x, by simp only [SMap.find_set, if_neg ht]; exact k1, k2, rfl⟩
      · exact Or.inr hm
    · rintro (⟨t, w, x, k1, k2, rfl⟩ | hm)
      · simp only [SMap.find_set] at k1
        split_ifs at k1 with ht
        · simp only [Option.some.injEq] at k1
          subst k1
          rw [hf.res] at k2
          obtain ⟨k2, k3⟩ := List.mem_filter.mp k2
          refine ⟨Or.inl ⟨ts, v, x, hv, k2, rfl⟩, ?_⟩
          rintro ⟨r, hr, ho, e⟩
          simp only [Res.reproj.injEq] at e
          subst e
          simp [ho] at k3
        · refine ⟨Or.inl ⟨t, w, x, k1, k2, rfl⟩, ?_⟩
          rintro ⟨r, hr, ho, e⟩
          simp only [Res.reproj.injEq] at e
          subst e
          exact ht (h.view_disjoint k1 hv k2 hr)
      · refine ⟨Or.inr hm, ?_⟩
        rintro ⟨r, hr, ho, rfl⟩
        obtain ⟨id, ps, e, _⟩ := h.marg _ hm
        simp at e

theorem set_middle {κ ν : Type} [LinearOrder κ] (k : κ) (w w' : ν) :
    ∀ (l r : List (κ × ν)), SMap.Sorted (l ++ (k, w) :: r) →
      SMap.set k w' (l ++ (k, w) :: r) = l ++ (k, w') :: r := by
  intro l
  induction l with
  | nil => intro r _; simp [SMap.set]
  | cons x l ih =>
    intro r hs
    rw [List.cons_append] at hs ⊢
    have h1 := List.pairwise_cons.mp hs
    have : x.1 < k := h1.1 (k, w) (by simp)
    rw [SMap.set, if_neg (not_lt.mpr this.le), if_pos this, ih r h1.2]
    rfl

/-- The views after filtering, one entry for every view before. -/
def FilteredViews (out : Reproj K → Bool) : List (Int × View K) → List (Int × View K) → Prop
  | [], [] => True
  | (t, v) :: l, (t', v') :: l' =>
    t' = t ∧ v'.ts = v.ts ∧ v'.pose = v.pose ∧ v'.all = v.all.filter (fun r => !out r) ∧
      FilteredViews out l l'
  | _, _ => False

theorem filterAllViews_fold (resid : Reproj K → Option (K × K)) (ths : List (Int × (K × K)))
    (s : Cal K V) (cams : List Int) (hcams : ∀ c, c ∈ cams ↔ (SMap.find c s.params).isSome = true) :
    ∀ (todo done : List (Int × View K)) (b : CBook Par (Res K)) (n : Nat),
    WF { s with views := done ++ todo, solver := b } →
    ∃ vs b' m, todo.foldlM (fun (acc : List (Int × View K) × CBook Par (Res K) × Nat) tv => do
        let (v, b, n) ← View.filterAll resid cams ths tv.2 acc.2.1
        pure (acc.1 ++ [(tv.1, v)], b, acc.2.2 + n)) (done, b, n) =
        (.ok (done ++ vs, b', n + m) : Except Fault _) ∧
      WF { s with views := done ++ vs, solver := b' } ∧
      FilteredViews (fun r => ths.any (fun ct => isOutlier resid ct.2 r)) todo vs ∧
      m = (todo.flatMap (fun tv => tv.2.all)).countP
        (fun r => ths.any (fun ct => isOutlier resid ct.2 r)) := by
  intro todo
  induction todo with
  | nil =>
    intro done b n h
    exact ⟨[], b, 0, by simp, by simpa using h, trivial, by simp⟩
  | cons tv todo ih =>
    obtain ⟨t, v⟩ := tv
    intro done b n h
    obtain ⟨Q, S, hc, hQ, hS⟩ := h.book
    have hv : SMap.find t (done ++ (t, v) :: todo) = some v :=
      (SMap.find_eq_some h.viewsSorted).mpr (by simp)
    obtain ⟨v', b', S', m, e, f⟩ := filterAll_spec (rows := s.rows) (cols := s.cols) (next := s.next)
      (known := fun i => (SMap.find i s.params).isSome) (Q := Q) resid cams hcams ths v b S
      (h.views t v hv).2.2 hc (fun r hr => (hS _).mpr (Or.inl ⟨t, v, r, hv, hr, rfl⟩))
    have hw := h.withFiltered hv hQ hS f
    simp only [set_middle t v v' done todo h.viewsSorted] at hw
    have hw' : WF { s with views := (done ++ [(t, v')]) ++ todo, solver := b' } := by
      simpa using hw
    obtain ⟨vs, b2, m2, e2, w2, f2, c2⟩ := ih (done ++ [(t, v')]) b' (n + m) hw'
    refine ⟨(t, v') :: vs, b2, m + m2, ?_, by simpa using w2, ⟨rfl, f.ts, f.pose, f.res, f2⟩, ?_⟩
    · rw [List.foldlM_cons]
      simp only [e, AprilGrid.ok_bind, AprilGrid.pure_eq_ok]
      simp only [AprilGrid.pure_eq_ok] at e2
      rw [e2, Nat.add_assoc]
      simp
    · rw [List.flatMap_cons, List.countP_append, f.count, c2]

/-- `_filter_all_views` on a consistent calibrator. -/
theorem filterAllViews_spec (resid : Reproj K → Option (K × K)) (thresh : List (K × K) → K × K)
    {s : Cal K V} (h : WF s) :
    ∃ vs b m, filterAllViews resid thresh s = .ok ({ s with views := vs, solver := b }, m) ∧
      WF { s with views := vs, solver := b } ∧
      FilteredViews (fun r => (camIdxs s).any
        (fun c => isOutlier resid (thresh (residualsOf resid s c)) r)) s.views vs ∧
      m = (s.views.flatMap (fun tv => tv.2.all)).countP (fun r => (camIdxs s).any
        (fun c => isOutlier resid (thresh (residualsOf resid s c)) r)) := by
  have hcams : ∀ c, c ∈ camIdxs s ↔ (SMap.find c s.params).isSome = true := by
    intro c; rw [SMap.find_isSome, camIdxs]
  obtain ⟨vs, b, m, e, w, f, c⟩ := filterAllViews_fold resid
    ((camIdxs s).map (fun c => (c, thresh (residualsOf resid s c)))) s (camIdxs s) hcams s.views []
    s.solver 0 (by simpa using h)
  simp only [List.nil_append, Nat.zero_add, List.any_map, Function.comp_def] at e w f c
  refine ⟨vs, b, m, ?_, w, f, c⟩
  rw [filterAllViews]
  simp only [AprilGrid.pure_eq_ok] at e ⊢
  simp only [e, AprilGrid.ok_bind]

end Yac.Calib
