import Verif.Calib.CameraOps

namespace Yac.Calib

open Yac.AprilGrid (Grid Meas Row)
open Yac.Solver (CBook insSet mem_insSet nodup_insSet)

variable {K V : Type} [Field K] [LinearOrder K]

/-! ## Values only: solve, cache, restore -/

/-- Replace the values of all parameters. -/
def revalue (s : Cal K V) (fp fe : Int → CamP V → V) (fq : Int → PoseObj V → V)
    (a b c : List (Int × V)) : Cal K V :=
  { s with
    params := s.params.map (fun ip => (ip.1, { ip.2 with val := fp ip.1 ip.2 })),
    exts := s.exts.map (fun ip => (ip.1, { ip.2 with val := fe ip.1 ip.2 })),
    poses := s.poses.map (fun tp => (tp.1, { tp.2 with val := fq tp.1 tp.2 })),
    posesTmp := a, paramsTmp := b, extsTmp := c }

theorem find_revalue_params (m : List (Int × CamP V)) (f : Int → CamP V → V) (i : Int) :
    SMap.find i (m.map (fun ip => (ip.1, { ip.2 with val := f ip.1 ip.2 } ))) =
      (SMap.find i m).map (fun p => { p with val := f i p }) :=
  SMap.find_map (fun k p => { p with val := f k p }) i m

theorem find_revalue_poses (m : List (Int × PoseObj V)) (f : Int → PoseObj V → V) (i : Int) :
    SMap.find i (m.map (fun ip => (ip.1, { ip.2 with val := f ip.1 ip.2 } ))) =
      (SMap.find i m).map (fun p => { p with val := f i p }) :=
  SMap.find_map (fun k p => { p with val := f k p }) i m

theorem WF.revalue {s : Cal K V} (h : WF s) (fp fe : Int → CamP V → V) (fq : Int → PoseObj V → V)
    (a b c : List (Int × V)) : WF (Calib.revalue s fp fe fq a b c) := by
  have kp : ∀ i, (SMap.find i (Calib.revalue s fp fe fq a b c).params).isSome =
      (SMap.find i s.params).isSome := by
    intro i; simp only [Calib.revalue]; rw [find_revalue_params, Option.isSome_map]
  have ke : ∀ i, (SMap.find i (Calib.revalue s fp fe fq a b c).exts).isSome =
      (SMap.find i s.exts).isSome := by
    intro i; simp only [Calib.revalue]; rw [find_revalue_params, Option.isSome_map]
  have kq : ∀ t q, SMap.find t (Calib.revalue s fp fe fq a b c).poses = some q →
      ∃ q', SMap.find t s.poses = some q' ∧ q'.id = q.id := by
    intro t q hq
    simp only [Calib.revalue] at hq
    rw [find_revalue_poses, Option.map_eq_some_iff] at hq
    obtain ⟨q', h1, h2⟩ := hq
    exact ⟨q', h1, by rw [← h2]⟩
  have kq' : ∀ t q, SMap.find t s.poses = some q →
      ∃ q', SMap.find t (Calib.revalue s fp fe fq a b c).poses = some q' ∧ q'.id = q.id := by
    intro t q hq
    simp only [Calib.revalue]
    rw [find_revalue_poses, hq]
    exact ⟨_, rfl, rfl⟩
  refine ⟨SMap.map_sorted (fun k (p : CamP V) => (⟨fp k p, p.fixed⟩ : CamP V)) _ h.psorted,
    SMap.map_sorted (fun k (p : CamP V) => (⟨fe k p, p.fixed⟩ : CamP V)) _ h.esorted, ?_,
    SMap.map_sorted (fun k (p : PoseObj V) => (⟨p.id, fq k p⟩ : PoseObj V)) _ h.posesSorted, h.viewsSorted,
    ?_, ?_, ?_, h.tsNodup, h.tsMem, ?_, ?_⟩
  · intro i; rw [kp, ke, h.keys]
  · intro t t' p p' hp hp' he
    obtain ⟨q, h1, h2⟩ := kq _ _ hp
    obtain ⟨q', h1', h2'⟩ := kq _ _ hp'
    exact h.poseInj _ _ _ _ h1 h1' (by rw [h2, h2', he])
  · intro t p hp
    obtain ⟨q, h1, h2⟩ := kq _ _ hp
    rw [← h2]; exact h.poseLt _ _ h1
  · intro t v hv
    obtain ⟨h1, ⟨q, h2, h3⟩, h4⟩ := h.views t v hv
    obtain ⟨q', h5, h6⟩ := kq' _ _ h2
    exact ⟨h1, ⟨q', h5, by rw [h6, h3]⟩, h4.mono le_rfl (fun i hi => by rw [kp]; exact hi)⟩
  · intro r hr
    obtain ⟨id, ps, h1, h2, h3, h4⟩ := h.marg r hr
    refine ⟨id, ps, h1, h2, h3, fun q hq => ?_⟩
    obtain ⟨i, hi, hi'⟩ := h4 q hq
    exact ⟨i, hi, by rw [kp]; exact hi'⟩
  · obtain ⟨Q, S, hc, hQ, hS⟩ := h.book
    refine ⟨Q, S, hc, ?_, hS⟩
    intro q
    rw [hQ]
    cases q with
    | cam i => simp only [Known]; rw [kp]
    | ext i => simp only [Known]; rw [ke]
    | pose k =>
      simp only [Known]
      constructor
      · rintro ⟨t, p, h1, h2⟩
        obtain ⟨q', h5, h6⟩ := kq' _ _ h1
        exact ⟨t, q', h5, by rw [h6, h2]⟩
      · rintro ⟨t, p, h1, h2⟩
        obtain ⟨q', h5, h6⟩ := kq _ _ h1
        exact ⟨t, q', h5, by rw [h6, h2]⟩

theorem solve_eq (env : Env K V) (s : Cal K V) : solve env s = revalue s
    (fun i p => if s.solver.hasParam (.cam i) then env.solve s (.cam i) else p.val)
    (fun i p => if s.solver.hasParam (.ext i) then env.solve s (.ext i) else p.val)
    (fun _ p => if s.solver.hasParam (.pose p.id) then env.solve s (.pose p.id) else p.val)
    s.posesTmp s.paramsTmp s.extsTmp := rfl

theorem restore_eq (s : Cal K V) : restoreEstimates s = revalue s
    (fun i p => (SMap.find i s.paramsTmp).getD p.val)
    (fun i p => if (SMap.find i s.params).isSome then (SMap.find i s.extsTmp).getD p.val
        else p.val)
    (fun t p => (SMap.find t s.posesTmp).getD p.val) [] [] [] := rfl

theorem WF.cache {s : Cal K V} (h : WF s) : WF (cacheEstimates s) := { h with }
theorem WF.solve {s : Cal K V} (h : WF s) (env : Env K V) : WF (Calib.solve env s) := by
  rw [solve_eq]; exact h.revalue _ _ _ _ _ _
theorem WF.restore {s : Cal K V} (h : WF s) : WF (restoreEstimates s) := by
  rw [restore_eq]; exact h.revalue _ _ _ _ _ _

theorem find_extsTmp {s : Cal K V} (i : Int) :
    SMap.find i (cacheEstimates s).extsTmp = if (SMap.find i s.params).isSome then
      (SMap.find i s.exts).map CamP.val else none := by
  simp only [cacheEstimates]
  generalize s.params = m
  induction m with
  | nil => simp [SMap.find]
  | cons p m ih =>
    obtain ⟨j, v⟩ := p
    rw [List.filterMap_cons]
    by_cases hj : j = i
    · subst hj
      simp only [SMap.find, if_true, Option.isSome_some]
      cases he : SMap.find j s.exts with
      | none =>
        simp only [Option.map_none]
        rw [ih, he]; simp
      | some e => simp [SMap.find]
    · simp only [SMap.find, if_neg hj]
      cases he : SMap.find j s.exts with
      | none => simp only [Option.map_none]; exact ih
      | some e => simp only [Option.map_some, SMap.find, if_neg hj]; exact ih

/-- Caching, solving and restoring gives back all values. -/
theorem cache_solve_restore {s : Cal K V} (h : WF s) (env : Env K V) :
    restoreEstimates (solve env (cacheEstimates s)) =
      { s with posesTmp := [], paramsTmp := [], extsTmp := [] } := by
  rw [restore_eq, solve_eq]
  have hpar : ∀ (f : Int → CamP V → V) (g : Int → CamP V → V),
      (∀ i p, SMap.find i s.params = some p → g i { p with val := f i p } = p.val) →
      (s.params.map (fun ip => (ip.1, { ip.2 with val := f ip.1 ip.2 }))).map
        (fun ip => (ip.1, { ip.2 with val := g ip.1 ip.2 })) = s.params := by
    intro f g hg
    refine SMap.sorted_ext (SMap.map_sorted (fun k p => { p with val := g k p }) _
      (SMap.map_sorted (fun k p => { p with val := f k p }) _ h.psorted)) h.psorted (fun i => ?_)
    rw [find_revalue_params, find_revalue_params]
    cases hf : SMap.find i s.params with
    | none => rfl
    | some p => simp only [Option.map_some, hg i p hf]
  have hext : ∀ (f : Int → CamP V → V) (g : Int → CamP V → V),
      (∀ i p, SMap.find i s.exts = some p → g i { p with val := f i p } = p.val) →
      (s.exts.map (fun ip => (ip.1, { ip.2 with val := f ip.1 ip.2 }))).map
        (fun ip => (ip.1, { ip.2 with val := g ip.1 ip.2 })) = s.exts := by
    intro f g hg
    refine SMap.sorted_ext (SMap.map_sorted (fun k p => { p with val := g k p }) _
      (SMap.map_sorted (fun k p => { p with val := f k p }) _ h.esorted)) h.esorted (fun i => ?_)
    rw [find_revalue_params, find_revalue_params]
    cases hf : SMap.find i s.exts with
    | none => rfl
    | some p => simp only [Option.map_some, hg i p hf]
  have hpos : ∀ (f : Int → PoseObj V → V) (g : Int → PoseObj V → V),
      (∀ i p, SMap.find i s.poses = some p → g i { p with val := f i p } = p.val) →
      (s.poses.map (fun ip => (ip.1, { ip.2 with val := f ip.1 ip.2 }))).map
        (fun ip => (ip.1, { ip.2 with val := g ip.1 ip.2 })) = s.poses := by
    intro f g hg
    refine SMap.sorted_ext (SMap.map_sorted (fun k p => { p with val := g k p }) _
      (SMap.map_sorted (fun k p => { p with val := f k p }) _ h.posesSorted)) h.posesSorted
      (fun i => ?_)
    rw [find_revalue_poses, find_revalue_poses]
    cases hf : SMap.find i s.poses with
    | none => rfl
    | some p => simp only [Option.map_some, hg i p hf]
  simp only [Calib.revalue, Cal.mk.injEq, true_and, and_true]
  refine ⟨rfl, rfl, ?_, ?_, ?_, rfl, rfl, rfl, rfl, rfl, rfl, rfl, rfl, rfl, rfl, rfl⟩
  · refine hpar (fun i p => if (cacheEstimates s).solver.hasParam (.cam i) then env.solve (cacheEstimates s) (.cam i) else p.val)
      (fun i p => (SMap.find i (cacheEstimates s).paramsTmp).getD p.val) ?_
    intro i p hp
    have : SMap.find i (cacheEstimates s).paramsTmp = some p.val := by
      simp only [cacheEstimates]
      rw [SMap.find_map (fun _ p => CamP.val p) i s.params, hp]; rfl
    rw [this]; rfl
  · refine hext (fun i p => if (cacheEstimates s).solver.hasParam (.ext i) then env.solve (cacheEstimates s) (.ext i) else p.val)
      (fun i p => if (SMap.find i ((cacheEstimates s).params.map (fun ip => (ip.1, ({ ip.2 with
        val := if (cacheEstimates s).solver.hasParam (.cam ip.1) then env.solve (cacheEstimates s) (.cam ip.1) else ip.2.val } : CamP V))))).isSome then
      (SMap.find i (cacheEstimates s).extsTmp).getD p.val else p.val) ?_
    intro i p hp
    have hsome : (SMap.find i s.params).isSome = true := by rw [h.keys, hp]; rfl
    have hsome' : (SMap.find i ((cacheEstimates s).params.map (fun ip => (ip.1, ({ ip.2 with
        val := if (cacheEstimates s).solver.hasParam (.cam ip.1) then env.solve (cacheEstimates s) (.cam ip.1) else ip.2.val } : CamP V))))).isSome = true := by
      rw [find_revalue_params (f := fun i p => if (cacheEstimates s).solver.hasParam (.cam i) then
        env.solve (cacheEstimates s) (.cam i) else p.val), Option.isSome_map]
      exact hsome
    rw [if_pos hsome', find_extsTmp, if_pos hsome, hp]
    rfl
  · refine hpos (fun _ p => if (cacheEstimates s).solver.hasParam (.pose p.id) then env.solve (cacheEstimates s) (.pose p.id) else p.val)
      (fun i p => (SMap.find i (cacheEstimates s).posesTmp).getD p.val) ?_
    intro i p hp
    have : SMap.find i (cacheEstimates s).posesTmp = some p.val := by
      simp only [cacheEstimates]
      rw [SMap.find_map (fun _ p => PoseObj.val p) i s.poses, hp]; rfl
    rw [this]; rfl

/-! ## Marginalisation -/

theorem mem_seenParams (rs : List (Res K)) (p : Par) :
    p ∈ seenParams rs ↔ ∃ r ∈ rs, p ∈ r.blocks := by
  have : ∀ (l acc : List Par), p ∈ l.foldl (fun l p => insSet p l) acc ↔ p ∈ acc ∨ p ∈ l := by
    intro l
    induction l with
    | nil => simp
    | cons a l ih =>
      intro acc
      rw [List.foldl_cons, ih, mem_insSet]
      simp only [List.mem_cons]; tauto
  rw [seenParams, this, List.mem_flatMap]
  simp

theorem nodup_seenParams (rs : List (Res K)) : (seenParams rs).Nodup := by
  have : ∀ (l acc : List Par), acc.Nodup → (l.foldl (fun l p => insSet p l) acc).Nodup := by
    intro l
    induction l with
    | nil => intro acc h; exact h
    | cons a l ih => intro acc h; rw [List.foldl_cons]; exact ih _ (nodup_insSet _ _ h)
  exact this _ _ List.nodup_nil

theorem mem_remainParams (s : Cal K V) (fl : Par → Bool) (rs : List (Res K)) (p : Par) :
    p ∈ remainParams s fl rs ↔ p ∈ seenParams rs ∧ fl p = false ∧ isFixed s p = false := by
  unfold remainParams
  simp only [List.mem_append, List.mem_filter, Bool.and_eq_true, Bool.not_eq_true']
  cases p <;> simp

theorem nodup_remainParams (s : Cal K V) (fl : Par → Bool) (rs : List (Res K)) :
    (remainParams s fl rs).Nodup := by
  have hl := (nodup_seenParams rs).filter (fun p => !fl p && !isFixed s p)
  unfold remainParams
  rw [List.nodup_append, List.nodup_append]
  refine ⟨⟨hl.filter _, hl.filter _, ?_⟩, hl.filter _, ?_⟩
  · intro a ha b hb
    simp only [List.mem_filter] at ha hb
    rintro rfl
    cases a <;> simp_all
  · intro a ha b hb
    simp only [List.mem_append, List.mem_filter] at ha hb
    rintro rfl
    cases a <;> simp_all

theorem eq_singleton_of {α : Type} {l : List α} {a : α} (hn : l.Nodup) (h : ∀ x ∈ l, x = a)
    (hne : l ≠ []) : l = [a] := by
  cases l with
  | nil => exact absurd rfl hne
  | cons x l =>
    have hx := h x (by simp)
    subst hx
    cases l with
    | nil => rfl
    | cons y l =>
      have hy := h y (by simp)
      subst hy
      simp at hn

theorem erase_set_same {κ ν : Type} [LinearOrder κ] (k : κ) (v : ν) (m : List (κ × ν))
    (h : SMap.Sorted m) : SMap.erase k (SMap.set k v m) = SMap.erase k m := by
  refine SMap.sorted_ext (SMap.erase_sorted _ _ (SMap.set_sorted _ _ _ h))
    (SMap.erase_sorted _ _ h) (fun k' => ?_)
  rw [SMap.find_erase, SMap.find_erase, SMap.find_set]
  split_ifs <;> rfl

/-- The parameters of the next marginalisation residual. -/
def RemainSpec (s : Cal K V) (v : View K) (p : Par) : Prop :=
  isFixed s p = false ∧ ((∃ id ps, s.marg = some (.marg id ps) ∧ p ∈ ps) ∨
    ∃ x ∈ v.all, p = .cam x.cam ∨ p = .ext x.cam)

theorem WF.marginalize {s : Cal K V} (h : WF s) {ts : Int} {v : View K} {l : List (Int × View K)}
    (hv : s.views = (ts, v) :: l) :
    ((v.all = [] ∨ ∀ p, ¬ RemainSpec s v p) → marginalize s = .error .fatal) ∧
    (¬ (v.all = [] ∨ ∀ p, ¬ RemainSpec s v p) → ∃ b ps, marginalize s = .ok { s with
        solver := b, marg := some (.marg s.next ps), next := s.next + 1,
        poses := SMap.erase ts s.poses, views := SMap.erase ts s.views,
        viewTs := s.viewTs.erase ts } ∧ WF { s with
        solver := b, marg := some (.marg s.next ps), next := s.next + 1,
        poses := SMap.erase ts s.poses, views := SMap.erase ts s.views,
        viewTs := s.viewTs.erase ts } ∧ ∀ p, p ∈ ps ↔ RemainSpec s v p) := by
  have hfv : SMap.find ts s.views = some v := by rw [hv]; simp [SMap.find]
  obtain ⟨hvts, ⟨p, hp, hpid⟩, hvWF⟩ := h.views ts v hfv
  obtain ⟨Q, S, hc, hQ, hS⟩ := h.book
  -- the removal of the old residual
  have hdrop : ∃ b₁ S₁, dropMarg s = .ok b₁ ∧ Solver.CInv Res.blocks b₁ Q S₁ ∧
      ∀ r, r ∈ S₁ ↔ OfView s r := by
    unfold dropMarg
    cases hm : s.marg with
    | none => exact ⟨s.solver, S, rfl, hc, fun r => by rw [hS, hm]; simp⟩
    | some old =>
      obtain ⟨b₁, e1, e2, _, _⟩ := hc.removeResidual old ((hS _).mpr (Or.inr hm))
      refine ⟨b₁, _, e1, e2, fun r => ?_⟩
      rw [Finset.mem_erase, hS, hm]
      constructor
      · rintro ⟨h1, h2 | h2⟩
        · exact h2
        · exact absurd (Option.some.inj h2).symm h1
      · intro h2
        refine ⟨?_, Or.inl h2⟩
        rintro rfl
        obtain ⟨id, ps, rfl, _⟩ := h.marg _ hm
        obtain ⟨_, _, _, _, _, h3⟩ := h2
        simp at h3
  obtain ⟨b₁, S₁, hb₁, hc₁, hS₁⟩ := hdrop
  -- flagged and remaining parameters
  have hfl : ∀ q, isFlagged p v q = true ↔ q = .pose v.pose := by
    intro q; simp [isFlagged, hpid]
  have hseen : ∀ q, q ∈ seenParams (margInput s v) ↔
      (∃ id ps, s.marg = some (.marg id ps) ∧ q ∈ ps) ∨
      ∃ x ∈ v.all, q = .cam x.cam ∨ q = .ext x.cam ∨ q = .pose v.pose := by
    intro q
    rw [mem_seenParams, margInput]
    constructor
    · rintro ⟨r, hr, hq⟩
      rcases List.mem_append.mp hr with hr | hr
      · rw [Option.mem_toList] at hr
        obtain ⟨id, ps, rfl, _⟩ := h.marg r hr
        exact Or.inl ⟨id, ps, hr, hq⟩
      · rw [List.mem_map] at hr
        obtain ⟨x, hx, rfl⟩ := hr
        right
        refine ⟨x, hx, ?_⟩
        have := (hvWF.of_mem hx).1
        simp only [Res.blocks, List.mem_cons, List.not_mem_nil, or_false] at hq
        rw [this] at hq
        tauto
    · rintro (⟨id, ps, hm, hq⟩ | ⟨x, hx, hq⟩)
      · exact ⟨_, List.mem_append.mpr (Or.inl (Option.mem_toList.mpr hm)), hq⟩
      · refine ⟨.reproj x, List.mem_append.mpr (Or.inr (List.mem_map.mpr ⟨x, hx, rfl⟩)), ?_⟩
        have := (hvWF.of_mem hx).1
        simp only [Res.blocks, List.mem_cons, List.not_mem_nil, or_false]
        rw [this]; tauto
  have hmargPose : ∀ id ps, s.marg = some (.marg id ps) → ∀ q ∈ ps, ∀ k, q ≠ .pose k := by
    intro id ps hm q hq k
    obtain ⟨id', ps', he, _, _, h4⟩ := h.marg _ hm
    simp only [Res.marg.injEq] at he
    obtain ⟨rfl, rfl⟩ := he
    obtain ⟨i, hi | hi, _⟩ := h4 q hq <;> simp [hi]
  have hremain : ∀ q, q ∈ remainParams s (isFlagged p v) (margInput s v) ↔ RemainSpec s v q := by
    intro q
    rw [mem_remainParams, hseen, RemainSpec]
    have hfl' : isFlagged p v q = false ↔ q ≠ .pose v.pose := by
      rw [← Bool.not_eq_true, hfl]
    rw [hfl']
    constructor
    · rintro ⟨h1 | ⟨x, hx, hq⟩, h2, h3⟩
      · exact ⟨h3, Or.inl h1⟩
      · exact ⟨h3, Or.inr ⟨x, hx, by tauto⟩⟩
    · rintro ⟨h3, ⟨id, ps, hm, hq⟩ | ⟨x, hx, hq⟩⟩
      · exact ⟨Or.inl ⟨id, ps, hm, hq⟩, hmargPose id ps hm q hq _, h3⟩
      · refine ⟨Or.inr ⟨x, hx, by tauto⟩, ?_, h3⟩
        rcases hq with rfl | rfl <;> simp
  have hmargPs : (seenParams (margInput s v)).filter (isFlagged p v) =
      if v.all = [] then [] else [.pose v.pose] := by
    split_ifs with hall
    · rw [List.filter_eq_nil_iff]
      intro q hq hq'
      rw [hfl] at hq'
      rw [hseen] at hq
      rcases hq with ⟨id, ps, hm, hq⟩ | ⟨x, hx, _⟩
      · exact hmargPose id ps hm q hq _ hq'
      · rw [hall] at hx; simp at hx
    · refine eq_singleton_of ((nodup_seenParams _).filter _) ?_ ?_
      · intro q hq; rw [List.mem_filter] at hq; exact (hfl q).mp hq.2
      · obtain ⟨x, hx⟩ := List.exists_mem_of_ne_nil _ hall
        have : Par.pose v.pose ∈ (seenParams (margInput s v)).filter (isFlagged p v) :=
          List.mem_filter.mpr ⟨(hseen _).mpr (Or.inr ⟨x, hx, by simp⟩), (hfl _).mpr rfl⟩
        exact List.ne_nil_of_mem this
  have hremnil : remainParams s (isFlagged p v) (margInput s v) = [] ↔ ∀ q, ¬ RemainSpec s v q := by
    rw [List.eq_nil_iff_forall_not_mem]
    simp only [hremain]
  have hunfold : Calib.marginalize s = (if (seenParams (margInput s v)).filter (isFlagged p v) = [] ∨
      remainParams s (isFlagged p v) (margInput s v) = [] then .error .fatal
      else ((seenParams (margInput s v)).filter (isFlagged p v)).foldlM
          (CBook.removeParam Res.blocks) b₁ >>= fun b =>
        b.addResidual Res.blocks (.marg s.next (remainParams s (isFlagged p v) (margInput s v))) >>=
          fun b => Calib.removeView { s with
            solver := b,
            marg := some (.marg s.next (remainParams s (isFlagged p v) (margInput s v))),
            next := s.next + 1,
            views := SMap.set ts { v with resFns := [] } s.views } ts) := by
    unfold Calib.marginalize
    rw [hv]
    simp only [hp, hb₁, AprilGrid.ok_bind]
  constructor
  · intro hcase
    rw [hunfold, if_pos]
    rcases hcase with hcase | hcase
    · left; rw [hmargPs, if_pos hcase]
    · right; rw [hremnil]; exact hcase
  · intro hcase
    rw [not_or] at hcase
    have hk : Par.pose v.pose ∈ Q := (hQ _).mpr ⟨ts, p, hp, hpid⟩
    obtain ⟨b₂, hb₂, hc₂⟩ := hc₁.removeParam (.pose v.pose) hk
    have hknownCam : ∀ q ∈ remainParams s (isFlagged p v) (margInput s v),
        ∃ i, (q = .cam i ∨ q = .ext i) ∧ (SMap.find i s.params).isSome := by
      intro q hq
      rw [hremain] at hq
      rcases hq.2 with ⟨id, ps, hm, hq'⟩ | ⟨x, hx, hq'⟩
      · obtain ⟨id', ps', he, _, _, h4⟩ := h.marg _ hm
        simp only [Res.marg.injEq] at he
        obtain ⟨rfl, rfl⟩ := he
        exact h4 q hq'
      · exact ⟨x.cam, hq', (hvWF.of_mem hx).2.2.1⟩
    have hnotin : Res.marg s.next (remainParams s (isFlagged p v) (margInput s v)) ∉
        S₁.filter (fun r => Par.pose v.pose ∉ Res.blocks r) := by
      rw [Finset.mem_filter, hS₁]
      rintro ⟨⟨_, _, _, _, _, h3⟩, _⟩
      simp at h3
    obtain ⟨b₃, hb₃, hc₃⟩ := hc₂.addResidual _ hnotin (by
      intro q hq
      simp only [Res.blocks] at hq
      obtain ⟨i, hi, hi'⟩ := hknownCam q hq
      rw [Finset.mem_erase, hQ]
      rcases hi with rfl | rfl
      · exact ⟨by simp, hi'⟩
      · exact ⟨by simp, by simp only [Known]; rw [← h.keys]; exact hi'⟩)
      (nodup_remainParams _ _ _)
    have hts : ts ∈ s.viewTs := by rw [h.tsMem, hfv]; rfl
    refine ⟨b₃, remainParams s (isFlagged p v) (margInput s v), ?_, ?_, hremain⟩
    · rw [hunfold, if_neg, hmargPs, if_neg hcase.1]
      · simp only [List.foldlM_cons, List.foldlM_nil, hb₂, AprilGrid.ok_bind, AprilGrid.pure_eq_ok,
          hb₃]
        rw [Calib.removeView, removePose, hp]
        have hhas : b₃.hasParam (.pose p.id) = false := by
          rw [hc₃.hasParam, hpid]; simp
        simp only [dropParam, hhas, Bool.false_eq_true, if_false, AprilGrid.ok_bind, dropView,
          SMap.find_set, if_true, Option.isSome_some, hts, erase_set_same _ _ _ h.viewsSorted]
      · rw [hmargPs, if_neg hcase.1, hremnil]
        simp only [List.cons_ne_nil, false_or]; exact hcase.2
    · obtain ⟨bb, _, hw⟩ := h.removeView ts
      obtain ⟨Q', S', hc', hQ', hS'⟩ := hw.book
      refine ⟨hw.psorted, hw.esorted, hw.keys, hw.posesSorted, hw.viewsSorted, hw.poseInj, ?_, ?_,
        hw.tsNodup, hw.tsMem, ?_, _, _, hc₃, ?_, ?_⟩
      · intro t q hq; have := hw.poseLt t q hq; simp only at this ⊢; omega
      · intro t w hw'
        obtain ⟨k1, k2, k3⟩ := hw.views t w hw'
        exact ⟨k1, k2, k3.mono (by simp) (fun _ h => h)⟩
      · intro r hr
        simp only [Option.some.injEq] at hr
        exact ⟨s.next, _, hr.symm, by simp, nodup_remainParams _ _ _, hknownCam⟩
      · intro q
        have hQq := hQ' q
        simp only [Known] at hQq
        rw [Finset.mem_erase, hQ]
        cases q with
        | cam i => simp [Known]
        | ext i => simp [Known]
        | pose k =>
          simp only [Known, SMap.find_erase, ne_eq, Par.pose.injEq]
          constructor
          · rintro ⟨hne, t, q, k1, k2⟩
            refine ⟨t, q, ?_, k2⟩
            have : t ≠ ts := by
              rintro rfl
              rw [hp] at k1
              simp only [Option.some.injEq] at k1
              exact hne (by rw [← k2, ← k1, hpid])
            rw [if_neg this]; exact k1
          · rintro ⟨t, q, k1, k2⟩
            split_ifs at k1 with ht
            refine ⟨?_, t, q, k1, k2⟩
            intro hk
            exact ht (h.poseInj _ _ _ _ k1 hp (by rw [k2, hk, hpid]))
      · intro r
        rw [Finset.mem_insert, Finset.mem_filter, hS₁]
        simp only [OfView, SMap.find_erase, Option.some.injEq]
        constructor
        · rintro (rfl | ⟨⟨t, w, x, k1, k2, rfl⟩, hnot⟩)
          · exact Or.inr rfl
          · refine Or.inl ⟨t, w, x, ?_, k2, rfl⟩
            have : t ≠ ts := by
              rintro rfl
              rw [hfv] at k1
              simp only [Option.some.injEq] at k1
              subst k1
              apply hnot
              simp only [Res.blocks, List.mem_cons, reduceCtorEq, Par.pose.injEq, List.not_mem_nil,
                or_false, false_or]
              exact ((hvWF.of_mem k2).1).symm
            rw [if_neg this]; exact k1
        · rintro (⟨t, w, x, k1, k2, rfl⟩ | rfl)
          · split_ifs at k1 with ht
            refine Or.inr ⟨⟨t, w, x, k1, k2, rfl⟩, ?_⟩
            obtain ⟨_, ⟨q, k3, k4⟩, k5⟩ := h.views t w k1
            have hx := (k5.of_mem k2).1
            simp only [Res.blocks, List.mem_cons, reduceCtorEq, Par.pose.injEq, List.not_mem_nil,
                or_false, false_or]
            intro he
            exact ht (h.poseInj _ _ _ _ k3 hp (by rw [k4, ← hx, ← he, hpid]))
          · exact Or.inl rfl

end Yac.Calib
