import Verif.VI.QueryModel
import Verif.VI.Props
import Mathlib.Algebra.BigOperators.Group.List.Basic

/-!
# Lemmas about `filter_view` and `cost` (calib_vi.cpp)
-/

namespace Yac.VI

open Yac.AprilGrid (Grid)
open Yac.Solver (Problem insSet)

variable {K D : Type} [DecidableEq K]

/-- Fiducial residuals that satisfy `P` do not stay. -/
def stays (P : Fid K → Bool) : Res K → Bool
  | .fid f => !P f
  | .imu _ => true
  | .marg _ _ => true

/-- The problem without the fiducial residuals that satisfy `P`. -/
def without (p : Problem Par (Res K)) (P : Fid K → Bool) : Problem Par (Res K) :=
  { p with rblocks := p.rblocks.filter (fun b => stays P b.2) }

theorem PInv.without {p : Problem Par (Res K)} (hp : PInv p) (P : Fid K → Bool) :
    PInv (without p P) :=
  hp.filter _ _ hp.pb (fun b hb _ => hp.closed b hb)

theorem removeFid_eq {p : Problem Par (Res K)} (hp : PInv p) {f : Fid K}
    (hf : Res.fid f ∈ p.rblocks.map Prod.snd) :
    removeFid p f = .ok (without p (fun g => decide (g = f))) := by
  obtain ⟨id, hid⟩ := mem_snd.1 hf
  unfold removeFid
  cases hx : p.rblocks.find? (fun b => decide (b.2 = .fid f)) with
  | none =>
    rw [List.find?_eq_none] at hx
    exact absurd (hx _ hid) (by simp)
  | some b =>
    have hb := List.mem_of_find?_eq_some hx
    have hb2 : b.2 = .fid f := by simpa using List.find?_some hx
    simp only
    unfold removeResidual
    rw [if_pos (List.mem_map_of_mem hb)]
    unfold VI.without
    congr 2
    refine List.filter_congr ?_
    intro c hc
    rw [Bool.eq_iff_iff]
    simp only [decide_eq_true_eq]
    constructor
    · intro hne
      match hc2 : c.2 with
      | .fid g =>
        simp only [stays, Bool.not_eq_eq_eq_not, Bool.not_true, decide_eq_false_iff_not]
        rintro rfl
        apply hne
        have : c = b := List.inj_on_of_nodup_map hp.res hc hb (by rw [hc2, hb2])
        rw [this]
      | .imu _ => rfl
      | .marg _ _ => rfl
    · intro hm he
      have : c = b := List.inj_on_of_nodup_map hp.ids hc hb he
      subst this
      rw [hb2] at hm
      simp [stays] at hm

theorem without_without (p : Problem Par (Res K)) (P Q : Fid K → Bool) :
    without (without p P) Q = without p (fun f => P f || Q f) := by
  simp only [without, List.filter_filter]
  congr 1
  refine List.filter_congr ?_
  intro b _
  match b.2 with
  | .fid f => simp only [stays]; cases P f <;> cases Q f <;> rfl
  | .imu _ => rfl
  | .marg _ _ => rfl

theorem mem_without {p : Problem Par (Res K)} {P : Fid K → Bool} {r : Res K} :
    r ∈ (without p P).rblocks.map Prod.snd ↔
      r ∈ p.rblocks.map Prod.snd ∧ ∀ f, r = .fid f → P f = false := by
  simp only [without, List.mem_map, List.mem_filter]
  constructor
  · rintro ⟨b, ⟨hb, hm⟩, rfl⟩
    refine ⟨⟨b, hb, rfl⟩, fun f hf => ?_⟩
    rw [hf] at hm
    simpa [stays] using hm
  · rintro ⟨⟨b, hb, rfl⟩, hP⟩
    refine ⟨b, ⟨hb, ?_⟩, rfl⟩
    match hb2 : b.2 with
    | .fid f => simpa [stays] using hP f hb2
    | .imu _ => rfl
    | .marg _ _ => rfl

theorem without_congr {p : Problem Par (Res K)} {P Q : Fid K → Bool}
    (h : ∀ f, Res.fid f ∈ p.rblocks.map Prod.snd → P f = Q f) : without p P = without p Q := by
  unfold without
  congr 1
  refine List.filter_congr ?_
  intro b hb
  match hb2 : b.2 with
  | .fid f => simp only [stays]; rw [h f (hb2 ▸ List.mem_map_of_mem hb)]
  | .imu _ => rfl
  | .marg _ _ => rfl

theorem without_false (p : Problem Par (Res K)) : without p (fun _ => false) = p := by
  unfold without
  have : p.rblocks.filter (fun b => stays (fun _ => false) b.2) = p.rblocks := by
    rw [List.filter_eq_self]
    intro b _
    match b.2 with
    | .fid f => rfl
    | .imu _ => rfl
    | .marg _ _ => rfl
  rw [this]

theorem removeFids_eq {p : Problem Par (Res K)} (hp : PInv p) (l : List (Fid K)) (hl : l.Nodup)
    (h : ∀ f ∈ l, Res.fid f ∈ p.rblocks.map Prod.snd) :
    l.foldlM removeFid p = .ok (without p (fun g => decide (g ∈ l))) := by
  induction l generalizing p with
  | nil => simp [without_false]
  | cons f l ih =>
    rw [List.nodup_cons] at hl
    rw [List.foldlM_cons, removeFid_eq hp (h f (by simp)), AprilGrid.ok_bind,
      ih (hp.without _) hl.2, without_without]
    · refine congrArg _ (without_congr fun g _ => ?_)
      rw [Bool.eq_iff_iff]; simp
    · intro g hg
      rw [mem_without]
      refine ⟨h g (by simp [hg]), ?_⟩
      rintro _ ⟨⟩
      simp only [decide_eq_false_iff_not]
      rintro rfl
      exact hl.1 hg

theorem length_filter_or {α : Type} (l : List α) (P Q : α → Bool) :
    (l.filter (fun a => P a || Q a)).length =
      (l.filter P).length + (l.filter (fun a => Q a && !P a)).length := by
  induction l with
  | nil => rfl
  | cons a l ih =>
    simp only [List.filter_cons]
    cases P a <;> cases Q a <;> simp [ih] <;> omega

/-- What a view loses. -/
noncomputable def lost (res : Fid K → ℝ × ℝ) (factor : ℝ) (v : View K) (f : Fid K) : Bool :=
  exceeds (threshold res factor v) (res f)

theorem filterCams_eq {p : Problem Par (Res K)} (hp : PInv p) (res : Fid K → ℝ × ℝ) (t : Option ℝ)
    (cams : List Int) (fs : List (Fid K)) (n : Nat) (hl : fs.Nodup)
    (h : ∀ f ∈ fs, Res.fid f ∈ p.rblocks.map Prod.snd) :
    cams.foldlM (filterCam res t) (p, fs, n) =
      .ok (without p (fun g => decide (g ∈ fs) && decide (g.cam ∈ cams) && exceeds t (res g)),
        fs.filter (fun g => !(decide (g.cam ∈ cams) && exceeds t (res g))),
        n + (fs.filter (fun g => decide (g.cam ∈ cams) && exceeds t (res g))).length) := by
  induction cams generalizing p fs n with
  | nil =>
    simp only [List.foldlM_nil, pure, Except.pure, List.not_mem_nil, decide_false, Bool.and_false,
      Bool.false_and, without_false, Bool.not_false, List.filter_true, List.filter_false]
    simp
  | cons c cams ih =>
    have h1 : filterCam res t (p, fs, n) c = .ok
        (without p (fun g => decide (g ∈ fs.filter (fun f => decide (f.cam = c) && exceeds t (res f)))),
          fs.filter (fun f => !(decide (f.cam = c) && exceeds t (res f))),
          n + (fs.filter (fun f => decide (f.cam = c) && exceeds t (res f))).length) := by
      unfold filterCam
      simp only
      rw [removeFids_eq hp _ (hl.filter _) (fun f hf => h f (List.mem_filter.1 hf).1),
        AprilGrid.ok_bind]
    rw [List.foldlM_cons, h1, AprilGrid.ok_bind]
    rw [ih (hp.without _) _ _ (hl.filter _)]
    · refine congrArg _ ?_
      rw [without_without]
      refine Prod.ext ?_ (Prod.ext ?_ ?_)
      · refine without_congr fun g _ => ?_
        rw [Bool.eq_iff_iff]
        simp only [List.mem_filter, Bool.or_eq_true, Bool.and_eq_true, decide_eq_true_eq,
          Bool.not_eq_true', Bool.and_eq_false_iff, decide_eq_false_iff_not, List.mem_cons]
        by_cases hc : g.cam = c <;> by_cases hx : exceeds t (res g) = true <;> simp [hc, hx]
      · simp only [List.filter_filter]
        refine List.filter_congr fun g _ => ?_
        rw [Bool.eq_iff_iff]
        simp only [Bool.and_eq_true, Bool.not_eq_true', Bool.and_eq_false_iff,
          decide_eq_false_iff_not, List.mem_cons]
        by_cases hc : g.cam = c <;> by_cases hx : exceeds t (res g) = true <;> simp [hc, hx]
      · simp only [List.filter_filter, Nat.add_assoc, Nat.add_left_cancel_iff]
        rw [← length_filter_or fs (fun g => decide (g.cam = c) && exceeds t (res g))
          (fun g => decide (g.cam ∈ cams) && exceeds t (res g))]
        refine congrArg _ (List.filter_congr fun g _ => ?_)
        rw [Bool.eq_iff_iff]
        simp only [Bool.and_eq_true, Bool.or_eq_true, decide_eq_true_eq, List.mem_cons]
        tauto
    · intro f hf
      rw [mem_without]
      refine ⟨h f (List.mem_filter.1 hf).1, ?_⟩
      rintro _ ⟨⟩
      have := (List.mem_filter.1 hf).2
      simp only [List.mem_filter]
      rw [Bool.not_eq_true'] at this
      simp [this]

/-- The view after `filter_view`. -/
noncomputable def kept (res : Fid K → ℝ × ℝ) (factor : ℝ) (v : View K) : View K :=
  { v with fids := v.fids.filter (fun f => !lost res factor v f) }

theorem filterView_eq {p : Problem Par (Res K)} (hp : PInv p) (cams : List (Int × CamFlags))
    (res : Fid K → ℝ × ℝ) (factor : ℝ) (v : View K) (hl : v.fids.Nodup)
    (h : ∀ f ∈ v.fids, Res.fid f ∈ p.rblocks.map Prod.snd)
    (hc : ∀ f ∈ v.fids, f.cam ∈ cams.map Prod.fst) :
    filterView cams res factor p v =
      .ok (without p (fun g => decide (g ∈ v.fids) && lost res factor v g), kept res factor v,
        (v.fids.filter (lost res factor v)).length) := by
  unfold filterView
  rw [filterCams_eq hp res _ _ _ _ hl h, AprilGrid.ok_bind]
  refine congrArg _ (Prod.ext ?_ (Prod.ext ?_ ?_))
  · refine without_congr fun g _ => ?_
    by_cases hg : g ∈ v.fids
    · simp only [hg, hc g hg, decide_true, Bool.true_and, lost]
    · simp [hg]
  · simp only [kept]
    congr 1
    refine List.filter_congr fun g hg => ?_
    simp only [hc g hg, decide_true, Bool.true_and, lost]
  · simp only [Nat.zero_add]
    congr 1
    refine List.filter_congr fun g hg => ?_
    simp only [hc g hg, decide_true, Bool.true_and, lost]

/-- What the views lose together. -/
noncomputable def lostAny (res : Fid K → ℝ × ℝ) (factor : ℝ) (l : List (View K)) (f : Fid K) : Bool :=
  l.any (fun v => decide (f ∈ v.fids) && lost res factor v f)

theorem filterSteps_eq {p : Problem Par (Res K)} (hp : PInv p) (cams : List (Int × CamFlags))
    (res : Fid K → ℝ × ℝ) (factor : ℝ) (l done : List (View K)) (n : Nat)
    (hn : ∀ v ∈ l, v.fids.Nodup)
    (hd : l.Pairwise (fun a b => ∀ f, f ∈ a.fids → f ∉ b.fids))
    (h : ∀ v ∈ l, ∀ f ∈ v.fids, Res.fid f ∈ p.rblocks.map Prod.snd)
    (hc : ∀ v ∈ l, ∀ f ∈ v.fids, f.cam ∈ cams.map Prod.fst) :
    l.foldlM (filterStep cams res factor) (p, done, n) =
      .ok (without p (lostAny res factor l), done ++ l.map (kept res factor),
        n + (l.map (fun v => (v.fids.filter (lost res factor v)).length)).sum) := by
  induction l generalizing p done n with
  | nil =>
    have : lostAny res factor ([] : List (View K)) = fun _ => false := rfl
    simp only [List.foldlM_nil, this, without_false]
    simp [pure, Except.pure]
  | cons v l ih =>
    rw [List.pairwise_cons] at hd
    have h1 : filterStep cams res factor (p, done, n) v = .ok
        (without p (fun g => decide (g ∈ v.fids) && lost res factor v g),
          done ++ [kept res factor v], n + (v.fids.filter (lost res factor v)).length) := by
      unfold filterStep
      rw [filterView_eq hp cams res factor v (hn v (by simp)) (h v (by simp)) (hc v (by simp)),
        AprilGrid.ok_bind]
    rw [List.foldlM_cons, h1, AprilGrid.ok_bind, ih (hp.without _) _ _
      (fun w hw => hn w (by simp [hw])) hd.2 ?_ (fun w hw => hc w (by simp [hw]))]
    · rw [without_without]
      simp only [List.map_cons, List.sum_cons, List.append_assoc, List.singleton_append,
        Nat.add_assoc]
      rfl
    · intro w hw f hf
      rw [mem_without]
      refine ⟨h w (by simp [hw]) f hf, ?_⟩
      rintro _ ⟨⟩
      have : f ∉ v.fids := fun hv => hd.1 w hw f hv hf
      simp [this]

/-- The fiducial residuals of a state of the invariant. -/
theorem WF.fid_mem {s : St K D} (h : WF s) {v : View K} (hv : v ∈ s.views) {f : Fid K}
    (hf : f ∈ v.fids) : Res.fid f ∈ s.prob.rblocks.map Prod.snd :=
  (h.content _).2 (Or.inl ⟨v, hv, by simp [View.residuals, hf]⟩)

/-! ### The residuals of a view are distinct -/

theorem addFids_distinct {cam : Int} {num : Nat} (ms : List ((Int × Int) × (K × K)))
    {acc acc' : List (Fid K) × Problem Par (Res K) × Nat}
    (h0 : (acc.1.map Fid.id).Nodup ∧ ∀ f ∈ acc.1, f.id < acc.2.2)
    (h : ms.foldlM (addFid cam num) acc = .ok acc') :
    (acc'.1.map Fid.id).Nodup ∧ ∀ f ∈ acc'.1, f.id < acc'.2.2 := by
  induction ms generalizing acc with
  | nil => injection h with h; exact h ▸ h0
  | cons m ms ih =>
    rw [List.foldlM_cons] at h
    obtain ⟨a, h1, h2⟩ := bindOk h
    refine ih ?_ h2
    unfold addFid at h1
    obtain ⟨o, -, h3⟩ := bindOk h1
    injection h3 with h3
    subst h3
    refine ⟨?_, ?_⟩
    · simp only [List.map_append, List.map_cons, List.map_nil]
      refine List.nodup_append.2 ⟨h0.1, by simp, ?_⟩
      intro x hx y hy
      obtain ⟨f, hf, rfl⟩ := List.mem_map.1 hx
      simp only [List.mem_singleton] at hy
      have := h0.2 f hf
      omega
    · intro f hf
      simp only [List.mem_append, List.mem_singleton] at hf
      show f.id < acc.2.2 + 1
      rcases hf with hf | rfl
      · have := h0.2 f hf; omega
      · simp

theorem addGrids_distinct {env : VEnv K D} {live : Bool} {cams : List (Int × CamFlags)} {num : Nat}
    (gs : List (Int × Grid K)) {acc acc' : List (Fid K) × Problem Par (Res K) × Nat}
    (h0 : (acc.1.map Fid.id).Nodup ∧ ∀ f ∈ acc.1, f.id < acc.2.2)
    (h : gs.foldlM (addGridRes env live cams num) acc = .ok acc') :
    (acc'.1.map Fid.id).Nodup ∧ ∀ f ∈ acc'.1, f.id < acc'.2.2 := by
  induction gs generalizing acc with
  | nil => injection h with h; exact h ▸ h0
  | cons g gs ih =>
    rw [List.foldlM_cons] at h
    obtain ⟨a, h1, h2⟩ := bindOk h
    refine ih ?_ h2
    unfold addGridRes at h1
    obtain ⟨ms, h3, h4⟩ := bindOk h1
    split_ifs at h4
    exact addFids_distinct ms h0 h4

/-- A property of views that does not depend on the IMU factor and that holds of new views
holds of the views after a measurement. -/
theorem process_each {env : VEnv K D} {s t : St K D} {grids : List (Int × Grid K)} {b : Bool}
    (Q : View K → Prop) (hi : ∀ v i, Q v → Q { v with imu := i })
    (hnew : ∀ (s t : St K D) ts grids, newView env s ts grids = .ok t →
      ∀ v ∈ t.views, v ∈ s.views ∨ Q v)
    (hs : ∀ v ∈ s.views, Q v) (h : process env s grids = .ok (t, b)) : ∀ v ∈ t.views, Q v := by
  unfold process at h
  split_ifs at h with hc
  · obtain ⟨s1, h1, h2⟩ := bindOk h
    simp only [Except.ok.injEq, Prod.mk.injEq] at h2
    obtain ⟨rfl, -⟩ := h2
    obtain ⟨g, t', hg, hd, -, -, h3, rfl⟩ := initVI_eq h1
    intro v hv
    rcases hnew _ _ _ _ h3 v hv with hv | hv
    · exact hs v hv
    · exact hv
  · obtain ⟨s1, h1, h2⟩ := bindOk h
    obtain ⟨s2, h3, h4⟩ := bindOk h2
    simp only [Except.ok.injEq, Prod.mk.injEq] at h4
    obtain ⟨rfl, -⟩ := h4
    have hsub : ∀ v ∈ s2.views, v ∈ s1.views := by
      intro v hv
      rcases (slide_views h3).2.2.2.2.2.2.2 with ⟨e, -⟩ | ⟨x, e⟩
      · rw [← e]; exact hv
      · rw [e]; exact List.mem_cons_of_mem _ hv
    suffices ∀ v ∈ s1.views, Q v from fun v hv => this v (hsub v hv)
    rcases addView_eq h1 with ⟨rfl, -⟩ | ⟨cg, u1, u2, -, hd, hne, b1, -, b2, b3⟩
    · exact hs
    · have hu : ∀ v ∈ u1.views, Q v := by
        intro v hv
        rcases hnew _ _ _ _ b1 v hv with hv | hv
        · exact hs v hv
        · exact hv
      obtain ⟨fids, n, p, -, -, rfl⟩ := newView_eq b1
      obtain ⟨l, vj, hl'⟩ := list_concat_of_ne hne
      obtain ⟨out, -, rfl⟩ := linkViews_eq (l := l) (vj := vj)
        (vk := ⟨s.next, cg.2.timestamp, grids, fids, none⟩) (by simp [hl']) b2
      obtain ⟨bb, rfl⟩ := trimImu_eq b3
      intro v hv
      simp only [List.mem_append, List.mem_cons, List.not_mem_nil, or_false] at hv
      rcases hv with hv | rfl | rfl
      · exact hs v (by simp [hl', hv])
      · exact hi vj _ (hs vj (by simp [hl']))
      · exact hu _ (by simp)

/-- The views have distinct residuals. -/
def Distinct (s : St K D) : Prop := ∀ v ∈ s.views, (v.fids.map Fid.id).Nodup

theorem Distinct.call {env : VEnv K D} {s u : St K D} {c : Call K D} (hs : Distinct s)
    (h : call env s c = .ok u) : Distinct u := by
  cases c with
  | camera i fp fe =>
    simp only [VI.call, addCamera] at h
    by_cases hc : (SMap.find i s.cams).isSome
    · rw [if_pos hc] at h; cases h
    · rw [if_neg hc] at h
      injection h with h
      subst h
      exact hs
  | grid cam g =>
    injection h with h
    subst h
    unfold Distinct
    rw [(addGrid_fields s cam g).1]
    exact hs
  | imu ts a w =>
    obtain ⟨b, hb⟩ := call_imu h
    unfold addImu at hb
    simp only at hb
    split_ifs at hb with hc
    · simp only [Except.ok.injEq, Prod.mk.injEq] at hb
      obtain ⟨rfl, -⟩ := hb
      exact hs
    · refine process_each (s := { s with imu := s.imu.add ts a w, imuStarted := true, gridBuf := [] })
        (fun v => (v.fids.map Fid.id).Nodup) (fun v i hv => hv) ?_ hs hb
      intro s t ts grids hn v hv
      obtain ⟨fids, n, p, -, hf, rfl⟩ := newView_eq hn
      simp only [List.mem_append, List.mem_singleton] at hv
      rcases hv with hv | rfl
      · exact Or.inl hv
      · exact Or.inr (addGrids_distinct grids (by simp) hf).1
  | reset =>
    injection h with h
    subst h
    simp [VI.reset, Distinct]

theorem WF.disjoint {s : St K D} (h : WF s) :
    s.views.Pairwise (fun a b => ∀ f, f ∈ a.fids → f ∉ b.fids) := by
  have hp := h.linked.spec.2.2
  rw [List.pairwise_iff_getElem] at hp ⊢
  intro i j hi hj hij f h1 h2
  have := hp i j hi hj hij
  rw [← (h.fids _ (List.getElem_mem hi) f h1).1, ← (h.fids _ (List.getElem_mem hj) f h2).1] at this
  omega

/-- `filterViews` on a state of the invariant. -/
theorem filterViews_eq {s : St K D} (h : WF s) (hd : Distinct s) (res : Fid K → ℝ × ℝ) (factor : ℝ) :
    filterViews res factor s =
      .ok ({ s with prob := without s.prob (lostAny res factor s.views),
                    views := s.views.map (kept res factor) },
        (s.views.map (fun v => (v.fids.filter (lost res factor v)).length)).sum) := by
  unfold filterViews
  rw [filterSteps_eq h.prob s.cams res factor s.views [] 0 (fun v hv => (hd v hv).of_map _)
    h.disjoint (fun v hv f hf => h.fid_mem hv hf) ?_, AprilGrid.ok_bind]
  · simp
  · intro v hv f hf
    exact SMap.find_isSome.1 (h.fids v hv f hf).2

theorem linked_map {l : List (View K)} (g : View K → View K) (hn : ∀ v, (g v).num = v.num)
    (hi : ∀ v, (g v).imu = v.imu) (h : Linked l) : Linked (l.map g) := by
  induction l with
  | nil => trivial
  | cons v l ih =>
    cases l with
    | nil => exact (hi v).trans h
    | cons w l =>
      refine ⟨?_, ?_, ih h.2.2⟩
      · obtain ⟨n, hv⟩ := h.1; exact ⟨n, by rw [hi, hn, hn]; exact hv⟩
      · show (g v).num < (g w).num
        rw [hn, hn]; exact h.2.1

theorem lostAny_of_mem {s : St K D} (h : WF s) {res : Fid K → ℝ × ℝ} {factor : ℝ} {v : View K}
    (hv : v ∈ s.views) {f : Fid K} (hf : f ∈ v.fids) :
    lostAny res factor s.views f = lost res factor v f := by
  rw [Bool.eq_iff_iff]
  simp only [lostAny, List.any_eq_true, Bool.and_eq_true, decide_eq_true_eq]
  constructor
  · rintro ⟨w, hw, hfw, hl⟩
    have hn : v.num = w.num := ((h.fids v hv f hf).1.symm.trans (h.fids w hw f hfw).1)
    have : v = w := by
      have hp := h.linked.spec.2.2
      obtain ⟨i, hi, rfl⟩ := List.mem_iff_getElem.1 hv
      obtain ⟨j, hj, rfl⟩ := List.mem_iff_getElem.1 hw
      rw [List.pairwise_iff_getElem] at hp
      rcases Nat.lt_trichotomy i j with hij | hij | hij
      · have := hp i j hi hj hij; omega
      · subst hij; rfl
      · have := hp j i hj hi hij; omega
    rw [this]; exact hl
  · intro hl; exact ⟨v, hv, hf, hl⟩

theorem WF.filterViews {s u : St K D} (h : WF s) (hd : Distinct s) {res : Fid K → ℝ × ℝ} {factor : ℝ}
    {n : Nat} (hu : filterViews res factor s = .ok (u, n)) : WF u ∧ Distinct u := by
  rw [filterViews_eq h hd] at hu
  simp only [Except.ok.injEq, Prod.mk.injEq] at hu
  obtain ⟨rfl, -⟩ := hu
  refine ⟨?_, ?_⟩
  · refine ⟨h.prob.without _, ?_, ?_, ?_, ?_, ?_, ?_, h.pImuExt, h.pDelay, h.pFid, h.pExt, h.pCam,
      ?_, ?_, ?_, h.fidOk⟩
    · intro b hb; exact h.freshR b (List.mem_filter.1 hb).1
    · intro v hv
      obtain ⟨w, hw, rfl⟩ := List.mem_map.1 hv
      exact h.freshV w hw
    · exact linked_map _ (fun _ => rfl) (fun _ => rfl) h.linked
    · intro v hv f hf
      obtain ⟨w, hw, rfl⟩ := List.mem_map.1 hv
      exact h.fids w hw f (List.mem_filter.1 hf).1
    · intro r
      simp only
      rw [mem_without, h.content r]
      constructor
      · rintro ⟨⟨v, hv, hr⟩ | hr, hl⟩
        · refine Or.inl ⟨kept res factor v, List.mem_map_of_mem hv, ?_⟩
          simp only [View.residuals, List.mem_append, List.mem_map] at hr ⊢
          rcases hr with ⟨f, hf, rfl⟩ | hr
          · refine Or.inl ⟨f, List.mem_filter.2 ⟨hf, ?_⟩, rfl⟩
            rw [← lostAny_of_mem h hv hf, hl f rfl]; rfl
          · exact Or.inr hr
        · exact Or.inr hr
      · rintro (⟨v, hv, hr⟩ | ⟨id, hid⟩)
        · obtain ⟨w, hw, rfl⟩ := List.mem_map.1 hv
          simp only [View.residuals, List.mem_append, List.mem_map] at hr
          rcases hr with ⟨f, hf, rfl⟩ | ⟨i, hi, rfl⟩
          · obtain ⟨hf1, hf2⟩ := List.mem_filter.1 hf
            refine ⟨Or.inl ⟨w, hw, by simp [View.residuals, hf1]⟩, ?_⟩
            rintro _ ⟨⟩
            rw [lostAny_of_mem h hw hf1]
            simpa using hf2
          · refine ⟨Or.inl ⟨w, hw, ?_⟩, by rintro _ ⟨⟩⟩
            simp only [View.residuals, List.mem_append, List.mem_map]
            exact Or.inr ⟨i, hi, rfl⟩
        · refine ⟨Or.inr ⟨id, hid⟩, ?_⟩
          obtain ⟨n, ps, -, -, rfl, -⟩ := (h.marg id r hid).2
          rintro _ ⟨⟩
    · intro id r hr
      obtain ⟨h1, n, ps, v, rest, rfl, hv, hps⟩ := h.marg id r hr
      refine ⟨?_, n, ps, kept res factor v, rest.map (kept res factor), rfl, ?_, hps⟩
      · exact List.mem_filter.2 ⟨h1, rfl⟩
      · simp only [hv, List.map_cons]
    · intro k
      simp only [without]
      rw [h.pPose k]
      simp [kept]
    · intro k
      simp only [without]
      rw [h.pSb k]
      simp [kept]
    · simp only [ne_eq, List.map_eq_nil_iff]
      exact h.init
  · intro v hv
    obtain ⟨w, hw, rfl⟩ := List.mem_map.1 hv
    exact (List.filter_sublist.map _).nodup (hd w hw)

end Yac.VI
