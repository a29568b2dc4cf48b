import Verif.Calib.CameraAdd

namespace Yac.Calib

open Yac.AprilGrid (Grid Meas Row MadeBy)
open Yac.Solver (CBook insSet mem_insSet)

variable {K V : Type} [Field K] [LinearOrder K]

/-- Two calibrator states with the same calibration problem: everything equal except the
solver's internal order, the numbering of future objects, the recorded detections and the
cached estimates. -/
structure SameProblem (s s' : Cal K V) : Prop where
  rows : s'.rows = s.rows
  cols : s'.cols = s.cols
  params : s'.params = s.params
  exts : s'.exts = s.exts
  poses : s'.poses = s.poses
  views : s'.views = s.views
  viewTs : s'.viewTs = s.viewTs
  timestamps : s'.timestamps = s.timestamps
  marg : s'.marg = s.marg
  infoK : s'.infoK = s.infoK
  entropyK : s'.entropyK = s.entropyK
  threshold : s'.threshold = s.threshold
  removed : s'.removedOutliers = s.removedOutliers
  presid : ∀ r, r ∈ s'.solver.prob.rblocks.map Prod.snd ↔ r ∈ s.solver.prob.rblocks.map Prod.snd
  pparam : ∀ p, p ∈ s'.solver.prob.pblocks ↔ p ∈ s.solver.prob.pblocks

theorem SameProblem.refl (s : Cal K V) : SameProblem s s :=
  ⟨rfl, rfl, rfl, rfl, rfl, rfl, rfl, rfl, rfl, rfl, rfl, rfl, rfl, fun _ => Iff.rfl, fun _ => Iff.rfl⟩

theorem WF.residuals {s : Cal K V} (h : WF s) (r : Res K) :
    r ∈ s.solver.prob.rblocks.map Prod.snd ↔ OfView s r ∨ s.marg = some r := by
  obtain ⟨Q, S, hc, hQ, hS⟩ := h.book
  rw [hc.rmem, hS]

theorem WF.blocks {s : Cal K V} (h : WF s) (p : Par) : p ∈ s.solver.prob.pblocks ↔ Known s p := by
  obtain ⟨Q, S, hc, hQ, hS⟩ := h.book
  rw [hc.pmem, hQ]

/-- Equal parameters, poses, views and prior make the same problem. -/
theorem SameProblem.mk' {s s' : Cal K V} (h : WF s) (h' : WF s') (rows : s'.rows = s.rows)
    (cols : s'.cols = s.cols) (params : s'.params = s.params) (exts : s'.exts = s.exts)
    (poses : s'.poses = s.poses) (views : s'.views = s.views) (viewTs : s'.viewTs = s.viewTs)
    (timestamps : s'.timestamps = s.timestamps) (marg : s'.marg = s.marg)
    (infoK : s'.infoK = s.infoK) (entropyK : s'.entropyK = s.entropyK)
    (threshold : s'.threshold = s.threshold) (removed : s'.removedOutliers = s.removedOutliers) :
    SameProblem s s' := by
  refine ⟨rows, cols, params, exts, poses, views, viewTs, timestamps, marg, infoK, entropyK,
    threshold, removed, ?_, ?_⟩
  · intro r
    rw [h.residuals, h'.residuals, marg]
    simp only [OfView, views]
  · intro p
    rw [h.blocks, h'.blocks]
    cases p <;> simp [Known, params, exts, poses]

theorem SameProblem.trans {a b c : Cal K V} (h : SameProblem a b) (h' : SameProblem b c) :
    SameProblem a c :=
  ⟨h'.rows.trans h.rows, h'.cols.trans h.cols, h'.params.trans h.params, h'.exts.trans h.exts,
    h'.poses.trans h.poses, h'.views.trans h.views, h'.viewTs.trans h.viewTs,
    h'.timestamps.trans h.timestamps, h'.marg.trans h.marg, h'.infoK.trans h.infoK,
    h'.entropyK.trans h.entropyK, h'.threshold.trans h.threshold, h'.removed.trans h.removed,
    fun r => (h'.presid r).trans (h.presid r), fun p => (h'.pparam p).trans (h.pparam p)⟩

theorem erase_set_none {ν : Type} (k : Int) (v : ν) (m : List (Int × ν)) (hs : SMap.Sorted m)
    (h : SMap.find k m = none) : SMap.erase k (SMap.set k v m) = m := by
  rw [erase_set_same k v m hs, erase_none k m hs h]

theorem erase_append_self (l : List Int) (a : Int) (h : a ∉ l) : (l ++ [a]).erase a = l := by
  rw [List.erase_append_right _ h]; simp

/-- Adding a fresh view and removing it again gives back the same problem. -/
theorem removeView_added {s s' : Cal K V} {ts : Int} {v : View K} {p : PoseObj V}
    (h : WF s) (h' : WF s') (ha : Added s s' ts v p) (hv : SMap.find ts s.views = none)
    (hp : SMap.find ts s.poses = none) :
    ∃ s'', removeView s' ts = .ok s'' ∧ WF s'' ∧ SameProblem s s'' := by
  obtain ⟨b, e, w⟩ := h'.removeView ts
  refine ⟨_, e, w, SameProblem.mk' h w ha.rows ha.cols ha.params ha.exts ?_ ?_ ?_ ha.timestamps
    ha.marg ha.infoK ha.entropyK ha.threshold ha.removed⟩
  · simp only [ha.poses, hp, Option.isSome_none, Bool.false_eq_true, if_false]
    exact erase_set_none _ _ _ h.posesSorted hp
  · simp only [ha.views]
    exact erase_set_none _ _ _ h.viewsSorted hv
  · simp only [ha.viewTs]
    refine erase_append_self _ _ ?_
    rw [h.tsMem, hv]; simp

/-- The grids simulated for a candidate. -/
theorem nbvGrids_spec {env : Env K V} {s : Cal K V} (h : WF s) (ts : Int) (T : V) :
    ∃ gs, nbvGrids env s ts T = .ok gs ∧ gs.map Prod.fst = s.params.map Prod.fst ∧
      ∀ cg ∈ gs, ∃ p e, SMap.find cg.1 s.params = some p ∧ SMap.find cg.1 s.exts = some e ∧
        cg.2 = env.simGrid p.val ts T e.val := by
  have gen : ∀ (l : List (Int × CamP V)) (acc : List (Int × Grid K)),
      (∀ ip ∈ l, SMap.find ip.1 s.params = some ip.2) →
      ∃ gs, l.foldlM (simStep env s.exts ts T) acc = .ok (acc ++ gs) ∧
        gs.map Prod.fst = l.map Prod.fst ∧
        ∀ cg ∈ gs, ∃ p e, SMap.find cg.1 s.params = some p ∧ SMap.find cg.1 s.exts = some e ∧
          cg.2 = env.simGrid p.val ts T e.val := by
    intro l
    induction l with
    | nil => intro acc _; exact ⟨[], by simp, rfl, by simp⟩
    | cons ip l ih =>
      intro acc hl
      have hip := hl ip (by simp)
      have hk : (SMap.find ip.1 s.exts).isSome = true := by rw [← h.keys, hip]; rfl
      obtain ⟨e, he⟩ := Option.isSome_iff_exists.mp hk
      obtain ⟨gs, h1, h2, h3⟩ := ih (acc ++ [(ip.1, env.simGrid ip.2.val ts T e.val)])
        (fun x hx => hl x (by simp [hx]))
      refine ⟨(ip.1, env.simGrid ip.2.val ts T e.val) :: gs, ?_, by simp [h2], ?_⟩
      · rw [List.foldlM_cons, simStep, he]
        simp only [AprilGrid.ok_bind]
        rw [h1]; simp
      · intro cg hcg
        rcases List.mem_cons.mp hcg with rfl | hcg
        · exact ⟨ip.2, e, hip, he, rfl⟩
        · exact h3 cg hcg
  obtain ⟨gs, h1, h2, h3⟩ := gen s.params [] (fun ip hip => (SMap.find_eq_some h.psorted).mpr hip)
  exact ⟨gs, by rw [nbvGrids, h1]; simp, h2, h3⟩

/-- The state in which a candidate is evaluated: the candidate's view on top of the same
problem. -/
def Candidate (env : Env K V) (s : Cal K V) (ts : Int) (T : V) (st : Cal K V) : Prop :=
  ∃ base grids ok, SameProblem s base ∧ SMap.find ts base.poses = none ∧
    nbvGrids env (nbvPose env base ts T) ts T = .ok grids ∧
    addView env (nbvPose env base ts T) grids = .ok (st, ok)

/-- Simulated grids are proper grids with the timestamp asked for. -/
def SimOK (env : Env K V) (rows cols : Nat) : Prop :=
  ∀ p ts T e, (∃ ops, MadeBy rows cols ops (env.simGrid p ts T e)) ∧
    (env.simGrid p ts T e).timestamp = ts

theorem viewStamp_of_all {grids : List (Int × Grid K)} {ts : Int}
    (h : ∀ cg ∈ grids, cg.2.timestamp = ts) :
    viewStamp grids = none ∨ viewStamp grids = some ts := by
  unfold viewStamp
  cases hf : grids.find? (fun cg => cg.2.detected) with
  | none => exact Or.inl rfl
  | some x => right; simp [h x (List.mem_of_find?_eq_some hf)]

theorem evalNbv_spec {env : Env K V} {s base : Cal K V} (hb : SameProblem s base) (hw : WF base)
    (ts cam : Int) (best : Best K) (i : Nat) (T : V) (hsim : SimOK env s.rows s.cols)
    (hp : SMap.find ts s.poses = none) (hv : SMap.find ts s.views = none) :
    ∃ s' st, evalNbv env ts cam (base, best) (i, T) =
        .ok (s', best.update cam i ((env.info st).map Prod.fst)) ∧
      SameProblem s s' ∧ WF s' ∧ Candidate env s ts T st := by
  have hp' : SMap.find ts base.poses = none := by rw [hb.poses]; exact hp
  have hv' : SMap.find ts base.views = none := by rw [hb.views]; exact hv
  have hpose : nbvPose env base ts T = { base with
      poses := SMap.set ts ⟨base.next, env.invert T⟩ base.poses,
      solver := base.solver.addParam (.pose base.next), next := base.next + 1 } := by
    rw [nbvPose, hp']; simp
  have hw1 : WF (nbvPose env base ts T) := by rw [hpose]; exact hw.withPose hp' _
  obtain ⟨gs, g1, g2, g3⟩ := nbvGrids_spec (env := env) hw1 ts T
  have hsort : SMap.Sorted gs := by
    have hps := hw1.psorted
    have h1 : (gs.map Prod.fst).Pairwise (· < ·) := by
      rw [g2, List.pairwise_map]; exact hps
    rw [List.pairwise_map] at h1
    exact h1
  have hmade : ∀ cg ∈ gs, ∃ ops, MadeBy (nbvPose env base ts T).rows
      (nbvPose env base ts T).cols ops cg.2 := by
    intro cg hcg
    obtain ⟨p, e, _, _, hg⟩ := g3 cg hcg
    have := (hsim p.val ts T e.val).1
    rw [hg, hpose]
    simp only [hb.rows, hb.cols]
    exact this
  have hstamp := viewStamp_of_all (grids := gs) (ts := ts) (by
    intro cg hcg
    obtain ⟨p, e, _, _, hg⟩ := g3 cg hcg
    rw [hg]; exact (hsim p.val ts T e.val).2)
  have hps1 : SMap.find ts (nbvPose env base ts T).poses = some ⟨base.next, env.invert T⟩ := by
    rw [hpose]; simp [SMap.find_set]
  -- `add_view` succeeds
  have hadd : ∃ st ok, addView env (nbvPose env base ts T) gs = .ok (st, ok) := by
    rcases hstamp with hst | hst
    · exact ⟨_, _, by rw [addView, hst]⟩
    · rw [addView, hst]
      simp only
      have hd0 : ∃ d, ensureData (nbvPose env base ts T) ts gs =
          { nbvPose env base ts T with data := d } := by
        unfold ensureData; split_ifs <;> exact ⟨_, rfl⟩
      obtain ⟨d, hd⟩ := hd0
      have hw2 : WF { nbvPose env base ts T with data := d } := { hw1 with }
      rw [hd, ensurePose, if_pos (by simp only [hps1]; rfl), AprilGrid.ok_bind]
      simp only [hps1]
      have hhas : ({ nbvPose env base ts T with data := d } : Cal K V).solver.hasParam
          (.pose base.next) = true := (hw2.hasParam _).mpr ⟨ts, _, hps1, rfl⟩
      rw [ensureParam, if_pos hhas, attachView]
      obtain ⟨out, ho⟩ := View.new_ok hw2 hps1 hsort hmade
      rw [ho, AprilGrid.ok_bind]
      exact ⟨_, _, rfl⟩
  obtain ⟨st, ok, hst⟩ := hadd
  have hcand : Candidate env s ts T st := ⟨base, gs, ok, hb, hp', g1, hst⟩
  have hrem : ∃ s', removeView st ts = .ok s' ∧ WF s' ∧ SameProblem base s' := by
    rcases addView_spec hw1 hsort (fun cg hcg => (hmade cg hcg).elim fun _ h => madeBy_ok h)
      (by
        intro t ht
        rcases hstamp with hs | hs
        · rw [hs] at ht; simp at ht
        · rw [hs] at ht
          simp only [Option.some.injEq] at ht
          rw [← ht, hpose]; exact hv') hst with ⟨_, rfl, _⟩ | ⟨t, v, p, ht, _, hw2, ha, _⟩
    · obtain ⟨b, e, w⟩ := hw1.removeView ts
      refine ⟨_, e, w, ?_⟩
      refine SameProblem.mk' hw w (by rw [hpose]) (by rw [hpose]) (by rw [hpose]) (by rw [hpose])
        ?_ ?_ ?_ (by rw [hpose]) (by rw [hpose]) (by rw [hpose]) (by rw [hpose]) (by rw [hpose])
        (by rw [hpose])
      · simp only [hpose]; exact erase_set_none _ _ _ hw.posesSorted hp'
      · simp only [hpose]; exact erase_none _ _ hw.viewsSorted hv'
      · simp only [hpose]; exact List.erase_of_not_mem (by rw [hw.tsMem, hv']; simp)
    · have htt : t = ts := by
        rcases hstamp with hs | hs
        · rw [hs] at ht; simp at ht
        · rw [hs] at ht; simpa using ht.symm
      subst htt
      obtain ⟨b, e, w⟩ := hw2.removeView t
      refine ⟨_, e, w, ?_⟩
      have hpo := ha.poses
      rw [hps1] at hpo
      simp only [Option.isSome_some, if_true] at hpo
      refine SameProblem.mk' hw w (ha.rows.trans (by rw [hpose])) (ha.cols.trans (by rw [hpose]))
        (ha.params.trans (by rw [hpose])) (ha.exts.trans (by rw [hpose])) ?_ ?_ ?_
        (ha.timestamps.trans (by rw [hpose])) (ha.marg.trans (by rw [hpose]))
        (ha.infoK.trans (by rw [hpose])) (ha.entropyK.trans (by rw [hpose]))
        (ha.threshold.trans (by rw [hpose])) (ha.removed.trans (by rw [hpose]))
      · simp only [hpo, hpose]; exact erase_set_none _ _ _ hw.posesSorted hp'
      · simp only [ha.views, hpose]; exact erase_set_none _ _ _ hw.viewsSorted hv'
      · simp only [ha.viewTs, hpose]
        exact erase_append_self _ _ (by rw [hw.tsMem, hv']; simp)
  obtain ⟨s', r1, r2, r3⟩ := hrem
  refine ⟨s', st, ?_, hb.trans r3, r2, hcand⟩
  rw [evalNbv]
  simp only [g1, AprilGrid.ok_bind, hst, r1]

/-- One entry of the score table: camera, index, candidate, information. -/
structure Scored (K V : Type) where
  cam : Int
  idx : Nat
  T : V
  info : Option K

/-- The update of the best candidate over a score table. -/
def pick (b : Best K) (l : List (Scored K V)) : Best K :=
  l.foldl (fun b e => b.update e.cam e.idx e.info) b

theorem evalNbv_fold {env : Env K V} {s : Cal K V} (ts cam : Int) (hsim : SimOK env s.rows s.cols)
    (hp : SMap.find ts s.poses = none) (hv : SMap.find ts s.views = none) :
    ∀ (l : List (Nat × V)) (base : Cal K V) (best : Best K), SameProblem s base → WF base →
    ∃ s' tab, l.foldlM (evalNbv env ts cam) (base, best) = .ok (s', pick best tab) ∧
      SameProblem s s' ∧ WF s' ∧
      tab.map (fun e => (e.cam, e.idx, e.T)) = l.map (fun iT => (cam, iT.1, iT.2)) ∧
      ∀ e ∈ tab, ∃ st, Candidate env s ts e.T st ∧ e.info = (env.info st).map Prod.fst := by
  intro l
  induction l with
  | nil => intro base best hb hw; exact ⟨base, [], rfl, hb, hw, rfl, by simp⟩
  | cons iT l ih =>
    intro base best hb hw
    obtain ⟨s1, st, e1, e2, e3, e4⟩ := evalNbv_spec hb hw ts cam best iT.1 iT.2 hsim hp hv
    obtain ⟨s2, tab, f1, f2, f3, f4, f5⟩ := ih s1 _ e2 e3
    refine ⟨s2, ⟨cam, iT.1, iT.2, (env.info st).map Prod.fst⟩ :: tab, ?_, f2, f3, by simp [f4], ?_⟩
    · rw [List.foldlM_cons, e1, AprilGrid.ok_bind, f1]; rfl
    · intro e he
      rcases List.mem_cons.mp he with rfl | he
      · exact ⟨st, e4, rfl⟩
      · exact f5 e he

/-- All candidates in the order in which they are tried. -/
def candList (cands : List (Int × List V)) : List (Int × Nat × V) :=
  cands.flatMap (fun cp => ((List.range cp.2.length).zip cp.2).map (fun iT => (cp.1, iT.1, iT.2)))

theorem candidates_fold {env : Env K V} {s : Cal K V} (ts : Int) (hsim : SimOK env s.rows s.cols)
    (hp : SMap.find ts s.poses = none) (hv : SMap.find ts s.views = none) :
    ∀ (l : List (Int × List V)) (base : Cal K V) (best : Best K), SameProblem s base → WF base →
    ∃ s' tab, l.foldlM (fun acc cp =>
        (((List.range cp.2.length).zip cp.2).foldlM (evalNbv env ts cp.1) acc)) (base, best) =
        .ok (s', pick best tab) ∧
      SameProblem s s' ∧ WF s' ∧
      tab.map (fun e => (e.cam, e.idx, e.T)) = candList l ∧
      ∀ e ∈ tab, ∃ st, Candidate env s ts e.T st ∧ e.info = (env.info st).map Prod.fst := by
  intro l
  induction l with
  | nil => intro base best hb hw; exact ⟨base, [], rfl, hb, hw, rfl, by simp⟩
  | cons cp l ih =>
    intro base best hb hw
    obtain ⟨s1, t1, e1, e2, e3, e4, e5⟩ := evalNbv_fold ts cp.1 hsim hp hv
      ((List.range cp.2.length).zip cp.2) base best hb hw
    obtain ⟨s2, t2, f1, f2, f3, f4, f5⟩ := ih s1 _ e2 e3
    refine ⟨s2, t1 ++ t2, ?_, f2, f3, by simp [e4, f4, candList], ?_⟩
    · rw [List.foldlM_cons, e1, AprilGrid.ok_bind, f1]; simp [pick]
    · intro e he
      rcases List.mem_append.mp he with he | he
      · exact e5 e he
      · exact f5 e he

/-- The best candidate of a score table, when only negative information counts. -/
def Chosen (tab : List (Scored K V)) (b : Best K) : Prop :=
  (b = ⟨0, 0, 0⟩ ∧ ∀ e ∈ tab, ∀ v, e.info = some v → 0 ≤ v) ∨
  (b.info < 0 ∧ (∃ e ∈ tab, e.cam = b.cam ∧ e.idx = b.idx ∧ e.info = some b.info) ∧
    ∀ e ∈ tab, ∀ v, e.info = some v → b.info ≤ v)

theorem pick_chosen (tab : List (Scored K V)) : Chosen tab (pick ⟨0, 0, 0⟩ tab) := by
  induction tab using List.reverseRecOn with
  | nil => exact Or.inl ⟨rfl, by simp⟩
  | append_singleton l e ih =>
    have hp : pick (⟨0, 0, 0⟩ : Best K) (l ++ [e]) = (pick ⟨0, 0, 0⟩ l).update e.cam e.idx e.info := by
      simp [pick]
    rw [hp]
    generalize pick (⟨0, 0, 0⟩ : Best K) l = b at ih
    unfold Best.update
    cases he : e.info with
    | none =>
      simp only
      rcases ih with ⟨h1, h2⟩ | ⟨h1, ⟨x, hx, h2⟩, h3⟩
      · refine Or.inl ⟨h1, ?_⟩
        intro y hy v hv
        rcases List.mem_append.mp hy with hy | hy
        · exact h2 y hy v hv
        · simp only [List.mem_singleton] at hy; subst hy; rw [he] at hv; simp at hv
      · refine Or.inr ⟨h1, ⟨x, List.mem_append_left _ hx, h2⟩, ?_⟩
        intro y hy v hv
        rcases List.mem_append.mp hy with hy | hy
        · exact h3 y hy v hv
        · simp only [List.mem_singleton] at hy; subst hy; rw [he] at hv; simp at hv
    | some w =>
      simp only
      have hcase : ∀ y ∈ l ++ [e], ∀ v, y.info = some v → (y ∈ l ∧ y.info = some v) ∨ v = w := by
        intro y hy v hv
        rcases List.mem_append.mp hy with hy | hy
        · exact Or.inl ⟨hy, hv⟩
        · simp only [List.mem_singleton] at hy; subst hy; rw [he] at hv
          exact Or.inr (Option.some.inj hv).symm
      split_ifs with hlt
      · right
        refine ⟨?_, ⟨e, by simp, rfl, rfl, he⟩, ?_⟩
        · rcases ih with ⟨h1, _⟩ | ⟨h1, _⟩
          · rw [h1] at hlt; exact hlt
          · exact lt_trans hlt h1
        · intro y hy v hv
          simp only
          rcases hcase y hy v hv with ⟨hy, hv⟩ | rfl
          · rcases ih with ⟨h1, h2⟩ | ⟨_, _, h3⟩
            · have := h2 y hy v hv
              rw [h1] at hlt
              exact le_of_lt (lt_of_lt_of_le hlt this)
            · exact le_trans hlt.le (h3 y hy v hv)
          · exact le_rfl
      · have hge : b.info ≤ w := not_lt.mp hlt
        rcases ih with ⟨h1, h2⟩ | ⟨h1, ⟨x, hx, h2⟩, h3⟩
        · refine Or.inl ⟨h1, ?_⟩
          intro y hy v hv
          rcases hcase y hy v hv with ⟨hy, hv⟩ | rfl
          · exact h2 y hy v hv
          · rw [h1] at hge; exact hge
        · refine Or.inr ⟨h1, ⟨x, List.mem_append_left _ hx, h2⟩, ?_⟩
          intro y hy v hv
          rcases hcase y hy v hv with ⟨hy, hv⟩ | rfl
          · exact h3 y hy v hv
          · exact hge

/-- `find_nbv` on a consistent calibrator. -/
theorem findNbv_spec {env : Env K V} {s : Cal K V} (h : WF s) (cands : List (Int × List V))
    (hc : cands ≠ []) (hn : s.views ≠ []) {last : Int} (hl : s.timestamps.getLast? = some last)
    (hsim : SimOK env s.rows s.cols)
    (hp : SMap.find (last + 1) s.poses = none) (hv : SMap.find (last + 1) s.views = none) :
    (env.info s = none ∧ findNbv env s cands = .ok (s, none)) ∨
    ∃ info ent s' tab, env.info s = some (info, ent) ∧
      findNbv env s cands = .ok (s', some (nbvResult s.threshold info (pick ⟨0, 0, 0⟩ tab))) ∧
      SameProblem s s' ∧ WF s' ∧
      tab.map (fun e => (e.cam, e.idx, e.T)) = candList cands ∧
      ∀ e ∈ tab, ∃ st, Candidate env s (last + 1) e.T st ∧ e.info = (env.info st).map Prod.fst := by
  unfold findNbv
  rw [if_neg hc, if_neg (by rw [nbViews]; exact fun h0 => hn (List.length_eq_zero_iff.mp h0))]
  cases hi : env.info s with
  | none => exact Or.inl ⟨rfl, rfl⟩
  | some ie =>
    obtain ⟨info, ent⟩ := ie
    right
    simp only [hl]
    obtain ⟨s', tab, e1, e2, e3, e4, e5⟩ := candidates_fold (last + 1) hsim hp hv cands s
      (⟨0, 0, 0⟩ : Best K) (SameProblem.refl s) h
    refine ⟨info, ent, s', tab, rfl, ?_, e2, e3, e4, e5⟩
    rw [e1, AprilGrid.ok_bind]

/-- The score table of `find_nbv_fast`. -/
def fastTable (score : V → K) (cands : List (Int × List V)) : List (Scored K V) :=
  (candList cands).map (fun c => ⟨c.1, c.2.1, c.2.2, some (score c.2.2)⟩)

theorem scanScores_eq (score : V → K) (cands : List (Int × List V)) :
    scanScores (cands.map (fun cp => (cp.1, cp.2.map score))) =
      pick ⟨0, 0, 0⟩ (fastTable score cands) := by
  unfold scanScores pick fastTable candList
  generalize (⟨0, 0, 0⟩ : Best K) = b
  induction cands generalizing b with
  | nil => rfl
  | cons cp l ih =>
    rw [List.map_cons, List.foldl_cons, ih, List.flatMap_cons, List.map_append, List.foldl_append]
    congr 1
    rw [List.map_map, List.foldl_map, List.length_map, List.zip_map_right, List.foldl_map]
    rfl

end Yac.Calib
