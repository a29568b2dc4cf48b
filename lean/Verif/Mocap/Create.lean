import Verif.Mocap.Ops

namespace Yac.Mocap

open Yac.AprilGrid (Grid Meas MadeBy)
open Yac.Solver (CBook)

variable {K : Type} [Field K] [LinearOrder K] {rows cols : Nat}

/-- Parameters registered so far: camera, target pose and some mocap poses. -/
def Reg (s : Cal K) : Prop :=
  SMap.Sorted s.est.poses ∧ ∃ Q, Solver.CInv Res.blocks s.solver Q ∅ ∧
    ∀ p, p ∈ Q ↔ (p = .cam ∨ p = .fid ∨ ∃ ts, p = .pose ts ∧ (SMap.find ts s.est.poses).isSome)

theorem addPoses_ok : ∀ (gs : List (Grid K)) (ps : List (Fin 7 → K)) (s : Cal K), Reg s →
    gs.length ≤ ps.length → (gs.map Grid.timestamp).Nodup →
    (∀ g ∈ gs, SMap.find g.timestamp s.est.poses = none) →
    ∃ s', addPoses s gs ps = .ok s' ∧ Reg s' ∧
      s' = { s with est := { s.est with poses := s'.est.poses }, solver := s'.solver } ∧
      (∀ gp ∈ gs.zip ps, SMap.find gp.1.timestamp s'.est.poses = some gp.2) ∧
      (∀ t, t ∉ gs.map Grid.timestamp → SMap.find t s'.est.poses = SMap.find t s.est.poses) := by
  intro gs
  induction gs with
  | nil => intro ps s h _ _ _; exact ⟨s, by simp [addPoses], h, rfl, by simp, fun _ _ => rfl⟩
  | cons g gs ih =>
    intro ps s h hl hnd hn
    cases ps with
    | nil => simp at hl
    | cons T ps =>
      rw [List.map_cons, List.nodup_cons] at hnd
      obtain ⟨hs, Q, hQ, hQ'⟩ := h
      obtain ⟨s', e1, e2, e3, e4, e5⟩ := ih ps
        { s with est := { s.est with poses := SMap.set g.timestamp T s.est.poses },
                 solver := s.solver.addParam (.pose g.timestamp) }
        ⟨SMap.set_sorted _ _ _ hs, _, hQ.addParam _, by
          intro p
          rw [Finset.mem_insert, hQ']
          simp only [SMap.find_set]
          constructor
          · rintro (rfl | h | h | ⟨ts, rfl, h⟩)
            · exact .inr (.inr ⟨_, rfl, by simp⟩)
            · exact .inl h
            · exact .inr (.inl h)
            · exact .inr (.inr ⟨ts, rfl, by split_ifs <;> simp [h]⟩)
          · rintro (h | h | ⟨ts, rfl, h⟩)
            · exact .inr (.inl h)
            · exact .inr (.inr (.inl h))
            · split_ifs at h with ht
              · exact .inl (by rw [ht])
              · exact .inr (.inr (.inr ⟨ts, rfl, h⟩))⟩
        (by simpa using hl) hnd.2
        (by
          intro g' hg'
          show SMap.find g'.timestamp (SMap.set g.timestamp T s.est.poses) = none
          rw [SMap.find_set, if_neg]
          · exact hn g' (by simp [hg'])
          · intro he; exact hnd.1 (List.mem_map.mpr ⟨g', hg', he⟩))
      refine ⟨s', ?_, e2, ?_, ?_, ?_⟩
      · have : addPose s g.timestamp T = .ok
          { s with est := { s.est with poses := SMap.set g.timestamp T s.est.poses },
                   solver := s.solver.addParam (.pose g.timestamp) } := by
          rw [addPose, if_neg (by simp [hn g (by simp)])]
        rw [addPoses, this, AprilGrid.ok_bind, e1]
      · rw [e3]
      · intro gp hgp
        rw [List.zip_cons_cons, List.mem_cons] at hgp
        rcases hgp with rfl | hgp
        · rw [e5 _ hnd.1]
          show SMap.find g.timestamp (SMap.set g.timestamp T s.est.poses) = _
          rw [SMap.find_set, if_pos rfl]
        · exact e4 gp hgp
      · intro t ht
        rw [List.map_cons, List.mem_cons, not_or] at ht
        rw [e5 t ht.2]
        show SMap.find t (SMap.set g.timestamp T s.est.poses) = _
        rw [SMap.find_set, if_neg ht.1]

theorem estimate_fold
    (estimate : (Fin 8 → K) → (Fin 7 → K) → (Fin 7 → K) → Grid K → Option (Fin 7 → K)) (s : Cal K)
    (hg : s.grids = []) :
    ∀ (gs : List (Grid K)) (ps : List (Fin 7 → K)), gs.length ≤ ps.length →
    (gs.map Grid.timestamp).Nodup →
    (∀ gp ∈ gs.zip ps, SMap.find gp.1.timestamp s.est.poses = some gp.2) →
    let r := gs.foldl (estimateStep estimate) (s, none)
    r.1 = { s with grids := r.1.grids } ∧ SMap.Sorted r.1.grids ∧
    (∀ t g, SMap.find t r.1.grids = some g ↔
      ∃ p, (g, p) ∈ gs.zip ps ∧ g.timestamp = t ∧ (estimate s.est.cam s.est.fid p g).isSome) ∧
    r.2 = ((gs.zip ps).filterMap (fun gp => estimate s.est.cam s.est.fid gp.2 gp.1)).getLast? := by
  intro gs
  induction gs using List.reverseRecOn with
  | nil =>
    intro ps _ _ _
    refine ⟨?_, ?_, ?_, ?_⟩
    · rfl
    · show SMap.Sorted s.grids
      rw [hg]; exact List.Pairwise.nil
    · intro t g; simp [hg, SMap.find]
    · simp
  | append_singleton gs g ih =>
    intro ps hl hnd hp
    rw [List.length_append, List.length_singleton] at hl
    have hps : ps = ps.take gs.length ++ ps.drop gs.length := (List.take_append_drop _ _).symm
    obtain ⟨T, rest, hd⟩ : ∃ T rest, ps.drop gs.length = T :: rest := by
      cases hd : ps.drop gs.length with
      | nil => rw [List.drop_eq_nil_iff] at hd; omega
      | cons T rest => exact ⟨T, rest, rfl⟩
    have hzip : (gs ++ [g]).zip ps = gs.zip ps ++ [(g, T)] := by
      have h1 : gs.length = (ps.take gs.length).length := by rw [List.length_take]; omega
      have h2 : ∀ (u : List (Grid K)) (w : List (Fin 7 → K)),
          (gs ++ u).zip (ps.take gs.length ++ w) = gs.zip (ps.take gs.length) ++ u.zip w :=
        fun u w => List.zip_append h1
      have h3 := h2 [g] (T :: rest)
      have h4 := h2 [] (T :: rest)
      rw [← hd, ← hps] at h3 h4
      rw [List.append_nil] at h4
      rw [h3, h4]
      simp [hd]
    rw [List.map_append, List.nodup_append] at hnd
    rw [hzip] at hp ⊢
    obtain ⟨e1, e2, e3, e4⟩ := ih ps (by omega) hnd.1 (fun gp h => hp gp (by simp [h]))
    rw [List.foldl_append, List.foldl_cons, List.foldl_nil]
    generalize gs.foldl (estimateStep estimate) (s, none) = r at e1 e2 e3 e4
    have hfind : SMap.find g.timestamp r.1.est.poses = some T := by
      rw [e1]; exact hp (g, T) (by simp)
    have hcam : r.1.est.cam = s.est.cam := by rw [e1]
    have hfid : r.1.est.fid = s.est.fid := by rw [e1]
    unfold estimateStep
    rw [hfind, hcam, hfid, Option.getD_some]
    rw [List.filterMap_append]
    cases he : estimate s.est.cam s.est.fid T g with
    | none =>
      simp only [List.filterMap_cons, he, List.filterMap_nil, List.append_nil]
      refine ⟨e1, e2, ?_, e4⟩
      intro t g'
      rw [e3]
      constructor
      · rintro ⟨p, h1, h2⟩; exact ⟨p, by simp [h1], h2⟩
      · rintro ⟨p, h1, h2, h3⟩
        rcases List.mem_append.mp h1 with h1 | h1
        · exact ⟨p, h1, h2, h3⟩
        · simp only [List.mem_singleton, Prod.mk.injEq] at h1
          obtain ⟨rfl, rfl⟩ := h1
          rw [he] at h3; simp at h3
    | some E =>
      simp only [List.filterMap_cons, he, List.filterMap_nil]
      refine ⟨?_, SMap.set_sorted _ _ _ e2, ?_, by simp⟩
      · conv_lhs => rw [e1]
      · intro t g'
        rw [SMap.find_set]
        have hdist : ∀ g' p, (g', p) ∈ gs.zip ps → g'.timestamp ≠ g.timestamp := by
          intro g' p h
          exact hnd.2.2 _ (List.mem_map_of_mem (List.of_mem_zip h).1) _ (by simp)
        constructor
        · intro h
          split_ifs at h with ht
          · cases h; exact ⟨T, by simp, ht.symm, by rw [he]; rfl⟩
          · obtain ⟨p, h1, h2⟩ := (e3 t g').mp h
            exact ⟨p, by simp [h1], h2⟩
        · rintro ⟨p, h1, h2, h3⟩
          rcases List.mem_append.mp h1 with h1 | h1
          · rw [if_neg (by rw [← h2]; exact hdist g' p h1), e3]
            exact ⟨p, h1, h2, h3⟩
          · simp only [List.mem_singleton, Prod.mk.injEq] at h1
            obtain ⟨rfl, rfl⟩ := h1
            rw [if_pos h2.symm]

theorem create_ok (fixCam fixPoses fixFid : Bool) (gainMin : K)
    (estimate : (Fin 8 → K) → (Fin 7 → K) → (Fin 7 → K) → Grid K → Option (Fin 7 → K))
    (cam : Fin 8 → K) (fid : Fin 7 → K) (grids : List (Grid K)) (poses : List (Fin 7 → K))
    (hl : grids.length ≤ poses.length) (hnd : (grids.map Grid.timestamp).Nodup) :
    let E := (grids.zip poses).filterMap (fun gp => estimate cam fid gp.2 gp.1)
    (E = [] → create fixCam fixPoses fixFid gainMin estimate cam fid grids poses = .error .uninit) ∧
    (∀ T, E.getLast? = some T →
      ∃ s, create fixCam fixPoses fixFid gainMin estimate cam fid grids poses = .ok s ∧
        ((∀ g ∈ grids, ∃ ops, MadeBy rows cols ops g) → WF rows cols s) ∧
        s.fixCam = fixCam ∧ s.fixPoses = fixPoses ∧ s.fixFid = fixFid ∧ s.gainMin = gainMin ∧
        s.infoK = 0 ∧ s.entropyK = 0 ∧ s.views = [] ∧ s.viewTs = [] ∧
        s.est.cam = cam ∧ s.est.fid = fid ∧ s.est.ext = T ∧
        (∀ gp ∈ grids.zip poses, SMap.find gp.1.timestamp s.est.poses = some gp.2) ∧
        (∀ t, t ∉ grids.map Grid.timestamp → SMap.find t s.est.poses = none) ∧
        (∀ t g, SMap.find t s.grids = some g ↔
          ∃ p, (g, p) ∈ grids.zip poses ∧ g.timestamp = t ∧ (estimate cam fid p g).isSome)) := by
  intro E
  obtain ⟨s1, a1, ⟨a2, Q, a3, a3'⟩, a4, a5, a6⟩ := addPoses_ok grids poses
    (⟨fixCam, fixPoses, fixFid, gainMin, 0, 0, [], [], [],
      ((CBook.empty : CBook Par (Res K)).addParam .cam).addParam .fid, ⟨cam, fid, fun _ => 0, []⟩,
      ⟨cam, fid, fun _ => 0, []⟩, 0⟩ : Cal K)
    ⟨List.Pairwise.nil, _, (Solver.CInv.empty.addParam Par.cam).addParam Par.fid, by
      intro p; simp [SMap.find]; tauto⟩ hl hnd (by intro g _; rfl)
  have hg1 : s1.grids = [] := by rw [a4]
  have hc1 : s1.est.cam = cam := by rw [a4]
  have hf1 : s1.est.fid = fid := by rw [a4]
  obtain ⟨b1, b2, b3, b4⟩ := estimate_fold estimate s1 hg1 grids poses hl hnd a5
  rw [hc1, hf1] at b4
  simp only [hc1, hf1] at b3
  have hcr : create fixCam fixPoses fixFid gainMin estimate cam fid grids poses =
      match (grids.foldl (estimateStep estimate) (s1, none)).2 with
      | none => .error .uninit
      | some T => .ok { (grids.foldl (estimateStep estimate) (s1, none)).1 with
          est := { (grids.foldl (estimateStep estimate) (s1, none)).1.est with ext := T },
          solver := (grids.foldl (estimateStep estimate) (s1, none)).1.solver.addParam .ext } := by
    simp only [create, a1, AprilGrid.ok_bind]
    rfl
  rw [hcr, b4]
  refine ⟨fun hE => by show (match E.getLast? with | none => _ | some T => _) = _; rw [hE]; rfl,
    fun T hT => ?_⟩
  have hT' : ((grids.zip poses).filterMap (fun gp => estimate cam fid gp.2 gp.1)).getLast? = some T := hT
  rw [hT']
  generalize grids.foldl (estimateStep estimate) (s1, none) = r at b1 b2 b3
  refine ⟨_, rfl, ?_, ?_⟩
  · intro hm
    have hv : r.1.views = [] := by rw [b1, a4]
    have hvt : r.1.viewTs = [] := by rw [b1, a4]
    have hsol : r.1.solver = s1.solver := by rw [b1]
    have hest : r.1.est = s1.est := by rw [b1]
    refine ⟨b2, ?_, ?_, ?_, ?_, ?_, ?_, ?_, ?_, ?_⟩
    · intro t g hg
      obtain ⟨p, h1, h2, _⟩ := (b3 t g).mp hg
      exact ⟨h2, hm g (List.of_mem_zip h1).1⟩
    · show SMap.Sorted r.1.est.poses
      rw [hest]; exact a2
    · show SMap.Sorted r.1.views
      rw [hv]; exact List.Pairwise.nil
    · intro t ht
      have : SMap.find t r.1.views = none := by rw [hv]; rfl
      rw [show SMap.find t _ = none from this] at ht; simp at ht
    · intro t v hv'
      have : SMap.find t r.1.views = none := by rw [hv]; rfl
      rw [show SMap.find t _ = none from this] at hv'; simp at hv'
    · intro t v hv'
      have : SMap.find t r.1.views = none := by rw [hv]; rfl
      rw [show SMap.find t _ = none from this] at hv'; simp at hv'
    · show r.1.viewTs.Nodup
      rw [hvt]; exact List.nodup_nil
    · intro t
      show t ∈ r.1.viewTs ↔ (SMap.find t r.1.views).isSome
      rw [hv, hvt]; simp [SMap.find]
    · refine ⟨insert .ext Q, ∅, ?_, ?_, ?_⟩
      · show Solver.CInv _ (r.1.solver.addParam .ext) _ _
        rw [hsol]; exact a3.addParam .ext
      · intro p
        rw [Finset.mem_insert, a3']
        cases p <;> simp [Known, hest]
      · intro x
        have : ∀ t, SMap.find t r.1.views = none := by intro t; rw [hv]; rfl
        simp only [Finset.notMem_empty, false_iff, not_exists, not_and]
        intro t v hv'
        rw [show SMap.find t _ = none from this t] at hv'; simp at hv'
  · have hpe : r.1.est.poses = s1.est.poses := by rw [b1]
    refine ⟨(congrArg Cal.fixCam b1).trans (congrArg Cal.fixCam a4),
      (congrArg Cal.fixPoses b1).trans (congrArg Cal.fixPoses a4),
      (congrArg Cal.fixFid b1).trans (congrArg Cal.fixFid a4),
      (congrArg Cal.gainMin b1).trans (congrArg Cal.gainMin a4),
      (congrArg Cal.infoK b1).trans (congrArg Cal.infoK a4),
      (congrArg Cal.entropyK b1).trans (congrArg Cal.entropyK a4),
      (congrArg Cal.views b1).trans (congrArg Cal.views a4),
      (congrArg Cal.viewTs b1).trans (congrArg Cal.viewTs a4),
      (congrArg (fun c => c.est.cam) b1).trans (congrArg (fun c => c.est.cam) a4),
      (congrArg (fun c => c.est.fid) b1).trans (congrArg (fun c => c.est.fid) a4), rfl, ?_, ?_, ?_⟩
    · intro gp h; simp only [hpe]; exact a5 gp h
    · intro t ht; simp only [hpe]; rw [a6 t ht]; rfl
    · intro t g; exact b3 t g

end Yac.Mocap
