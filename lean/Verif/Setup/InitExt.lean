import Verif.Setup.InitProps
import Verif.Calib.CamchainProps

/-!
# C99: what the solver is started from, and what becomes of fixed parameters
-/

namespace Yac.Setup

open Yac.AprilGrid (Grid Meas)
open Yac.Calib
open Yac.Geom (Mat4 tfInv)

variable {K V : Type} [Field K] [LinearOrder K]

/-! ### The problem -/

/-- A grid that can supply the pose of a frame: its camera is being calibrated and it has
detections. -/
def Usable' (params exts : List (Int × CamP V)) (cg : Int × Grid K) : Prop :=
  (SMap.find cg.1 params).isSome ∧ (SMap.find cg.1 exts).isSome ∧ cg.2.detected = true ∧ 0 < cg.2.nbDetections

instance (params exts : List (Int × CamP V)) (cg : Int × Grid K) : Decidable (Usable' params exts cg) := by
  unfold Usable'; infer_instance

/-- The measurements of a frame: every corner detected by a camera that is being calibrated. -/
def frameSpec (params : List (Int × CamP V)) (frame : Int × List (Int × Grid K)) : List (Obs K) :=
  frame.2.flatMap (fun cg =>
    if (SMap.find cg.1 params).isSome ∧ cg.2.detected = true then
      (gridMeas cg.2).map (fun x => ⟨cg.1, frame.1, x.1.1, x.1.2, x.2⟩) else [])

/-- The pose of a frame comes from a usable grid that no other usable grid of the frame exceeds. -/
def PoseOf (env : InitEnv K V) (params exts : List (Int × CamP V)) (frame : Int × List (Int × Grid K)) (v : V) :
    Prop :=
  ∃ c g p e T, (c, g) ∈ frame.2 ∧ Usable' params exts (c, g) ∧
    (∀ cg ∈ frame.2, Usable' params exts cg → cg.2.nbDetections ≤ g.nbDetections) ∧
    SMap.find c params = some p ∧ SMap.find c exts = some e ∧ env.estimate g p.val = some T ∧
    v = env.ofTf (env.tf e.val * T)

theorem initBest_eq (params exts : List (Int × CamP V)) (best cg : Int × Grid K) :
    initBest params exts best cg =
      if (SMap.find cg.1 params).isSome ∧ (SMap.find cg.1 exts).isSome ∧ cg.2.detected = true ∧
        cg.2.nbDetections > best.2.nbDetections then cg else best := by
  unfold initBest
  cases h1 : SMap.find cg.1 params <;> cases h2 : SMap.find cg.1 exts <;> cases h3 : cg.2.detected <;> simp

/-- The search for the best grid. -/
theorem initBest_fold (params exts : List (Int × CamP V)) (l : List (Int × Grid K)) :
    ∀ b : Int × Grid K, 0 ≤ b.2.nbDetections →
      (l.foldl (initBest params exts) b = b ∨
        (l.foldl (initBest params exts) b ∈ l ∧ Usable' params exts (l.foldl (initBest params exts) b))) ∧
      b.2.nbDetections ≤ (l.foldl (initBest params exts) b).2.nbDetections ∧
      ∀ cg ∈ l, Usable' params exts cg →
        cg.2.nbDetections ≤ (l.foldl (initBest params exts) b).2.nbDetections := by
  induction l with
  | nil => intro b _; exact ⟨Or.inl rfl, le_refl _, by simp⟩
  | cons x l ih =>
    intro b hb
    rw [List.foldl_cons]
    have hx : (initBest params exts b x = b ∧ (Usable' params exts x → x.2.nbDetections ≤ b.2.nbDetections)) ∨
        (initBest params exts b x = x ∧ Usable' params exts x ∧ b.2.nbDetections ≤ x.2.nbDetections) := by
      rw [initBest_eq]
      by_cases h : (SMap.find x.1 params).isSome ∧ (SMap.find x.1 exts).isSome ∧ x.2.detected = true ∧
        x.2.nbDetections > b.2.nbDetections
      · rw [if_pos h]
        exact Or.inr ⟨rfl, ⟨h.1, h.2.1, h.2.2.1, by omega⟩, by omega⟩
      · rw [if_neg h]
        refine Or.inl ⟨rfl, fun u => ?_⟩
        by_contra hlt
        exact h ⟨u.1, u.2.1, u.2.2.1, by omega⟩
    rcases hx with ⟨e, hle⟩ | ⟨e, hu, hle⟩
    · rw [e]
      obtain ⟨h1, h2, h3⟩ := ih b hb
      refine ⟨?_, h2, ?_⟩
      · rcases h1 with h | ⟨h, h'⟩
        · exact Or.inl h
        · exact Or.inr ⟨List.mem_cons_of_mem _ h, h'⟩
      · intro cg hcg u
        rcases List.mem_cons.mp hcg with rfl | hcg
        · exact (hle u).trans h2
        · exact h3 cg hcg u
    · rw [e]
      obtain ⟨h1, h2, h3⟩ := ih x (by omega)
      refine ⟨?_, hle.trans h2, ?_⟩
      · rcases h1 with h | ⟨h, h'⟩
        · rw [h]; exact Or.inr ⟨List.mem_cons_self, hu⟩
        · exact Or.inr ⟨List.mem_cons_of_mem _ h, h'⟩
      · intro cg hcg u
        rcases List.mem_cons.mp hcg with rfl | hcg
        · exact h2
        · exact h3 cg hcg u

theorem camObs_spec (rows cols : Nat) (params exts : List (Int × CamP V)) (ts : Int) (cg : Int × Grid K)
    {l : List (Obs K)} (h : camObs rows cols params exts ts cg = .ok l) :
    l = if (SMap.find cg.1 params).isSome ∧ cg.2.detected = true then
      (gridMeas cg.2).map (fun x => ⟨cg.1, ts, x.1.1, x.1.2, x.2⟩) else [] := by
  unfold camObs at h
  by_cases h1 : (SMap.find cg.1 params).isNone
  · rw [if_pos h1] at h; cases h
    rw [if_neg]
    rintro ⟨a, _⟩
    rw [Option.isNone_iff_eq_none] at h1
    rw [h1] at a; cases a
  rw [if_neg h1] at h
  by_cases h2 : cg.2.detected = false
  · rw [if_pos h2] at h; cases h
    rw [if_neg (by simp [h2])]
  rw [if_neg h2] at h
  obtain ⟨m, hm, h⟩ := bind_ok h
  have hd : cg.2.detected = true := by simpa using h2
  simp only [getMeasurements_list cg.2 m hd hm] at h
  rw [if_pos ⟨by cases hq : SMap.find cg.1 params <;> simp_all, hd⟩]
  by_cases h3 : gridMeas cg.2 = []
  · rw [if_pos h3] at h; cases h; rw [h3]; rfl
  rw [if_neg h3] at h
  split_ifs at h
  cases h
  rfl

theorem frameObs_spec (rows cols : Nat) (params exts : List (Int × CamP V)) (ts : Int) (gs : List (Int × Grid K)) :
    ∀ (acc l : List (Obs K)),
      gs.foldlM (fun acc cg => camObs rows cols params exts ts cg >>= fun l => .ok (acc ++ l)) acc = .ok l →
      l = acc ++ frameSpec params (ts, gs) := by
  induction gs with
  | nil => intro acc l h; cases h; simp [frameSpec]
  | cons cg gs ih =>
    intro acc l h
    rw [List.foldlM_cons] at h
    obtain ⟨mid, h1, h⟩ := bind_ok h
    obtain ⟨x, hx, h1⟩ := bind_ok h1
    cases h1
    rw [ih _ _ h, camObs_spec rows cols params exts ts cg hx]
    simp [frameSpec, List.append_assoc]

theorem initFrame_spec (env : InitEnv K V) (rows cols : Nat) (params exts : List (Int × CamP V))
    (hneg : SMap.find (-1) params = none)
    {acc out : List (Int × V) × List (Obs K)} {frame : Int × List (Int × Grid K)}
    (h : initFrame env rows cols params exts acc frame = .ok out) :
    ((¬ ∃ cg ∈ frame.2, Usable' params exts cg) ∧ out = acc) ∨
    ((∃ cg ∈ frame.2, Usable' params exts cg) ∧ ∃ v, PoseOf env params exts frame v ∧
      out = (acc.1 ++ [(frame.1, v)], acc.2 ++ frameSpec params frame)) := by
  have hbest := initBest_fold params exts frame.2 (-1, AprilGrid.default) (le_refl (0 : Int))
  unfold initFrame at h
  generalize hbe : frame.2.foldl (initBest params exts) (-1, AprilGrid.default) = best at h hbest
  obtain ⟨h1, h2, h3⟩ := hbest
  unfold initPose at h
  by_cases hb : best.1 = -1
  · rw [if_pos hb] at h; cases h
    left
    refine ⟨?_, rfl⟩
    have hdef : best = (-1, AprilGrid.default) := by
      rcases h1 with h | ⟨_, u⟩
      · exact h
      · have := u.1; rw [hb, hneg] at this; cases this
    rintro ⟨cg, hcg, u⟩
    have := h3 cg hcg u
    have h0 := u.2.2.2
    rw [hdef] at this
    have hz : (AprilGrid.default : Grid K).nbDetections = 0 := rfl
    simp only [hz] at this
    omega
  · rw [if_neg hb] at h
    right
    rcases h1 with h1 | ⟨hm, u⟩
    · rw [h1] at hb; exact absurd rfl hb
    refine ⟨⟨best, hm, u⟩, ?_⟩
    split at h
    · cases h
    · rename_i p hp
      split at h
      · cases h
      · rename_i T hT
        split at h
        · cases h
        · rename_i e he
          obtain ⟨obs, ho, h⟩ := bind_ok h
          cases h
          refine ⟨_, ⟨best.1, best.2, p, e, T, hm, u, h3, hp, he, hT, rfl⟩, ?_⟩
          have := frameObs_spec rows cols params exts frame.1 frame.2 [] obs ho
          rw [this]; rfl

theorem build_frames (env : InitEnv K V) (rows cols : Nat) (params exts : List (Int × CamP V))
    (hneg : SMap.find (-1) params = none) (data : List (Int × List (Int × Grid K))) :
    ∀ acc out : List (Int × V) × List (Obs K),
      data.foldlM (initFrame env rows cols params exts) acc = .ok out →
      ∃ vs : List V,
        List.Forall₂ (PoseOf env params exts)
          (data.filter (fun f => decide (∃ cg ∈ f.2, Usable' params exts cg))) vs ∧
        out.1 = acc.1 ++ (List.zip ((data.filter (fun f => decide (∃ cg ∈ f.2, Usable' params exts cg))).map
          Prod.fst) vs) ∧
        out.2 = acc.2 ++ (data.filter (fun f => decide (∃ cg ∈ f.2, Usable' params exts cg))).flatMap
          (frameSpec params) := by
  induction data with
  | nil => intro acc out h; cases h; exact ⟨[], .nil, by simp, by simp⟩
  | cons f data ih =>
    intro acc out h
    rw [List.foldlM_cons] at h
    obtain ⟨mid, hm, h⟩ := bind_ok h
    obtain ⟨vs, h1, h2, h3⟩ := ih mid out h
    rcases initFrame_spec env rows cols params exts hneg hm with ⟨hn, rfl⟩ | ⟨hu, v, hv, rfl⟩
    · rw [List.filter_cons_of_neg (by simpa using hn)]
      exact ⟨vs, h1, h2, h3⟩
    · rw [List.filter_cons_of_pos (by simpa using hu)]
      refine ⟨v :: vs, .cons hv h1, ?_, ?_⟩
      · rw [h2]; simp
      · rw [h3]; simp

/-- **C99, what the solver is handed.**  For every successful run of `calib_initialize`, whatever the
solver and the pose estimator do: the frames used are exactly those where a camera being calibrated
detected something; the pose of each starts from such a grid with the most detections, through the
extrinsics of its camera; the measurements are all corners that calibrated cameras detected in those
frames; a parameter that is fixed or that no measurement depends on keeps its value, and every other
one ends at what the solver makes of this problem. -/
theorem C99_frames (env : InitEnv K V) (rows cols : Nat) (params exts : List (Int × CamP V))
    (hneg : SMap.find (-1) params = none) (data : List (Int × List (Int × Grid K)))
    (out : List (Int × CamP V) × List (Int × CamP V))
    (h : calibInitialize env rows cols params exts data = .ok out) :
    ∃ (used : List (Int × List (Int × Grid K))) (vs : List V) (obs : List (Obs K)) (prob : InitProb K V),
      used = data.filter (fun f => decide (∃ cg ∈ f.2, Usable' params exts cg)) ∧
      List.Forall₂ (PoseOf env params exts) used vs ∧
      obs = used.flatMap (frameSpec params) ∧
      prob = ⟨obs, (used.map Prod.fst).zip vs,
        fun i => if ∃ o ∈ obs, o.cam = i then SMap.find i params else none,
        fun i => if ∃ o ∈ obs, o.cam = i then SMap.find i exts else none⟩ ∧
      (∀ i, SMap.find i out.1 = (SMap.find i params).map (fun p =>
        if p.fixed = false ∧ ∃ o ∈ obs, o.cam = i then ⟨env.optIntr prob i, false⟩ else p)) ∧
      (∀ i, SMap.find i out.2 = (SMap.find i exts).map (fun p =>
        if p.fixed = false ∧ ∃ o ∈ obs, o.cam = i then ⟨env.optExt prob i, false⟩ else p)) := by
  unfold calibInitialize at h
  obtain ⟨built, hb, h⟩ := bind_ok h
  obtain ⟨vs, h1, h2, h3⟩ := build_frames env rows cols params exts hneg data ([], []) built hb
  rw [List.nil_append] at h2 h3
  simp only [Except.ok.injEq] at h
  have hprob : initProb params exts built = ⟨built.2, built.1,
      fun i => if ∃ o ∈ built.2, o.cam = i then SMap.find i params else none,
      fun i => if ∃ o ∈ built.2, o.cam = i then SMap.find i exts else none⟩ := by
    unfold initProb
    simp [List.any_eq_true]
  refine ⟨_, vs, built.2, initProb params exts built, rfl, h1, h3, by rw [hprob, ← h2], ?_, ?_⟩
  · intro i
    rw [← h]
    rw [SMap.find_map (fun k (q : CamP V) => if !q.fixed && built.2.any (fun o => o.cam = k) then
      (⟨env.optIntr (initProb params exts built) k, q.fixed⟩ : CamP V) else q)]
    congr 1
    funext p
    cases hf : p.fixed <;> simp [List.any_eq_true]
  · intro i
    rw [← h]
    rw [SMap.find_map (fun k (q : CamP V) => if !q.fixed && built.2.any (fun o => o.cam = k) then
      (⟨env.optExt (initProb params exts built) k, q.fixed⟩ : CamP V) else q)]
    congr 1
    funext p
    cases hf : p.fixed <;> simp [List.any_eq_true]

/-- The parts of `calibInitialize` that need no assumption on the indices. -/
theorem calibInitialize_keeps (env : InitEnv K V) (rows cols : Nat) (params exts : List (Int × CamP V))
    (data : List (Int × List (Int × Grid K))) (out : List (Int × CamP V) × List (Int × CamP V))
    (h : calibInitialize env rows cols params exts data = .ok out) :
    (∀ i p, SMap.find i params = some p → ∃ q, SMap.find i out.1 = some q ∧ q.fixed = p.fixed ∧
      (p.fixed = true → q = p)) ∧
    (∀ i p, SMap.find i exts = some p → ∃ q, SMap.find i out.2 = some q ∧ q.fixed = p.fixed ∧
      (p.fixed = true → q = p)) ∧
    out.1.map Prod.fst = params.map Prod.fst := by
  unfold calibInitialize at h
  obtain ⟨built, _, h⟩ := bind_ok h
  simp only [Except.ok.injEq] at h
  rw [← h]
  refine ⟨?_, ?_, by simp [List.map_map, Function.comp_def]⟩
  · intro i p hp
    rw [SMap.find_map (fun k (q : CamP V) => if !q.fixed && built.2.any (fun o => o.cam = k) then
      (⟨env.optIntr (initProb params exts built) k, q.fixed⟩ : CamP V) else q), hp]
    refine ⟨_, rfl, by simp only []; split_ifs <;> rfl, ?_⟩
    intro hf; simp [hf]
  · intro i p hp
    rw [SMap.find_map (fun k (q : CamP V) => if !q.fixed && built.2.any (fun o => o.cam = k) then
      (⟨env.optExt (initProb params exts built) k, q.fixed⟩ : CamP V) else q), hp]
    refine ⟨_, rfl, by simp only []; split_ifs <;> rfl, ?_⟩
    intro hf; simp [hf]

/-! ### Extrinsics -/

theorem initExtStep_spec (env : InitEnv K V) (ch : Camchain K) (fuel : Nat) (s s' : Cal K V) (i : Int)
    (h : initExtStep env ch fuel s i = .ok s') :
    (∃ t ∈ s.timestamps, ∃ gs, SMap.find t s.data = some gs ∧ (SMap.find i gs).isSome) ∧
    ∃ T, ch.find fuel 0 i = .ok (0, some T) ∧ s' = { s with exts := s'.exts } ∧
      ∀ j, SMap.find j s'.exts = (SMap.find j s.exts).map (fun e => if j = i then ⟨env.ofTf T, e.fixed⟩ else e) := by
  unfold initExtStep at h
  by_cases hall : (s.timestamps.all fun t => ((SMap.find t s.data).bind fun gs => SMap.find i gs).isNone) = true
  · rw [if_pos hall] at h; cases h
  rw [if_neg hall] at h
  refine ⟨?_, ?_⟩
  · simp only [List.all_eq_true, not_forall] at hall
    obtain ⟨t, ht, hn⟩ := hall
    cases hf : SMap.find t s.data with
    | none => rw [hf] at hn; simp at hn
    | some gs =>
      rw [hf] at hn
      refine ⟨t, ht, gs, rfl.trans hf, ?_⟩
      cases hq : SMap.find i gs with
      | none => simp [hq] at hn
      | some g => rfl
  · obtain ⟨r, hr, h⟩ := bind_ok h
    split at h
    · rename_i T
      cases h
      refine ⟨T, hr, rfl, ?_⟩
      intro j
      show SMap.find j (s.exts.map _) = _
      rw [SMap.find_map (fun k (e : CamP V) => if k = i then (⟨env.ofTf T, e.fixed⟩ : CamP V) else e)]
    · cases h

theorem initExt_loop (env : InitEnv K V) (ch : Camchain K) (fuel : Nat) (l : List Int) :
    ∀ s s' : Cal K V, l.foldlM (initExtStep env ch fuel) s = .ok s' →
      s' = { s with exts := s'.exts } ∧
      (∀ i ∈ l, ∃ t ∈ s.timestamps, ∃ gs, SMap.find t s.data = some gs ∧ (SMap.find i gs).isSome) ∧
      (∀ j, j ∉ l → SMap.find j s'.exts = SMap.find j s.exts) ∧
      (∀ i ∈ l, ∃ T, ch.find fuel 0 i = .ok (0, some T) ∧
        SMap.find i s'.exts = (SMap.find i s.exts).map (fun e => ⟨env.ofTf T, e.fixed⟩)) := by
  induction l with
  | nil => intro s s' h; cases h; exact ⟨rfl, by simp, by simp, by simp⟩
  | cons i l ih =>
    intro s s' h
    rw [List.foldlM_cons] at h
    obtain ⟨mid, hm, h⟩ := bind_ok h
    obtain ⟨hd, T, hT, hmid, hex⟩ := initExtStep_spec env ch fuel s mid i hm
    obtain ⟨h1, h2, h3, h4⟩ := ih mid s' h
    rw [hmid] at h2
    refine ⟨?_, ?_, ?_, ?_⟩
    · rw [h1, hmid]
    · intro j hj
      rcases List.mem_cons.mp hj with rfl | hj
      · exact hd
      · exact h2 j hj
    · intro j hj
      rw [List.mem_cons, not_or] at hj
      rw [h3 j hj.2, hex]
      cases SMap.find j s.exts <;> simp [hj.1]
    · intro j hj
      by_cases hjl : j ∈ l
      · obtain ⟨T', hT', hf⟩ := h4 j hjl
        refine ⟨T', hT', ?_⟩
        rw [hf, hex]
        cases SMap.find j s.exts with
        | none => rfl
        | some e => by_cases hji : j = i <;> simp [hji]
      · have hji : j = i := (List.mem_cons.mp hj).resolve_right hjl
        subst hji
        refine ⟨T, hT, ?_⟩
        rw [h3 j hjl, hex]
        cases SMap.find j s.exts <;> simp

/-- The pieces of a successful initialisation with several cameras. -/
theorem initialise_split (env : InitEnv K V) (fuel : Nat) (s s' : Cal K V) (hc : Cameras s)
    (h2 : s.params.length ≠ 1) (h : initialise env fuel false s = .ok s') :
    ∃ s₁ ch s₂ out, initIntrinsics env s = .ok s₁ ∧
      Camchain.build (s₁.data.map (fun tg => chainGrids env s₁.params tg.2)) {} = .ok ch ∧
      (camIdxs s₁).foldlM (initExtStep env ch fuel) s₁ = .ok s₂ ∧
      calibInitialize env s₂.rows s₂.cols s₂.params s₂.exts s₂.data = .ok out ∧
      s' = { s₂ with params := out.1, exts := out.2 } := by
  unfold initialise at h
  rw [if_neg (by simp)] at h
  obtain ⟨s₁, hs₁, h⟩ := bind_ok h
  have hlen : s₁.params.length = s.params.length := by
    have := (C99_independent env s s₁ hc hs₁).2.1
    unfold camIdxs at this
    simpa using congrArg List.length this
  unfold initExtrinsics at h
  rw [if_neg (by rw [hlen]; exact h2)] at h
  simp only at h
  by_cases hk : (s₁.data.map (fun tg => chainGrids env s₁.params tg.2)).all (chainKnown s₁.params) = false
  · rw [if_pos hk] at h; cases h
  rw [if_neg hk] at h
  obtain ⟨ch, hch, h⟩ := bind_ok h
  obtain ⟨s₂, hs₂, h⟩ := bind_ok h
  obtain ⟨out, ho, h⟩ := bind_ok h
  cases h
  exact ⟨s₁, ch, s₂, out, hs₁, hch, hs₂, ho, rfl⟩

/-- What `_initialize_intrinsics` leaves of a camera. -/
theorem intr_of (env : InitEnv K V) (s s₁ : Cal K V) (hc : Cameras s) (h : initIntrinsics env s = .ok s₁)
    (i : Int) {p e : CamP V} (hp : SMap.find i s.params = some p) (he : SMap.find i s.exts = some e) :
    SMap.find i s₁.exts = some ⟨e.val, decide (i = 0)⟩ ∧ ∃ q, SMap.find i s₁.params = some q ∧
      q.fixed = p.fixed ∧ (p.fixed = true → q = p) := by
  have hi : i ∈ camIdxs s := SMap.find_isSome.mp (by rw [hp]; rfl)
  obtain ⟨_, _, _, h4⟩ := initIntr_loop env s (camIdxs s) hc.nodup s s₁ rfl hc.mem h
  obtain ⟨p', h5, h6, h7⟩ := h4 i hi p e hp he
  refine ⟨h7, p', h6, ?_⟩
  unfold soloIntr at h5
  obtain ⟨built, _, h5⟩ := bind_ok h5
  cases h5
  cases hf : p.fixed <;> simp [hf]
  split_ifs
  · rfl
  · exact hf

/-- **C99, fixed intrinsics.**  Intrinsics that the user fixed come out of a successful
initialisation unchanged; no camera's `fixed` flag for intrinsics changes. -/
theorem C99_fixed_intrinsics (env : InitEnv K V) (fuel : Nat) (skip : Bool) (s s' : Cal K V) (hc : Cameras s)
    (h : initialise env fuel skip s = .ok s') :
    ∀ i p, SMap.find i s.params = some p → ∃ q, SMap.find i s'.params = some q ∧ q.fixed = p.fixed ∧
      (p.fixed = true → q = p) := by
  intro i p hp
  cases skip with
  | true =>
    have : s' = s := by
      unfold initialise at h; rw [if_pos rfl] at h; cases h; rfl
    subst this
    exact ⟨p, hp, rfl, fun _ => rfl⟩
  | false =>
    obtain ⟨e, he⟩ := hc.exts i p hp
    by_cases h1 : s.params.length = 1
    · unfold initialise at h
      rw [if_neg (by simp)] at h
      obtain ⟨s₁, hs₁, h⟩ := bind_ok h
      have hlen : s₁.params.length = s.params.length := by
        have := (C99_independent env s s₁ hc hs₁).2.1
        unfold camIdxs at this
        simpa using congrArg List.length this
      unfold initExtrinsics at h
      rw [if_pos (hlen.trans h1), Except.ok.injEq] at h
      rw [← h]
      exact (intr_of env s s₁ hc hs₁ i hp he).2
    · obtain ⟨s₁, ch, s₂, out, hs₁, hch, hs₂, ho, rfl⟩ := initialise_split env fuel s s' hc h1 h
      obtain ⟨_, q, hq, hqf, hqe⟩ := intr_of env s s₁ hc hs₁ i hp he
      obtain ⟨e2, _⟩ := initExt_loop env ch fuel _ s₁ s₂ hs₂
      obtain ⟨hk, _⟩ := calibInitialize_keeps env _ _ _ _ _ out ho
      obtain ⟨r, hr, hrf, hre⟩ := hk i q (by rw [e2]; exact hq)
      refine ⟨r, hr, hrf.trans hqf, fun hf => ?_⟩
      rw [hre (hqf.trans hf), hqe hf]

/-- **C99, the reference camera.**  With several cameras, camera 0 comes out of a successful
initialisation with the identity, fixed, whatever extrinsics it was given; and every other camera's
extrinsics come out not fixed, even if the user fixed them. -/
theorem C99_reference (env : InitEnv K V) (fuel : Nat) (s s' : Cal K V) (hc : Cameras s)
    (h2 : s.params.length ≠ 1) (h : initialise env fuel false s = .ok s') :
    (0 ∈ camIdxs s → SMap.find 0 s'.exts = some ⟨env.ofTf 1, true⟩) ∧
    ∀ i ∈ camIdxs s, i ≠ 0 → ∃ e, SMap.find i s'.exts = some e ∧ e.fixed = false := by
  obtain ⟨s₁, ch, s₂, out, hs₁, hch, hs₂, ho, rfl⟩ := initialise_split env fuel s s' hc h2 h
  have hci : camIdxs s₁ = camIdxs s := (C99_independent env s s₁ hc hs₁).2.1
  obtain ⟨e2, _, _, h4⟩ := initExt_loop env ch fuel _ s₁ s₂ hs₂
  obtain ⟨_, hk, _⟩ := calibInitialize_keeps env _ _ _ _ _ out ho
  constructor
  · intro h0
    obtain ⟨p, e, hp, he⟩ := hc.mem 0 h0
    obtain ⟨he1, _⟩ := intr_of env s s₁ hc hs₁ 0 hp he
    obtain ⟨T, hT, hf⟩ := h4 0 (by rw [hci]; exact h0)
    have hT1 : T = 1 := by
      unfold Camchain.find at hT
      rw [if_pos rfl] at hT
      simpa using hT.symm
    rw [he1, Option.map_some] at hf
    obtain ⟨q, hq, hqf, hqe⟩ := hk 0 _ hf
    show SMap.find 0 out.2 = _
    rw [hq, hqe (by simp), hT1]
    simp
  · intro i hi hi0
    obtain ⟨p, e, hp, he⟩ := hc.mem i hi
    obtain ⟨he1, _⟩ := intr_of env s s₁ hc hs₁ i hp he
    obtain ⟨T, hT, hf⟩ := h4 i (by rw [hci]; exact hi)
    rw [he1, Option.map_some] at hf
    obtain ⟨q, hq, hqf, _⟩ := hk i _ hf
    exact ⟨q, hq, by rw [hqf]; simp [hi0]⟩

/-! ### Which cameras can be initialised -/

theorem known_some_mem (h : List (Edge K)) (i j : Int) (hk : (known h i j).isSome) :
    ∃ e ∈ h, (e.1 = i ∧ e.2.1 = j) ∨ (e.1 = j ∧ e.2.1 = i) := by
  induction h with
  | nil => cases hk
  | cons e h ih =>
    unfold known at hk
    by_cases h1 : e.1 = i ∧ e.2.1 = j
    · exact ⟨e, List.mem_cons_self, Or.inl h1⟩
    · by_cases h2 : e.1 = j ∧ e.2.1 = i
      · exact ⟨e, List.mem_cons_self, Or.inr h2⟩
      · rw [if_neg h1, if_neg h2] at hk
        obtain ⟨x, hx, hx'⟩ := ih hk
        exact ⟨x, List.mem_cons_of_mem _ hx, hx'⟩

/-- The grid of a camera in a frame is good enough for the chain of cameras. -/
def Sees (i : Int) (gs : List (Int × Grid K)) : Prop :=
  ∃ g, (i, g) ∈ gs ∧ (g.detected = true ∨ 12 ≤ g.nbDetections)

theorem solved_sees (env : InitEnv K V) (params : List (Int × CamP V))
    (data : List (Int × List (Int × Grid K))) {e : Edge K}
    (h : e ∈ solved ((data.map (fun tg => chainGrids env params tg.2)).flatMap offered)) :
    ∃ tg ∈ data, Sees e.1 tg.2 ∧ Sees e.2.1 tg.2 := by
  unfold solved at h
  obtain ⟨o, ho, hoe⟩ := List.mem_filterMap.mp h
  obtain ⟨fr, hfr, hof⟩ := List.mem_flatMap.mp ho
  obtain ⟨tg, htg, rfl⟩ := List.mem_map.mp hfr
  have hsee : ∀ cg ∈ (chainGrids env params tg.2).filter (fun p => decide (Calib.Usable p.2)), Sees cg.1 tg.2 := by
    intro cg hcg
    obtain ⟨hm, hu⟩ := List.mem_filter.mp hcg
    unfold chainGrids at hm
    obtain ⟨x, hx, rfl⟩ := List.mem_map.mp hm
    have hu : x.2.detected = true ∨ 12 ≤ x.2.nbDetections := of_decide_eq_true hu
    exact ⟨x.2, hx, hu⟩
  unfold offered at hof
  split at hof
  · cases hof
  · rename_i ci gi l hl
    obtain ⟨p, hp, rfl⟩ := List.mem_map.mp hof
    have h1 := hsee (ci, gi) (by rw [hl]; exact List.mem_cons_self)
    have h2 := hsee p (by rw [hl]; exact List.mem_cons_of_mem _ hp)
    cases hrel : relPose gi.pose p.2.pose with
    | none => rw [hrel] at hoe; cases hoe
    | some T =>
      rw [hrel] at hoe
      cases hoe
      exact ⟨tg, htg, h1, h2⟩

/-- **C99, the extrinsics the solver starts from.**  With several cameras, a successful
initialisation starts the joint solve with camera `i` at the transform that the chain of cameras
gives for it relative to camera 0, and this is the relative pose of a frame in which both see the
target: each camera has such a frame. -/
theorem C99_extrinsics (env : InitEnv K V) (fuel : Nat) (hf : 0 < fuel) (s s' : Cal K V) (hc : Cameras s)
    (h2 : s.params.length ≠ 1) (h : initialise env fuel false s = .ok s') :
    ∃ s₁ exts out, initIntrinsics env s = .ok s₁ ∧
      calibInitialize env s.rows s.cols s₁.params exts s.data = .ok out ∧
      s' = { s with params := out.1, exts := out.2 } ∧
      ∀ i ∈ camIdxs s, ∃ T, SMap.find i exts = some ⟨env.ofTf T, decide (i = 0)⟩ ∧
        (i = 0 → T = 1) ∧
        (i ≠ 0 → known (solved ((s.data.map (fun tg => chainGrids env s₁.params tg.2)).flatMap offered)) 0 i
          = some T ∧ ∃ tg ∈ s.data, Sees 0 tg.2 ∧ Sees i tg.2) := by
  obtain ⟨s₁, ch, s₂, out, hs₁, hch, hs₂, ho, rfl⟩ := initialise_split env fuel s s' hc h2 h
  obtain ⟨hs1, hci, _⟩ := C99_independent env s s₁ hc hs₁
  obtain ⟨e2, _, _, h4⟩ := initExt_loop env ch fuel _ s₁ s₂ hs₂
  have hd : s₁.data = s.data := by rw [hs1]
  refine ⟨s₁, s₂.exts, out, hs₁, ?_, ?_, ?_⟩
  · rw [e2, hs1] at ho; exact ho
  · rw [e2, hs1]
  · intro i hi
    obtain ⟨p, e, hp, he⟩ := hc.mem i hi
    obtain ⟨he1, _⟩ := intr_of env s s₁ hc hs₁ i hp he
    obtain ⟨T, hT, hfi⟩ := h4 i (by rw [hci]; exact hi)
    rw [he1, Option.map_some] at hfi
    refine ⟨T, hfi, ?_, ?_⟩
    · rintro rfl
      unfold Camchain.find at hT
      rw [if_pos rfl] at hT
      simpa using hT.symm
    · intro hi0
      obtain ⟨hb, _⟩ := C50_build _ ch hch
      rw [hb] at hT
      rw [hd] at hT
      set H := solved ((s.data.map (fun tg => chainGrids env s₁.params tg.2)).flatMap offered)
      obtain ⟨_, c2, c3, c4⟩ := C50_find_partial H fuel hf 0 i
      have hne : (0 : Int) ≠ i := fun e => hi0 e.symm
      cases hk : known H 0 i with
      | none =>
        exfalso
        by_cases hm : Mentioned H 0 ∧ Mentioned H i
        · rw [c4 hne hm.1 hm.2 hk] at hT; cases hT
        · rw [c2 hne hm] at hT; cases hT
      | some T' =>
        rw [c3 T' hne hk] at hT
        have : T' = T := by simpa using hT
        subst this
        refine ⟨rfl, ?_⟩
        obtain ⟨x, hx, hx'⟩ := known_some_mem H 0 i (by rw [hk]; rfl)
        obtain ⟨tg, htg, a, b⟩ := solved_sees env s₁.params s.data hx
        rcases hx' with ⟨r1, r2⟩ | ⟨r1, r2⟩
        · rw [r1] at a; rw [r2] at b; exact ⟨tg, htg, a, b⟩
        · rw [r1] at a; rw [r2] at b; exact ⟨tg, htg, b, a⟩

/-- **C99 refuted.**  One frame whose pose cannot be estimated makes the whole initialisation fail,
however good the others are. -/
theorem C99_bad_frame_refuted (env : InitEnv K V) (rows cols : Nat) (params exts : List (Int × CamP V))
    (i : Int) (p e : CamP V) (hp : SMap.find i params = some p) (he : SMap.find i exts = some e) (hi : i ≠ -1)
    (good bad : List (Int × List (Int × Grid K))) (ts : Int) (g : Grid K) (hd : g.detected = true)
    (hn : 0 < g.nbDetections) (hbad : env.estimate g p.val = none) :
    ∃ err, calibInitialize env rows cols params exts (good ++ (ts, [(i, g)]) :: bad) = .error err := by
  cases hr : calibInitialize env rows cols params exts (good ++ (ts, [(i, g)]) :: bad) with
  | error err => exact ⟨err, rfl⟩
  | ok out =>
    exfalso
    unfold calibInitialize at hr
    obtain ⟨built, hb, _⟩ := bind_ok hr
    rw [List.foldlM_append] at hb
    obtain ⟨mid, _, hb⟩ := bind_ok hb
    rw [List.foldlM_cons] at hb
    obtain ⟨mid', hb, _⟩ := bind_ok hb
    have hbest : initBest params exts (-1, (AprilGrid.default : Grid K)) (i, g) = (i, g) := by
      rw [initBest_eq]
      exact if_pos ⟨by rw [hp]; rfl, by rw [he]; rfl, hd, hn⟩
    unfold initFrame at hb
    simp only [List.foldl_cons, List.foldl_nil, hbest] at hb
    unfold initPose at hb
    rw [if_neg hi] at hb
    simp only [hp, hbad] at hb
    cases hb

end Yac.Setup
