import Verif.Nbt.EvalRun
import Verif.VI.RecoverProps

/-!
# C133: the evaluation of a candidate trajectory
-/

namespace Yac.Nbt

open Yac.AprilGrid (Grid)
open Yac.Geom (Mat4 Vec3)
open Yac.VI (St VEnv Ev Par feed frame tg GridsOk WF EqLen seenIn CamFlags)

section Setup
variable {K D : Type} [DecidableEq K]

/-- A calibrator with cameras and without measurements. -/
structure Fresh (cams : List (ℤ × CamFlags)) (s : St K D) : Prop where
  wf : WF s
  cams : s.cams = cams
  views : s.views = []
  imu : s.imu = {}
  grids : s.gridBuf = []
  marg : s.enableMarg = false
  started : s.imuStarted = false
  init : s.initialized = false

theorem set_last {V : Type} (m : List (ℤ × V)) (k : ℤ) (v : V) (h : ∀ p ∈ m, p.1 < k) :
    SMap.set k v m = m ++ [(k, v)] := by
  induction m with
  | nil => rfl
  | cons p m ih =>
    have hp := h p (by simp)
    rw [SMap.set, if_neg (by omega), if_pos hp, ih (fun q hq => h q (by simp [hq]))]
    rfl

theorem find_last {V : Type} (m : List (ℤ × V)) (k : ℤ) (h : ∀ p ∈ m, p.1 < k) : SMap.find k m = none := by
  apply SMap.find_none_of_not_mem
  intro hk
  obtain ⟨p, hp, e⟩ := List.mem_map.1 hk
  have := h p hp
  omega

theorem cameras_fold {V W : Type} (exts : List (ℤ × V)) (fixPar fixExt : ℤ → Bool) (ps : List (ℤ × W))
    (he : ∀ c ∈ ps, (SMap.find c.1 exts).isSome) (hp : ps.Pairwise (fun a b => a.1 < b.1)) :
    ∀ (cams : List (ℤ × CamFlags)) (s : St K D), Fresh cams s → (∀ p ∈ cams, ∀ c ∈ ps, p.1 < c.1) →
      ∃ t, ps.foldlM (setupCamera exts fixPar fixExt) s = .ok t ∧
        Fresh (cams ++ ps.map (fun c => (c.1, ⟨fixPar c.1, fixExt c.1⟩))) t ∧ t.fiducial = s.fiducial ∧
        t.imuExtFixed = s.imuExtFixed ∧ t.delayFixed = s.delayFixed := by
  induction ps with
  | nil => intro cams s h _; exact ⟨s, rfl, by simpa using h, rfl, rfl, rfl⟩
  | cons c ps ih =>
    intro cams s h hlt
    obtain ⟨p1, p2⟩ := List.pairwise_cons.1 hp
    have hno : SMap.find c.1 s.cams = none := by
      rw [h.cams]; exact find_last _ _ (fun p hp => hlt p hp c (by simp))
    have hset : SMap.set c.1 (⟨fixPar c.1, fixExt c.1⟩ : CamFlags) s.cams = cams ++ [(c.1, ⟨fixPar c.1, fixExt c.1⟩)] := by
      rw [h.cams]; exact set_last _ _ _ (fun p hp => hlt p hp c (by simp))
    obtain ⟨t1, e1⟩ : ∃ t, VI.addCamera s c.1 (fixPar c.1) (fixExt c.1) = .ok t := by
      unfold VI.addCamera; rw [hno]; exact ⟨_, rfl⟩
    have hwf := h.wf.addCamera e1
    have e1' := e1
    unfold VI.addCamera at e1'
    rw [hno, if_neg (by simp), hset] at e1'
    injection e1' with e1'
    have hf : Fresh (cams ++ [(c.1, ⟨fixPar c.1, fixExt c.1⟩)]) t1 := by
      subst e1'
      exact ⟨hwf, rfl, h.views, h.imu, h.grids, h.marg, h.started, h.init⟩
    obtain ⟨t, e2, h2, h3, h4, h5⟩ := ih (fun d hd => he d (by simp [hd])) p2 _ t1 hf (by
      intro p hp' d hd
      rcases List.mem_append.1 hp' with hp' | hp'
      · exact hlt p hp' d (by simp [hd])
      · rw [List.mem_singleton] at hp'
        rw [hp']; exact p1 d hd)
    refine ⟨t, ?_, by simpa using h2, ?_, ?_, ?_⟩
    · rw [List.foldlM_cons]
      obtain ⟨v, hv⟩ := Option.isSome_iff_exists.1 (he c (by simp))
      unfold setupCamera atKey
      rw [hv]
      simp only [AprilGrid.ok_bind]
      rw [e1, AprilGrid.ok_bind]
      exact e2
    · rw [h3, ← e1']
    · rw [h4, ← e1']
    · rw [h5, ← e1']

/-- C133: the calibrator before it is given measurements has the cameras of the data, with their
flags, no views and no samples; the blocks held constant are those that the data say are fixed. -/
theorem C133_setup {V W : Type} (exts : List (ℤ × V)) (params : List (ℤ × W)) (hs : SMap.Sorted params)
    (he : ∀ c ∈ params, (SMap.find c.1 exts).isSome) (fixPar fixExt : ℤ → Bool) (a b : Bool) :
    ∃ s : St K D, setup exts params fixPar fixExt a b = .ok s ∧
      Fresh (params.map fun c => (c.1, ⟨fixPar c.1, fixExt c.1⟩)) s ∧ s.fiducial = true ∧
      (∀ c ∈ params, constant s (.cam c.1) = fixPar c.1 ∧ constant s (.ext c.1) = fixExt c.1) ∧
      constant s .imuExt = a ∧ constant s .delay = b ∧ constant s .fiducial = false := by
  obtain ⟨t, e, h, hf, ha, hb⟩ := cameras_fold (K := K) (D := D) exts fixPar fixExt params he hs [] (St.new false 5 a b)
    ⟨WF.new _ _ _ _, rfl, rfl, rfl, rfl, rfl, rfl, rfl⟩ (by simp)
  rw [List.nil_append] at h
  have hw := h.wf.fid
  rw [hf] at hw
  refine ⟨{ t with fiducial := true, prob := VI.addParam t.prob .fiducial }, by unfold setup; rw [e]; rfl,
    ⟨hw, h.cams, h.views, h.imu, h.grids, h.marg, h.started, h.init⟩, rfl, ?_, ha, hb, rfl⟩
  intro c hc
  have hfind : SMap.find c.1 t.cams = some ⟨fixPar c.1, fixExt c.1⟩ := by
    rw [h.cams, SMap.find_eq_some]
    · exact List.mem_map.2 ⟨c, hc, rfl⟩
    · unfold SMap.Sorted
      rw [List.pairwise_map]
      exact hs
  unfold constant VI.isFixed
  constructor
  · show ((SMap.find c.1 t.cams).map CamFlags.fixPar).getD false = _
    rw [hfind]; rfl
  · show ((SMap.find c.1 t.cams).map CamFlags.fixExt).getD false = _
    rw [hfind]; rfl

/-- C133 (limit): a camera without extrinsics ends the evaluation with an exception. -/
theorem C133_setup_missing {V W : Type} (exts : List (ℤ × V)) (params : List (ℤ × W)) (hs : SMap.Sorted params)
    (c : ℤ × W) (hc : c ∈ params) (hm : SMap.find c.1 exts = none) (fixPar fixExt : ℤ → Bool) (a b : Bool) :
    (setup exts params fixPar fixExt a b : Except Fault (St K D)) = .error .exn := by
  have key : ∀ (ps : List (ℤ × W)), ps.Pairwise (fun a b => a.1 < b.1) → c ∈ ps →
      ∀ (cams : List (ℤ × CamFlags)) (s : St K D), Fresh cams s → (∀ p ∈ cams, ∀ c ∈ ps, p.1 < c.1) →
        ps.foldlM (setupCamera exts fixPar fixExt) s = .error .exn := by
    intro ps
    induction ps with
    | nil => intro _ h; cases h
    | cons d ps ih =>
      intro hp hmem cams s h hlt
      obtain ⟨p1, p2⟩ := List.pairwise_cons.1 hp
      rw [List.foldlM_cons]
      cases hx : SMap.find d.1 exts with
      | none => unfold setupCamera atKey; rw [hx]; rfl
      | some v =>
        have hne : c ∈ ps := by
          rcases List.mem_cons.1 hmem with e | e
          · rw [e, hx] at hm; cases hm
          · exact e
        obtain ⟨t, e, h2, -⟩ := cameras_fold (K := K) (D := D) exts fixPar fixExt [d]
          (by intro x hx'; rw [List.mem_singleton] at hx'; rw [hx', hx]; rfl) (by simp) cams s h
          (fun p hp' x hx' => hlt p hp' x (by rw [List.mem_singleton] at hx'; simp [hx']))
        have e' : setupCamera exts fixPar fixExt s d = .ok t := by
          rw [List.foldlM_cons] at e
          cases hq : setupCamera exts fixPar fixExt s d with
          | error x => rw [hq] at e; cases e
          | ok u => rw [hq] at e; exact e
        rw [e', AprilGrid.ok_bind]
        refine ih p2 hne _ t h2 ?_
        intro p hp' x hx'
        rcases List.mem_append.1 hp' with hp' | hp'
        · exact hlt p hp' x (by simp [hx'])
        · simp only [List.map_cons, List.map_nil, List.mem_singleton] at hp'
          rw [hp']; exact p1 x hx'
  unfold setup
  rw [key params hs hc [] (St.new false 5 a b) ⟨WF.new _ _ _ _, rfl, rfl, rfl, rfl, rfl, rfl, rfl⟩ (by simp)]
  rfl

end Setup

/-! ### The measurements -/

/-- C133: the calibrator is given every sample and every detected grid once, in the order of time;
those of one time in the order sample, then grids by camera. -/
theorem C133_replay (env : VEnv ℝ (Vec3 ℝ)) (d : CamData) (imu : List (ℤ × Vec3 ℝ × Vec3 ℝ)) (s : St ℝ (Vec3 ℝ)) :
    ∃ (tl : Timeline.T Event) (l : List (ℤ × Event)), createTimeline d (imu.map (·.1)) (imu.map (·.2.1)) (imu.map (·.2.2)) Timeline.empty = .ok tl ∧
      l.Perm (events d imu) ∧ l.Pairwise (fun a b => a.1 ≤ b.1) ∧
      (∀ k, l.filter (fun a => a.1 = k) = (events d imu).filter (fun a => a.1 = k)) ∧
      replay env tl s = (l.map fun p => asEv p.1 p.2).foldlM (feed env) s := by
  obtain ⟨h1, h2⟩ := Timeline.C11_timeline_iteration (events d imu)
  refine ⟨Timeline.run (events d imu), (Timeline.run (events d imu)).data, ?_, ?_, h1, h2, ?_⟩
  · unfold createTimeline
    rw [addImu_eq _ _ _ _ _ (by simp) (by simp), AprilGrid.ok_bind, addGrids_eq, Timeline.run, events,
      List.foldl_append, List.foldl_map]
    congr 3
    rw [List.drop_zero, List.drop_zero]
    clear h1 h2
    induction imu with
    | nil => rfl
    | cons s l ih => simp [ih]
  · classical
    rw [List.perm_iff_count]
    intro a
    have hx : ∀ L : List (ℤ × Event), L.count a = (L.filter (fun p => p.1 = a.1)).count a := by
      intro L
      rw [List.count_filter]
      simp
    rw [hx, h2, ← hx]
  · have := timeline_fold (fun s ts e => feed env s (asEv ts e)) (events d imu) (Timeline.run (events d imu)).data h1 h2 s
    rw [List.foldlM_map]
    exact this

open Classical in
/-- C133: with every frame clear in every camera, the views are the frames that have two samples
before them and a sample after them not later than the next frame, each with the grids of its time;
all samples are in the buffer.  The program ends if a view other than the first has fewer than four
samples before it. -/
theorem C133_views_partial (env : VEnv ℝ (Vec3 ℝ)) (cams : List (ℤ × CamFlags)) (shot : ℤ → ℤ → Grid ℝ)
    (hst : ∀ c t, (shot c t).timestamp = t) (hC : (cams.map Prod.fst).Pairwise (· < ·))
    (h0 : (0 : ℤ) ∈ cams.map Prod.fst) (F : List ℤ) (hF : F.Pairwise (· < ·))
    (imu : List (ℤ × Vec3 ℝ × Vec3 ℝ)) (hI : imu.Pairwise (fun a b => a.1 < b.1))
    (hclear : ∀ f ∈ F, Clear env (cams.map Prod.fst) shot f) (s : St ℝ (Vec3 ℝ)) (hs : Fresh cams s) :
    ∃ tl, createTimeline (F.map fun f => (f, frame (cams.map Prod.fst) shot f)) (imu.map (·.1)) (imu.map (·.2.1))
        (imu.map (·.2.2)) Timeline.empty = .ok tl ∧
      ((∀ f ∈ (F.filter fun f => decide (Used F (imu.map (·.1)) f)).tail, 4 ≤ before (imu.map (·.1)) f) →
        ∃ t, replay env tl s = .ok t ∧ WF t ∧ t.cams = cams ∧
          t.imu = ⟨imu.map (·.1), imu.map (·.2.1), imu.map (·.2.2)⟩ ∧
          t.views.map tg = (F.filter fun f => decide (Used F (imu.map (·.1)) f)).map
            (fun f => (f, frame (cams.map Prod.fst) shot f))) ∧
      ((∃ f ∈ (F.filter fun f => decide (Used F (imu.map (·.1)) f)).tail, before (imu.map (·.1)) f < 4) →
        replay env tl s = .error .fatal) := by
  obtain ⟨C, hCe⟩ : ∃ C, C = cams.map Prod.fst := ⟨_, rfl⟩
  rw [← hCe] at hC h0 hclear ⊢
  obtain ⟨tl, l, h1, -, h3, h4, h5⟩ := C133_replay env (F.map fun f => (f, frame C shot f)) imu s
  refine ⟨tl, h1, ?_⟩
  have hev : (events (F.map fun f => (f, frame C shot f)) imu).map (fun p => (p.1, asEv p.1 p.2)) =
      imu.map imuEv ++ F.flatMap (frameEvs C shot) := by
    unfold events
    rw [List.map_append, List.map_map, List.map_flatMap, List.flatMap_map]
    congr 1
    refine List.flatMap_congr (fun f hf => ?_)
    have hall : (frame C shot f).filter (fun q => q.2.detected) = frame C shot f := by
      rw [List.filter_eq_self]
      intro q hq
      obtain ⟨c, hc, rfl⟩ := List.mem_map.1 hq
      exact (hclear f hf c hc).2.1
    rw [hall, List.map_map]
    unfold frame frameEvs
    rw [List.map_map]
    rfl
  have hl : l.map (fun p => (p.1, asEv p.1 p.2)) = weave C shot F imu := by
    refine sorted_unique _ _ (by rw [List.pairwise_map]; exact h3) (weave_sorted C shot F imu hF hI) (fun t => ?_)
    rw [weave_filter C shot F imu hI t, ← hev, List.filter_map, List.filter_map]
    have := h4 t
    have e : ∀ L : List (ℤ × Event), L.filter ((fun p : ℤ × Ev ℝ (Vec3 ℝ) => decide (p.1 = t)) ∘ fun p => (p.1, asEv p.1 p.2)) =
        L.filter (fun a => a.1 = t) := fun L => rfl
    rw [e, e, this]
  have hrun : replay env tl s = (weave C shot F imu).foldlM (fun s p => feed env s p.2) s := by
    rw [h5, ← hl, List.foldlM_map, List.foldlM_map]
  have hcalm : Calm C shot s 0 none :=
    ⟨hs.wf, by rw [hs.imu]; exact ⟨rfl, rfl⟩, hs.marg, by rw [hs.cams, hCe], by rw [hs.imu]; rfl,
      by rw [hs.started]; rfl, hs.grids, by simp, by rw [hs.init]; simp⟩
  have hmain := run_weave (env := env) hst h0 hC F imu hclear s 0 none hcalm (by simp)
  rw [← hrun, useOf_eq F (imu.map Prod.fst) 0 none hF (by rw [List.pairwise_map]; exact hI) (by simp)] at hmain
  simp only [Option.toList_none, List.filter_nil, List.map_nil, List.nil_append, zero_add] at hmain
  have hU : (F.filter fun f => decide (2 ≤ before (imu.map Prod.fst) f ∧ 0 < before (imu.map Prod.fst) f ∧
      ∃ t ∈ imu.map Prod.fst, f < t ∧ ∀ g ∈ F, f < g → t ≤ g)) =
      F.filter fun f => decide (Used F (imu.map (·.1)) f) := by
    refine List.filter_congr (fun f _ => ?_)
    rw [decide_eq_decide]
    exact ⟨fun h => ⟨h.1, h.2.2⟩, fun h => ⟨h.1, lt_of_lt_of_le (by norm_num) h.1, h.2⟩⟩
  rw [hU] at hmain
  obtain ⟨r1, r2⟩ := hmain
  rw [hs.init] at r1 r2
  simp only [later, Bool.false_eq_true, if_false, ← List.map_tail] at r1 r2
  refine ⟨fun hall => ?_, fun ⟨f, hf, hlt⟩ => r2 ⟨_, List.mem_map.2 ⟨f, hf, rfl⟩, ?_⟩⟩
  · obtain ⟨t, n', p', e1, e2, e3, e4, e5⟩ := r1 (by
      intro u hu
      obtain ⟨f, hf, rfl⟩ := List.mem_map.1 hu
      have : 4 ≤ before (imu.map Prod.fst) f := hall f hf
      show 5 ≤ before (imu.map Prod.fst) f + 1
      omega)
    refine ⟨t, e1, e2.wf, e4.trans hs.cams, ?_, ?_⟩
    · rw [e3, hs.imu]
      have key : ∀ (L : List (ℤ × Vec3 ℝ × Vec3 ℝ)) (b : Stream.Imu (Vec3 ℝ)),
          addAll b L = ⟨b.ts ++ L.map (·.1), b.acc ++ L.map (·.2.1), b.gyr ++ L.map (·.2.2)⟩ := by
        intro L
        induction L with
        | nil => intro b; simp [addAll]
        | cons r L ih =>
          intro b
          have := ih (b.add r.1 r.2.1 r.2.2)
          unfold addAll at this ⊢
          rw [List.foldl_cons, this]
          simp [Stream.Imu.add]
      rw [key]
      simp
    · rw [e5, hs.views, List.map_map]
      rfl
  · show before (imu.map Prod.fst) f + 1 < 5
    have : before (imu.map Prod.fst) f < 4 := hlt
    omega

/-! ### The result -/

/-- C133: the information of the candidate is `H` plus the inverse of the covariance of the IMU
extrinsics, or -1 if there is no covariance or it is not of full rank.  The covariance is that of the
problem with the constant blocks that the data say are fixed, but for the time delay. -/
theorem C133_result (cov : St ℝ (Vec3 ℝ) → (Par → Bool) → VI.Recover.Cov) (res : VI.Fid ℝ → ℝ × ℝ)
    (H : Matrix (Fin 6) (Fin 6) ℝ) (s : St ℝ (Vec3 ℝ)) :
    ∃ c : Par → Bool, (∀ q, q ≠ .delay → c q = constant s q) ∧ c .delay = false ∧
      ((cov s c).compute = true → (cov s c).block.rank = 6 → finish cov res H s = .ok (some (H + (cov s c).block⁻¹))) ∧
      (((cov s c).compute = false ∨ (cov s c).block.rank ≠ 6) → finish cov res H s = .ok none) := by
  refine ⟨VI.setConst (VI.setConst (constant s) .delay true) .delay false, ?_, ?_, ?_, ?_⟩
  · intro q hq
    simp [VI.setConst, hq]
  · simp [VI.setConst]
  · intro h1 h2
    unfold finish VI.solve
    simp only [Bool.false_eq_true, if_false, AprilGrid.ok_bind]
    unfold VI.Recover.recoverInfo VI.Recover.recoverCovar
    rw [h1, if_neg (by simp), if_neg (by rw [Dense.rank]; simpa using h2)]
    rfl
  · intro h
    unfold finish VI.solve
    simp only [Bool.false_eq_true, if_false, AprilGrid.ok_bind]
    unfold VI.Recover.recoverInfo VI.Recover.recoverCovar
    rcases h with h | h
    · rw [if_pos h]; rfl
    · by_cases hc : (cov s (VI.setConst (VI.setConst (constant s) .delay true) .delay false)).compute = false
      · rw [if_pos hc]; rfl
      · rw [if_neg hc, if_pos (by rw [Dense.rank]; exact h)]; rfl

/-- C133 (limit): a time delay that the data say is fixed is not held constant when the information of
a candidate is computed. -/
theorem C133_delay_refuted (params : List (ℤ × Unit)) (hs : SMap.Sorted params) :
    ∃ s : St ℝ (Vec3 ℝ), setup params params (fun _ => false) (fun _ => false) false true = .ok s ∧
      constant s .delay = true ∧
      ∀ (res : VI.Fid ℝ → ℝ × ℝ) (H B : Matrix (Fin 6) (Fin 6) ℝ), B.rank = 6 →
        finish (fun _ c => ⟨!c .delay, B⟩) res H s = .ok (some (H + B⁻¹)) := by
  obtain ⟨s, e, -, -, -, -, hd, -⟩ := C133_setup (K := ℝ) (D := Vec3 ℝ) params params hs
    (fun c hc => by rw [SMap.find_isSome]; exact List.mem_map_of_mem hc) (fun _ => false) (fun _ => false) false true
  refine ⟨s, e, hd, fun res H B hB => ?_⟩
  obtain ⟨c, -, h2, h3, -⟩ := C133_result (fun _ c => ⟨!c .delay, B⟩) res H s
  exact h3 (by rw [h2]; rfl) hB

end Yac.Nbt
