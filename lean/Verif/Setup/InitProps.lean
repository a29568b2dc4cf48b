import Verif.Setup.InitModel
import Verif.Calib.CameraLemmas

/-!
# C99: the initialisation of a calibration
-/

namespace Yac.Setup

open Yac.AprilGrid (Grid Meas)
open Yac.Calib
open Yac.Geom (Mat4)

variable {K V : Type} [Field K] [LinearOrder K]

/-! ### Only one camera -/

/-- The calibrator with camera `i` and its data only. -/
def only (i : Int) (s : Cal K V) : Cal K V :=
  { s with params := s.params.filter (fun ip => ip.1 = i), exts := s.exts.filter (fun ip => ip.1 = i),
           data := s.data.map (fun tg => (tg.1, tg.2.filter (fun cg => cg.1 = i))) }

theorem find_filter {ν : Type} (i : Int) (m : List (Int × ν)) :
    SMap.find i (m.filter (fun ip => ip.1 = i)) = SMap.find i m := by
  induction m with
  | nil => rfl
  | cons a m ih =>
    by_cases h : a.1 = i
    · rw [List.filter_cons_of_pos (by simpa using h)]
      simp [SMap.find, h]
    · rw [List.filter_cons_of_neg (by simpa using h), ih]
      simp [SMap.find, h]

theorem extract_only (i : Int) (data : List (Int × List (Int × Grid K))) :
    extract i (data.map (fun tg => (tg.1, tg.2.filter (fun cg => cg.1 = i)))) = extract i data := by
  unfold extract
  rw [List.filterMap_map]
  congr 1
  funext tg
  simp only [Function.comp]
  rw [find_filter]

/-! ### The problem depends on the camera only -/

theorem camObs_cam (rows cols : Nat) (params exts : List (Int × CamP V)) (ts : Int) (cg : Int × Grid K)
    {l : List (Obs K)} (h : camObs rows cols params exts ts cg = .ok l) : ∀ o ∈ l, o.cam = cg.1 := by
  unfold camObs at h
  by_cases h1 : (SMap.find cg.1 params).isNone
  · rw [if_pos h1] at h; cases h; simp
  rw [if_neg h1] at h
  by_cases h2 : cg.2.detected = false
  · rw [if_pos h2] at h; cases h; simp
  rw [if_neg h2] at h
  obtain ⟨m, _, h⟩ := bind_ok h
  simp only at h
  split_ifs at h
  · cases h; simp
  · cases h
    intro o ho
    obtain ⟨x, _, rfl⟩ := List.mem_map.mp ho
    rfl

theorem frameObs_single (rows cols : Nat) (params exts : List (Int × CamP V)) (ts : Int) (cg : Int × Grid K) :
    frameObs rows cols params exts ts [cg] = camObs rows cols params exts ts cg := by
  unfold frameObs
  rw [List.foldlM_cons]
  cases camObs rows cols params exts ts cg with
  | error e => rfl
  | ok l => simp [List.foldlM_nil]

theorem camObs_congr (rows cols : Nat) {params exts params' exts' : List (Int × CamP V)} (ts : Int)
    (cg : Int × Grid K) (hp : SMap.find cg.1 params = SMap.find cg.1 params')
    (he : SMap.find cg.1 exts = SMap.find cg.1 exts') :
    camObs rows cols params exts ts cg = camObs rows cols params' exts' ts cg := by
  unfold camObs
  rw [hp, he]

theorem initFrame_congr (env : InitEnv K V) (rows cols : Nat) {params exts params' exts' : List (Int × CamP V)}
    (i : Int) (hp : SMap.find i params = SMap.find i params') (he : SMap.find i exts = SMap.find i exts')
    (acc : List (Int × V) × List (Obs K)) (ts : Int) (g : Grid K) :
    initFrame env rows cols params exts acc (ts, [(i, g)]) =
      initFrame env rows cols params' exts' acc (ts, [(i, g)]) := by
  have hb : initBest params exts (-1, AprilGrid.default) (i, g) =
      initBest params' exts' (-1, AprilGrid.default) (i, g) := by
    unfold initBest; rw [hp, he]
  have hb' : (initBest params' exts' (-1, AprilGrid.default) (i, g)).1 = -1 ∨
      (initBest params' exts' (-1, AprilGrid.default) (i, g)).1 = i := by
    unfold initBest; split_ifs <;> simp
  unfold initFrame
  simp only [List.foldl_cons, List.foldl_nil, hb]
  generalize initBest params' exts' (-1, AprilGrid.default) (i, g) = best at hb'
  unfold initPose
  rw [frameObs_single, frameObs_single, camObs_congr rows cols ts (i, g) hp he]
  rcases hb' with h | h
  · rw [if_pos h, if_pos h]
  · rw [h, hp, he]

theorem mem_extract {i : Int} {data : List (Int × List (Int × Grid K))} {x : Int × List (Int × Grid K)}
    (h : x ∈ extract i data) : ∃ ts g, x = (ts, [(i, g)]) := by
  unfold extract at h
  obtain ⟨tg, _, h⟩ := List.mem_filterMap.mp h
  cases hf : SMap.find i tg.2 with
  | none => rw [hf] at h; cases h
  | some g => rw [hf] at h; cases h; exact ⟨_, g, rfl⟩

theorem foldlM_congr {α β : Type} (f g : β → α → Except Fault β) (l : List α) :
    ∀ b, (∀ b, ∀ a ∈ l, f b a = g b a) → l.foldlM f b = l.foldlM g b := by
  induction l with
  | nil => intros; rfl
  | cons a l ih =>
    intro b h
    rw [List.foldlM_cons, List.foldlM_cons, h b a List.mem_cons_self]
    congr 1
    funext b'
    exact ih b' (fun b a ha => h b a (List.mem_cons_of_mem _ ha))

theorem build_congr (env : InitEnv K V) (rows cols : Nat) {params exts params' exts' : List (Int × CamP V)}
    (i : Int) (hp : SMap.find i params = SMap.find i params') (he : SMap.find i exts = SMap.find i exts')
    (data : List (Int × List (Int × Grid K))) (acc : List (Int × V) × List (Obs K)) :
    (extract i data).foldlM (initFrame env rows cols params exts) acc =
      (extract i data).foldlM (initFrame env rows cols params' exts') acc := by
  apply foldlM_congr
  intro b a ha
  obtain ⟨ts, g, rfl⟩ := mem_extract ha
  exact initFrame_congr env rows cols i hp he b ts g

theorem initFrame_obs (env : InitEnv K V) (rows cols : Nat) (params exts : List (Int × CamP V))
    {acc out : List (Int × V) × List (Obs K)} {frame : Int × List (Int × Grid K)}
    (h : initFrame env rows cols params exts acc frame = .ok out) :
    out = acc ∨ ∃ v obs, frameObs rows cols params exts frame.1 frame.2 = .ok obs ∧
      out = (acc.1 ++ [(frame.1, v)], acc.2 ++ obs) := by
  unfold initFrame initPose at h
  by_cases h1 : (frame.2.foldl (initBest params exts) (-1, AprilGrid.default)).1 = -1
  · rw [if_pos h1] at h; cases h; exact Or.inl rfl
  · rw [if_neg h1] at h
    right
    split at h
    · cases h
    · split at h
      · cases h
      · split at h
        · cases h
        · obtain ⟨obs, ho, h⟩ := bind_ok h
          cases h
          exact ⟨_, obs, ho, rfl⟩

/-- All measurements of the initialisation of camera `i` are its own. -/
theorem build_cam (env : InitEnv K V) (rows cols : Nat) (params exts : List (Int × CamP V)) (i : Int) :
    ∀ (l : List (Int × List (Int × Grid K))) (acc out : List (Int × V) × List (Obs K)),
      (∀ x ∈ l, ∃ ts g, x = (ts, [(i, g)])) → (∀ o ∈ acc.2, o.cam = i) →
      l.foldlM (initFrame env rows cols params exts) acc = .ok out → ∀ o ∈ out.2, o.cam = i := by
  intro l
  induction l with
  | nil => intro acc out _ ha h; cases h; exact ha
  | cons x l ih =>
    intro acc out hx ha h
    rw [List.foldlM_cons] at h
    obtain ⟨mid, hm, h⟩ := bind_ok h
    refine ih mid out (fun y hy => hx y (List.mem_cons_of_mem _ hy)) ?_ h
    obtain ⟨ts, g, rfl⟩ := hx x List.mem_cons_self
    rcases initFrame_obs env rows cols params exts hm with rfl | ⟨v, obs, ho, rfl⟩
    · exact ha
    · rw [frameObs_single] at ho
      intro o hmem
      rcases List.mem_append.mp hmem with h | h
      · exact ha o h
      · exact camObs_cam rows cols params exts _ _ ho o h

theorem any_cam {l : List (Obs K)} {i j : Int} (h : ∀ o ∈ l, o.cam = i) (hj : j ≠ i) :
    l.any (fun o => o.cam = j) = false := by
  rw [List.any_eq_false]
  intro o ho
  rw [h o ho]
  simpa using fun e => hj e.symm

theorem prob_congr {params exts params' exts' : List (Int × CamP V)} {i : Int}
    (hp : SMap.find i params = SMap.find i params') (he : SMap.find i exts = SMap.find i exts')
    {built : List (Int × V) × List (Obs K)} (hb : ∀ o ∈ built.2, o.cam = i) :
    initProb params exts built = initProb params' exts' built := by
  unfold initProb
  congr 1
  · funext j
    by_cases hj : j = i
    · subst hj; rw [hp]
    · rw [any_cam hb hj]; rfl
  · funext j
    by_cases hj : j = i
    · subst hj; rw [he]
    · rw [any_cam hb hj]; rfl

/-! ### One camera -/

/-- The outcome of initialising camera `i` with intrinsics `p` and extrinsics `e`: its new
intrinsics. -/
def soloIntr (env : InitEnv K V) (s : Cal K V) (i : Int) (p e : CamP V) : Except Fault (CamP V) :=
  (extract i s.data).foldlM (initFrame env s.rows s.cols [(i, p)] [(i, ⟨e.val, true⟩)]) ([], []) >>= fun built =>
    .ok (if !p.fixed && built.2.any (fun o => o.cam = i) then
      ⟨env.optIntr (initProb [(i, p)] [(i, ⟨e.val, true⟩)] built) i, p.fixed⟩ else p)

theorem find_setFixed (i j : Int) (b : Bool) (exts : List (Int × CamP V)) :
    SMap.find j (setFixed i b exts) =
      (SMap.find j exts).map (fun e => if j = i then ⟨e.val, b⟩ else e) := by
  unfold setFixed
  rw [SMap.find_map (fun k e => if k = i then (⟨e.val, b⟩ : CamP V) else e)]

/-- One step of `_initialize_intrinsics`. -/
theorem initIntrStep_spec (env : InitEnv K V) (s : Cal K V) (i : Int) {p e : CamP V}
    (hp : SMap.find i s.params = some p) (he : SMap.find i s.exts = some e) :
    (∀ err, soloIntr env s i p e = .error err → initIntrStep env s i = .error err) ∧
    ∀ p', soloIntr env s i p e = .ok p' →
      ∃ ps es, initIntrStep env s i = .ok { s with params := ps, exts := es } ∧
        ps.map Prod.fst = s.params.map Prod.fst ∧
        (∀ j, SMap.find j ps = if j = i then some p' else SMap.find j s.params) ∧
        (∀ j, SMap.find j es = if j = i then some ⟨e.val, decide (i = 0)⟩ else SMap.find j s.exts) := by
  have hone : ∀ {ν : Type} (v : ν), SMap.find i [(i, v)] = some v := by
    intro ν v; simp [SMap.find]
  have hse : SMap.find i (setFixed i true s.exts) = some ⟨e.val, true⟩ := by
    rw [find_setFixed, he]; simp
  have hb := build_congr env s.rows s.cols i (hp.trans (hone p).symm) (hse.trans (hone _).symm) s.data ([], [])
  unfold soloIntr initIntrStep calibInitialize
  rw [if_neg (by rw [he]; simp)]
  simp only
  rw [hb]
  cases hr : (extract i s.data).foldlM (initFrame env s.rows s.cols [(i, p)] [(i, ⟨e.val, true⟩)]) ([], []) with
  | error err =>
    rw [AprilGrid.error_bind, AprilGrid.error_bind]
    exact ⟨fun _ h => by cases h; rfl, fun _ h => by cases h⟩
  | ok built =>
    have hcam : ∀ o ∈ built.2, o.cam = i :=
      build_cam env s.rows s.cols _ _ i _ _ built (fun x hx => mem_extract hx) (by simp) hr
    rw [AprilGrid.ok_bind, AprilGrid.ok_bind, AprilGrid.ok_bind]
    refine ⟨fun _ h => (by cases h), ?_⟩
    intro p' h
    have hprob := prob_congr (hp.trans (hone p).symm) (hse.trans (hone _).symm) hcam
    rw [hprob]
    refine ⟨_, _, rfl, ?_, ?_, ?_⟩
    · simp [List.map_map, Function.comp_def]
    · intro j
      rw [SMap.find_map (fun k (q : CamP V) => if !q.fixed && built.2.any (fun o => o.cam = k) then
        (⟨env.optIntr (initProb [(i, p)] [(i, ⟨e.val, true⟩)] built) k, q.fixed⟩ : CamP V) else q)]
      by_cases hj : j = i
      · subst hj
        rw [hp, if_pos rfl, Option.map_some]
        cases h
        rfl
      · rw [if_neg hj, any_cam hcam hj]
        simp
    · intro j
      have hex : ∀ j, SMap.find j ((setFixed i true s.exts).map (fun ip => (ip.1,
          if !ip.2.fixed && built.2.any (fun o => o.cam = ip.1) then
            (⟨env.optExt (initProb [(i, p)] [(i, ⟨e.val, true⟩)] built) ip.1, ip.2.fixed⟩ : CamP V)
          else ip.2))) = if j = i then some ⟨e.val, true⟩ else SMap.find j s.exts := by
        intro j
        rw [SMap.find_map (fun k (q : CamP V) => if !q.fixed && built.2.any (fun o => o.cam = k) then
          (⟨env.optExt (initProb [(i, p)] [(i, ⟨e.val, true⟩)] built) k, q.fixed⟩ : CamP V) else q)]
        by_cases hj : j = i
        · subst hj
          rw [hse, if_pos rfl, Option.map_some]
          simp
        · rw [if_neg hj, any_cam hcam hj, find_setFixed]
          cases SMap.find j s.exts <;> simp [hj]
      by_cases h0 : i = 0
      · rw [if_pos h0, hex]
        simp [h0]
      · rw [if_neg h0, find_setFixed, hex]
        by_cases hj : j = i
        · subst hj; simp [h0]
        · simp only [if_neg hj]
          cases SMap.find j s.exts <;> simp

/-- The loop over the cameras. -/
theorem initIntr_loop (env : InitEnv K V) (s₀ : Cal K V) (l : List Int) (hn : l.Nodup) :
    ∀ s s' : Cal K V, s = { s₀ with params := s.params, exts := s.exts } →
      (∀ i ∈ l, ∃ p e, SMap.find i s.params = some p ∧ SMap.find i s.exts = some e) →
      l.foldlM (initIntrStep env) s = .ok s' →
      s' = { s₀ with params := s'.params, exts := s'.exts } ∧
      s'.params.map Prod.fst = s.params.map Prod.fst ∧
      (∀ j, j ∉ l → SMap.find j s'.params = SMap.find j s.params ∧ SMap.find j s'.exts = SMap.find j s.exts) ∧
      ∀ i ∈ l, ∀ p e, SMap.find i s.params = some p → SMap.find i s.exts = some e →
        ∃ p', soloIntr env s₀ i p e = .ok p' ∧ SMap.find i s'.params = some p' ∧
          SMap.find i s'.exts = some ⟨e.val, decide (i = 0)⟩ := by
  induction l with
  | nil => intro s s' hs _ h; cases h; exact ⟨hs, rfl, fun _ _ => ⟨rfl, rfl⟩, by simp⟩
  | cons i l ih =>
    intro s s' hs hk h
    obtain ⟨hi, hl⟩ := List.nodup_cons.mp hn
    obtain ⟨p, e, hp, he⟩ := hk i List.mem_cons_self
    obtain ⟨herr, hok⟩ := initIntrStep_spec env s i hp he
    have hsolo : soloIntr env s i p e = soloIntr env s₀ i p e := by
      rw [hs]; rfl
    rw [List.foldlM_cons] at h
    cases hr : soloIntr env s i p e with
    | error err => rw [herr err hr, AprilGrid.error_bind] at h; cases h
    | ok p' =>
      obtain ⟨ps, es, hst, hkeys, hps, hes⟩ := hok p' hr
      rw [hst, AprilGrid.ok_bind] at h
      have hne : ∀ j ∈ l, j ≠ i := fun j hj e => hi (e ▸ hj)
      obtain ⟨h1, h2, h3, h4⟩ := ih hl { s with params := ps, exts := es } s' (by rw [hs]) (by
        intro j hj
        obtain ⟨q, f, hq, hf⟩ := hk j (List.mem_cons_of_mem _ hj)
        refine ⟨q, f, ?_, ?_⟩
        · show SMap.find j ps = _; rw [hps, if_neg (hne j hj), hq]
        · show SMap.find j es = _; rw [hes, if_neg (hne j hj), hf]) h
      refine ⟨h1, h2.trans hkeys, ?_, ?_⟩
      · intro j hj
        rw [List.mem_cons, not_or] at hj
        obtain ⟨a, b⟩ := h3 j hj.2
        refine ⟨a.trans ?_, b.trans ?_⟩
        · show SMap.find j ps = _; rw [hps, if_neg hj.1]
        · show SMap.find j es = _; rw [hes, if_neg hj.1]
      · intro j hj q f hq hf
        by_cases hji : j = i
        · subst hji
          rw [hp] at hq; rw [he] at hf
          cases hq; cases hf
          obtain ⟨a, b⟩ := h3 j hi
          refine ⟨p', by rw [← hsolo, hr], a.trans ?_, b.trans ?_⟩
          · show SMap.find j ps = _; rw [hps, if_pos rfl]
          · show SMap.find j es = _; rw [hes, if_pos rfl]
        · have hjl : j ∈ l := (List.mem_cons.mp hj).resolve_left hji
          exact h4 j hjl q f (by show SMap.find j ps = _; rw [hps, if_neg hji, hq])
            (by show SMap.find j es = _; rw [hes, if_neg hji, hf])

/-- A loop that fails fails for one of its cameras. -/
theorem initIntr_ok (env : InitEnv K V) (s₀ : Cal K V) (l : List Int) (hn : l.Nodup) :
    ∀ s : Cal K V, s = { s₀ with params := s.params, exts := s.exts } →
      (∀ i ∈ l, ∃ p e, SMap.find i s.params = some p ∧ SMap.find i s.exts = some e ∧
        ∃ p', soloIntr env s₀ i p e = .ok p') →
      ∃ s', l.foldlM (initIntrStep env) s = .ok s' := by
  induction l with
  | nil => intro s _ _; exact ⟨s, rfl⟩
  | cons i l ih =>
    intro s hs hk
    obtain ⟨hi, hl⟩ := List.nodup_cons.mp hn
    obtain ⟨p, e, hp, he, p', hr⟩ := hk i List.mem_cons_self
    obtain ⟨_, hok⟩ := initIntrStep_spec env s i hp he
    have hsolo : soloIntr env s i p e = soloIntr env s₀ i p e := by
      rw [hs]; rfl
    obtain ⟨ps, es, hst, _, hps, hes⟩ := hok p' (hsolo.trans hr)
    have hne : ∀ j ∈ l, j ≠ i := fun j hj e => hi (e ▸ hj)
    obtain ⟨s', h⟩ := ih hl { s with params := ps, exts := es } (by rw [hs]) (by
      intro j hj
      obtain ⟨q, f, hq, hf, h⟩ := hk j (List.mem_cons_of_mem _ hj)
      refine ⟨q, f, ?_, ?_, h⟩
      · show SMap.find j ps = _; rw [hps, if_neg (hne j hj), hq]
      · show SMap.find j es = _; rw [hes, if_neg (hne j hj), hf])
    exact ⟨s', by rw [List.foldlM_cons, hst, AprilGrid.ok_bind, h]⟩

/-- A calibrator as `add_camera` leaves it: the camera indices are distinct and each has
extrinsics. -/
structure Cameras (s : Cal K V) : Prop where
  nodup : (s.params.map Prod.fst).Nodup
  exts : ∀ i p, SMap.find i s.params = some p → ∃ e, SMap.find i s.exts = some e

theorem Cameras.mem {s : Cal K V} (h : Cameras s) :
    ∀ i ∈ camIdxs s, ∃ p e, SMap.find i s.params = some p ∧ SMap.find i s.exts = some e := by
  intro i hi
  have : (SMap.find i s.params).isSome := SMap.find_isSome.mpr hi
  obtain ⟨p, hp⟩ := Option.isSome_iff_exists.mp this
  obtain ⟨e, he⟩ := h.exts i p hp
  exact ⟨p, e, hp, he⟩

theorem filter_key_nodup {ν : Type} (i : Int) (m : List (Int × ν)) (h : (m.map Prod.fst).Nodup) {v : ν}
    (hf : SMap.find i m = some v) : m.filter (fun ip => ip.1 = i) = [(i, v)] := by
  induction m with
  | nil => cases hf
  | cons a m ih =>
    obtain ⟨h1, h2⟩ := List.nodup_cons.mp h
    obtain ⟨k, w⟩ := a
    by_cases hk : k = i
    · subst hk
      have : w = v := by simpa [SMap.find] using hf
      subst this
      rw [List.filter_cons_of_pos (by simp)]
      congr 1
      rw [List.filter_eq_nil_iff]
      intro x hx e
      simp only [decide_eq_true_eq] at e
      exact h1 (List.mem_map.mpr ⟨x, hx, e⟩)
    · rw [List.filter_cons_of_neg (by simpa using hk)]
      exact ih h2 (by simpa [SMap.find, hk] using hf)

theorem soloIntr_only (env : InitEnv K V) (s : Cal K V) (i : Int) (p e : CamP V) :
    soloIntr env (only i s) i p e = soloIntr env s i p e := by
  unfold soloIntr only
  simp only
  rw [extract_only]

theorem only_loop (env : InitEnv K V) (s : Cal K V) (h : Cameras s) (i : Int) {p e : CamP V}
    (hp : SMap.find i s.params = some p) (he : SMap.find i s.exts = some e) (s' : Cal K V)
    (hok : initIntrinsics env (only i s) = .ok s') :
    ∃ p', soloIntr env s i p e = .ok p' ∧ SMap.find i s'.params = some p' := by
  have hpar : (only i s).params = [(i, p)] := filter_key_nodup i s.params h.nodup hp
  have hp' : SMap.find i (only i s).params = some p := by rw [hpar]; simp [SMap.find]
  have he' : SMap.find i (only i s).exts = some e := by
    show SMap.find i (s.exts.filter _) = _
    rw [find_filter, he]
  unfold initIntrinsics camIdxs at hok
  rw [hpar] at hok
  obtain ⟨_, _, _, h4⟩ := initIntr_loop env (only i s) [i] (by simp) (only i s) s' rfl
    (by simpa using ⟨⟨p, hp'⟩, ⟨e, he'⟩⟩) hok
  obtain ⟨p', h5, h6, _⟩ := h4 i (by simp) p e hp' he'
  exact ⟨p', by rw [← soloIntr_only, h5], h6⟩

/-- **C99, cameras are initialised independently.**  For every calibrator, data and solver: if
`_initialize_intrinsics` succeeds, it succeeds for the calibrator that has camera `i` and its data
only, and gives the same intrinsics for it; the values of all extrinsics are what they were, and
nothing else changes. -/
theorem C99_independent (env : InitEnv K V) (s s' : Cal K V) (h : Cameras s)
    (hok : initIntrinsics env s = .ok s') :
    s' = { s with params := s'.params, exts := s'.exts } ∧ camIdxs s' = camIdxs s ∧
    (∀ i e, SMap.find i s.exts = some e → (SMap.find i s'.exts).map CamP.val = some e.val) ∧
    ∀ i ∈ camIdxs s, ∃ s₁, initIntrinsics env (only i s) = .ok s₁ ∧
      SMap.find i s'.params = SMap.find i s₁.params := by
  obtain ⟨h1, h2, h3, h4⟩ := initIntr_loop env s (camIdxs s) h.nodup s s' rfl h.mem hok
  refine ⟨h1, h2, ?_, ?_⟩
  · intro i e he
    by_cases hi : i ∈ camIdxs s
    · obtain ⟨p, e', hp, he'⟩ := h.mem i hi
      rw [he] at he'; cases he'
      obtain ⟨p', _, _, h5⟩ := h4 i hi p e hp he
      rw [h5]; rfl
    · rw [(h3 i hi).2, he]; rfl
  · intro i hi
    obtain ⟨p, e, hp, he⟩ := h.mem i hi
    obtain ⟨p', h5, h6, _⟩ := h4 i hi p e hp he
    have hpar : (only i s).params = [(i, p)] := filter_key_nodup i s.params h.nodup hp
    have hp' : SMap.find i (only i s).params = some p := by rw [hpar]; simp [SMap.find]
    have he' : SMap.find i (only i s).exts = some e := by
      show SMap.find i (s.exts.filter _) = _
      rw [find_filter, he]
    obtain ⟨s₁, hs₁⟩ := initIntr_ok env (only i s) [i] (by simp) (only i s) rfl (by
      intro j hj
      rw [List.mem_singleton] at hj
      subst hj
      exact ⟨p, e, hp', he', p', by rw [soloIntr_only, h5]⟩)
    have hrun : initIntrinsics env (only i s) = .ok s₁ := by
      unfold initIntrinsics camIdxs
      rw [hpar]
      exact hs₁
    obtain ⟨q, hq1, hq2⟩ := only_loop env s h i hp he s₁ hrun
    rw [h5] at hq1
    cases hq1
    exact ⟨s₁, hrun, h6.trans hq2.symm⟩

/-- **C99, the reverse.**  If every camera can be initialised alone, the whole initialisation of the
intrinsics succeeds. -/
theorem C99_succeeds (env : InitEnv K V) (s : Cal K V) (h : Cameras s)
    (hone : ∀ i ∈ camIdxs s, ∃ s₁, initIntrinsics env (only i s) = .ok s₁) :
    ∃ s', initIntrinsics env s = .ok s' := by
  apply initIntr_ok env s (camIdxs s) h.nodup s rfl
  intro i hi
  obtain ⟨p, e, hp, he⟩ := h.mem i hi
  obtain ⟨s₁, hs₁⟩ := hone i hi
  obtain ⟨p', h1, _⟩ := only_loop env s h i hp he s₁ hs₁
  exact ⟨p, e, hp, he, p', h1⟩

/-- **C99, the flags.**  After `_initialize_intrinsics` the extrinsics of a camera are fixed exactly
if it is camera 0, whatever was asked for. -/
theorem C99_flags (env : InitEnv K V) (s s' : Cal K V) (h : Cameras s)
    (hok : initIntrinsics env s = .ok s') :
    ∀ i ∈ camIdxs s, ∃ e, SMap.find i s'.exts = some e ∧ e.fixed = decide (i = 0) := by
  obtain ⟨_, _, _, h4⟩ := initIntr_loop env s (camIdxs s) h.nodup s s' rfl h.mem hok
  intro i hi
  obtain ⟨p, e, hp, he⟩ := h.mem i hi
  obtain ⟨p', _, _, h5⟩ := h4 i hi p e hp he
  exact ⟨_, h5, rfl⟩

end Yac.Setup
