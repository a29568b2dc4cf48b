import Verif.Gimbal2.Props

/-! # C135: the optimisation problem of the second gimbal program -/

namespace Yac.Gimbal2
open Yac.Geom Yac.Gimbal Matrix

/-! ### Cost -/

/-- The residual blocks, without the order of the program. -/
noncomputable def blocks (k : Cam.Params) (cam : Block) (g : Grid) : List Res :=
  g.corners.map fun c => ⟨![k 0, k 1, k 2, k 3], undistortKp k c.1, c.2, g.ts, cam⟩

theorem problem_eq (k2 k3 : Cam.Params) (grids2 grids3 : ℤ → Grid) (ts : List ℤ) :
    problem k2 k3 grids2 grids3 ts = .ok (ts.flatMap fun t => blocks k2 .cam2 (grids2 t) ++ blocks k3 .cam3 (grids3 t)) := by
  induction ts with
  | nil => rfl
  | cons t ts ih =>
    have e : problem k2 k3 grids2 grids3 (t :: ts) = (addGrid k2 2 (grids2 t) >>= fun a => addGrid k3 3 (grids3 t) >>= fun b =>
      problem k2 k3 grids2 grids3 ts >>= fun c => .ok (a ++ b ++ c)) := rfl
    rw [e, ih]
    rfl

theorem cost_cons (s : State) (r : Res) (rs : List Res) :
    cost s (r :: rs) = (r.sq s).bind fun a => (cost s rs).map fun b => a + b := by
  show (r.sq s).bind (fun a => (cost s rs).bind fun b => some (a + b)) = _
  cases r.sq s with
  | none => rfl
  | some a => cases cost s rs <;> rfl

theorem cost_append (s : State) (a b : List Res) :
    cost s (a ++ b) = (cost s a).bind fun x => (cost s b).map fun y => x + y := by
  induction a with
  | nil => cases h : cost s b <;> simp [cost, h]
  | cons r rs ih =>
    rw [List.cons_append, cost_cons, cost_cons, ih]
    cases r.sq s with
    | none => rfl
    | some x =>
      cases cost s rs with
      | none => rfl
      | some y =>
        cases cost s b with
        | none => rfl
        | some z => simp [add_assoc]

theorem cost_perm (s : State) {a b : List Res} (h : a.Perm b) : cost s a = cost s b := by
  induction h with
  | nil => rfl
  | cons r _ ih => rw [cost_cons, cost_cons, ih]
  | swap x y l =>
    simp only [cost_cons]
    cases x.sq s with
    | none => cases y.sq s <;> rfl
    | some u =>
      cases y.sq s with
      | none => rfl
      | some v =>
        cases cost s l with
        | none => rfl
        | some w =>
          simp only [Option.bind_some, Option.map_some, Option.some.injEq]
          ring
  | trans _ _ h1 h2 => rw [h1, h2]

theorem sq_of_pixel {s : State} (hs : s.Ok) {k : Cam.Params} {ts : ℤ} {b : Block} {cam : Fin 7 → ℝ} (hb : s.value b = some cam)
    {c : (ℝ × ℝ) × Vec3 ℝ} {v : ℝ} (h : PixelSq k s ts cam c v) :
    (⟨![k 0, k 1, k 2, k 3], undistortKp k c.1, c.2, ts, b⟩ : Res).sq s = some v := by
  obtain ⟨z, x, h1, h2, h3, rfl⟩ := h
  have hP : (s.params ts cam).Ok := ⟨hs .gimbal _ rfl, hs .link0 _ rfl, hs .link1 _ rfl, hs .effector _ rfl, hs b _ hb, hs .target _ rfl⟩
  obtain ⟨y, -, k2, -, k4⟩ := C135_residual (s.params ts cam) hP ![k 0, k 1, k 2, k 3] z c.2
  obtain rfl := k2 x h2
  unfold Res.sq
  simp only [h1, hb, k4 h3, Option.bind_eq_bind, Option.bind_some]
  rfl

theorem cost_blocks {s : State} (hs : s.Ok) (k : Cam.Params) (b : Block) (cam : Fin 7 → ℝ) (hb : s.value b = some cam) (g : Grid)
    (f : (ℝ × ℝ) × Vec3 ℝ → ℝ) (hf : ∀ c ∈ g.corners, PixelSq k s g.ts cam c (f c)) :
    cost s (blocks k b g) = some (g.corners.map f).sum := by
  obtain ⟨ts, cs⟩ := g
  unfold blocks
  simp only at hf ⊢
  induction cs with
  | nil => rfl
  | cons c cs ih =>
    rw [List.map_cons, cost_cons, sq_of_pixel hs hb (hf c (by simp)), ih (fun x hx => hf x (by simp [hx]))]
    rfl

/-- **C135, cost.**  The problem can always be formed, and its cost is the sum of the squared pixel errors of all corners that
cameras 2 and 3 saw at the timestamps of the joint file; nothing else enters: neither the corners of camera 1, nor the measured
joint angles. -/
theorem C135_cost (k2 k3 : Cam.Params) (grids2 grids3 : ℤ → Grid) (ts : List ℤ) (s : State) (hs : s.Ok)
    (f2 f3 : ℤ → (ℝ × ℝ) × Vec3 ℝ → ℝ)
    (ht2 : ∀ t ∈ ts, (grids2 t).corners ≠ [] → (grids2 t).ts = t) (ht3 : ∀ t ∈ ts, (grids3 t).corners ≠ [] → (grids3 t).ts = t)
    (h2 : ∀ t ∈ ts, ∀ c ∈ (grids2 t).corners, PixelSq k2 s t s.cam2 c (f2 t c))
    (h3 : ∀ t ∈ ts, ∀ c ∈ (grids3 t).corners, PixelSq k3 s t s.cam3 c (f3 t c)) :
    ∃ rs, problem k2 k3 grids2 grids3 ts = .ok rs ∧
      rs.length = (ts.map fun t => (grids2 t).corners.length + (grids3 t).corners.length).sum ∧
      cost s rs = some ((ts.map fun t => ((grids2 t).corners.map (f2 t)).sum + ((grids3 t).corners.map (f3 t)).sum).sum) := by
  refine ⟨_, problem_eq k2 k3 grids2 grids3 ts, ?_, ?_⟩
  · rw [List.length_flatMap]
    congr 1
    apply List.map_congr_left
    intro t _
    simp [blocks]
  · induction ts with
    | nil => rfl
    | cons t ts ih =>
      rw [List.flatMap_cons, cost_append, cost_append,
        ih (fun x h => ht2 x (by simp [h])) (fun x h => ht3 x (by simp [h])) (fun x h => h2 x (by simp [h])) (fun x h => h3 x (by simp [h]))]
      have e2 : cost s (blocks k2 .cam2 (grids2 t)) = some ((grids2 t).corners.map (f2 t)).sum := by
        by_cases hc : (grids2 t).corners = []
        · simp [blocks, hc, cost]
        · have ht := ht2 t (by simp) hc
          exact cost_blocks hs k2 .cam2 s.cam2 rfl _ (f2 t) (by rw [ht]; exact h2 t (by simp))
      have e3 : cost s (blocks k3 .cam3 (grids3 t)) = some ((grids3 t).corners.map (f3 t)).sum := by
        by_cases hc : (grids3 t).corners = []
        · simp [blocks, hc, cost]
        · have ht := ht3 t (by simp) hc
          exact cost_blocks hs k3 .cam3 s.cam3 rfl _ (f3 t) (by rw [ht]; exact h3 t (by simp))
      rw [e2, e3]
      rfl

/-- **C135, shuffle.**  The random order does not change the cost, for any values of the parameters. -/
theorem C135_shuffle (k2 k3 : Cam.Params) (grids2 grids3 : ℤ → Grid) (ts sh : List ℤ) (hp : sh.Perm ts) (s : State) :
    ∃ a b, problem k2 k3 grids2 grids3 ts = .ok a ∧ problem k2 k3 grids2 grids3 sh = .ok b ∧ cost s b = cost s a :=
  ⟨_, _, problem_eq .., problem_eq .., cost_perm s (hp.flatMap_right _)⟩

/-! ### What the solver may change -/

/-- **C135, constants.**  The calibration never changes the poses of the cameras, that of the target, nor the first two coordinates
of the link offsets. -/
theorem C135_fixed (s s' : State) (h : Solved s s') :
    (s'.cam0 = s.cam0 ∧ s'.cam1 = s.cam1 ∧ s'.cam2 = s.cam2 ∧ s'.cam3 = s.cam3 ∧ s'.target = s.target) ∧
    (s'.link0 0 = s.link0 0 ∧ s'.link0 1 = s.link0 1 ∧ s'.link1 0 = s.link1 0 ∧ s'.link1 1 = s.link1 1) := by
  obtain ⟨h1, h2⟩ := h
  exact ⟨⟨Option.some.inj (h1 .cam0 rfl), Option.some.inj (h1 .cam1 rfl), Option.some.inj (h1 .cam2 rfl), Option.some.inj (h1 .cam3 rfl),
    Option.some.inj (h1 .target rfl)⟩,
    h2 .link0 _ _ rfl rfl 0 (by simp [keeps]), h2 .link0 _ _ rfl rfl 1 (by simp [keeps]),
    h2 .link1 _ _ rfl rfl 0 (by simp [keeps]), h2 .link1 _ _ rfl rfl 1 (by simp [keeps])⟩

theorem state_ok {s : State} (a1 : IsUnit7 s.gimbal) (a2 : IsUnit7 s.link0) (a3 : IsUnit7 s.link1) (a4 : IsUnit7 s.effector) (a5 : IsUnit7 s.cam0)
    (a6 : IsUnit7 s.cam1) (a7 : IsUnit7 s.cam2) (a8 : IsUnit7 s.cam3) (a9 : IsUnit7 s.target) : s.Ok := by
  intro b v hv
  cases b with
  | joint i t => cases hv
  | gimbal => exact Option.some.inj hv ▸ a1
  | link0 => exact Option.some.inj hv ▸ a2
  | link1 => exact Option.some.inj hv ▸ a3
  | effector => exact Option.some.inj hv ▸ a4
  | cam0 => exact Option.some.inj hv ▸ a5
  | cam1 => exact Option.some.inj hv ▸ a6
  | cam2 => exact Option.some.inj hv ▸ a7
  | cam3 => exact Option.some.inj hv ▸ a8
  | target => exact Option.some.inj hv ▸ a9

/-- Everything else may be changed. -/
theorem C135_free (s : State) (gimbal effector l0 l1 : Fin 7 → ℝ) (joints : ℤ → Fin 3 → ℝ)
    (h0 : l0 0 = s.link0 0 ∧ l0 1 = s.link0 1) (h1 : l1 0 = s.link1 0 ∧ l1 1 = s.link1 1) :
    Solved s { s with gimbal := gimbal, effector := effector, link0 := l0, link1 := l1, joints := joints } := by
  refine ⟨fun b hb => ?_, fun b v v' hv hv' i hi => ?_⟩
  · cases b <;> first | rfl | cases hb
  · cases b <;> simp only [keeps, List.not_mem_nil, List.mem_cons, or_false] at hi
    · cases hv; cases hv'
      rcases hi with rfl | rfl
      · exact h0.1
      · exact h0.2
    · cases hv; cases hv'
      rcases hi with rfl | rfl
      · exact h1.1
      · exact h1.2

/-! ### The problem does not determine its parameters -/

theorem sq_none (u : State) (proj : Fin 4 → ℝ) (p : Vec3 ℝ) (t : ℤ) (b : Block) : (⟨proj, none, p, t, b⟩ : Res).sq u = none := rfl

theorem sq_congr {s s' : State} (hs : s.Ok) (hs' : s'.Ok) (hv : ∀ b, b = .cam2 ∨ b = .cam3 → s'.value b = s.value b)
    (ht : s'.target = s.target) (hw : ∀ t cam x, inFirst (s'.params t cam) x = inFirst (s.params t cam) x)
    {r : Res} (hr : r.cam = .cam2 ∨ r.cam = .cam3) : r.sq s' = r.sq s := by
  obtain ⟨proj, z, p, t, b⟩ := r
  simp only at hr
  have hc : ∃ c, s.value b = some c := by rcases hr with rfl | rfl <;> exact ⟨_, rfl⟩
  obtain ⟨c, hc⟩ := hc
  have hc' : s'.value b = some c := by rw [hv b hr, hc]
  cases z with
  | none => rw [sq_none, sq_none]
  | some z =>
    have hP : (s.params t c).Ok := ⟨hs .gimbal _ rfl, hs .link0 _ rfl, hs .link1 _ rfl, hs .effector _ rfl, hs _ _ hc, hs .target _ rfl⟩
    have hP' : (s'.params t c).Ok := ⟨hs' .gimbal _ rfl, hs' .link0 _ rfl, hs' .link1 _ rfl, hs' .effector _ rfl, hs _ _ hc, hs' .target _ rfl⟩
    have e : reprojError proj z p (s'.params t c) = reprojError proj z p (s.params t c) := by
      obtain ⟨x, a1, a2, a3, a4⟩ := C135_residual _ hP proj z p
      obtain ⟨y, b1, b2, b3, b4⟩ := C135_residual _ hP' proj z p
      have : y = x := by
        apply a2
        rw [← hw, b1]
        show place s'.target p = place s.target p
        rw [ht]
      subst this
      by_cases hy : y 2 = 0
      · rw [a3 hy, b3 hy]
      · rw [a4 hy, b4 hy]
    have key : ∀ u : State, u.value b = some c → (⟨proj, some z, p, t, b⟩ : Res).sq u =
        (reprojError proj z p (u.params t c)).bind (fun e => some (e.1 ^ 2 + e.2 ^ 2)) := by
      intro u hu
      show ((some z).bind fun z => (u.value b).bind fun c => (reprojError proj z p (u.params t c)).bind (fun e => some (e.1 ^ 2 + e.2 ^ 2))) = _
      rw [hu]
      rfl
    rw [key s' hc', key s hc, e]

theorem cost_congr {s s' : State} {rs : List Res} (h : ∀ r ∈ rs, r.sq s' = r.sq s) : cost s' rs = cost s rs := by
  induction rs with
  | nil => rfl
  | cons r rs ih => rw [cost_cons, cost_cons, h r (by simp), ih (fun x hx => h x (by simp [hx]))]

theorem problem_cams {k2 k3 : Cam.Params} {grids2 grids3 : ℤ → Grid} {ts : List ℤ} {rs : List Res}
    (h : problem k2 k3 grids2 grids3 ts = .ok rs) : ∀ r ∈ rs, r.cam = .cam2 ∨ r.cam = .cam3 := by
  rw [problem_eq] at h
  obtain rfl := Except.ok.inj h
  intro r hr
  obtain ⟨t, -, hr⟩ := List.mem_flatMap.1 hr
  rcases List.mem_append.1 hr with hr | hr
  · obtain ⟨c, -, rfl⟩ := List.mem_map.1 hr; exact Or.inl rfl
  · obtain ⟨c, -, rfl⟩ := List.mem_map.1 hr; exact Or.inr rfl

/-- **C135: the calibration does not determine the mount of the gimbal.**  Whatever the data: turning the mount by any angle `a` about the
axis of the first joint and all first joint angles back is a move the solver may make, and it changes no cost - the measured angles
do not hold it, because they enter as starting values only. -/
theorem C135_offset_refuted (s : State) (hs : s.Ok) (a : ℝ) :
    ∃ s' : State, s'.Ok ∧ Solved s s' ∧ (∀ x, place s'.gimbal x = place s.gimbal (turn a x)) ∧
      (∀ t, s'.joints t 0 = s.joints t 0 - a) ∧
      ∀ k2 k3 grids2 grids3 ts rs, problem k2 k3 grids2 grids3 ts = .ok rs → cost s' rs = cost s rs := by
  obtain ⟨m, hm, e⟩ := pose_turn (hs .gimbal _ rfl) a
  let J : ℤ → Fin 3 → ℝ := fun t i => if i = 0 then s.joints t 0 - a else s.joints t i
  have hok : State.Ok { s with gimbal := m, joints := J } := by
    exact state_ok hm (hs .link0 _ rfl) (hs .link1 _ rfl) (hs .effector _ rfl) (hs .cam0 _ rfl) (hs .cam1 _ rfl) (hs .cam2 _ rfl) (hs .cam3 _ rfl)
      (hs .target _ rfl)
  refine ⟨{ s with gimbal := m, joints := J }, hok, C135_free s m s.effector s.link0 s.link1 J ⟨rfl, rfl⟩ ⟨rfl, rfl⟩, e,
    fun t => by simp [J], ?_⟩
  intro k2 k3 g2 g3 ts rs h
  apply cost_congr
  intro r hr
  refine sq_congr hs hok ?_ rfl ?_ (problem_cams h r hr)
  · intro b hb
    rcases hb with rfl | rfl <;> rfl
  · intro t cam x
    show place m (turn (s.joints t 0 - a) _) = place s.gimbal (turn (s.joints t 0) _)
    rw [e, turn_add, show a + (s.joints t 0 - a) = s.joints t 0 by ring]
    rfl

/-- **C135: nor does it determine where the first joint sits.**  Shifting the mount by `d` along the axis and the first link back (its third
coordinate, which the solver may change) changes no cost. -/
theorem C135_slide_refuted (s : State) (hs : s.Ok) (d : ℝ) :
    ∃ s' : State, s'.Ok ∧ Solved s s' ∧ (∀ x, place s'.gimbal x = place s.gimbal (lift d x)) ∧
      (∀ i, s'.link0 i = if i = 2 then s.link0 2 - d else s.link0 i) ∧
      ∀ k2 k3 grids2 grids3 ts rs, problem k2 k3 grids2 grids3 ts = .ok rs → cost s' rs = cost s rs := by
  obtain ⟨m, hm, e⟩ := pose_lift (hs .gimbal _ rfl) d
  let L : Fin 7 → ℝ := fun i => if i = 2 then s.link0 2 - d else s.link0 i
  have hL : IsUnit7 L := by
    have := hs .link0 _ rfl
    unfold IsUnit7 at this ⊢
    simpa [L] using this
  have hpl : ∀ x, place L x = lift (-d) (place s.link0 x) := by
    intro x
    have hsp : spin (L 3) (L 4) (L 5) (L 6) x = spin (s.link0 3) (s.link0 4) (s.link0 5) (s.link0 6) x := by simp [L]
    apply vec3_ext
    · show spin (L 3) (L 4) (L 5) (L 6) x 0 + L 0 = spin (s.link0 3) (s.link0 4) (s.link0 5) (s.link0 6) x 0 + s.link0 0
      rw [hsp]; simp [L]
    · show spin (L 3) (L 4) (L 5) (L 6) x 1 + L 1 = spin (s.link0 3) (s.link0 4) (s.link0 5) (s.link0 6) x 1 + s.link0 1
      rw [hsp]; simp [L]
    · show spin (L 3) (L 4) (L 5) (L 6) x 2 + L 2 = spin (s.link0 3) (s.link0 4) (s.link0 5) (s.link0 6) x 2 + s.link0 2 + -d
      rw [hsp]; simp [L]; ring
  have hok : State.Ok { s with gimbal := m, link0 := L } := by
    exact state_ok hm hL (hs .link1 _ rfl) (hs .effector _ rfl) (hs .cam0 _ rfl) (hs .cam1 _ rfl) (hs .cam2 _ rfl) (hs .cam3 _ rfl)
      (hs .target _ rfl)
  refine ⟨{ s with gimbal := m, link0 := L }, hok, C135_free s m s.effector L s.link1 s.joints ⟨by simp [L], by simp [L]⟩ ⟨rfl, rfl⟩, e,
    fun i => rfl, ?_⟩
  intro k2 k3 g2 g3 ts rs h
  apply cost_congr
  intro r hr
  refine sq_congr hs hok ?_ rfl ?_ (problem_cams h r hr)
  · intro b hb
    rcases hb with rfl | rfl <;> rfl
  · intro t cam x
    show place m (turn (s.joints t 0) (place L _)) = place s.gimbal (turn (s.joints t 0) (place s.link0 _))
    rw [e, hpl, turn_lift, lift_lift, neg_add_cancel, lift_zero]
    rfl

/-! ### The results -/

/-- Everything that is looked up for a timestamp is there. -/
def Complete (d : Loaded) (t : ℤ) : Prop :=
  t ∈ d.joints ∧ (∀ c : Fin 4, c.1 ∈ d.cams ∧ t ∈ d.images c) ∧ t ∈ d.grids 1

theorem lookCam_ok (d : Loaded) (t : ℤ) (c : Fin 4) :
    (lookCam d t c = .ok () ∧ c.1 ∈ d.cams ∧ t ∈ d.grids c ∧ t ∈ d.images c) ∨
    (lookCam d t c = .error .exn ∧ ¬ (c.1 ∈ d.cams ∧ t ∈ d.grids c ∧ t ∈ d.images c)) := by
  unfold lookCam
  by_cases h1 : c.1 ∈ d.cams
  · by_cases h2 : t ∈ d.grids c
    · by_cases h3 : t ∈ d.images c
      · left; simp [h1, h2, h3]
      · right; simp [h1, h2, h3]
    · right; simp [h1, h2]
  · right; simp [h1]

/-- What is looked up. -/
def Found (d : Loaded) (t : ℤ) : Prop := t ∈ d.joints ∧ ∀ c : Fin 4, c.1 ∈ d.cams ∧ t ∈ d.grids c ∧ t ∈ d.images c

theorem inspect_cons (d : Loaded) (quit : ℤ → Bool) (t : ℤ) (rest : List ℤ) :
    (Found d t ∧ inspect d quit (t :: rest) = if quit t then .ok () else inspect d quit rest) ∨
    (¬ Found d t ∧ inspect d quit (t :: rest) = .error .exn) := by
  by_cases hj : t ∈ d.joints
  · have e : inspect d quit (t :: rest) = (lookCam d t 0 >>= fun _ => lookCam d t 1 >>= fun _ => lookCam d t 2 >>= fun _ =>
        lookCam d t 3 >>= fun _ => if quit t then .ok () else inspect d quit rest) := by
      rw [inspect, if_neg (by simpa using hj)]
    rw [e]
    rcases lookCam_ok d t 0 with ⟨e0, h0⟩ | ⟨e0, h0⟩
    · rcases lookCam_ok d t 1 with ⟨e1, h1⟩ | ⟨e1, h1⟩
      · rcases lookCam_ok d t 2 with ⟨e2, h2⟩ | ⟨e2, h2⟩
        · rcases lookCam_ok d t 3 with ⟨e3, h3⟩ | ⟨e3, h3⟩
          · left
            rw [e0, e1, e2, e3]
            refine ⟨⟨hj, fun c => ?_⟩, rfl⟩
            fin_cases c
            · exact h0
            · exact h1
            · exact h2
            · exact h3
          · right; rw [e0, e1, e2, e3]; exact ⟨fun h => h3 (h.2 3), rfl⟩
        · right; rw [e0, e1, e2]; exact ⟨fun h => h2 (h.2 2), rfl⟩
      · right; rw [e0, e1]; exact ⟨fun h => h1 (h.2 1), rfl⟩
    · right; rw [e0]; exact ⟨fun h => h0 (h.2 0), rfl⟩
  · right
    refine ⟨fun h => hj h.1, ?_⟩
    rw [inspect, if_pos hj]

/-- The timestamps that are shown: up to the first one at which 'q' is pressed. -/
def shown (quit : ℤ → Bool) : List ℤ → List ℤ
  | [] => []
  | t :: rest => t :: if quit t then [] else shown quit rest

theorem inspect_shown (d : Loaded) (quit : ℤ → Bool) (ts : List ℤ) :
    (inspect d quit ts = .ok () ↔ ∀ t ∈ shown quit ts, Found d t) ∧ (inspect d quit ts = .ok () ∨ inspect d quit ts = .error .exn) := by
  induction ts with
  | nil => exact ⟨⟨fun _ t ht => (List.not_mem_nil ht).elim, fun _ => rfl⟩, Or.inl rfl⟩
  | cons t ts ih =>
    rcases inspect_cons d quit t ts with ⟨hf, e⟩ | ⟨hf, e⟩
    · rw [e]
      unfold shown
      cases hq : quit t with
      | true => simp [hf]
      | false =>
        refine ⟨?_, by simpa using ih.2⟩
        simp only [Bool.false_eq_true, if_false, List.mem_cons, forall_eq_or_imp]
        rw [ih.1]
        exact ⟨fun h => ⟨hf, h⟩, fun h => h.2⟩
    · rw [e]
      refine ⟨⟨fun h => (by cases h), fun h => absurd (h t (by simp [shown])) hf⟩, Or.inr rfl⟩

theorem shown_sub (quit : ℤ → Bool) (ts : List ℤ) : ∀ t ∈ shown quit ts, t ∈ ts := by
  induction ts with
  | nil => intro t ht; cases ht
  | cons x ts ih =>
    intro t ht
    rcases List.mem_cons.1 ht with rfl | ht
    · simp
    · cases hq : quit x with
      | true => rw [hq] at ht; cases ht
      | false => rw [hq] at ht; exact List.mem_cons_of_mem _ (ih t ht)

/-- **C135, results.**  After the optimisation all timestamps are shown, until 'q' is pressed; the results are written if and only if for
every timestamp shown there are joint angles, the four cameras, an image of each and a grid of camera 1; otherwise the program ends
with an exception, and nothing is written. -/
theorem C135_saved (d : Loaded) (ts sh : List ℤ) (hp : sh.Perm ts) (h0 : ts ≠ []) (hn : ts.length < 2 ^ 31) (quit : ℤ → Bool) :
    (finish d ts sh quit = .ok () ↔ ∀ t ∈ shown quit sh, Complete d t) ∧
    (finish d ts sh quit = .ok () ∨ finish d ts sh quit = .error .exn) := by
  obtain ⟨a, b, c, hs, -⟩ := C125_split ts sh hp h0 hn
  have hfin : finish d ts sh quit = inspect (inserted d ts) quit sh := by
    unfold finish
    rw [hs]; rfl
  rw [hfin]
  refine ⟨?_, (inspect_shown _ _ _).2⟩
  rw [(inspect_shown _ _ _).1]
  constructor
  · intro h t ht
    obtain ⟨f1, f2⟩ := h t ht
    refine ⟨f1, fun c => ⟨(f2 c).1, (f2 c).2.2⟩, ?_⟩
    have := (f2 1).2.1
    simpa [inserted] using this
  · intro h t ht
    obtain ⟨f1, f2, f3⟩ := h t ht
    have hm : t ∈ ts := hp.mem_iff.1 (shown_sub quit sh t ht)
    refine ⟨f1, fun c => ⟨(f2 c).1, ?_, (f2 c).2⟩⟩
    by_cases hc : c = 1
    · subst hc; simpa [inserted] using f3
    · simp [inserted, hc, hm]

/-- **C135: a missing grid of camera 1 loses the results**, although camera 1 is not used by the calibration; those of the cameras that are
used may be missing. -/
theorem C135_lost_refuted : ∃ (d : Loaded) (ts : List ℤ), (∀ t ∈ ts, t ∈ d.joints ∧ ∀ c, t ∈ d.images c) ∧
    (∀ t ∈ ts, t ∈ d.grids 0 ∧ t ∈ d.grids 2 ∧ t ∈ d.grids 3) ∧ finish d ts ts (fun _ => false) = .error .exn ∧
    finish { d with grids := fun c => if c = 1 then ts else [] } ts ts (fun _ => false) = .ok () := by
  refine ⟨⟨[1, 2], [0, 1, 2, 3], fun c => if c = 1 then [1] else [1, 2], fun _ => [1, 2]⟩, [1, 2], by decide, by decide, ?_, ?_⟩
  · have h := C135_saved ⟨[1, 2], [0, 1, 2, 3], fun c => if c = 1 then [1] else [1, 2], fun _ => [1, 2]⟩ [1, 2] [1, 2] (List.Perm.refl _)
      (by simp) (by norm_num) (fun _ => false)
    rcases h.2 with h2 | h2
    · exact absurd ((h.1.1 h2) 2 (by decide)).2.2 (by decide)
    · exact h2
  · rw [(C135_saved _ _ _ (List.Perm.refl _) (by simp) (by norm_num) _).1]
    intro t ht
    have : t = 1 ∨ t = 2 := by simpa [shown] using ht
    rcases this with rfl | rfl <;> refine ⟨by decide, by decide, by decide⟩

end Yac.Gimbal2
