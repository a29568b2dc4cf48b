import Verif.Image.Lemmas

/-! # C119: images of several cameras are paired by timestamp -/

namespace Yac.Image

open Yac.AprilGrid (Grid Row Shot Tag Board detectAll detectThread ok_bind error_bind foldlM_concat)
open Yac.VI (St VEnv bindOk)

variable {D : Type}

/-! ### Histories -/

theorem taken_concat (h : List (Call D)) (c : Call D) : taken (h ++ [c]) = match c with
    | .image cam sh => if started h then taken h ++ [(cam, sh)] else taken h
    | _ => taken h := by
  have hs : ∀ (h : List (Call D)) (b : Bool) (l : List (Int × Shot)),
      (h.foldl takeStep (b, l)).1 = h.foldl startStep b := by
    intro h
    induction h with
    | nil => intro b l; rfl
    | cons c h ih => intro b l; rw [List.foldl_cons, List.foldl_cons]; exact ih _ _
  unfold taken started
  rw [List.foldl_append, List.foldl_cons, List.foldl_nil]
  cases c
  · show (if _ then _ else _) = _
    rw [hs]
  all_goals rfl

theorem started_concat (h : List (Call D)) (c : Call D) : started (h ++ [c]) = match c with
    | .imu _ _ _ => true
    | .reset => false
    | _ => started h := by
  unfold started
  rw [List.foldl_append, List.foldl_cons, List.foldl_nil]
  cases c <;> rfl

/-- What a history leaves in the image buffer. -/
structure After (h : List (Call D)) (s : VSt D) : Prop where
  started : s.base.imuStarted = started h
  holds : Holds s.imgBuf (taken h)

theorem detectBuf_spec (c : Cfg) (hk : 0 < c.scale) {buf H : List (Int × Shot)} (hb : Holds buf H) (found : Int → Grid ℚ)
    (hf : ∀ cam sh, lastOf H cam = some sh → Finds c (given c sh) (found cam)) :
    ∃ gs, detectBuf c buf = .ok gs ∧ SMap.Sorted gs ∧
      ∀ cam, match SMap.find cam gs with
        | none => lastOf H cam = none ∨ (found cam).detected = false
        | some g => (∃ sh, lastOf H cam = some sh) ∧ (found cam).detected = true ∧ Scaled (factor c) (found cam) g := by
  have hmem : ∀ cam, cam ∈ buf.map Prod.fst ↔ ∃ sh, lastOf H cam = some sh := by
    intro cam
    constructor
    · intro hm
      obtain ⟨e, he, rfl⟩ := List.mem_map.mp hm
      exact ⟨e.2, (hb.mem e).mp he⟩
    · rintro ⟨sh, hsh⟩
      exact List.mem_map.mpr ⟨(cam, sh), (hb.mem _).mpr hsh, rfl⟩
  by_cases hs : |c.scale - 1| ≤ 1 / 10000
  · have h0 : ¬ Num.fltcmp c.scale 1 ≠ 0 := by unfold Num.fltcmp; rw [if_pos hs]; simp
    obtain ⟨gs, h1, h2, h3⟩ := AprilGrid.C59_cameras c.board c.srt buf found (by
      intro e he
      have := hf e.1 e.2 ((hb.mem e).mp he)
      unfold Finds given at this
      rw [if_pos hs] at this
      exact this)
    refine ⟨gs, by unfold detectBuf; rw [if_neg h0]; exact h1, h2, fun cam => ?_⟩
    rw [h3]
    unfold factor
    rw [if_pos hs]
    by_cases hc : cam ∈ buf.map Prod.fst ∧ (found cam).detected = true
    · rw [if_pos hc]
      exact ⟨(hmem cam).mp hc.1, hc.2, Scaled.one _⟩
    · rw [if_neg hc]
      by_cases hd : (found cam).detected = true
      · left
        cases hl : lastOf H cam with
        | none => rfl
        | some sh => exact absurd ⟨(hmem cam).mpr ⟨sh, hl⟩, hd⟩ hc
      · right; simpa using hd
  · have h0 : Num.fltcmp c.scale 1 ≠ 0 := by unfold Num.fltcmp; rw [if_neg hs]; split_ifs <;> decide
    have hkeys : (buf.map fun e => (e.1, ({ c.resize c.scale e.2 with ts := e.2.ts } : Shot))).map Prod.fst = buf.map Prod.fst := by
      rw [List.map_map]; rfl
    have hfind : ∀ e ∈ (buf.map fun e => (e.1, ({ c.resize c.scale e.2 with ts := e.2.ts } : Shot))),
        detectThread c.board c.srt e.2.sub e.2.ts e.2.im e.2.tags = .ok (found e.1) := by
      intro e he
      obtain ⟨e0, he0, rfl⟩ := List.mem_map.mp he
      have := hf e0.1 e0.2 ((hb.mem e0).mp he0)
      unfold Finds given at this
      rw [if_neg hs] at this
      exact this
    obtain ⟨gs, h1, h2, h3⟩ := AprilGrid.C59_cameras c.board c.srt
      (buf.map fun e => (e.1, ({ c.resize c.scale e.2 with ts := e.2.ts } : Shot))) found hfind
    rw [hkeys] at h3
    have hin : ∀ e ∈ gs, e.1 ∈ buf.map Prod.fst ∧ (found e.1).detected = true ∧ e.2 = found e.1 := by
      intro e he
      have h4 : SMap.find e.1 gs = some e.2 := (SMap.find_eq_some h2).mpr he
      rw [h3] at h4
      split_ifs at h4 with hc
      injection h4 with h4
      exact ⟨hc.1, hc.2, h4.symm⟩
    obtain ⟨gs', h5, h6, h7⟩ := rescaleAll_spec (c.board.rows * c.board.cols * 4) c.scale gs (by
      intro e he
      obtain ⟨hm, -, he2⟩ := hin e he
      obtain ⟨e0, he0, h8⟩ := List.mem_map.mp hm
      rw [he2, ← h8]
      exact thread_len (hf e0.1 e0.2 ((hb.mem e0).mp he0)))
    refine ⟨gs', ?_, ?_, ?_⟩
    · unfold detectBuf
      rw [if_pos h0, if_neg (by linarith), h1, ok_bind]
      exact h5
    · have e : ∀ l : List (Int × Grid ℚ), SMap.Sorted l ↔ (l.map Prod.fst).Pairwise (· < ·) := by
        intro l; unfold SMap.Sorted; rw [List.pairwise_map]
      rw [e, h6, ← e]
      exact h2
    · intro cam
      have h8 := h7 cam
      rw [h3] at h8
      unfold factor
      rw [if_neg hs]
      by_cases hc : cam ∈ buf.map Prod.fst ∧ (found cam).detected = true
      · rw [if_pos hc] at h8
        obtain ⟨g', h9, h10⟩ := h8
        rw [h9]
        exact ⟨(hmem cam).mp hc.1, hc.2, h10⟩
      · rw [if_neg hc] at h8
        rw [h8]
        by_cases hd : (found cam).detected = true
        · left
          cases hl : lastOf H cam with
          | none => rfl
          | some sh => exact absurd ⟨(hmem cam).mpr ⟨sh, hl⟩, hd⟩ hc
        · right; simpa using hd

theorem addImage_after {c : Cfg} {s t : VSt D} {h : List (Call D)} {cam : Int} {sh : Shot} {r : Bool}
    (ha : After h s) (e : addImage c s cam sh = .ok (t, r)) : After (h ++ [.image cam sh]) t := by
  unfold addImage at e
  by_cases h0 : s.base.imuStarted = false
  · rw [if_pos h0] at e
    simp only [Except.ok.injEq, Prod.mk.injEq] at e
    obtain ⟨rfl, -⟩ := e
    have h1 : started h = false := ha.started ▸ h0
    refine ⟨by rw [started_concat]; exact ha.started, ?_⟩
    rw [taken_concat]
    simp only [h1]
    exact ha.holds
  · rw [if_neg h0] at e
    have h1 : started h = true := by rw [← ha.started]; simpa using h0
    have hh : Holds (put s.imgBuf cam sh) (taken (h ++ [Call.image cam sh])) := by
      rw [taken_concat]
      simp only [h1]
      exact ha.holds.put cam sh
    by_cases h2 : ready sh.ts (put s.imgBuf cam sh) = false
    · rw [if_pos h2] at e
      simp only [Except.ok.injEq, Prod.mk.injEq] at e
      obtain ⟨rfl, -⟩ := e
      exact ⟨by rw [started_concat]; exact ha.started, hh⟩
    · rw [if_neg h2] at e
      obtain ⟨gs, -, e2⟩ := bindOk e
      simp only [Except.ok.injEq, Prod.mk.injEq] at e2
      obtain ⟨rfl, -⟩ := e2
      exact ⟨by rw [started_concat]; exact ha.started, hh⟩

theorem step_after {env : VEnv ℚ D} {c : Cfg} {s t : VSt D} {h : List (Call D)} {x : Call D}
    (ha : After h s) (e : step env c s x = .ok t) : After (h ++ [x]) t := by
  cases x with
  | image cam sh =>
    obtain ⟨⟨u, r⟩, h1, h2⟩ := bindOk e
    injection h2 with h2
    subst h2
    exact addImage_after ha h1
  | grid cam g =>
    unfold step at e
    injection e with e
    subst e
    refine ⟨?_, by rw [taken_concat]; exact ha.holds⟩
    rw [started_concat, ← show s.base.imuStarted = _ from ha.started]
    show (VI.addGrid s.base cam g).imuStarted = _
    unfold VI.addGrid
    split_ifs <;> rfl
  | imu ts a w =>
    obtain ⟨⟨u, r⟩, h1, h2⟩ := bindOk e
    injection h2 with h2
    subst h2
    refine ⟨?_, by rw [taken_concat]; exact ha.holds⟩
    rw [started_concat]
    show u.imuStarted = true
    unfold VI.addImu at h1
    simp only at h1
    split_ifs at h1
    · simp only [Except.ok.injEq, Prod.mk.injEq] at h1
      rw [← h1.1]
    · exact VI.process_keeps h1
  | reset =>
    unfold step at e
    injection e with e
    subst e
    exact ⟨by rw [started_concat]; rfl, by rw [taken_concat]; exact ha.holds⟩

/-- A calibrator that has received nothing. -/
def Fresh (s : VSt D) : Prop := s.base.imuStarted = false ∧ s.imgBuf = []

theorem run_after {env : VEnv ℚ D} {c : Cfg} {s0 : VSt D} (h0 : Fresh s0) : ∀ (h : List (Call D)) {s : VSt D},
    run env c s0 h = .ok s → After h s := by
  intro h
  induction h using List.reverseRecOn with
  | nil =>
    intro s e
    injection e with e
    subst e
    exact ⟨h0.1, by rw [h0.2]; exact Holds.nil⟩
  | append_singleton l x ih =>
    intro s e
    unfold run at e
    rw [foldlM_concat] at e
    obtain ⟨u, h1, h2⟩ := bindOk e
    exact step_after (ih h1) h2

/-- C119: images that arrive before the first IMU sample (since the start or the last reset) are refused and leave no
trace. -/
theorem C119_before_imu (env : VEnv ℚ D) (c : Cfg) (s0 s : VSt D) (h0 : Fresh s0) (h : List (Call D))
    (hr : run env c s0 h = .ok s) (hs : started h = false) (cam : Int) (sh : Shot) :
    addImage c s cam sh = .ok (s, false) := by
  have := (run_after h0 h hr).started
  unfold addImage
  rw [if_pos (by rw [this, hs])]

/-- C119: after any history of calls, an image is answered with `true` exactly when no camera that has sent an image
so far has only older ones; then the grids waiting for the next IMU sample are exactly those found in the latest image
of every camera, with pixels in full resolution, and otherwise they stay as they were. -/
theorem C119_image (env : VEnv ℚ D) (c : Cfg) (hk : 0 < c.scale) (s0 s : VSt D) (h0 : Fresh s0) (h : List (Call D))
    (hr : run env c s0 h = .ok s) (hs : started h = true) (cam : Int) (sh : Shot) (found : Int → Grid ℚ)
    (hf : ∀ cam' sh', lastOf (taken h ++ [(cam, sh)]) cam' = some sh' → Finds c (given c sh') (found cam')) :
    ∃ t r, addImage c s cam sh = .ok (t, r) ∧
      (r = true ↔ ∀ cam' sh', lastOf (taken h ++ [(cam, sh)]) cam' = some sh' → sh.ts ≤ sh'.ts) ∧
      (r = false → t.base = s.base) ∧
      (r = true → (∃ gs, t.base = { s.base with gridBuf := gs }) ∧ SMap.Sorted t.base.gridBuf ∧
        ∀ cam', match SMap.find cam' t.base.gridBuf with
          | none => lastOf (taken h ++ [(cam, sh)]) cam' = none ∨ (found cam').detected = false
          | some g => (∃ sh', lastOf (taken h ++ [(cam, sh)]) cam' = some sh') ∧ (found cam').detected = true ∧
              Scaled (factor c) (found cam') g) := by
  have ha := run_after h0 h hr
  have h1 : ¬ s.base.imuStarted = false := by rw [ha.started, hs]; simp
  have hh := ha.holds.put cam sh
  unfold addImage
  rw [if_neg h1]
  by_cases h2 : ready sh.ts (put s.imgBuf cam sh) = false
  · rw [if_pos h2]
    refine ⟨_, _, rfl, ?_, fun _ => rfl, fun e => by cases e⟩
    rw [← hh.ready, h2]
  · rw [if_neg h2]
    obtain ⟨gs, h3, h4, h5⟩ := detectBuf_spec c hk hh found hf
    rw [h3, ok_bind]
    refine ⟨_, _, rfl, ?_, fun e => (by cases e), fun _ => ⟨⟨gs, rfl⟩, h4, h5⟩⟩
    rw [← hh.ready]
    simp only [true_iff]
    simpa using h2

theorem lastOf_mem {h : List (Int × Shot)} {cam : Int} {sh : Shot} (e : lastOf h cam = some sh) : (cam, sh) ∈ h := by
  unfold lastOf at e
  obtain ⟨x, h1, h2⟩ := Option.map_eq_some_iff.mp e
  have := List.mem_of_getLast? h1
  rw [List.mem_filter] at this
  obtain ⟨h3, h4⟩ := this
  have : x.1 = cam := by simpa using h4
  subst this; subst h2
  exact h3

/-- C119: when timestamps never go back, `true` means that the latest images of all cameras have the same timestamp. -/
theorem C119_same_time (env : VEnv ℚ D) (c : Cfg) (s0 s t : VSt D) (h0 : Fresh s0) (h : List (Call D))
    (hr : run env c s0 h = .ok s) (cam : Int) (sh : Shot)
    (hmono : ∀ e ∈ taken h, e.2.ts ≤ sh.ts) (he : addImage c s cam sh = .ok (t, true)) :
    ∀ cam' sh', lastOf (taken h ++ [(cam, sh)]) cam' = some sh' → sh'.ts = sh.ts := by
  have ha := run_after h0 h hr
  have hh := ha.holds.put cam sh
  intro cam' sh' hl
  unfold addImage at he
  by_cases h1 : s.base.imuStarted = false
  · rw [if_pos h1] at he; cases he
  rw [if_neg h1] at he
  by_cases h2 : ready sh.ts (put s.imgBuf cam sh) = false
  · rw [if_pos h2] at he; cases he
  · have h4 : sh'.ts ≤ sh.ts := by
      rcases List.mem_append.mp (lastOf_mem hl) with hm | hm
      · exact hmono _ hm
      · simp only [List.mem_singleton, Prod.mk.injEq] at hm
        rw [hm.2]
    have h5 := (hh.ready sh.ts).mp (by simpa using h2) cam' sh' hl
    omega

/-- C119: once every camera has sent an image, a later frame is complete exactly when the last of the cameras has
delivered it, in whatever order they do. -/
theorem C119_frame (env : VEnv ℚ D) (c : Cfg) (s0 s t : VSt D) (h0 : Fresh s0) (h : List (Call D)) (hs : started h = true)
    (cams : List Int) (hc : ∀ cam, (∃ sh, lastOf (taken h) cam = some sh) ↔ cam ∈ cams)
    (ts : Int) (hold : ∀ e ∈ taken h, e.2.ts < ts) (shot : Int → Shot) (hts : ∀ cam, (shot cam).ts = ts)
    (p q : List Int) (cam : Int) (hp : (p ++ cam :: q).Perm cams) (hd : cams.Nodup) (r : Bool)
    (hr : run env c s0 (h ++ p.map fun k => Call.image k (shot k)) = .ok s)
    (he : addImage c s cam (shot cam) = .ok (t, r)) : r = true ↔ q = [] := by
  have ha := run_after h0 _ hr
  have hT : ∀ p : List Int, taken (h ++ p.map fun k => Call.image (D := D) k (shot k)) = taken h ++ p.map fun k => (k, shot k) := by
    intro p
    induction p using List.reverseRecOn with
    | nil => simp
    | append_singleton l x ih =>
      have hst : ∀ l : List Int, started (h ++ l.map fun k => Call.image (D := D) k (shot k)) = true := by
        intro l
        induction l using List.reverseRecOn with
        | nil => simpa using hs
        | append_singleton l x ih =>
          rw [List.map_append, ← List.append_assoc, List.map_cons, List.map_nil, started_concat]
          exact ih
      rw [List.map_append, ← List.append_assoc, List.map_cons, List.map_nil, taken_concat]
      simp only [hst, if_true]
      rw [ih, List.map_append, ← List.append_assoc]
      rfl
  have hS : started (h ++ p.map fun k => Call.image (D := D) k (shot k)) = true := by
    clear he hr ha hp
    induction p using List.reverseRecOn with
    | nil => simpa using hs
    | append_singleton l x ih =>
      rw [List.map_append, ← List.append_assoc, List.map_cons, List.map_nil, started_concat]
      exact ih
  have hh := ha.holds.put cam (shot cam)
  rw [hT] at hh
  -- the latest image of a camera
  have hl : ∀ (l : List Int) (k : Int), lastOf (taken h ++ l.map fun k => (k, shot k)) k =
      if k ∈ l then some (shot k) else lastOf (taken h) k := by
    intro l
    induction l using List.reverseRecOn with
    | nil => intro k; simp
    | append_singleton l x ih =>
      intro k
      rw [List.map_append, ← List.append_assoc, List.map_cons, List.map_nil, lastOf_concat, ih]
      by_cases hk : k = x
      · subst hk; simp
      · simp [hk]
  have hread := hh.ready (shot cam).ts
  have e1 : taken h ++ p.map (fun k => (k, shot k)) ++ [(cam, shot cam)] = taken h ++ (p ++ [cam]).map fun k => (k, shot k) := by
    simp
  rw [e1] at hread
  have hrr : r = ready (shot cam).ts (put s.imgBuf cam (shot cam)) := by
    unfold addImage at he
    rw [if_neg (by rw [ha.started, hS]; simp)] at he
    split_ifs at he with h2
    · simp only [Except.ok.injEq, Prod.mk.injEq] at he
      rw [h2, he.2]
    · obtain ⟨gs, -, e2⟩ := bindOk he
      simp only [Except.ok.injEq, Prod.mk.injEq] at e2
      rw [← e2.2]
      symm
      simpa using h2
  rw [hrr, hread]
  constructor
  · intro hall
    cases hq : q with
    | nil => rfl
    | cons k q' =>
      exfalso
      have hk : k ∈ cams := hp.subset (by rw [hq]; simp)
      obtain ⟨sh, hsh⟩ := (hc k).mpr hk
      have hnp : k ∉ p ++ [cam] := by
        have hnd := hp.nodup_iff.mpr hd
        rw [hq, show p ++ cam :: k :: q' = (p ++ [cam]) ++ k :: q' by simp, List.nodup_append] at hnd
        intro hm
        exact hnd.2.2 k hm k (by simp) rfl
      have h7 := hall k sh (by rw [hl, if_neg hnp]; exact hsh)
      have h8 := hold _ (lastOf_mem hsh)
      rw [hts] at h7
      simp only at h8
      omega
  · rintro rfl k sh hk
    rw [hl] at hk
    by_cases hm : k ∈ p ++ [cam]
    · rw [if_pos hm] at hk
      injection hk with hk
      rw [← hk, hts, hts]
    · exfalso
      rw [if_neg hm] at hk
      exact hm (hp.mem_iff.mpr ((hc k).mp ⟨sh, hk⟩))

/-- C119: the very first image is answered with `true` whatever the number of cameras, as the code only looks at cameras
that have sent something. -/
theorem C119_waits_refuted (env : VEnv ℚ D) (c : Cfg) (s0 s t : VSt D) (h0 : Fresh s0) (h : List (Call D))
    (hr : run env c s0 h = .ok s) (hs : started h = true) (hn : taken h = []) (cam : Int) (sh : Shot) (r : Bool)
    (he : addImage c s cam sh = .ok (t, r)) : r = true ∧ ∀ cam', cam' ≠ cam → SMap.find cam' t.imgBuf = none := by
  have ha := run_after h0 _ hr
  have hh := ha.holds.put cam sh
  rw [hn] at hh
  have hrd : ready sh.ts (put s.imgBuf cam sh) = true := by
    rw [hh.ready]
    intro c' sh' hl
    rw [lastOf_concat] at hl
    split_ifs at hl with hc
    · injection hl with hl; rw [hl]
    · cases hl
  unfold addImage at he
  rw [if_neg (by rw [ha.started, hs]; simp), if_neg (by rw [hrd]; simp)] at he
  obtain ⟨gs, -, e2⟩ := bindOk he
  simp only [Except.ok.injEq, Prod.mk.injEq] at e2
  obtain ⟨rfl, rfl⟩ := e2
  refine ⟨rfl, fun cam' hc => ?_⟩
  show SMap.find cam' (put s.imgBuf cam sh) = none
  rw [hh.find, lastOf_concat, if_neg hc]
  rfl

/-- C119: a camera that stops sending blocks all others: every later image is answered with `false`. -/
theorem C119_dead_camera (env : VEnv ℚ D) (c : Cfg) (s0 s : VSt D) (h0 : Fresh s0) (h : List (Call D))
    (hr : run env c s0 h = .ok s) (dead : Int) (last : Shot) (hd : lastOf (taken h) dead = some last)
    (cam : Int) (hc : cam ≠ dead) (sh : Shot) (ht : last.ts < sh.ts) :
    ∃ t, addImage c s cam sh = .ok (t, false) ∧ t.base = s.base ∧ SMap.find dead t.imgBuf = some last := by
  have ha := run_after h0 _ hr
  have hh := ha.holds.put cam sh
  unfold addImage
  by_cases h1 : s.base.imuStarted = false
  · rw [if_pos h1]
    exact ⟨s, rfl, rfl, by rw [ha.holds.find]; exact hd⟩
  · rw [if_neg h1]
    have hl : lastOf (taken h ++ [(cam, sh)]) dead = some last := by
      rw [lastOf_concat, if_neg (fun e => hc e.symm)]; exact hd
    have h2 : ready sh.ts (put s.imgBuf cam sh) = false := by
      by_contra hne
      have := (hh.ready sh.ts).mp (by simpa using hne) dead last hl
      omega
    rw [if_pos h2]
    exact ⟨_, rfl, rfl, by show SMap.find dead (put s.imgBuf cam sh) = _; rw [hh.find]; exact hl⟩

/-- C119: `reset` keeps the images, so after a restart with an earlier clock the first image of one camera is paired
with the image another camera sent before the reset. -/
theorem C119_reset_refuted (env : VEnv ℚ D) (c : Cfg) (hk : 0 < c.scale) (s0 s : VSt D) (h0 : Fresh s0)
    (h : List (Call D)) (ts : Int) (a w : D) (hr : run env c s0 (h ++ [.reset, .imu ts a w]) = .ok s)
    (cam other : Int) (hne : other ≠ cam) (sh old : Shot) (hold : lastOf (taken h) other = some old)
    (hlate : ∀ e ∈ taken h, sh.ts < e.2.ts) (found : Int → Grid ℚ)
    (hf : ∀ cam' sh', lastOf (taken h ++ [(cam, sh)]) cam' = some sh' → Finds c (given c sh') (found cam'))
    (hd : (found other).detected = true) :
    ∃ t g, addImage c s cam sh = .ok (t, true) ∧ SMap.find other t.base.gridBuf = some g ∧
      Scaled (factor c) (found other) g ∧ sh.ts < old.ts := by
  have hT : taken (h ++ [Call.reset, Call.imu ts a w]) = taken h := by
    rw [show h ++ [Call.reset, Call.imu ts a w] = (h ++ [Call.reset]) ++ [Call.imu ts a w] by simp, taken_concat, taken_concat]
  have hS : started (h ++ [Call.reset, Call.imu ts a w]) = true := by
    rw [show h ++ [Call.reset, Call.imu ts a w] = (h ++ [Call.reset]) ++ [Call.imu ts a w] by simp, started_concat]
  obtain ⟨t, r, h1, h2, -, h3⟩ := C119_image env c hk s0 s h0 _ hr hS cam sh found (by rw [hT]; exact hf)
  rw [hT] at h2 h3
  have hrt : r = true := by
    rw [h2]
    intro c' sh' hl
    rcases List.mem_append.mp (lastOf_mem hl) with hm | hm
    · exact le_of_lt (hlate _ hm)
    · simp only [List.mem_singleton, Prod.mk.injEq] at hm
      rw [hm.2]
  obtain ⟨-, -, h4⟩ := h3 hrt
  have h5 := h4 other
  have hl : lastOf (taken h ++ [(cam, sh)]) other = some old := by rw [lastOf_concat, if_neg hne]; exact hold
  have hts : sh.ts < old.ts := hlate _ (lastOf_mem hold)
  subst hrt
  cases hfd : SMap.find other t.base.gridBuf with
  | none =>
    rw [hfd] at h5
    simp only [hl, hd, reduceCtorEq, or_self, Bool.true_eq_false] at h5
  | some g =>
    rw [hfd] at h5
    exact ⟨t, g, h1, hfd, h5.2.2, hts⟩

/-- C119: a frame in which one of the cameras does not see the target is lost: the grids the other cameras found wait
in the buffer, and no IMU sample makes a view of them. -/
theorem C119_partial_frame (env : VEnv ℚ D) (c : Cfg) (s0 s t : VSt D) (h0 : Fresh s0) (h : List (Call D))
    (hk : 0 < c.scale) (hr : run env c s0 h = .ok s) (cam : Int) (sh : Shot) (he : addImage c s cam sh = .ok (t, true))
    (hcams : SMap.Sorted s.base.cams)
    (found : Int → Grid ℚ)
    (hf : ∀ cam' sh', lastOf (taken h ++ [(cam, sh)]) cam' = some sh' → Finds c (given c sh') (found cam'))
    (honly : ∀ cam' sh', lastOf (taken h ++ [(cam, sh)]) cam' = some sh' → (SMap.find cam' s.base.cams).isSome)
    (blind : Int) (hb : (SMap.find blind s.base.cams).isSome) (hbl : (found blind).detected = false)
    (ts : Int) (a w : D) :
    ∃ u, VI.addImu env t.base ts a w = .ok (u, false) ∧ u.views = t.base.views ∧ u.gridBuf = t.base.gridBuf := by
  have hs : started h = true := by
    by_contra hne
    have := C119_before_imu env c s0 s h0 h hr (by simpa using hne) cam sh
    rw [this] at he
    cases he
  obtain ⟨t', r, h1, -, -, h3⟩ := C119_image env c hk s0 s h0 h hr hs cam sh found hf
  rw [he] at h1
  simp only [Except.ok.injEq, Prod.mk.injEq] at h1
  obtain ⟨rfl, rfl⟩ := h1
  obtain ⟨⟨gs, hgs⟩, h4, h5⟩ := h3 rfl
  have hc : t.base.cams = s.base.cams := by rw [hgs]
  have hlt : t.base.gridBuf.length < t.base.cams.length := by
    have hsub : (blind :: t.base.gridBuf.map Prod.fst) ⊆ s.base.cams.map Prod.fst := by
      intro k hkm
      have key : ∀ k, (SMap.find k s.base.cams).isSome → k ∈ s.base.cams.map Prod.fst := by
        intro k hk
        obtain ⟨v, hv⟩ := Option.isSome_iff_exists.mp hk
        exact List.mem_map.mpr ⟨(k, v), (SMap.find_eq_some hcams).mp hv, rfl⟩
      rcases List.mem_cons.mp hkm with rfl | hkm
      · exact key _ hb
      · obtain ⟨e, he', rfl⟩ := List.mem_map.mp hkm
        have h6 := h5 e.1
        rw [(SMap.find_eq_some h4).mpr he'] at h6
        obtain ⟨⟨sh', hsh'⟩, -⟩ := h6
        exact key _ (honly _ _ hsh')
    have hnd : (blind :: t.base.gridBuf.map Prod.fst).Nodup := by
      rw [List.nodup_cons]
      refine ⟨?_, ?_⟩
      · intro hm
        obtain ⟨e, he', h7⟩ := List.mem_map.mp hm
        have h6 := h5 e.1
        rw [(SMap.find_eq_some h4).mpr he'] at h6
        rw [h7] at h6
        have h8 := h6.2.1
        rw [hbl] at h8
        cases h8
      · exact (List.pairwise_map.mpr (h4 : t.base.gridBuf.Pairwise fun a b => a.1 < b.1)).imp (fun h => ne_of_lt h)
    have := (hnd.subperm hsub).length_le
    simp only [List.length_cons, List.length_map] at this
    rw [hc]
    omega
  unfold VI.addImu
  refine ⟨_, if_pos (by show t.base.gridBuf.length ≠ t.base.cams.length; omega), rfl, rfl⟩

end Yac.Image
