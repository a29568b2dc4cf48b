import Verif.VI.Props

/-!
# When the calls of the visual-inertial calibrator succeed, what a view holds, and `reset`
-/

namespace Yac.VI

open Yac.AprilGrid (Grid)
open Yac.Solver (Problem insSet mem_insSet nodup_insSet nodup_map_inj)

variable {K D : Type} [DecidableEq K]

/-! ### Trimming never fails -/

/-- The three queues of the IMU buffer have the same length. -/
def EqLen (b : Stream.Imu D) : Prop := b.acc.length = b.ts.length ∧ b.gyr.length = b.ts.length

theorem EqLen.add {b : Stream.Imu D} (h : EqLen b) (t : Int) (a g : D) : EqLen (b.add t a g) := by
  simp [EqLen, Stream.Imu.add, h.1, h.2]

theorem at_ok {α : Type} {l : List α} {k : Nat} (h : k < l.length) : Stream.at? l k = .ok l[k] := by
  simp [Stream.at?, h]

theorem pushSample_ok {b new : Stream.Imu D} (hb : EqLen b) (hn : EqLen new) {k : Nat}
    (hk : k < b.ts.length) : ∃ n', Stream.pushSample b k new = .ok n' ∧ EqLen n' := by
  unfold Stream.pushSample
  rw [at_ok hk, at_ok (by rw [hb.1]; exact hk), at_ok (by rw [hb.2]; exact hk)]
  exact ⟨_, rfl, hn.add _ _ _⟩

theorem trimStep_ok {b new : Stream.Imu D} (hb : EqLen b) (hn : EqLen new) (t : Int) {k : Nat}
    (hk : k < b.ts.length) : ∃ n', Stream.trimStep b t new k = .ok n' ∧ EqLen n' := by
  unfold Stream.trimStep
  rw [at_ok hk, AprilGrid.ok_bind]
  by_cases h1 : t ≤ b.ts[k]
  · rw [if_pos h1]
    by_cases h2 : 0 < k ∧ new.ts.length = 0
    · rw [if_pos h2]
      obtain ⟨n1, e1, l1⟩ := pushSample_ok hb hn (k := k - 1) (by omega)
      rw [e1, AprilGrid.ok_bind]
      exact pushSample_ok hb l1 hk
    · rw [if_neg h2, AprilGrid.ok_bind]
      exact pushSample_ok hb hn hk
  · rw [if_neg h1]
    exact ⟨new, rfl, hn⟩

theorem trim_ok {b : Stream.Imu D} (hb : EqLen b) (t : Int) :
    ∃ b', b.trim t = .ok b' ∧ EqLen b' := by
  unfold Stream.Imu.trim
  split
  · exact ⟨b, rfl, hb⟩
  · split_ifs
    · exact ⟨b, rfl, hb⟩
    · have : ∀ n ≤ b.ts.length, ∃ b', (List.range n).foldlM (Stream.trimStep b t) {} = .ok b' ∧
          EqLen b' := by
        intro n
        induction n with
        | zero => intro _; exact ⟨{}, rfl, rfl, rfl⟩
        | succ n ih =>
          intro hn
          obtain ⟨b1, e1, l1⟩ := ih (by omega)
          rw [List.range_succ, AprilGrid.foldlM_concat, e1, AprilGrid.ok_bind]
          exact trimStep_ok hb l1 t (by omega)
      exact this _ (le_refl _)

theorem trimImu_len {s t : St K D} {ts : Int} (hl : EqLen s.imu) (h : trimImu s ts = .ok t) :
    EqLen t.imu := by
  unfold trimImu at h
  split_ifs at h
  · obtain ⟨b, h1, h2⟩ := bindOk h
    injection h2 with h2
    subst h2
    obtain ⟨b', e, l⟩ := trim_ok hl ts
    rw [e] at h1
    injection h1 with h1
    exact h1 ▸ l
  · injection h with h
    exact h ▸ hl

theorem process_len {env : VEnv K D} {s t : St K D} {grids : List (Int × Grid K)} {b : Bool}
    (hl : EqLen s.imu) (h : process env s grids = .ok (t, b)) : EqLen t.imu := by
  unfold process at h
  split_ifs at h with hc
  · obtain ⟨s1, h1, h2⟩ := bindOk h
    simp only [Except.ok.injEq, Prod.mk.injEq] at h2
    obtain ⟨rfl, -⟩ := h2
    obtain ⟨g, t', -, -, -, -, h3, rfl⟩ := initVI_eq h1
    obtain ⟨fids, n, p, -, -, rfl⟩ := newView_eq h3
    exact hl
  · obtain ⟨s1, h1, h2⟩ := bindOk h
    obtain ⟨s2, h3, h4⟩ := bindOk h2
    simp only [Except.ok.injEq, Prod.mk.injEq] at h4
    obtain ⟨rfl, -⟩ := h4
    rw [(slide_views h3).2.2.2.2.2.1]
    rcases addView_eq h1 with ⟨rfl, -⟩ | ⟨cg, u1, u2, -, -, hne, b1, -, b2, b3⟩
    · exact hl
    · refine trimImu_len ?_ b3
      obtain ⟨fids, n, p, -, -, rfl⟩ := newView_eq b1
      obtain ⟨l, vj, hl'⟩ := list_concat_of_ne hne
      obtain ⟨out, -, rfl⟩ := linkViews_eq (l := l) (vj := vj)
        (vk := ⟨s.next, cg.2.timestamp, grids, fids, none⟩) (by simp [hl']) b2
      exact hl

theorem Run.len {env : VEnv K D} {s t : St K D} {cs : List (Call K D)} (h : Run env s cs t)
    (hs : EqLen s.imu) : EqLen t.imu := by
  induction h with
  | nil => exact hs
  | @snoc cs t c u _ h2 ih =>
    cases c with
    | camera i fp fe =>
      simp only [VI.call, addCamera] at h2
      by_cases hc : (SMap.find i t.cams).isSome
      · rw [if_pos hc] at h2; cases h2
      · rw [if_neg hc] at h2
        injection h2 with h2
        subst h2
        exact ih
    | grid cam g =>
      injection h2 with h2
      subst h2
      rw [(addGrid_fields t cam g).2.2.2.2.1]
      exact ih
    | imu ts a w =>
      obtain ⟨b, hb⟩ := call_imu h2
      unfold addImu at hb
      simp only at hb
      split_ifs at hb with hc
      · simp only [Except.ok.injEq, Prod.mk.injEq] at hb
        obtain ⟨rfl, -⟩ := hb
        exact ih.add _ _ _
      · exact process_len (s := { t with imu := t.imu.add ts a w, imuStarted := true, gridBuf := [] })
          (ih.add _ _ _) hb
    | reset =>
      injection h2 with h2
      subst h2
      exact ⟨rfl, rfl⟩

/-! ### Success -/

theorem fid_blocks_nodup (f : Fid K) : (Res.fid f).blocks.Nodup := by
  simp [Res.blocks]

theorem addResidual_some {p : Problem Par (Res K)} {r : Res K} (h : r.blocks.Nodup) :
    ∃ out, addResidual p r = .ok out := by
  unfold addResidual
  rw [if_pos h]
  exact ⟨_, rfl⟩

theorem addFid_ok (cam : Int) (num : Nat) (acc : List (Fid K) × Problem Par (Res K) × Nat)
    (m : (Int × Int) × (K × K)) : ∃ acc', addFid cam num acc m = .ok acc' := by
  unfold addFid
  obtain ⟨out, e⟩ := addResidual_some (p := acc.2.1) (fid_blocks_nodup
    ⟨acc.2.2, cam, num, m.1.1, m.1.2, m.2⟩)
  rw [e]
  exact ⟨_, rfl⟩

theorem foldlM_some {α β : Type} (f : β → α → Except Fault β) (l : List α)
    (h : ∀ a ∈ l, ∀ b, ∃ b', f b a = .ok b') (b : β) : ∃ b', l.foldlM f b = .ok b' := by
  induction l generalizing b with
  | nil => exact ⟨b, rfl⟩
  | cons a l ih =>
    obtain ⟨b1, e1⟩ := h a List.mem_cons_self b
    rw [List.foldlM_cons, e1]
    exact ih (fun x hx => h x (List.mem_cons_of_mem _ hx)) b1

/-- The measurements of every grid can be read, and its camera is known. -/
def GridsOk (env : VEnv K D) (s : St K D) (grids : List (Int × Grid K)) : Prop :=
  ∀ cg ∈ grids, (∃ ms, env.meas s.enableMarg cg.2 = .ok ms) ∧ (SMap.find cg.1 s.cams).isSome ∧
    (cg.2.detected = true → env.estimate cg.2 = true)

theorem newView_ok {env : VEnv K D} {s : St K D} {grids : List (Int × Grid K)} (ts : Int)
    (h : GridsOk env s grids) : ∃ t, newView env s ts grids = .ok t := by
  unfold newView
  obtain ⟨out, e⟩ := foldlM_some (addGridRes env s.enableMarg s.cams s.next) grids (by
    intro cg hcg acc
    obtain ⟨⟨ms, hm⟩, hk, -⟩ := h cg hcg
    unfold addGridRes
    rw [hm, AprilGrid.ok_bind, if_neg (by
      rintro ⟨-, hn⟩
      rw [Option.isNone_iff_eq_none] at hn
      rw [hn] at hk; cases hk)]
    exact foldlM_some _ _ (fun m _ acc => addFid_ok _ _ _ _) _)
    ([], addParam (addParam s.prob (.pose s.next)) (.sb s.next), s.next + 1)
  rw [e]
  exact ⟨_, rfl⟩

theorem linkViews_ok {s : St K D} {l : List (View K)} {vj vk : View K}
    (he : s.views = l ++ [vj, vk]) (hne : vj.num ≠ vk.num) : ∃ t, linkViews s = .ok t := by
  unfold linkViews
  have : s.views.reverse = vk :: vj :: l.reverse := by simp [he]
  rw [this]
  obtain ⟨out, e⟩ := addResidual_some (p := s.prob) (r := (.imu ⟨s.next, vj.num, vk.num⟩ : Res K))
    (by simp [Res.blocks, hne])
  simp only [e]
  exact ⟨_, rfl⟩

theorem marginalize_ok {s : St K D} (h : WF s) (hl : 2 ≤ s.views.length) :
    ∃ t, marginalize s = .ok t := by
  unfold marginalize
  have hlk := h.linked
  cases hv : s.views with
  | nil => rw [hv] at hl; simp at hl
  | cons v rest =>
    rw [hv] at hlk
    cases rest with
    | nil => rw [hv] at hl; simp at hl
    | cons w l =>
      obtain ⟨⟨n, hn⟩, hvw, -⟩ := hlk
      have hd : ∃ p, dropMarg s = .ok p := by
        unfold dropMarg
        cases hm : s.marg with
        | none => exact ⟨_, rfl⟩
        | some m =>
          have : m.1 ∈ s.prob.rblocks.map Prod.fst :=
            List.mem_map.2 ⟨m, (h.marg m.1 m.2 hm).1, rfl⟩
          simp only [removeResidual, if_pos this]
          exact ⟨_, rfl⟩
      obtain ⟨p, hp⟩ := hd
      simp only [hp, AprilGrid.ok_bind, margInput, hn]
      set rs := (s.marg.map Prod.snd).toList ++ [Res.imu ⟨n, v.num, w.num⟩] ++ v.fids.map Res.fid
        with hrs
      have himu : Res.imu ⟨n, v.num, w.num⟩ ∈ rs := by simp [hrs]
      have h1 : Par.pose v.num ∈ (seenParams rs).filter (isFlagged v) := by
        rw [List.mem_filter, mem_seenParams]
        exact ⟨⟨_, himu, by simp [Res.blocks]⟩, by simp [isFlagged]⟩
      have h2 : Par.pose w.num ∈ remainParams s (isFlagged v) rs := by
        rw [mem_remainParams]
        refine ⟨⟨_, himu, by simp [Res.blocks]⟩, ?_, rfl, by simp⟩
        simp [isFlagged]; omega
      rw [if_neg (by
        rintro (e | e)
        · rw [e] at h1; cases h1
        · rw [e] at h2; cases h2)]
      obtain ⟨out, e⟩ := addResidual_some
        (p := ((seenParams rs).filter (isFlagged v)).foldl dropParam p)
        (r := (.marg s.next (remainParams s (isFlagged v) rs) : Res K))
        (nodup_remainParams s (isFlagged v) rs)
      rw [e]
      exact ⟨_, rfl⟩

theorem addView_good {env : VEnv K D} {s : St K D} {grids : List (Int × Grid K)} (h : WF s)
    (hlen : EqLen s.imu) (hg : GridsOk env s grids) (h5 : 5 ≤ s.imu.size) :
    ∃ t, addView env s grids = .ok t := by
  unfold addView
  by_cases hi : s.initialized = false
  · rw [if_pos hi]; exact ⟨_, rfl⟩
  · rw [if_neg hi]
    cases hd : firstDetected grids with
    | none => exact ⟨_, rfl⟩
    | some cg =>
      obtain ⟨hcg, hdet⟩ := firstDetected_mem hd
      obtain ⟨-, hk, he⟩ := hg cg hcg
      have hne : s.views ≠ [] := h.init.1 (by simpa using hi)
      have hk' : ¬ (SMap.find cg.1 s.cams).isNone = true := by
        rw [Option.isNone_iff_eq_none]
        intro hn
        rw [hn] at hk; cases hk
      simp only
      rw [if_neg hk', if_neg (by rw [he hdet]; simp), if_neg hne]
      obtain ⟨s1, e1⟩ := newView_ok (s := { s with counter := s.counter + 1 }) cg.2.timestamp
        (grids := grids) hg
      rw [e1, AprilGrid.ok_bind]
      obtain ⟨fids, n, p, -, -, rfl⟩ := newView_eq e1
      simp only
      rw [if_neg (by omega)]
      obtain ⟨l, vj, hl'⟩ := list_concat_of_ne hne
      have hlt := h.freshV vj (by simp [hl'])
      obtain ⟨s2, e2⟩ := linkViews_ok (s := { s with
          counter := s.counter + 1
          views := s.views ++ [⟨s.next, cg.2.timestamp, grids, fids, none⟩]
          prob := p
          next := n }) (l := l) (vj := vj)
        (vk := ⟨s.next, cg.2.timestamp, grids, fids, none⟩) (by simp [hl']) (by simp only; omega)
      rw [e2, AprilGrid.ok_bind]
      obtain ⟨out, -, rfl⟩ := linkViews_eq (l := l) (vj := vj)
        (vk := ⟨s.next, cg.2.timestamp, grids, fids, none⟩) (by simp [hl']) e2
      unfold trimImu
      split_ifs
      · obtain ⟨b', e, -⟩ := trim_ok hlen cg.2.timestamp
        simp only [e]
        exact ⟨_, rfl⟩
      · exact ⟨_, rfl⟩

/-- **C58, no failure.**  A measurement is processed without an error when: the grids belong
to known cameras, their measurements can be read and detected ones can be localised; before
initialisation camera 0 is among the cameras that see the target; at least five IMU samples
are buffered once the calibrator is initialised; and the window holds at least one view. -/
theorem C58_no_failure (env : VEnv K D) (m : Bool) (w : Int) (hw : 1 ≤ w) (hw2 : w < 2 ^ 64)
    (fe fd : Bool) (cs : List (Call K D)) (t : St K D) (h : RunR env (St.new m w fe fd) cs t)
    (ts : Int) (a g : D) (hg : GridsOk env t t.gridBuf)
    (h0 : t.initialized = false → (firstDetected t.gridBuf).isSome →
      ∃ g0, SMap.find 0 t.gridBuf = some g0 ∧ g0.detected = true)
    (h5 : t.initialized = true → 4 ≤ t.imu.size) :
    ∃ u b, addImu env t ts a g = .ok (u, b) := by
  have hwf := h.wf (WF.new _ _ _ _)
  have hlen := h.run.len ⟨rfl, rfl⟩
  obtain ⟨hm, hws⟩ := h.run.settings
  unfold addImu
  simp only
  split_ifs with hc
  · exact ⟨_, _, rfl⟩
  · have hsz : (t.imu.add ts a g).size = t.imu.size + 1 := by
      simp [Stream.Imu.size, Stream.Imu.add]
    set t' : St K D := { t with imu := t.imu.add ts a g, imuStarted := true, gridBuf := [] }
    have hwf' : WF t' := { hwf with }
    unfold process
    by_cases hi : t'.initialized = false ∧ t'.imu.size > 2 ∧ (firstDetected t.gridBuf).isSome
    · rw [if_pos hi]
      obtain ⟨g0, hg0, hd0⟩ := h0 hi.1 hi.2.2
      have hmem := find_mem hg0
      obtain ⟨-, hk0, he0⟩ := hg _ hmem
      unfold initVI
      rw [hg0]
      simp only
      have hk' : ¬ (SMap.find 0 t'.cams).isNone = true := by
        rw [Option.isNone_iff_eq_none]
        intro hn
        change SMap.find 0 t.cams = none at hn
        rw [hn] at hk0; cases hk0
      rw [if_neg (by rw [hd0]; simp), if_neg hk', if_neg (by rw [he0 hd0]; simp)]
      obtain ⟨u, e⟩ := newView_ok (s := { t' with
          prob := if t'.fiducial then t'.prob else addParam t'.prob .fiducial
          fiducial := true }) g0.timestamp (grids := t.gridBuf) hg
      rw [e]
      exact ⟨_, _, rfl⟩
    · rw [if_neg hi]
      by_cases hin : t.initialized = true
      · obtain ⟨u, e⟩ := addView_good (env := env) (grids := t.gridBuf) hwf' (hlen.add _ _ _) hg (by
          have := h5 hin
          show 5 ≤ (t.imu.add ts a g).size
          omega)
        rw [e, AprilGrid.ok_bind]
        have hwu := hwf'.addView e
        have hset : u.windowSize = w := by
          rcases addView_eq e with ⟨rfl, -⟩ | ⟨cg, s1, s2, -, -, hne, b1, -, b2, b3⟩
          · exact hws
          · obtain ⟨fids, n, p, -, -, rfl⟩ := newView_eq b1
            obtain ⟨l, vj, hl'⟩ := list_concat_of_ne hne
            obtain ⟨out, -, rfl⟩ := linkViews_eq (l := l) (vj := vj)
              (vk := ⟨t'.next, cg.2.timestamp, t.gridBuf, fids, none⟩) (by simp [hl']) b2
            obtain ⟨bb, rfl⟩ := trimImu_eq b3
            exact hws
        unfold slide
        split_ifs with hsl
        · have hcast : windowCast u.windowSize = w := by
            rw [hset]
            exact Int.emod_eq_of_lt (by omega) hw2
          rw [hcast] at hsl
          obtain ⟨u2, e2⟩ := marginalize_ok hwu (by omega)
          rw [e2]
          exact ⟨_, _, rfl⟩
        · exact ⟨_, _, rfl⟩
      · have hin' : t'.initialized = false := by simpa using hin
        have hv : t'.views = [] := by
          by_contra hne
          have := hwf'.init.2 hne
          rw [hin'] at this; cases this
        unfold addView
        rw [if_pos hin', AprilGrid.ok_bind]
        unfold slide
        rw [if_neg (by
          rintro ⟨-, hlt⟩
          rw [hv] at hlt
          have := windowCast_nonneg t'.windowSize
          simp only [List.length_nil, Nat.cast_zero] at hlt
          omega)]
        exact ⟨_, _, rfl⟩

/-- **C58, initialisation refuted.**  The comment says that initialisation waits until camera
0 sees the target; the condition accepts a detection by any camera, and the call then fails. -/
theorem C58_other_camera_refuted (env : VEnv K D) (s : St K D) (ts : Int) (a w : D) (g0 : Grid K)
    (hi : s.initialized = false) (hsz : 2 ≤ s.imu.size) (hfull : s.gridBuf.length = s.cams.length)
    (h0 : SMap.find 0 s.gridBuf = some g0) (hd0 : g0.detected = false)
    (hany : ∃ cg ∈ s.gridBuf, cg.2.detected = true) :
    addImu env s ts a w = .error .fatal := by
  have hf : (firstDetected s.gridBuf).isSome := by
    unfold firstDetected
    rw [List.find?_isSome]
    exact hany
  have hsz' : (s.imu.add ts a w).size = s.imu.size + 1 := by
    simp [Stream.Imu.size, Stream.Imu.add]
  unfold addImu
  simp only
  rw [if_neg (by omega)]
  unfold process
  rw [if_pos ⟨hi, by simp only; omega, hf⟩]
  unfold initVI
  rw [h0]
  simp only
  rw [if_pos hd0]
  rfl

/-! ## C75: what a view holds -/

/-- The measurements of the grids, camera by camera. -/
def measured (env : VEnv K D) (live : Bool) :
    List (Int × Grid K) → Except Fault (List (Int × (Int × Int) × (K × K)))
  | [] => .ok []
  | cg :: l => do
    let ms ← env.meas live cg.2
    let rest ← measured env live l
    .ok (ms.map (fun m => (cg.1, m)) ++ rest)

/-- What a residual says was measured. -/
def Fid.what (f : Fid K) : Int × (Int × Int) × (K × K) := (f.cam, (f.tag, f.corner), f.z)

theorem addFids_what {cam : Int} {num : Nat} (ms : List ((Int × Int) × (K × K)))
    {acc acc' : List (Fid K) × Problem Par (Res K) × Nat}
    (h : ms.foldlM (addFid cam num) acc = .ok acc') :
    acc'.1.map Fid.what = acc.1.map Fid.what ++ ms.map (fun m => (cam, m)) := by
  induction ms generalizing acc with
  | nil => injection h with h; rw [h]; simp
  | cons m ms ih =>
    rw [List.foldlM_cons] at h
    obtain ⟨a, h1, h2⟩ := bindOk h
    rw [ih h2]
    unfold addFid at h1
    obtain ⟨o, -, h3⟩ := bindOk h1
    injection h3 with h3
    subst h3
    simp [Fid.what]

theorem addGrids_what {env : VEnv K D} {live : Bool} {cams : List (Int × CamFlags)} {num : Nat}
    (gs : List (Int × Grid K)) {acc acc' : List (Fid K) × Problem Par (Res K) × Nat}
    (h : gs.foldlM (addGridRes env live cams num) acc = .ok acc') :
    ∃ all, measured env live gs = .ok all ∧ acc'.1.map Fid.what = acc.1.map Fid.what ++ all := by
  induction gs generalizing acc with
  | nil => injection h with h; exact ⟨[], rfl, by rw [h]; simp⟩
  | cons g gs ih =>
    rw [List.foldlM_cons] at h
    obtain ⟨a, h1, h2⟩ := bindOk h
    obtain ⟨all, e1, e2⟩ := ih h2
    unfold addGridRes at h1
    obtain ⟨ms, h3, h4⟩ := bindOk h1
    split_ifs at h4
    refine ⟨ms.map (fun m => (g.1, m)) ++ all, ?_, ?_⟩
    · unfold measured
      rw [h3, e1]
      rfl
    · rw [e2, addFids_what ms h4, List.append_assoc]

/-- What a view holds. -/
def Holds (env : VEnv K D) (live : Bool) (v : View K) : Prop :=
  measured env live v.grids = .ok (v.fids.map Fid.what) ∧
    ∃ cg ∈ v.grids, cg.2.detected = true ∧ v.ts = cg.2.timestamp

theorem newView_holds {env : VEnv K D} {s t : St K D} {ts : Int} {grids : List (Int × Grid K)}
    (h : newView env s ts grids = .ok t)
    (hts : ∃ cg ∈ grids, cg.2.detected = true ∧ ts = cg.2.timestamp) :
    ∀ v ∈ t.views, v ∈ s.views ∨ Holds env s.enableMarg v := by
  obtain ⟨fids, n, p, -, hf, rfl⟩ := newView_eq h
  intro v hv
  simp only [List.mem_append, List.mem_singleton] at hv
  rcases hv with hv | rfl
  · exact Or.inl hv
  · obtain ⟨all, e1, e2⟩ := addGrids_what grids hf
    simp only [List.map_nil, List.nil_append] at e2
    exact Or.inr ⟨by rw [e2]; exact e1, hts⟩

theorem process_holds {env : VEnv K D} {s t : St K D} {grids : List (Int × Grid K)} {b : Bool}
    (hs : ∀ v ∈ s.views, Holds env s.enableMarg v) (h : process env s grids = .ok (t, b)) :
    ∀ v ∈ t.views, Holds env s.enableMarg v := by
  unfold process at h
  split_ifs at h with hc
  · obtain ⟨s1, h1, h2⟩ := bindOk h
    simp only [Except.ok.injEq, Prod.mk.injEq] at h2
    obtain ⟨rfl, -⟩ := h2
    obtain ⟨g, t', hg, hd, -, -, h3, rfl⟩ := initVI_eq h1
    intro v hv
    rcases newView_holds h3 ⟨_, find_mem hg, hd, rfl⟩ v hv with hv | hv
    · exact hs v hv
    · exact hv
  · obtain ⟨s1, h1, h2⟩ := bindOk h
    obtain ⟨s2, h3, h4⟩ := bindOk h2
    simp only [Except.ok.injEq, Prod.mk.injEq] at h4
    obtain ⟨rfl, -⟩ := h4
    have hsub : ∀ v ∈ s2.views, v ∈ s1.views := by
      intro v hv
      rcases (slide_views h3).2.2.2.2.2.2.2 with ⟨e, -⟩ | ⟨x, e⟩
      · rw [← e]; exact hv
      · rw [e]; exact List.mem_cons_of_mem _ hv
    suffices ∀ v ∈ s1.views, Holds env s.enableMarg v from fun v hv => this v (hsub v hv)
    rcases addView_eq h1 with ⟨rfl, -⟩ | ⟨cg, u1, u2, -, hd, hne, b1, -, b2, b3⟩
    · exact hs
    · have hu : ∀ v ∈ u1.views, Holds env s.enableMarg v := by
        intro v hv
        rcases newView_holds b1 ⟨cg, (firstDetected_mem hd).1, (firstDetected_mem hd).2, rfl⟩ v hv
          with hv | hv
        · exact hs v hv
        · exact hv
      obtain ⟨fids, n, p, -, -, rfl⟩ := newView_eq b1
      obtain ⟨l, vj, hl'⟩ := list_concat_of_ne hne
      obtain ⟨out, -, rfl⟩ := linkViews_eq (l := l) (vj := vj)
        (vk := ⟨s.next, cg.2.timestamp, grids, fids, none⟩) (by simp [hl']) b2
      obtain ⟨bb, rfl⟩ := trimImu_eq b3
      intro v hv
      simp only [List.mem_append, List.mem_cons, List.not_mem_nil, or_false] at hv
      rcases hv with hv | rfl | rfl
      · exact hs v (by simp [hl', hv])
      · exact hs vj (by simp [hl'])
      · exact hu _ (by simp)

/-- **C75, contents.**  In every history, the residuals of a view are exactly the measurements
of the grids it was made from (all of them, or the sample taken in live mode), in order, and
its time is the time of one of those grids that was detected. -/
theorem C75_view (env : VEnv K D) (m : Bool) (w : Int) (fe fd : Bool)
    (cs : List (Call K D)) (t : St K D) (h : Run env (St.new m w fe fd) cs t) :
    ∀ v ∈ t.views, measured env m v.grids =
        .ok (v.fids.map (fun f => (f.cam, (f.tag, f.corner), f.z))) ∧
      ∃ cg ∈ v.grids, cg.2.detected = true ∧ v.ts = cg.2.timestamp := by
  suffices ∀ v ∈ t.views, Holds env m v from this
  induction h with
  | nil => simp [St.new]
  | @snoc cs t c u hr h2 ih =>
    have hm : t.enableMarg = m := hr.settings.1
    cases c with
    | camera i fp fe =>
      simp only [VI.call, addCamera] at h2
      by_cases hc : (SMap.find i t.cams).isSome
      · rw [if_pos hc] at h2; cases h2
      · rw [if_neg hc] at h2
        injection h2 with h2
        subst h2
        exact ih
    | grid cam g =>
      injection h2 with h2
      subst h2
      rw [(addGrid_fields t cam g).1]
      exact ih
    | imu ts a w =>
      obtain ⟨b, hb⟩ := call_imu h2
      unfold addImu at hb
      simp only at hb
      split_ifs at hb with hc
      · simp only [Except.ok.injEq, Prod.mk.injEq] at hb
        obtain ⟨rfl, -⟩ := hb
        exact ih
      · rw [← hm] at ih ⊢
        exact process_holds (s := { t with imu := t.imu.add ts a w, imuStarted := true, gridBuf := [] })
          ih hb
    | reset =>
      injection h2 with h2
      subst h2
      simp [VI.reset]

/-- **C75, buffering.**  A grid is kept for its camera, replacing an earlier one, and the other
cameras' grids stay; before the first IMU sample grids are dropped. -/
theorem C75_grid (s : St K D) (cam : Int) (g : Grid K) :
    (s.imuStarted = true → ∀ c, SMap.find c (addGrid s cam g).gridBuf =
      if c = cam then some g else SMap.find c s.gridBuf) ∧
    (s.imuStarted = false → addGrid s cam g = s) := by
  unfold addGrid
  constructor
  · intro h c
    rw [if_neg (by simp [h])]
    exact SMap.find_set _ _ _ _
  · intro h
    rw [if_pos h]

/-- **C75, processing.**  An IMU sample is appended to the buffer; if there are not as many
grids as cameras, nothing else happens; otherwise the grids are used up. -/
theorem C75_imu (env : VEnv K D) (s t : St K D) (ts : Int) (a w : D) (b : Bool)
    (h : addImu env s ts a w = .ok (t, b)) :
    (s.gridBuf.length ≠ s.cams.length → b = false ∧ t.views = s.views ∧ t.prob = s.prob ∧
      t.gridBuf = s.gridBuf ∧ t.imu = s.imu.add ts a w ∧ t.initialized = s.initialized) ∧
    (s.gridBuf.length = s.cams.length → t.gridBuf = [] ∧
      ∀ v ∈ t.views, v.grids = s.gridBuf ∨ ∃ x ∈ s.views, x.num = v.num ∧ x.grids = v.grids) := by
  unfold addImu at h
  simp only at h
  split_ifs at h with hc
  · simp only [Except.ok.injEq, Prod.mk.injEq] at h
    obtain ⟨rfl, rfl⟩ := h
    exact ⟨fun _ => ⟨rfl, rfl, rfl, rfl, rfl, rfl⟩, fun h => absurd h hc⟩
  · refine ⟨fun h => absurd h (by omega), fun _ => ?_⟩
    obtain ⟨-, -, -, -, h5, -, -, h8⟩ := process_views h
    refine ⟨h5, ?_⟩
    intro v hv
    cases h8 with
    | same e he => rw [e] at hv; exact Or.inr ⟨v, hv, rfl, rfl⟩
    | shrink x e => exact Or.inr ⟨v, by simp only at e; rw [e]; exact List.mem_cons_of_mem _ hv, rfl, rfl⟩
    | first x hi e hnum hg himu hts hti =>
      rw [e, List.mem_append, List.mem_singleton] at hv
      rcases hv with hv | rfl
      · exact Or.inr ⟨v, hv, rfl, rfl⟩
      · exact Or.inl hg
    | next l vj vk n wide hi hl hnum hg himu hts hwide hlast =>
      have hv' : v ∈ wide := by
        rcases hlast with ⟨e, -⟩ | ⟨x, e⟩
        · rw [← e]; exact hv
        · rw [e]; exact List.mem_cons_of_mem _ hv
      rw [hwide] at hv'
      simp only at hl
      simp only [List.mem_append, List.mem_cons, List.not_mem_nil, or_false] at hv'
      rcases hv' with hv' | rfl | rfl
      · exact Or.inr ⟨v, by simp [hl, hv'], rfl, rfl⟩
      · exact Or.inr ⟨vj, by simp [hl], rfl, rfl⟩
      · exact Or.inl hg

/-! ## C74: reset -/

/-- **C74, without a prior.**  If nothing has been marginalised, `reset` leaves no views, no
residuals, no poses and no buffered data, and the calibrator is again one to which all of C58
applies (`RunR` continues through it). -/
theorem C74_reset_partial (env : VEnv K D) (m : Bool) (w : Int) (fe fd : Bool)
    (cs : List (Call K D)) (t : St K D) (h : RunR env (St.new m w fe fd) cs t) (hm : t.marg = none) :
    RunR env (St.new m w fe fd) (cs ++ [.reset]) (reset t) ∧
    (reset t).views = [] ∧ (reset t).prob.rblocks = [] ∧ (reset t).gridBuf = [] ∧
    (reset t).imu.size = 0 ∧ (reset t).initialized = false ∧ (reset t).imuStarted = false ∧
    (∀ q, q ∈ (reset t).prob.pblocks ↔ q ∈ t.prob.pblocks ∧ ∀ k, q ≠ .pose k ∧ q ≠ .sb k) := by
  have hw := h.wf (WF.new _ _ _ _)
  exact ⟨.snoc h (fun _ => hm) rfl, rfl, reset_rblocks hw, rfl, rfl, rfl, rfl, reset_pblocks hw⟩

/-- A reference to a residual that is no longer in the problem. -/
structure Dangling (id : Nat) (s : St K D) : Prop where
  marg : ∃ r, s.marg = some (id, r)
  gone : id ∉ s.prob.rblocks.map Prod.fst
  old : id < s.prob.next

/-- Identifiers are never used again. -/
def Grows (p p' : Problem Par (Res K)) : Prop :=
  p.next ≤ p'.next ∧ ∀ id ∈ p'.rblocks.map Prod.fst, id ∈ p.rblocks.map Prod.fst ∨ p.next ≤ id

theorem Grows.refl (p : Problem Par (Res K)) : Grows p p := ⟨le_refl _, fun _ h => Or.inl h⟩

theorem Grows.trans {p q r : Problem Par (Res K)} (h1 : Grows p q) (h2 : Grows q r) : Grows p r := by
  refine ⟨le_trans h1.1 h2.1, fun id hid => ?_⟩
  rcases h2.2 id hid with h | h
  · exact h1.2 id h
  · exact Or.inr (le_trans h1.1 h)

theorem Grows.addResidual {p : Problem Par (Res K)} {r : Res K} {out : Nat × Problem Par (Res K)}
    (h : addResidual p r = .ok out) : Grows p out.2 := by
  obtain ⟨-, -, h2, h3, -⟩ := addResidual_ok h
  refine ⟨by omega, fun id hid => ?_⟩
  rw [h2, List.map_append, List.mem_append] at hid
  rcases hid with hid | hid
  · exact Or.inl hid
  · simp only [List.map_cons, List.map_nil, List.mem_singleton] at hid
    exact Or.inr (by omega)

theorem Grows.dropParam (p : Problem Par (Res K)) (q : Par) : Grows p (dropParam p q) := by
  unfold VI.dropParam
  split_ifs
  · refine ⟨le_refl _, fun id hid => Or.inl ?_⟩
    exact (List.filter_sublist.map _).subset hid
  · exact Grows.refl p

theorem Grows.newView {env : VEnv K D} {s t : St K D} {ts : Int} {grids : List (Int × Grid K)}
    (h : newView env s ts grids = .ok t) : Grows s.prob t.prob := by
  obtain ⟨fids, n, p, -, hf, rfl⟩ := newView_eq h
  have hA : ∀ cam num (ms : List ((Int × Int) × (K × K)))
      (acc acc' : List (Fid K) × Problem Par (Res K) × Nat),
      ms.foldlM (addFid cam num) acc = .ok acc' → Grows acc.2.1 acc'.2.1 := by
    intro cam num ms
    induction ms with
    | nil => intro acc acc' h; injection h with h; rw [h]; exact Grows.refl _
    | cons m ms ih =>
      intro acc acc' h
      rw [List.foldlM_cons] at h
      obtain ⟨a, h1, h2⟩ := bindOk h
      refine Grows.trans ?_ (ih a acc' h2)
      unfold addFid at h1
      obtain ⟨o, h4, h3⟩ := bindOk h1
      injection h3 with h3
      subst h3
      exact Grows.addResidual h4
  have hB : ∀ (gs : List (Int × Grid K)) (acc acc' : List (Fid K) × Problem Par (Res K) × Nat),
      gs.foldlM (addGridRes env s.enableMarg s.cams s.next) acc = .ok acc' →
      Grows acc.2.1 acc'.2.1 := by
    intro gs
    induction gs with
    | nil => intro acc acc' h; injection h with h; rw [h]; exact Grows.refl _
    | cons g gs ih =>
      intro acc acc' h
      rw [List.foldlM_cons] at h
      obtain ⟨a, h1, h2⟩ := bindOk h
      refine Grows.trans ?_ (ih a acc' h2)
      unfold addGridRes at h1
      obtain ⟨ms, -, h3⟩ := bindOk h1
      split_ifs at h3
      exact hA _ _ _ _ _ h3
  exact hB _ _ _ hf

theorem Dangling.grows {id : Nat} {s t : St K D} (h : Dangling id s) (hm : t.marg = s.marg)
    (hg : Grows s.prob t.prob) : Dangling id t := by
  refine ⟨hm ▸ h.marg, ?_, lt_of_lt_of_le h.old hg.1⟩
  intro hid
  rcases hg.2 id hid with h1 | h1
  · exact h.gone h1
  · exact absurd h.old (by omega)

theorem Dangling.stuck {id : Nat} {s : St K D} (h : Dangling id s) :
    ∃ e, marginalize s = .error e := by
  unfold marginalize
  cases hv : s.views with
  | nil => exact ⟨_, rfl⟩
  | cons v rest =>
    obtain ⟨r, hr⟩ := h.marg
    have : dropMarg s = .error .fatal := by
      unfold dropMarg
      rw [hr]
      simp only [removeResidual, if_neg h.gone]
    simp only [this]
    exact ⟨_, rfl⟩

theorem Dangling.process {id : Nat} {env : VEnv K D} {s t : St K D} {grids : List (Int × Grid K)}
    {b : Bool} (h : Dangling id s) (ht : process env s grids = .ok (t, b)) : Dangling id t := by
  unfold VI.process at ht
  split_ifs at ht with hc
  · obtain ⟨s1, h1, h2⟩ := bindOk ht
    simp only [Except.ok.injEq, Prod.mk.injEq] at h2
    obtain ⟨rfl, -⟩ := h2
    obtain ⟨g, t', -, -, -, -, h3, rfl⟩ := initVI_eq h1
    have hg := Grows.newView h3
    have hm : t'.marg = s.marg := by obtain ⟨fids, n, p, -, -, rfl⟩ := newView_eq h3; rfl
    refine h.grows hm (Grows.trans ?_ hg)
    simp only
    split_ifs
    · exact Grows.refl _
    · exact Grows.refl _
  · obtain ⟨s1, h1, h2⟩ := bindOk ht
    obtain ⟨s2, h3, h4⟩ := bindOk h2
    simp only [Except.ok.injEq, Prod.mk.injEq] at h4
    obtain ⟨rfl, -⟩ := h4
    have hd : Dangling id s1 := by
      rcases addView_eq h1 with ⟨rfl, -⟩ | ⟨cg, u1, u2, -, hd, hne, b1, -, b2, b3⟩
      · exact h
      · have hg := Grows.newView b1
        obtain ⟨fids, n, p, -, -, rfl⟩ := newView_eq b1
        obtain ⟨l, vj, hl'⟩ := list_concat_of_ne hne
        obtain ⟨out, ho, rfl⟩ := linkViews_eq (l := l) (vj := vj)
          (vk := ⟨s.next, cg.2.timestamp, grids, fids, none⟩) (by simp [hl']) b2
        obtain ⟨bb, rfl⟩ := trimImu_eq b3
        exact h.grows rfl (hg.trans (Grows.addResidual ho))
    unfold slide at h3
    split_ifs at h3 with hc'
    · obtain ⟨e, he⟩ := hd.stuck
      rw [he] at h3
      cases h3
    · injection h3 with h3
      exact h3 ▸ hd

theorem Dangling.call {id : Nat} {env : VEnv K D} {s t : St K D} {c : Call K D} (h : Dangling id s)
    (ht : call env s c = .ok t) : Dangling id t := by
  cases c with
  | camera i fp fe =>
    simp only [VI.call, addCamera] at ht
    by_cases hc : (SMap.find i s.cams).isSome
    · rw [if_pos hc] at ht; cases ht
    · rw [if_neg hc] at ht
      injection ht with ht
      subst ht
      refine h.grows rfl ?_
      cases fp <;> exact Grows.refl _
  | grid cam g =>
    injection ht with ht
    subst ht
    obtain ⟨-, -, -, -, -, h6, h7, -⟩ := addGrid_fields s cam g
    exact h.grows h6 (by rw [h7]; exact Grows.refl _)
  | imu ts a w =>
    obtain ⟨b, hb⟩ := call_imu ht
    unfold addImu at hb
    simp only at hb
    split_ifs at hb with hc
    · simp only [Except.ok.injEq, Prod.mk.injEq] at hb
      obtain ⟨rfl, -⟩ := hb
      exact h.grows rfl (Grows.refl _)
    · exact Dangling.process (s := { s with imu := s.imu.add ts a w, imuStarted := true, gridBuf := [] })
        (h.grows rfl (Grows.refl _)) hb
  | reset =>
    injection ht with ht
    subst ht
    refine h.grows rfl ?_
    show Grows s.prob (s.views.foldl destroyView s.prob)
    generalize s.prob = p
    induction s.views generalizing p with
    | nil => exact Grows.refl _
    | cons v l ih =>
      exact Grows.trans (Grows.trans (Grows.dropParam _ _) (Grows.dropParam _ _)) (ih _)

/-- **C74, with a prior: refuted.**  `reset` removes the prior from the problem but keeps the
reference to it.  After that no history can ever marginalise again: the attempt fails, so the
calibrator fails as soon as the window overflows. -/
theorem C74_reset_refuted (env : VEnv K D) (m : Bool) (w : Int) (fe fd : Bool)
    (cs : List (Call K D)) (t : St K D) (h : RunR env (St.new m w fe fd) cs t)
    (id : Nat) (r : Res K) (hm : t.marg = some (id, r)) (cs' : List (Call K D)) (u : St K D)
    (hu : Run env (reset t) cs' u) :
    (∃ e, marginalize u = .error e) ∧
    (u.enableMarg = true → (u.views.length : Int) > windowCast u.windowSize →
      ∃ e, slide u = .error e) := by
  have hw := h.wf (WF.new _ _ _ _)
  have hd : Dangling id (reset t) := by
    refine ⟨⟨r, hm⟩, ?_, ?_⟩
    · rw [reset_rblocks hw]; simp
    · have h1 := hw.prob.lt _ (hw.marg id r hm).1
      have : ∀ (l : List (View K)) (p : Problem Par (Res K)), p.next ≤ (l.foldl destroyView p).next := by
        intro l
        induction l with
        | nil => intro p; exact le_refl _
        | cons v l ih =>
          intro p
          exact le_trans (Grows.trans (Grows.dropParam p _) (Grows.dropParam _ _)).1 (ih _)
      exact lt_of_lt_of_le h1 (this _ _)
  have hdu : Dangling id u := by
    induction hu with
    | nil => exact hd
    | snoc _ h2 ih => exact ih.call h2
  obtain ⟨e, he⟩ := hdu.stuck
  refine ⟨⟨e, he⟩, fun h1 h2 => ⟨e, ?_⟩⟩
  unfold slide
  rw [if_pos ⟨h1, h2⟩, he]
  rfl

end Yac.VI
