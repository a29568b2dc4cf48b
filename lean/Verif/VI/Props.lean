import Verif.VI.Step

/-!
# Properties C58, C74 and C75: the visual-inertial calibrator

A history is a list of calls on a calibrator made by `St.new`.
-/

namespace Yac.VI

open Yac.AprilGrid (Grid)
open Yac.Solver (Problem insSet mem_insSet nodup_insSet nodup_map_inj)

variable {K D : Type} [DecidableEq K]

/-! ### Histories -/

/-- A call on the calibrator. -/
inductive Call (K D : Type) where
  | camera (i : Int) (fixPar fixExt : Bool)
  | grid (cam : Int) (g : Grid K)
  | imu (ts : Int) (a w : D)
  | reset

/-- The effect of a call. -/
def call (env : VEnv K D) (s : St K D) : Call K D → Except Fault (St K D)
  | .camera i fp fe => addCamera s i fp fe
  | .grid cam g => .ok (addGrid s cam g)
  | .imu ts a w => (addImu env s ts a w).map Prod.fst
  | .reset => .ok (reset s)

/-- `Run env s cs t`: the calls `cs` take `s` to `t`, none of them failing. -/
inductive Run (env : VEnv K D) (s : St K D) : List (Call K D) → St K D → Prop
  | nil : Run env s [] s
  | snoc {cs t c u} : Run env s cs t → call env t c = .ok u → Run env s (cs ++ [c]) u

/-- `Run` in which `reset` is called only while there is no prior. -/
inductive RunR (env : VEnv K D) (s : St K D) : List (Call K D) → St K D → Prop
  | nil : RunR env s [] s
  | snoc {cs t c u} : RunR env s cs t → (c = .reset → t.marg = none) → call env t c = .ok u →
      RunR env s (cs ++ [c]) u

theorem call_imu {env : VEnv K D} {s u : St K D} {ts : Int} {a w : D}
    (h : call env s (.imu ts a w) = .ok u) : ∃ b, addImu env s ts a w = .ok (u, b) := by
  simp only [call] at h
  cases hx : addImu env s ts a w with
  | error e => rw [hx] at h; cases h
  | ok p =>
    rw [hx] at h
    simp only [Except.map, Except.ok.injEq] at h
    exact ⟨p.2, by rw [← h]⟩

theorem RunR.run {env : VEnv K D} {s t : St K D} {cs : List (Call K D)} (h : RunR env s cs t) :
    Run env s cs t := by
  induction h with
  | nil => exact .nil
  | snoc _ _ h2 ih => exact .snoc ih h2

theorem RunR.wf {env : VEnv K D} {s t : St K D} {cs : List (Call K D)} (h : RunR env s cs t)
    (hs : WF s) : WF t := by
  induction h with
  | nil => exact hs
  | @snoc cs t c u _ hr h2 ih =>
    cases c with
    | camera i fp fe => exact ih.addCamera h2
    | grid cam g => injection h2 with h2; exact h2 ▸ ih.addGrid cam g
    | imu ts a w => obtain ⟨b, hb⟩ := call_imu h2; exact ih.addImu hb
    | reset => injection h2 with h2; exact h2 ▸ ih.reset (hr rfl)

/-! ### The shape of the window, for every history -/

theorem newView_eq {env : VEnv K D} {s t : St K D} {ts : Int} {grids : List (Int × Grid K)}
    (h : newView env s ts grids = .ok t) :
    ∃ fids n p, s.next < n ∧
      grids.foldlM (addGridRes env s.enableMarg s.cams s.next)
        ([], addParam (addParam s.prob (.pose s.next)) (.sb s.next), s.next + 1) = .ok (fids, p, n) ∧
      t = { s with views := s.views ++ [⟨s.next, ts, grids, fids, none⟩], prob := p, next := n } := by
  unfold newView at h
  obtain ⟨out, h1, h2⟩ := bindOk h
  injection h2 with h2
  refine ⟨out.1, out.2.2, out.2.1, ?_, h1, h2.symm⟩
  have hA : ∀ cam num (ms : List ((Int × Int) × (K × K))) (acc acc' : List (Fid K) × Problem Par (Res K) × Nat),
      ms.foldlM (addFid cam num) acc = .ok acc' → acc.2.2 ≤ acc'.2.2 := by
    intro cam num ms
    induction ms with
    | nil => intro acc acc' h; injection h with h; rw [h]
    | cons m ms ih =>
      intro acc acc' h
      rw [List.foldlM_cons] at h
      obtain ⟨a, h1, h2⟩ := bindOk h
      have := ih a acc' h2
      unfold addFid at h1
      obtain ⟨o, -, h3⟩ := bindOk h1
      injection h3 with h3
      subst h3
      simp only at this
      omega
  have hB : ∀ (gs : List (Int × Grid K)) (acc acc' : List (Fid K) × Problem Par (Res K) × Nat),
      gs.foldlM (addGridRes env s.enableMarg s.cams s.next) acc = .ok acc' → acc.2.2 ≤ acc'.2.2 := by
    intro gs
    induction gs with
    | nil => intro acc acc' h; injection h with h; rw [h]
    | cons g gs ih =>
      intro acc acc' h
      rw [List.foldlM_cons] at h
      obtain ⟨a, h1, h2⟩ := bindOk h
      refine le_trans ?_ (ih a acc' h2)
      unfold addGridRes at h1
      obtain ⟨ms, -, h3⟩ := bindOk h1
      split_ifs at h3
      exact hA _ _ _ _ _ h3
  have := hB _ _ _ h1
  simp only at this
  omega

/-- How the list of views changes when grids are processed. -/
inductive Slid (env : VEnv K D) (s t : St K D) (grids : List (Int × Grid K)) : Prop
  | same : t.views = s.views → (s.enableMarg = true → (s.views.length : Int) ≤ windowCast s.windowSize) →
      Slid env s t grids
  | shrink (v : View K) : s.views = v :: t.views → Slid env s t grids
  | first (v : View K) : s.initialized = false → t.views = s.views ++ [v] → v.num = s.next →
      v.grids = grids → v.imu = none → (∃ cg ∈ grids, cg.2.detected = true ∧ v.ts = cg.2.timestamp) →
      t.initialized = true → Slid env s t grids
  | next (l : List (View K)) (vj vk : View K) (n : Nat) (wide : List (View K)) :
      s.initialized = true → s.views = l ++ [vj] → vk.num = s.next → vk.grids = grids →
      vk.imu = none → (∃ cg ∈ grids, cg.2.detected = true ∧ vk.ts = cg.2.timestamp) →
      wide = l ++ [{ vj with imu := some ⟨n, vj.num, vk.num⟩ }, vk] →
      (t.views = wide ∧ (s.enableMarg = true → (wide.length : Int) ≤ windowCast s.windowSize) ∨
        ∃ v, wide = v :: t.views) → Slid env s t grids

theorem slide_views {s t : St K D} (h : slide s = .ok t) :
    s.next ≤ t.next ∧ t.initialized = s.initialized ∧ t.enableMarg = s.enableMarg ∧
    t.windowSize = s.windowSize ∧ t.gridBuf = s.gridBuf ∧ t.imu = s.imu ∧ t.cams = s.cams ∧
    (t.views = s.views ∧ (s.enableMarg = true → (s.views.length : Int) ≤ windowCast s.windowSize) ∨
      ∃ v, s.views = v :: t.views) := by
  unfold slide at h
  split_ifs at h with hc
  · obtain ⟨s1, h1, h2⟩ := bindOk h
    injection h2 with h2
    subst h2
    obtain ⟨v, rest, p, m, out, hv, -, -, -, rfl⟩ := marginalize_eq h1
    exact ⟨Nat.le_succ _, rfl, rfl, rfl, rfl, rfl, rfl, Or.inr ⟨v, hv⟩⟩
  · injection h with h
    subst h
    refine ⟨le_refl _, rfl, rfl, rfl, rfl, rfl, rfl, Or.inl ⟨rfl, fun he => ?_⟩⟩
    by_contra hlt
    exact hc ⟨he, by omega⟩

theorem firstDetected_mem {grids : List (Int × Grid K)} {cg : Int × Grid K}
    (h : firstDetected grids = some cg) : cg ∈ grids ∧ cg.2.detected = true := by
  unfold firstDetected at h
  exact ⟨List.mem_of_find?_eq_some h, by simpa using List.find?_some (p := fun cg : Int × Grid K => cg.2.detected) h⟩

theorem find_mem {k : Int} {g : Grid K} {m : List (Int × Grid K)} (h : SMap.find k m = some g) :
    (k, g) ∈ m := by
  induction m with
  | nil => simp [SMap.find] at h
  | cons p m ih =>
    unfold SMap.find at h
    split_ifs at h with hk
    · injection h with h
      subst hk; subst h
      exact List.mem_cons_self
    · exact List.mem_cons_of_mem _ (ih h)

theorem process_views {env : VEnv K D} {s t : St K D} {grids : List (Int × Grid K)} {b : Bool}
    (h : process env s grids = .ok (t, b)) :
    s.next ≤ t.next ∧ (t.initialized = s.initialized ∨ t.initialized = true) ∧
      t.enableMarg = s.enableMarg ∧ t.windowSize = s.windowSize ∧ t.gridBuf = s.gridBuf ∧
      t.cams = s.cams ∧
      (∀ v ∈ t.views, v ∈ s.views ∨ v.num < t.next ∨ ∃ w ∈ s.views, w.num = v.num) ∧
      Slid env s t grids := by
  unfold process at h
  split_ifs at h with hc
  · obtain ⟨s1, h1, h2⟩ := bindOk h
    simp only [Except.ok.injEq, Prod.mk.injEq] at h2
    obtain ⟨rfl, -⟩ := h2
    obtain ⟨g, t', hg, hd, -, -, h3, rfl⟩ := initVI_eq h1
    obtain ⟨fids, n, p, hn, -, rfl⟩ := newView_eq h3
    simp only at hn
    refine ⟨by simp only; omega, Or.inr rfl, rfl, rfl, rfl, rfl, ?_, ?_⟩
    · intro v hv
      simp only [List.mem_append, List.mem_singleton] at hv
      rcases hv with hv | rfl
      · exact Or.inl hv
      · exact Or.inr (Or.inl hn)
    · exact .first _ hc.1 rfl rfl rfl rfl ⟨_, find_mem hg, hd, rfl⟩ rfl
  · obtain ⟨s1, h1, h2⟩ := bindOk h
    obtain ⟨s2, h3, h4⟩ := bindOk h2
    simp only [Except.ok.injEq, Prod.mk.injEq] at h4
    obtain ⟨rfl, -⟩ := h4
    obtain ⟨a1, a2, a3, a4, a5, -, a6, a7⟩ := slide_views h3
    rcases addView_eq h1 with ⟨rfl, -⟩ | ⟨cg, u1, u2, hi, hd, hne, b1, -, b2, b3⟩
    · refine ⟨a1, Or.inl a2, a3, a4, a5, a6, ?_, ?_⟩
      · intro v hv
        rcases a7 with ⟨e, -⟩ | ⟨w, e⟩
        · rw [e] at hv; exact Or.inl hv
        · rw [e]; exact Or.inl (List.mem_cons_of_mem _ hv)
      · rcases a7 with ⟨e, hw⟩ | ⟨w, e⟩
        · exact .same e hw
        · exact .shrink w e
    · obtain ⟨fids, n, p, hn, -, rfl⟩ := newView_eq b1
      simp only at hn
      obtain ⟨l, vj, hl⟩ := list_concat_of_ne hne
      obtain ⟨out, -, rfl⟩ := linkViews_eq (l := l) (vj := vj)
        (vk := ⟨s.next, cg.2.timestamp, grids, fids, none⟩) (by simp [hl]) b2
      obtain ⟨bb, rfl⟩ := trimImu_eq b3
      simp only at a1 a2 a3 a4 a5 a6 a7
      refine ⟨by omega, Or.inl a2, a3, a4, a5, a6, ?_, ?_⟩
      · intro v hv
        have hv' : v ∈ l ++ [({ vj with imu := some ⟨n, vj.num, s.next⟩ } : View K),
            ⟨s.next, cg.2.timestamp, grids, fids, none⟩] := by
          rcases a7 with ⟨e, -⟩ | ⟨w, e⟩
          · rw [e] at hv; exact hv
          · rw [e]; exact List.mem_cons_of_mem _ hv
        simp only [List.mem_append, List.mem_cons, List.not_mem_nil, or_false] at hv'
        rcases hv' with hv' | rfl | rfl
        · exact Or.inl (by simp [hl, hv'])
        · exact Or.inr (Or.inr ⟨vj, by simp [hl], rfl⟩)
        · exact Or.inr (Or.inl (by simp only; omega))
      · exact .next l vj ⟨s.next, cg.2.timestamp, grids, fids, none⟩ n _ hi hl rfl rfl rfl
          ⟨cg, (firstDetected_mem hd).1, (firstDetected_mem hd).2, rfl⟩ rfl a7

/-- The shape of the window. -/
structure Shape (s : St K D) : Prop where
  fresh : ∀ v ∈ s.views, v.num < s.next
  linked : Linked s.views
  init : s.initialized = true ↔ s.views ≠ []
  bound : s.enableMarg = true →
    (s.views.length : Int) ≤ max 1 (windowCast s.windowSize)

theorem windowCast_nonneg (w : Int) : 0 ≤ windowCast w := by
  unfold windowCast; omega

theorem Shape.process {env : VEnv K D} {s t : St K D} {grids : List (Int × Grid K)} {b : Bool}
    (hs : Shape s) (h : process env s grids = .ok (t, b)) : Shape t := by
  obtain ⟨a1, a2, a3, a4, -, -, a7, a8⟩ := process_views h
  have hw := windowCast_nonneg s.windowSize
  have hfresh : ∀ v ∈ t.views, v.num < t.next := by
    intro v hv
    rcases a7 v hv with hv | hv | ⟨w, hw, e⟩
    · have := hs.fresh v hv; omega
    · exact hv
    · have := hs.fresh w hw; omega
  cases a8 with
  | same e he =>
    refine ⟨hfresh, e ▸ hs.linked, ?_, ?_⟩
    · rcases a2 with a2 | a2
      · rw [a2, e]; exact hs.init
      · -- cannot have been initialised without a view
        rw [e]
        refine ⟨fun _ => ?_, fun _ => a2⟩
        intro hnil
        -- the views are unchanged and empty: the call did not initialise
        unfold VI.process at h
        split_ifs at h with hc
        · obtain ⟨s1, h1, h2⟩ := bindOk h
          simp only [Except.ok.injEq, Prod.mk.injEq] at h2
          obtain ⟨rfl, -⟩ := h2
          obtain ⟨g, t', -, -, -, -, h3, rfl⟩ := initVI_eq h1
          obtain ⟨fids, n, p, -, -, rfl⟩ := newView_eq h3
          simp [hnil] at e
        · obtain ⟨s1, h1, h2⟩ := bindOk h
          obtain ⟨s2, h3, h4⟩ := bindOk h2
          simp only [Except.ok.injEq, Prod.mk.injEq] at h4
          obtain ⟨rfl, -⟩ := h4
          have e2 := (slide_views h3).2.1
          rcases addView_eq h1 with ⟨rfl, -⟩ | ⟨_, _, _, _, _, hne, _⟩
          · rw [e2] at a2
            exact hs.init.1 a2 hnil
          · exact hne hnil
    · intro hm
      rw [a3] at hm
      rw [e, a4]
      exact hs.bound hm
  | shrink v e =>
    have hi : s.initialized = true := hs.init.2 (by rw [e]; simp)
    have hti : t.initialized = true := by rcases a2 with a2 | a2 <;> simp [a2, hi]
    refine ⟨hfresh, (e ▸ hs.linked : Linked (v :: t.views)).tail, ⟨fun _ => ?_, fun _ => hti⟩, ?_⟩
    · -- the view that went was linked to another
      intro hnil
      unfold VI.process at h
      split_ifs at h with hc
      · rw [hi] at hc; simp at hc
      · obtain ⟨s1, h1, h2⟩ := bindOk h
        obtain ⟨s2, h3, h4⟩ := bindOk h2
        simp only [Except.ok.injEq, Prod.mk.injEq] at h4
        obtain ⟨rfl, -⟩ := h4
        rcases addView_eq h1 with ⟨rfl, -⟩ | ⟨cg, u1, u2, _, _, hne, b1, _, b2, b3⟩
        · unfold slide at h3
          split_ifs at h3 with hc'
          · obtain ⟨s3, h5, h6⟩ := bindOk h3
            injection h6 with h6
            subst h6
            obtain ⟨v', rest, p, m, out, hv, -, hi', -, rfl⟩ := marginalize_eq h5
            simp only at hnil
            subst hnil
            have hl := hs.linked
            rw [hv] at hl
            have : v'.imu = none := hl
            rw [hi'] at this; cases this
          · injection h3 with h3
            subst h3
            rw [hnil] at e; cases e
        · obtain ⟨fids, n, p, -, -, rfl⟩ := newView_eq b1
          obtain ⟨l, vj, hl⟩ := list_concat_of_ne hne
          obtain ⟨out, -, rfl⟩ := linkViews_eq (l := l) (vj := vj)
            (vk := ⟨s.next, cg.2.timestamp, grids, fids, none⟩) (by simp [hl]) b2
          obtain ⟨bb, rfl⟩ := trimImu_eq b3
          obtain ⟨-, -, -, -, -, -, -, c⟩ := slide_views h3
          rcases c with ⟨e', -⟩ | ⟨x, e'⟩
          · rw [hnil] at e'; simp at e'
          · rw [hnil] at e'
            cases l <;> simp at e'
    · intro hm
      rw [a3] at hm
      have := hs.bound hm
      rw [e] at this
      simp only [List.length_cons, Nat.cast_add, Nat.cast_one] at this
      rw [a4]
      omega
  | first v hn e hnum hg himu hts hti =>
    have hnil : s.views = [] := by
      by_contra hne
      have := hs.init.2 hne
      rw [hn] at this; cases this
    rw [hnil, List.nil_append] at e
    refine ⟨hfresh, by rw [e]; exact himu, by simp [e, hti], ?_⟩
    intro _
    rw [e]
    simp
  | next l vj vk n wide hi hl hnum hg himu hts hwide hlast =>
    have hti : t.initialized = true := by rcases a2 with a2 | a2 <;> simp [a2, hi]
    have hlt : vj.num < vk.num := by rw [hnum]; exact hs.fresh vj (by simp [hl])
    have hlk : Linked wide := by
      rw [hwide]
      exact (hl ▸ hs.linked : Linked (l ++ [vj])).concat hlt himu
    have hlen : wide.length = s.views.length + 1 := by rw [hwide, hl]; simp
    rcases hlast with ⟨e, hb⟩ | ⟨v, e⟩
    · refine ⟨hfresh, by rw [e]; exact hlk, ⟨fun _ => ?_, fun _ => hti⟩, ?_⟩
      · rw [e, hwide]; simp
      · intro hm
        rw [a3] at hm
        have := hb hm
        rw [e, a4]
        omega
    · refine ⟨hfresh, (e ▸ hlk : Linked (v :: t.views)).tail, ⟨fun _ => ?_, fun _ => hti⟩, ?_⟩
      · intro hnil
        rw [hwide, hnil] at e
        cases l <;> simp at e
      · intro hm
        rw [a3] at hm
        have h1 := hs.bound hm
        have h2 : wide.length = t.views.length + 1 := by rw [e]; simp
        rw [a4]
        have : (t.views.length : Int) = s.views.length := by omega
        omega

theorem Shape.call {env : VEnv K D} {s u : St K D} {c : Call K D} (hs : Shape s)
    (h : call env s c = .ok u) : Shape u := by
  cases c with
  | camera i fp fe =>
    simp only [VI.call, addCamera] at h
    by_cases hc : (SMap.find i s.cams).isSome
    · rw [if_pos hc] at h; cases h
    · rw [if_neg hc] at h
      injection h with h
      subst h
      exact { hs with }
  | grid cam g =>
    injection h with h
    subst h
    unfold addGrid
    split_ifs
    · exact hs
    · exact { hs with }
  | imu ts a w =>
    obtain ⟨b, hb⟩ := call_imu h
    unfold addImu at hb
    simp only at hb
    split_ifs at hb with hc
    · simp only [Except.ok.injEq, Prod.mk.injEq] at hb
      obtain ⟨rfl, -⟩ := hb
      exact { hs with }
    · exact Shape.process (s := { s with imu := s.imu.add ts a w, imuStarted := true, gridBuf := [] })
        { hs with } hb
  | reset =>
    injection h with h
    subst h
    exact ⟨by simp [VI.reset], trivial, by simp [VI.reset], by intro _; simp [VI.reset]⟩

theorem Shape.new (m : Bool) (w : Int) (a b : Bool) : Shape (St.new m w a b : St K D) :=
  ⟨by simp [St.new], trivial, by simp [St.new], by simp [St.new]⟩

theorem Run.shape {env : VEnv K D} {s t : St K D} {cs : List (Call K D)} (h : Run env s cs t)
    (hs : Shape s) : Shape t := by
  induction h with
  | nil => exact hs
  | snoc _ h2 ih => exact ih.call h2

theorem call_settings {env : VEnv K D} {s u : St K D} {c : Call K D} (h : call env s c = .ok u) :
    u.enableMarg = s.enableMarg ∧ u.windowSize = s.windowSize := by
  cases c with
  | camera i fp fe =>
    simp only [VI.call, addCamera] at h
    by_cases hc : (SMap.find i s.cams).isSome
    · rw [if_pos hc] at h; cases h
    · rw [if_neg hc] at h
      injection h with h
      subst h
      exact ⟨rfl, rfl⟩
  | grid cam g =>
    injection h with h
    subst h
    exact ⟨(addGrid_fields s cam g).2.2.1, (addGrid_fields s cam g).2.2.2.1⟩
  | imu ts a w =>
    obtain ⟨b, hb⟩ := call_imu h
    unfold addImu at hb
    simp only at hb
    split_ifs at hb with hc
    · simp only [Except.ok.injEq, Prod.mk.injEq] at hb
      obtain ⟨rfl, -⟩ := hb
      exact ⟨rfl, rfl⟩
    · obtain ⟨-, -, a3, a4, -⟩ := process_views hb
      exact ⟨a3, a4⟩
  | reset =>
    injection h with h
    subst h
    exact ⟨rfl, rfl⟩

theorem Run.settings {env : VEnv K D} {s t : St K D} {cs : List (Call K D)} (h : Run env s cs t) :
    t.enableMarg = s.enableMarg ∧ t.windowSize = s.windowSize := by
  induction h with
  | nil => exact ⟨rfl, rfl⟩
  | snoc _ h2 ih => exact ⟨(call_settings h2).1.trans ih.1, (call_settings h2).2.trans ih.2⟩

/-! ## C58 -/

/-- **C58, size.**  With marginalisation enabled and a window of at least one view, no history
of calls leads to more views than the window size. -/
theorem C58_window (env : VEnv K D) (w : Int) (hw : 1 ≤ w) (hw2 : w < 2 ^ 64) (fe fd : Bool)
    (cs : List (Call K D)) (t : St K D) (h : Run env (St.new true w fe fd) cs t) :
    (t.views.length : Int) ≤ w := by
  obtain ⟨h1, h2⟩ := h.settings
  have h3 := (h.shape (Shape.new _ _ _ _)).bound (by rw [h1]; rfl)
  have : windowCast t.windowSize = w := by
    rw [h2]
    show w % 2 ^ 64 = w
    exact Int.emod_eq_of_lt (by omega) hw2
  rw [this] at h3
  omega

/-- **C58, result.**  An IMU measurement is reported as having completed a view exactly when a
grid of every camera was waiting and the measurement was not the one that initialised the
estimator; in both cases the waiting grids are used up, otherwise they keep waiting. -/
theorem C58_result (env : VEnv K D) (s t : St K D) (ts : Int) (a w : D) (b : Bool)
    (h : addImu env s ts a w = .ok (t, b)) :
    (b = true ↔ s.gridBuf.length = s.cams.length ∧
      ¬ (s.initialized = false ∧ (s.imu.add ts a w).size > 2 ∧ ∃ cg ∈ s.gridBuf, cg.2.detected = true)) ∧
    (s.gridBuf.length ≠ s.cams.length → t.gridBuf = s.gridBuf) ∧
    (s.gridBuf.length = s.cams.length → t.gridBuf = []) := by
  unfold addImu at h
  simp only at h
  by_cases hc : s.gridBuf.length ≠ s.cams.length
  · rw [if_pos hc] at h
    simp only [Except.ok.injEq, Prod.mk.injEq] at h
    obtain ⟨rfl, rfl⟩ := h
    exact ⟨by simp [hc], fun _ => rfl, fun e => absurd e hc⟩
  · rw [if_neg hc] at h
    have hg : t.gridBuf = [] := (process_views h).2.2.2.2.1
    have hl : s.gridBuf.length = s.cams.length := not_not.mp hc
    refine ⟨?_, fun e => absurd hl e, fun _ => hg⟩
    have hd : (firstDetected s.gridBuf).isSome = true ↔
        ∃ cg ∈ s.gridBuf, cg.2.detected = true := by
      unfold firstDetected
      rw [List.find?_isSome]
    unfold process at h
    simp only [hd] at h
    by_cases hi : s.initialized = false ∧ (s.imu.add ts a w).size > 2 ∧
        ∃ cg ∈ s.gridBuf, cg.2.detected = true
    · rw [if_pos hi] at h
      obtain ⟨s1, -, h2⟩ := bindOk h
      simp only [Except.ok.injEq, Prod.mk.injEq] at h2
      rw [← h2.2]
      simp [hi]
    · rw [if_neg hi] at h
      obtain ⟨s1, -, h2⟩ := bindOk h
      obtain ⟨s2, -, h4⟩ := bindOk h2
      simp only [Except.ok.injEq, Prod.mk.injEq] at h4
      rw [← h4.2]
      exact ⟨fun _ => ⟨hl, hi⟩, fun _ => rfl⟩

theorem Linked.spec {l : List (View K)} (hl : Linked l) :
    (∀ k v w, l[k]? = some v → l[k + 1]? = some w → ∃ n, v.imu = some ⟨n, v.num, w.num⟩) ∧
    (∀ v, l.getLast? = some v → v.imu = none) ∧ l.Pairwise (fun a b => a.num < b.num) := by
  induction l with
  | nil => simp
  | cons v l ih =>
    obtain ⟨i1, i2, i3⟩ := ih hl.tail
    refine ⟨?_, ?_, ?_⟩
    · intro k x y hx hy
      cases k with
      | zero =>
        cases l with
        | nil => simp at hy
        | cons z l =>
          simp only [List.getElem?_cons_zero, Option.some.injEq, zero_add,
            List.getElem?_cons_succ] at hx hy
          subst hx; subst hy
          exact hl.1
      | succ k => exact i1 k x y (by simpa using hx) (by simpa using hy)
    · intro x hx
      cases l with
      | nil =>
        simp only [List.getLast?_singleton, Option.some.injEq] at hx
        subst hx
        exact hl
      | cons y l => exact i2 x (by simpa [List.getLast?_cons_cons] using hx)
    · rw [List.pairwise_cons]
      exact ⟨hl.head_lt, i3⟩

/-- **C58, connectedness.**  In every history, every view but the last has exactly one IMU
factor, which joins it to the following view; the last has none. -/
theorem C58_connected (env : VEnv K D) (m : Bool) (w : Int) (fe fd : Bool)
    (cs : List (Call K D)) (t : St K D) (h : Run env (St.new m w fe fd) cs t) :
    (∀ (k : Nat) v w, t.views[k]? = some v → t.views[k + 1]? = some w →
      ∃ n, v.imu = some ⟨n, v.num, w.num⟩) ∧
    (∀ v, t.views.getLast? = some v → v.imu = none) ∧
    t.views.Pairwise (fun a b => a.num < b.num) :=
  (h.shape (Shape.new _ _ _ _)).linked.spec

/-- **C58, the problem.**  In every history in which `reset` is not called while a prior
exists, the solver problem holds exactly the residuals of the present views and the prior,
each once, and exactly the poses and speeds of the present views. -/
theorem C58_problem (env : VEnv K D) (m : Bool) (w : Int) (fe fd : Bool)
    (cs : List (Call K D)) (t : St K D) (h : RunR env (St.new m w fe fd) cs t) :
    (t.prob.rblocks.map Prod.snd).Nodup ∧
    (∀ r, r ∈ t.prob.rblocks.map Prod.snd ↔
      (∃ v ∈ t.views, r ∈ v.fids.map Res.fid ∨ (∃ i, v.imu = some i ∧ r = .imu i)) ∨
      ∃ id, t.marg = some (id, r)) ∧
    (∀ r ∈ t.prob.rblocks.map Prod.snd, ∀ q ∈ r.blocks, q ∈ t.prob.pblocks) ∧
    (∀ k, .pose k ∈ t.prob.pblocks ↔ ∃ v ∈ t.views, v.num = k) ∧
    (∀ k, .sb k ∈ t.prob.pblocks ↔ ∃ v ∈ t.views, v.num = k) := by
  have hw := h.wf (WF.new _ _ _ _)
  refine ⟨hw.prob.res, ?_, ?_, hw.pPose, hw.pSb⟩
  · intro r
    rw [hw.content]
    have : ∀ v : View K, r ∈ v.residuals ↔
        r ∈ v.fids.map Res.fid ∨ ∃ i, v.imu = some i ∧ r = .imu i := by
      intro v
      simp only [View.residuals, List.mem_append, List.mem_map, Option.mem_toList]
      refine or_congr_right ⟨?_, ?_⟩
      · rintro ⟨a, h1, rfl⟩; exact ⟨a, h1, rfl⟩
      · rintro ⟨a, h1, rfl⟩; exact ⟨a, h1, rfl⟩
    simp only [this]
  · intro r hr q hq
    obtain ⟨id, hid⟩ := mem_snd.1 hr
    exact hw.prob.closed _ hid q hq

/-- A parameter the user asked to keep fixed: intrinsics or extrinsics of a camera added that
way, or the IMU extrinsics. -/
inductive HeldFixed (s : St K D) : Par → Prop where
  | cam {i : Int} {f : CamFlags} : SMap.find i s.cams = some f → f.fixPar = true → HeldFixed s (.cam i)
  | ext {i : Int} {f : CamFlags} : SMap.find i s.cams = some f → f.fixExt = true → HeldFixed s (.ext i)
  | imuExt : s.imuExtFixed = true → HeldFixed s .imuExt

theorem isFixed_iff (s : St K D) (q : Par) (hq : q ≠ .delay) : isFixed s q = false ↔ ¬ HeldFixed s q := by
  cases q with
  | cam i =>
    simp only [isFixed]
    cases hf : SMap.find i s.cams with
    | none =>
      refine ⟨fun _ hx => ?_, fun _ => rfl⟩
      cases hx with
      | cam h1 _ => rw [hf] at h1; cases h1
    | some f =>
      simp only [Option.map_some, Option.getD_some]
      constructor
      · intro h hx
        cases hx with
        | cam h1 h2 => rw [hf] at h1; cases h1; rw [h] at h2; cases h2
      · intro h
        cases hx : f.fixPar with
        | false => rfl
        | true => exact absurd (.cam hf hx) h
  | ext i =>
    simp only [isFixed]
    cases hf : SMap.find i s.cams with
    | none =>
      refine ⟨fun _ hx => ?_, fun _ => rfl⟩
      cases hx with
      | ext h1 _ => rw [hf] at h1; cases h1
    | some f =>
      simp only [Option.map_some, Option.getD_some]
      constructor
      · intro h hx
        cases hx with
        | ext h1 h2 => rw [hf] at h1; cases h1; rw [h] at h2; cases h2
      · intro h
        cases hx : f.fixExt with
        | false => rfl
        | true => exact absurd (.ext hf hx) h
  | imuExt =>
    simp only [isFixed]
    constructor
    · intro h hx
      cases hx with
      | imuExt h2 => rw [h] at h2; cases h2
    · intro h
      cases hx : s.imuExtFixed with
      | false => rfl
      | true => exact absurd (.imuExt hx) h
  | delay => exact absurd rfl hq
  | fiducial => simp [isFixed]; intro h; cases h
  | pose k => simp [isFixed]; intro h; cases h
  | sb k => simp [isFixed]; intro h; cases h

/-- **C58, what the prior replaces.**  When a view is dropped, it is the oldest; the residuals
that disappear are exactly those that involve its pose or its speed; the parameters of the new
prior are exactly the parameters of those residuals that are neither of that view, nor fixed,
nor the time delay. -/
theorem C58_prior (env : VEnv K D) (m : Bool) (w : Int) (fe fd : Bool)
    (cs : List (Call K D)) (t u : St K D) (h : RunR env (St.new m w fe fd) cs t)
    (hu : marginalize t = .ok u) :
    ∃ v n ps id, t.views = v :: u.views ∧ u.marg = some (id, .marg n ps) ∧ ps.Nodup ∧
      (∀ r, r ∈ u.prob.rblocks.map Prod.snd ↔ r = .marg n ps ∨
        (r ∈ t.prob.rblocks.map Prod.snd ∧ .pose v.num ∉ r.blocks ∧ .sb v.num ∉ r.blocks)) ∧
      (∀ q, q ∈ ps ↔ (∃ r ∈ t.prob.rblocks.map Prod.snd,
          (.pose v.num ∈ r.blocks ∨ .sb v.num ∈ r.blocks) ∧ q ∈ r.blocks) ∧
        q ≠ .pose v.num ∧ q ≠ .sb v.num ∧ ¬ HeldFixed t q ∧ q ≠ .delay) := by
  have hw := h.wf (WF.new _ _ _ _)
  have hwu := hw.marginalize hu
  obtain ⟨v, rest, p, i, out, hv, hp, hi, ho, rfl⟩ := marginalize_eq hu
  have hvm : v ∈ t.views := by simp [hv]
  refine ⟨v, _, _, _, hv, rfl, nodup_remainParams _ _ _, ?_, ?_⟩
  · intro r
    rw [hwu.content]
    simp only [Option.some.injEq, Prod.mk.injEq, exists_eq_left']
    rw [or_comm, eq_comm (b := r)]
    refine or_congr_right ⟨?_, ?_⟩
    · rintro ⟨x, hx, hxr⟩
      have hx' : x ∈ t.views := by rw [hv]; exact List.mem_cons_of_mem _ hx
      have hlt := (hv ▸ hw.linked : Linked (v :: rest)).head_lt x hx
      refine ⟨(hw.content r).2 (Or.inl ⟨x, hx', hxr⟩), ?_, ?_⟩
      · intro hq
        have := res_ge hw hx' hxr (Or.inl hq); omega
      · intro hq
        have := res_ge hw hx' hxr (Or.inr hq); omega
    · rintro ⟨hr, h1, h2⟩
      have hnt := mt (touch_oldest hw hv hr).2 (by tauto)
      rcases (hw.content r).1 hr with ⟨x, hx, hxr⟩ | hm
      · rw [hv] at hx
        rcases List.mem_cons.1 hx with rfl | hx
        · exact absurd (Or.inl hxr) hnt
        · exact ⟨x, hx, hxr⟩
      · exact absurd (Or.inr hm) hnt
  · intro q
    rw [mem_remainParams]
    have hset : ∀ r, r ∈ (t.marg.map Prod.snd).toList ++ [Res.imu i] ++ v.fids.map Res.fid ↔
        r ∈ t.prob.rblocks.map Prod.snd ∧ (.pose v.num ∈ r.blocks ∨ .sb v.num ∈ r.blocks) := by
      intro r
      have h0 : r ∈ (t.marg.map Prod.snd).toList ++ [Res.imu i] ++ v.fids.map Res.fid ↔
          r ∈ v.residuals ∨ ∃ id, t.marg = some (id, r) := by
        simp only [View.residuals, List.mem_append, hi, Option.toList_some, List.map_cons,
          List.map_nil, List.mem_singleton, Option.mem_toList, Option.map_eq_some_iff, Prod.exists,
          exists_eq_right]
        constructor
        · rintro ((h | h) | h)
          · exact Or.inr h
          · exact Or.inl (Or.inr h)
          · exact Or.inl (Or.inl h)
        · rintro ((h | h) | h)
          · exact Or.inr h
          · exact Or.inl (Or.inr h)
          · exact Or.inl (Or.inl h)
      rw [h0]
      constructor
      · intro hh
        have hr : r ∈ t.prob.rblocks.map Prod.snd := by
          rw [hw.content]
          rcases hh with hh | hh
          · exact Or.inl ⟨v, hvm, hh⟩
          · exact Or.inr hh
        exact ⟨hr, (touch_oldest hw hv hr).2 hh⟩
      · rintro ⟨hr, ht⟩
        exact (touch_oldest hw hv hr).1 ht
    have hex : (∃ r ∈ (t.marg.map Prod.snd).toList ++ [Res.imu i] ++ v.fids.map Res.fid,
          q ∈ r.blocks) ↔ (∃ r ∈ t.prob.rblocks.map Prod.snd,
          (.pose v.num ∈ r.blocks ∨ .sb v.num ∈ r.blocks) ∧ q ∈ r.blocks) := by
      constructor
      · rintro ⟨r, hr, hq⟩
        exact ⟨r, ((hset r).1 hr).1, ((hset r).1 hr).2, hq⟩
      · rintro ⟨r, hr, ht, hq⟩
        exact ⟨r, (hset r).2 ⟨hr, ht⟩, hq⟩
    rw [hex]
    have hfx : (isFixed t q = false ∧ q ≠ .delay) ↔ (¬ HeldFixed t q ∧ q ≠ .delay) :=
      and_congr_left fun hq => isFixed_iff t q hq
    simp only [isFlagged, Bool.or_eq_false_iff, decide_eq_false_iff_not, and_assoc, ← hfx, ne_eq]

/-! ### Time order -/

/-- `Run` in which every grid handed in is later than every view present. -/
inductive RunO (env : VEnv K D) (s : St K D) : List (Call K D) → St K D → Prop
  | nil : RunO env s [] s
  | snoc {cs t c u} : RunO env s cs t →
      (∀ cam g, c = .grid cam g → ∀ v ∈ t.views, v.ts < g.timestamp) → call env t c = .ok u →
      RunO env s (cs ++ [c]) u

theorem RunO.run {env : VEnv K D} {s t : St K D} {cs : List (Call K D)} (h : RunO env s cs t) :
    Run env s cs t := by
  induction h with
  | nil => exact .nil
  | snoc _ _ h2 ih => exact .snoc ih h2

/-- The views are in time order and older than the buffered grids. -/
structure Ord (s : St K D) : Prop where
  sorted : s.views.Pairwise (fun a b => a.ts < b.ts)
  newer : ∀ cg ∈ s.gridBuf, ∀ v ∈ s.views, v.ts < cg.2.timestamp

theorem pairwise_map_ts {l : List (View K)} :
    l.Pairwise (fun a b => a.ts < b.ts) ↔ (l.map View.ts).Pairwise (· < ·) := by
  rw [List.pairwise_map]

theorem Ord.process {env : VEnv K D} {s t : St K D} {grids : List (Int × Grid K)} {b : Bool}
    (hs : s.views.Pairwise (fun a b => a.ts < b.ts))
    (hn : ∀ cg ∈ grids, ∀ v ∈ s.views, v.ts < cg.2.timestamp)
    (h : process env s grids = .ok (t, b)) : t.views.Pairwise (fun a b => a.ts < b.ts) := by
  obtain ⟨-, -, -, -, -, -, -, a8⟩ := process_views h
  cases a8 with
  | same e he => rw [e]; exact hs
  | shrink v e => rw [e] at hs; exact (List.pairwise_cons.1 hs).2
  | first v hi e hnum hg himu hts hti =>
    obtain ⟨cg, hcg, -, hv⟩ := hts
    rw [e, List.pairwise_append]
    refine ⟨hs, by simp, ?_⟩
    intro x hx y hy
    simp only [List.mem_singleton] at hy
    subst hy
    rw [hv]
    exact hn cg hcg x hx
  | next l vj vk n wide hi hl hnum hg himu hts hwide hlast =>
    obtain ⟨cg, hcg, -, hv⟩ := hts
    have hwp : wide.Pairwise (fun a b => a.ts < b.ts) := by
      rw [pairwise_map_ts]
      have hmap : wide.map View.ts = s.views.map View.ts ++ [vk.ts] := by
        rw [hwide, hl]; simp
      rw [hmap, List.pairwise_append]
      refine ⟨pairwise_map_ts.1 hs, by simp, ?_⟩
      intro x hx y hy
      obtain ⟨v, hv', rfl⟩ := List.mem_map.1 hx
      simp only [List.mem_singleton] at hy
      rw [hy, hv]
      exact hn cg hcg v hv'
    rcases hlast with ⟨e, -⟩ | ⟨v, e⟩
    · rw [e]; exact hwp
    · rw [e] at hwp; exact (List.pairwise_cons.1 hwp).2

/-- **C58, time order.**  If every grid handed in is later than the views present, the views
stay in strictly increasing time order.  (Without that the claim fails:
`C58_order_refuted`.) -/
theorem C58_order_partial (env : VEnv K D) (m : Bool) (w : Int) (fe fd : Bool)
    (cs : List (Call K D)) (t : St K D) (h : RunO env (St.new m w fe fd) cs t) :
    t.views.Pairwise (fun a b => a.ts < b.ts) := by
  suffices Ord t from this.sorted
  induction h with
  | nil => exact ⟨by simp [St.new], by simp [St.new]⟩
  | @snoc cs t c u _ hc h2 ih =>
    cases c with
    | camera i fp fe =>
      simp only [VI.call, addCamera] at h2
      by_cases hc : (SMap.find i t.cams).isSome
      · rw [if_pos hc] at h2; cases h2
      · rw [if_neg hc] at h2
        injection h2 with h2
        subst h2
        exact { ih with }
    | grid cam g =>
      injection h2 with h2
      subst h2
      refine ⟨by rw [(addGrid_fields t cam g).1]; exact ih.sorted, ?_⟩
      rw [(addGrid_fields t cam g).1]
      unfold addGrid
      split_ifs
      · exact ih.newer
      · intro cg hcg
        rcases SMap.mem_set hcg with rfl | hcg
        · exact hc cam g rfl
        · exact ih.newer cg hcg
    | imu ts a w =>
      obtain ⟨b, hb⟩ := call_imu h2
      unfold addImu at hb
      simp only at hb
      split_ifs at hb with hc
      · simp only [Except.ok.injEq, Prod.mk.injEq] at hb
        obtain ⟨rfl, -⟩ := hb
        exact { ih with }
      · refine ⟨Ord.process (s := { t with imu := t.imu.add ts a w, imuStarted := true, gridBuf := [] })
          ih.sorted ih.newer hb, ?_⟩
        rw [(process_views hb).2.2.2.2.1]
        simp
    | reset =>
      injection h2 with h2
      subst h2
      exact ⟨by simp [VI.reset], by simp [VI.reset]⟩

/-- **C58, time order refuted.**  Nothing checks the time of a grid: a detection older than
the last view becomes the last view. -/
theorem C58_order_refuted (env : VEnv K D) (s t : St K D) (grids : List (Int × Grid K))
    (cg : Int × Grid K) (v : View K) (b : Bool) (hi : s.initialized = true)
    (hd : firstDetected grids = some cg) (hl : s.views.getLast? = some v)
    (hold : cg.2.timestamp < v.ts) (h : process env s grids = .ok (t, b))
    (hs : t.views.length = s.views.length + 1) :
    ¬ t.views.Pairwise (fun a b => a.ts ≤ b.ts) := by
  unfold process at h
  rw [if_neg (by simp [hi])] at h
  obtain ⟨s1, h1, h2⟩ := bindOk h
  obtain ⟨s2, h3, h4⟩ := bindOk h2
  simp only [Except.ok.injEq, Prod.mk.injEq] at h4
  obtain ⟨rfl, -⟩ := h4
  rcases addView_eq h1 with ⟨-, hh | hh⟩ | ⟨cg', u1, u2, -, hd', hne, b1, -, b2, b3⟩
  · rw [hi] at hh; cases hh
  · rw [hd] at hh; cases hh
  · rw [hd] at hd'
    injection hd' with hd'
    subst hd'
    obtain ⟨fids, n, p, -, -, rfl⟩ := newView_eq b1
    obtain ⟨l, vj, hl'⟩ := list_concat_of_ne hne
    obtain ⟨out, -, rfl⟩ := linkViews_eq (l := l) (vj := vj)
      (vk := ⟨s.next, cg.2.timestamp, grids, fids, none⟩) (by simp [hl']) b2
    obtain ⟨bb, rfl⟩ := trimImu_eq b3
    have hvj : vj = v := by
      rw [hl'] at hl
      simpa using hl
    subst hvj
    rcases (slide_views h3).2.2.2.2.2.2.2 with ⟨e, -⟩ | ⟨x, e⟩
    · rw [e]
      intro hp
      rw [List.pairwise_append] at hp
      have := (List.pairwise_cons.1 hp.2.1).1 ⟨s.next, cg.2.timestamp, grids, fids, none⟩ (by simp)
      simp only at this
      omega
    · have h5 := congrArg List.length e
      rw [List.length_cons, hs, hl'] at h5
      simp at h5

/-- **C58, window of size 0 refuted.**  A calibrator that has been initialised always holds a
view, so a window of size 0 is exceeded. -/
theorem C58_zero_window_refuted (env : VEnv K D) (m : Bool) (w : Int) (fe fd : Bool)
    (cs : List (Call K D)) (t : St K D) (h : Run env (St.new m w fe fd) cs t)
    (hi : t.initialized = true) : 0 < t.views.length :=
  List.length_pos_iff.2 ((h.shape (Shape.new _ _ _ _)).init.1 hi)

/-- **C58, negative windows refuted.**  A negative window size means a window of almost
`2^64` views: nothing is dropped. -/
theorem C58_negative_window_refuted (s : St K D) (hw : s.windowSize < 0) (hw2 : -2 ^ 31 ≤ s.windowSize)
    (hl : s.views.length ≤ 2 ^ 63) : slide s = .ok s := by
  unfold slide
  rw [if_neg]
  rintro ⟨-, h⟩
  have : windowCast s.windowSize = s.windowSize + 2 ^ 64 := by
    unfold windowCast
    rw [← Int.add_emod_right]
    exact Int.emod_eq_of_lt (by omega) (by omega)
  rw [this] at h
  omega

end Yac.VI
