import Verif.Par.Model
import Verif.Calib.CameraProps
import Verif.Mocap.Ops

/-! # C137: the next best view search in parallel -/

namespace Yac.Par
open Yac.Calib

variable {K V : Type} [Field K] [LinearOrder K]

/-- What the table says about a candidate. -/
def look (t : List (Int × List (Nat × K))) (c : Int) (i : Nat) : Option K := SMap.find i ((SMap.find c t).getD [])

theorem look_store (t : List (Int × List (Nat × K))) (c c' : Int) (i i' : Nat) (v : K) :
    look (store t c i v) c' i' = if c' = c ∧ i' = i then some v else look t c' i' := by
  unfold look store
  rw [SMap.find_set]
  by_cases h : c' = c
  · subst h
    simp only [if_pos, Option.getD_some, true_and]
    rw [SMap.find_set]
  · simp only [if_neg h, h, false_and, if_false]

theorem mem_tasks {cams : List (Int × List V)} {c : Int} {i : Nat} {T : V} :
    (c, i, T) ∈ tasks cams ↔ ∃ cp ∈ cams, cp.1 = c ∧ cp.2[i]? = some T := by
  unfold tasks
  constructor
  · intro h
    obtain ⟨cp, hcp, h⟩ := List.mem_flatMap.mp h
    obtain ⟨iT, hz, he⟩ := List.mem_map.mp h
    obtain ⟨rfl, rfl, rfl⟩ : cp.1 = c ∧ iT.1 = i ∧ iT.2 = T :=
      ⟨congrArg Prod.fst he, congrArg (fun x => x.2.1) he, congrArg (fun x => x.2.2) he⟩
    refine ⟨cp, hcp, rfl, ?_⟩
    obtain ⟨j, hj⟩ := List.mem_iff_getElem?.mp hz
    rw [List.getElem?_zip_eq_some] at hj
    obtain ⟨h1, h2⟩ := hj
    obtain ⟨hl, h1⟩ := List.getElem?_eq_some_iff.mp h1
    rw [List.getElem_range] at h1
    rw [← h1]
    exact h2
  · rintro ⟨cp, hcp, rfl, h⟩
    refine List.mem_flatMap.mpr ⟨cp, hcp, List.mem_map.mpr ⟨(i, T), ?_, rfl⟩⟩
    refine List.mem_iff_getElem?.mpr ⟨i, ?_⟩
    rw [List.getElem?_zip_eq_some]
    obtain ⟨hl, -⟩ := List.getElem?_eq_some_iff.mp h
    exact ⟨by simp [hl], h⟩

/-- The invariant of the loop. -/
structure Inv (score : V → K) (all : List (Int × Nat × V)) (s : St K V) : Prop where
  held : ∀ w ∈ s.workers, ∀ v, w.hold = some v → ∃ c i T rest, w.todo = (c, i, T) :: rest ∧ v = score T
  mine : ∀ w ∈ s.workers, ∀ x ∈ w.todo, x ∈ all
  kept : ∀ x ∈ all, (∃ w ∈ s.workers, x ∈ w.todo) ∨ look s.table x.1 x.2.1 = some (score x.2.2)

theorem Inv.step {score : V → K} {all : List (Int × Nat × V)}
    (hu : ∀ x ∈ all, ∀ y ∈ all, x.1 = y.1 → x.2.1 = y.2.1 → x = y) {s : St K V} (h : Inv score all s) (k : Nat) :
    Inv score all (step score s k) := by
  unfold Par.step
  cases hw : s.workers[k]? with
  | none => exact h
  | some w =>
    have hwm : w ∈ s.workers := List.mem_of_getElem? hw
    have hk : k < s.workers.length := (List.getElem?_eq_some_iff.mp hw).1
    simp only
    rcases w with ⟨todo, hold⟩
    rcases todo with _ | ⟨⟨c, i, T⟩, rest⟩
    · show Inv score all ⟨s.table, s.workers.set k ⟨[], hold⟩⟩
      have : s.workers.set k ⟨[], hold⟩ = s.workers := by
        apply List.ext_getElem?
        intro j
        rw [List.getElem?_set]
        split_ifs with hj
        · subst hj; exact hw.symm
        · rfl
      rw [this]
      exact h
    · cases hold with
      | none =>
        show Inv score all ⟨s.table, s.workers.set k ⟨(c, i, T) :: rest, some (score T)⟩⟩
        refine ⟨?_, ?_, ?_⟩
        · intro u hu' v hv
          rcases List.mem_or_eq_of_mem_set hu' with hu' | rfl
          · exact h.held u hu' v hv
          · cases hv
            exact ⟨c, i, T, rest, rfl, rfl⟩
        · intro u hu' x hx
          rcases List.mem_or_eq_of_mem_set hu' with hu' | rfl
          · exact h.mine u hu' x hx
          · exact h.mine _ hwm x hx
        · intro x hx
          rcases h.kept x hx with ⟨u, hu', hxu⟩ | h'
          · left
            obtain ⟨j, hj⟩ := List.mem_iff_getElem?.mp hu'
            by_cases hjk : k = j
            · subst hjk
              have : u = ⟨(c, i, T) :: rest, none⟩ := Option.some.inj (hj.symm.trans hw)
              subst this
              exact ⟨_, List.mem_set hk _, hxu⟩
            · exact ⟨u, List.mem_iff_getElem?.mpr ⟨j, by rw [List.getElem?_set, if_neg hjk]; exact hj⟩, hxu⟩
          · exact Or.inr h'
      | some v =>
        show Inv score all ⟨store s.table c i v, s.workers.set k ⟨rest, none⟩⟩
        obtain ⟨c', i', T', rest', he, hv⟩ := h.held _ hwm v rfl
        obtain ⟨⟨rfl, rfl, rfl⟩, rfl⟩ : (c = c' ∧ i = i' ∧ T = T') ∧ rest = rest' := by simpa using he
        subst hv
        have hmem : (c, i, T) ∈ all := h.mine _ hwm _ (List.mem_cons_self ..)
        refine ⟨?_, ?_, ?_⟩
        · intro u hu' v hv
          rcases List.mem_or_eq_of_mem_set hu' with hu' | rfl
          · exact h.held u hu' v hv
          · cases hv
        · intro u hu' x hx
          rcases List.mem_or_eq_of_mem_set hu' with hu' | rfl
          · exact h.mine u hu' x hx
          · exact h.mine _ hwm x (List.mem_cons_of_mem _ hx)
        · intro x hx
          by_cases hxc : x = (c, i, T)
          · right
            subst hxc
            simp only
            rw [look_store, if_pos ⟨rfl, rfl⟩]
          · rcases h.kept x hx with ⟨u, hu', hxu⟩ | h'
            · left
              obtain ⟨j, hj⟩ := List.mem_iff_getElem?.mp hu'
              by_cases hjk : k = j
              · subst hjk
                have : u = ⟨(c, i, T) :: rest, some (score T)⟩ := Option.some.inj (hj.symm.trans hw)
                subst this
                rcases List.mem_cons.mp hxu with h1 | h1
                · exact absurd h1 hxc
                · exact ⟨_, List.mem_set hk _, h1⟩
              · exact ⟨u, List.mem_iff_getElem?.mpr ⟨j, by rw [List.getElem?_set, if_neg hjk]; exact hj⟩, hxu⟩
            · right
              simp only
              rw [look_store, if_neg]
              · exact h'
              · rintro ⟨h1, h2⟩
                exact hxc (hu x hx _ hmem h1 h2)

theorem Inv.run {score : V → K} {all : List (Int × Nat × V)}
    (hu : ∀ x ∈ all, ∀ y ∈ all, x.1 = y.1 → x.2.1 = y.2.1 → x = y) (sched : List Nat) {s : St K V} (h : Inv score all s) :
    Inv score all (run score sched s) := by
  induction sched generalizing s with
  | nil => exact h
  | cons k l ih => exact ih (h.step hu k)

theorem inv_init (score : V → K) (teams : List (List (Int × List V))) :
    Inv score (tasks teams.flatten) (St.init teams : St K V) := by
  have hmem : ∀ cams ∈ teams, ∀ x ∈ tasks cams, x ∈ tasks teams.flatten := by
    rintro cams hc ⟨c, i, T⟩ hx
    obtain ⟨cp, hcp, h⟩ := mem_tasks.mp hx
    exact mem_tasks.mpr ⟨cp, List.mem_flatten.mpr ⟨cams, hc, hcp⟩, h⟩
  refine ⟨?_, ?_, ?_⟩
  · intro w hw v hv
    obtain ⟨cams, -, rfl⟩ := List.mem_map.mp hw
    cases hv
  · intro w hw x hx
    obtain ⟨cams, hc, rfl⟩ := List.mem_map.mp hw
    exact hmem cams hc x hx
  · rintro ⟨c, i, T⟩ hx
    left
    obtain ⟨cp, hcp, h⟩ := mem_tasks.mp hx
    obtain ⟨cams, hc, hcp⟩ := List.mem_flatten.mp hcp
    exact ⟨_, List.mem_map.mpr ⟨cams, hc, rfl⟩, mem_tasks.mpr ⟨cp, hcp, h⟩⟩

theorem tasks_unique {cands : List (Int × List V)} (h : SMap.Sorted cands) {l : List (Int × List V)} (hl : l.Perm cands) :
    ∀ x ∈ tasks l, ∀ y ∈ tasks l, x.1 = y.1 → x.2.1 = y.2.1 → x = y := by
  rintro ⟨c, i, T⟩ hx ⟨c', i', T'⟩ hy h1 h2
  simp only at h1 h2
  subst h1 h2
  obtain ⟨p, hp, rfl, hT⟩ := mem_tasks.mp hx
  obtain ⟨q, hq, he, hT'⟩ := mem_tasks.mp hy
  have hn := SMap.sorted_nodup h
  have : q = p := List.inj_on_of_nodup_map hn (hl.mem_iff.mp hq) (hl.mem_iff.mp hp) he
  subst this
  rw [hT] at hT'
  cases hT'
  rfl

/-- **C137, every score.**  However the cameras are shared between the threads and however the threads are scheduled (each score
being stored in one step), at the end the table has the score of every candidate. -/
theorem C137_scores (score : V → K) (cands : List (Int × List V)) (h : SMap.Sorted cands) (teams : List (List (Int × List V)))
    (ht : Shares teams cands) (sched : List Nat) (hd : (run score sched (St.init teams)).done = true) :
    ∀ cp ∈ cands, ∀ i T, cp.2[i]? = some T → readScore (run score sched (St.init teams : St K V)).table cp.1 i = score T := by
  intro cp hcp i T hT
  have inv := (inv_init (K := K) score teams).run (tasks_unique h ht) sched
  have hx : (cp.1, i, T) ∈ tasks teams.flatten := mem_tasks.mpr ⟨cp, ht.mem_iff.mpr hcp, rfl, hT⟩
  rcases inv.kept _ hx with ⟨w, hw, hm⟩ | h'
  · have := List.all_eq_true.mp hd w hw
    rw [List.isEmpty_iff.mp this] at hm
    cases hm
  · unfold readScore
    unfold look at h'
    simp only at h'
    rw [h']
    rfl

theorem fold_scores (score : V → K) (f : Nat → K) (c : Int) : ∀ (l : List V) (o : Nat) (b : Best K),
    (∀ i T, l[i]? = some T → f (i + o) = score T) →
    (List.range' o l.length).foldl (fun b i => b.update c i (some (f i))) b =
      ((List.range' o (l.map score).length).zip (l.map score)).foldl (fun b iv => b.update c iv.1 (some iv.2)) b := by
  intro l
  induction l with
  | nil => intros; rfl
  | cons T l ih =>
    intro o b h
    simp only [List.map_cons, List.length_cons, List.range'_succ, List.zip_cons_cons, List.foldl_cons]
    have h0 := h 0 T rfl
    rw [Nat.zero_add] at h0
    rw [h0]
    apply ih
    intro i T' hi
    have := h (i + 1) T' (by simpa using hi)
    rw [← this]
    congr 1
    omega

/-- **C137, any schedule.**  However the cameras are shared between the threads and however the threads are scheduled, the search
returns what it returns with one thread. -/
theorem C137_schedule (env : Env K V) (score : V → K) (s : Cal K V) (cands : List (Int × List V)) (h : SMap.Sorted cands)
    (teams : List (List (Int × List V))) (ht : Shares teams cands) (sched : List Nat)
    (hd : (run score sched (St.init teams)).done = true) :
    findNbvPar env score s cands teams sched = findNbvFast env score s cands := by
  have hs : scan (run score sched (St.init teams : St K V)).table cands =
      scanScores (cands.map (fun cp => (cp.1, cp.2.map score))) := by
    have hv := C137_scores score cands h teams ht sched hd
    unfold scan scanScores
    rw [List.foldl_map]
    generalize hb : (⟨0, 0, 0⟩ : Best K) = b
    clear hb
    generalize hX : (run score sched (St.init teams : St K V)).table = X at hv
    clear hX
    clear hd
    have : ∀ l : List (Int × List V), (∀ cp ∈ l, ∀ i T, cp.2[i]? = some T → readScore X cp.1 i = score T) → ∀ b : Best K,
        l.foldl (fun b cp => (List.range cp.2.length).foldl (fun b i => b.update cp.1 i (some (readScore X cp.1 i))) b) b =
        l.foldl (fun b cp => ((List.range (cp.2.map score).length).zip (cp.2.map score)).foldl
          (fun b iv => b.update cp.1 iv.1 (some iv.2)) b) b := by
      intro l
      induction l with
      | nil => intros; rfl
      | cons cp l ih =>
        intro hl b
        rw [List.foldl_cons, List.foldl_cons]
        rw [List.range_eq_range', List.range_eq_range', fold_scores score (readScore X cp.1) cp.1 cp.2 0 b
          (fun i T hi => by simpa using hl cp (List.mem_cons_self ..) i T hi)]
        exact ih (fun cp' h' => hl cp' (List.mem_cons_of_mem _ h')) _
    exact this cands hv b
  unfold findNbvPar findNbvFast
  rw [hd, hs]
  rfl

/-! ### Races -/

theorem work_idle (score : V → K) (t : List (Int × List (Nat × K))) (w : Worker K V) (h : w.todo = []) : work score t w = (t, w) := by
  rcases w with ⟨todo, hold⟩
  simp only at h
  subst h
  rfl

theorem access_idle (t : List (Int × List (Nat × K))) (w : Worker K V) (h : w.todo = []) : access t w = .nothing := by
  rcases w with ⟨todo, hold⟩
  simp only at h
  subst h
  rfl

theorem tasks_busy {cams : List (Int × List V)} : tasks cams ≠ [] ↔ Busy cams := by
  constructor
  · intro h
    obtain ⟨⟨c, i, T⟩, hx⟩ := List.exists_mem_of_ne_nil _ h
    obtain ⟨cp, hcp, -, hT⟩ := mem_tasks.mp hx
    refine ⟨cp, hcp, ?_⟩
    intro he
    rw [he] at hT
    cases hT
  · rintro ⟨cp, hcp, hne⟩ he
    obtain ⟨T, l, hl⟩ := List.exists_cons_of_ne_nil hne
    have : (cp.1, 0, T) ∈ tasks cams := mem_tasks.mpr ⟨cp, hcp, rfl, by rw [hl]; rfl⟩
    rw [he] at this
    cases this

theorem idle_stays {score : V → K} {s : St K V} {j : Nat} (h : ∀ w, s.workers[j]? = some w → w.todo = []) (k : Nat) :
    ∀ w, (step score s k).workers[j]? = some w → w.todo = [] := by
  intro w hw
  unfold step at hw
  cases hk : s.workers[k]? with
  | none => rw [hk] at hw; exact h w hw
  | some u =>
    rw [hk] at hw
    simp only [List.getElem?_set] at hw
    split_ifs at hw with h1 h2
    · subst h1
      have := h u hk
      rw [work_idle score _ u this] at hw
      cases hw
      exact this
    · exact h w hw

/-- **C137, races (partial: not every number of busy threads).**  When at most one thread has candidates to score, no schedule
has a race. -/
theorem C137_race_partial (score : V → K) (teams : List (List (Int × List V)))
    (h : ∀ (j k : Nat) (a b : List (Int × List V)), teams[j]? = some a → teams[k]? = some b → Busy a → Busy b → j = k)
    (sched : List Nat) : ¬ Race (run score sched (St.init teams : St K V)) := by
  have hid : ∀ (j : Nat), (∀ a, teams[j]? = some a → ¬ Busy a) → ∀ w, (run score sched (St.init teams : St K V)).workers[j]? = some w → w.todo = [] := by
    intro j hj
    have h0 : ∀ w, (St.init teams : St K V).workers[j]? = some w → w.todo = [] := by
      intro w hw
      simp only [St.init, List.getElem?_map, Option.map_eq_some_iff] at hw
      obtain ⟨a, ha, rfl⟩ := hw
      by_contra hne
      exact hj a ha (tasks_busy.mp hne)
    generalize (St.init teams : St K V) = s at h0
    clear h hj
    induction sched generalizing s with
    | nil => exact h0
    | cons k l ih => exact ih _ (idle_stays h0 k)
  rintro ⟨j, k, u, v, hjk, hu, hv, h1, h2⟩
  by_cases hj : ∀ a, teams[j]? = some a → ¬ Busy a
  · rw [access_idle _ _ (hid j hj u hu)] at h1
    cases h1
  · by_cases hk : ∀ a, teams[k]? = some a → ¬ Busy a
    · exact h2 (access_idle _ _ (hid k hk v hv))
    · push Not at hj hk
      obtain ⟨a, ha, hba⟩ := hj
      obtain ⟨b, hb, hbb⟩ := hk
      exact hjk (h j k a b ha hb hba hbb)

/-- **C137, refuted.**  Whenever two threads have candidates to score, there is a schedule in which both are about to insert into
the shared table at the same time. -/
theorem C137_race_refuted (score : V → K) (teams : List (List (Int × List V))) (j k : Nat) (a b : List (Int × List V)) (hjk : j ≠ k)
    (ha : teams[j]? = some a) (hb : teams[k]? = some b) (hba : Busy a) (hbb : Busy b) :
    Race (run score [j, k] (St.init teams : St K V)) := by
  obtain ⟨⟨c, i, T⟩, l, hl⟩ := List.exists_cons_of_ne_nil (tasks_busy.mpr hba)
  obtain ⟨⟨c', i', T'⟩, l', hl'⟩ := List.exists_cons_of_ne_nil (tasks_busy.mpr hbb)
  have w1 : (St.init teams : St K V).workers[j]? = some ⟨(c, i, T) :: l, none⟩ := by
    simp only [St.init, List.getElem?_map, ha, Option.map_some, hl]
  have w2 : (St.init teams : St K V).workers[k]? = some ⟨(c', i', T') :: l', none⟩ := by
    simp only [St.init, List.getElem?_map, hb, Option.map_some, hl']
  have hj : j < (St.init teams : St K V).workers.length := (List.getElem?_eq_some_iff.mp w1).1
  have hk : k < (St.init teams : St K V).workers.length := (List.getElem?_eq_some_iff.mp w2).1
  have e1 : step score (St.init teams : St K V) j =
      ⟨[], (St.init teams : St K V).workers.set j ⟨(c, i, T) :: l, some (score T)⟩⟩ := by
    unfold step
    rw [w1]
    rfl
  have w3 : (step score (St.init teams : St K V) j).workers[k]? = some ⟨(c', i', T') :: l', none⟩ := by
    rw [e1]
    simp only [List.getElem?_set, if_neg hjk]
    exact w2
  have e2 : run score [j, k] (St.init teams : St K V) =
      ⟨[], ((St.init teams : St K V).workers.set j ⟨(c, i, T) :: l, some (score T)⟩).set k
        ⟨(c', i', T') :: l', some (score T')⟩⟩ := by
    show step score (step score (St.init teams) j) k = _
    unfold step at w3 ⊢
    rw [w1] at w3 ⊢
    simp only at w3 ⊢
    rw [w3]
    rfl
  rw [e2]
  refine ⟨j, k, ⟨(c, i, T) :: l, some (score T)⟩, ⟨(c', i', T') :: l', some (score T')⟩, hjk, ?_, ?_, rfl, ?_⟩
  · simp only [List.getElem?_set, if_neg hjk.symm]
    rw [if_pos trivial, if_pos hj]
  · simp only [List.getElem?_set, if_pos, List.length_set, hk]
  · intro hx
    cases hx

/-- Three candidates of two cameras, one thread for each camera. -/
def twoCams : List (Int × List ℚ) := [(0, [1, -2]), (1, [-3])]

example : (run (fun T : ℚ => T) [0, 1, 1, 0, 0, 0] (St.init [[(0, [1, -2])], [(1, [-3])]])).done = true ∧
    scan (run (fun T : ℚ => T) [0, 1, 1, 0, 0, 0] (St.init [[(0, [1, -2])], [(1, [-3])]])).table twoCams = ⟨1, 0, -3⟩ ∧
    SMap.Sorted twoCams ∧ Shares [[(0, [1, -2])], [(1, [-3])]] twoCams := by
  refine ⟨rfl, rfl, ?_, List.Perm.refl _⟩
  simp [SMap.Sorted, twoCams]

example : Busy [((0 : Int), [(1 : ℚ), -2])] ∧ ¬ Busy ([] : List (Int × List ℚ)) :=
  ⟨⟨_, List.mem_cons_self .., by simp⟩, by rintro ⟨_, h, -⟩; cases h⟩

end Yac.Par
