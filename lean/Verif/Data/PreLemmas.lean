import Verif.Data.PreModel
import Verif.AprilGrid.Props
import Verif.Text.Lemmas

/-! Specification of, and lemmas about, `calib_data_preprocess`. -/

namespace Yac.Data

open Yac.AprilGrid (Grid Line Op MadeBy)
open Yac.AprilGrid.Spec (OpValid Valid)

variable {K : Type} [Field K]

/-! ## Specification -/

/-- The detector returns a new grid of the target with the timestamp of the image, to which
corners of the target have been added. -/
def Shots (e : Pre K) : Prop :=
  ∀ name, ∃ cs : List ((Int × Int) × (K × K)), (∀ c ∈ cs, Valid e.rows e.cols c.1.1 c.1.2) ∧
    AprilGrid.run (AprilGrid.new (tsOf name) e.rows e.cols e.size e.spacing)
      (cs.map (fun c => .add c.1.1 c.1.2 c.2)) = .ok (e.shot name)

/-- The files of a directory: no name is empty, and different images have different timestamps. -/
def Images (names : List (List Char)) : Prop :=
  (∀ n ∈ names, n ≠ []) ∧ ((names.filter isTs).map tsStr).Nodup

/-- The saved grids can be loaded. -/
def Loads (e : Pre K) (fs : FileSys K) (dir : List Char) (names : List (List Char)) : Prop :=
  ∀ n ∈ names, isTs n = true → ∀ f, fs (gridPath dir n) = some f → ∃ g, loadFile e.v2 f = .ok g

/-- The grid of an image: the saved one if there is one, otherwise what the detector sees. -/
def Outcome (e : Pre K) (fs : FileSys K) (dir name : List Char) (g : Grid K) : Prop :=
  (∀ f, fs (gridPath dir name) = some f → ∃ g0, loadFile e.v2 f = .ok g0 ∧ g = complete e name g0) ∧
  (fs (gridPath dir name) = none → g = e.shot name)

/-- A file that was there stays as it was, otherwise it is the grid the detector saw. -/
def Kept (e : Pre K) (fs : FileSys K) (dir name : List Char) (f : Option (File K)) : Prop :=
  (∀ f0, fs (gridPath dir name) = some f0 → f = some f0) ∧
  (fs (gridPath dir name) = none → ∃ ls, AprilGrid.save e.p6 e.p10 (e.shot name) = .ok ls ∧ f = some (.csv ls))

/-! ## Lemmas -/

theorem gridPath_inj {dir a b : List Char} (h : gridPath dir a = gridPath dir b) : tsStr a = tsStr b := by
  unfold gridPath at h
  have h1 := List.append_cancel_left h
  rw [List.cons.injEq] at h1
  exact List.append_cancel_right h1.2

theorem Images.paths {names : List (List Char)} (h : Images names) (dir : List Char) {j k : Nat} {a b : List Char}
    (ha : names[j]? = some a) (hb : names[k]? = some b) (hta : isTs a = true) (htb : isTs b = true)
    (hne : j ≠ k) : gridPath dir a ≠ gridPath dir b := by
  have hp := h.2
  rw [List.Nodup, List.pairwise_map, List.pairwise_filter] at hp
  intro he
  have he := gridPath_inj he
  rw [List.pairwise_iff_getElem] at hp
  obtain ⟨hj, rfl⟩ := List.getElem?_eq_some_iff.mp ha
  obtain ⟨hk, rfl⟩ := List.getElem?_eq_some_iff.mp hb
  rcases Nat.lt_or_gt_of_ne hne with hlt | hlt
  · exact hp j k hj hk hlt hta htb he
  · exact hp k j hk hj hlt htb hta he.symm

theorem Shots.rel {e : Pre K} (h : Shots e) (name : List Char) :
    ∃ m extra, AprilGrid.Rel (tsOf name) e.rows e.cols e.size e.spacing m extra (e.shot name) ∧
      ((e.shot name).detected = true ↔ AprilGrid.Spec.held e.rows e.cols m ≠ []) := by
  obtain ⟨cs, hv, hr⟩ := h name
  obtain ⟨g, hg, hrel⟩ := AprilGrid.run_rel (tsOf name) e.rows e.cols e.size e.spacing
    (cs.map (fun c => Op.add c.1.1 c.1.2 c.2)) (by
      intro op hop
      obtain ⟨c, hc, rfl⟩ := List.mem_map.mp hop
      exact hv c hc)
  rw [hr] at hg; cases hg
  refine ⟨_, _, hrel, ?_⟩
  constructor
  · intro hd
    cases cs using List.reverseRecOn with
    | nil =>
      simp only [List.map_nil] at hr
      rw [show e.shot name = AprilGrid.new (tsOf name) e.rows e.cols e.size e.spacing from
        (Except.ok.inj hr).symm] at hd
      simp [AprilGrid.new] at hd
    | append_singleton cs c =>
      refine List.ne_nil_of_mem (a := (c.1, c.2)) ?_
      rw [show (c.1, c.2) = ((c.1.1, c.1.2), c.2) from rfl, AprilGrid.mem_held]
      refine ⟨hv c (by simp), ?_⟩
      rw [List.map_append, AprilGrid.Spec.run, List.foldl_append]
      simp [AprilGrid.Spec.step]
  · intro hne
    rw [hrel.det, decide_eq_true_eq, hrel.nb]
    have := AprilGrid.spec_size e.rows e.cols (AprilGrid.Spec.run (cs.map (fun c => Op.add c.1.1 c.1.2 c.2)))
    have h2 : 0 < AprilGrid.Spec.size e.rows e.cols (AprilGrid.Spec.run (cs.map (fun c => Op.add c.1.1 c.1.2 c.2))) := by
      rw [AprilGrid.Spec.size]; exact List.length_pos_iff.mpr hne
    omega

theorem Shots.save {e : Pre K} (h : Shots e) (name : List Char) :
    ∃ ls, AprilGrid.save e.p6 e.p10 (e.shot name) = .ok ls := by
  obtain ⟨_, _, hrel, _⟩ := h.rel name
  exact ⟨_, AprilGrid.save_eq e.p6 e.p10 hrel⟩

/-- The grid of an image as a function. -/
def res (e : Pre K) (fs : FileSys K) (dir name : List Char) : Grid K :=
  match fs (gridPath dir name) with
  | none => e.shot name
  | some f => match loadFile e.v2 f with
    | .ok g => complete e name g
    | .error _ => AprilGrid.default

theorem res_outcome {e : Pre K} {fs : FileSys K} {dir : List Char} {names : List (List Char)}
    (h : Loads e fs dir names) {n : List Char} (hn : n ∈ names) (ht : isTs n = true) :
    Outcome e fs dir n (res e fs dir n) := by
  constructor
  · intro f hf
    obtain ⟨g, hg⟩ := h n hn ht f hf
    exact ⟨g, hg, by simp only [res, hf, hg]⟩
  · intro hf
    simp only [res, hf]

/-- What is known about the work on an image and its file. -/
def Task (e : Pre K) (fs : FileSys K) (dir name : List Char) (file : Option (File K)) : Pc K → Prop
  | .start => file = fs (gridPath dir name)
  | .reading => (fs (gridPath dir name)).isSome ∧ file = fs (gridPath dir name)
  | .opening g ls => fs (gridPath dir name) = none ∧ file = none ∧ g = e.shot name ∧
      AprilGrid.save e.p6 e.p10 (e.shot name) = .ok ls
  | .writing g ls => fs (gridPath dir name) = none ∧ g = e.shot name ∧
      ∃ d, file = some (.csv d) ∧ AprilGrid.save e.p6 e.p10 (e.shot name) = .ok (d ++ ls)
  | .pushing g => g = res e fs dir name ∧ Kept e fs dir name file
  | .fin => Kept e fs dir name file

theorem put_same (fs : FileSys K) (p : List Char) (f : File K) : put fs p f p = some f := by simp [put]

theorem put_other (fs : FileSys K) {p q : List Char} (f : File K) (h : q ≠ p) : put fs p f q = fs q := by
  simp [put, h]

theorem stepPc_task {e : Pre K} {fs0 fs : FileSys K} {dir : List Char} {names : List (List Char)}
    (hS : Shots e) (hL : Loads e fs0 dir names) {n : List Char} (hn : n ∈ names) (hne : n ≠ [])
    (ht : isTs n = true) {pc : Pc K} (h : Task e fs0 dir n (fs (gridPath dir n)) pc) :
    ∃ fs' pc' push, stepPc e (gridPath dir n) n fs pc = .ok (fs', pc', push) ∧
      (∀ p, p ≠ gridPath dir n → fs' p = fs p) ∧ Task e fs0 dir n (fs' (gridPath dir n)) pc' ∧
      (pc.done = true → pc'.done = true) ∧
      push = (if pc'.done && !pc.done then [res e fs0 dir n] else []) := by
  cases pc with
  | start =>
    have h : fs (gridPath dir n) = fs0 (gridPath dir n) := h
    cases hf : fs0 (gridPath dir n) with
    | none =>
      obtain ⟨ls, hls⟩ := hS.save n
      refine ⟨fs, .opening (e.shot n) ls, [], ?_, fun _ _ => rfl, ⟨hf, h.trans hf, rfl, hls⟩, by simp [Pc.done], by simp [Pc.done]⟩
      rw [stepPc, if_neg (by simp [ht]), if_neg hne, h, hf]
      simp only [hls]
      rfl
    | some f =>
      refine ⟨fs, .reading, [], ?_, fun _ _ => rfl, ⟨by rw [hf]; rfl, h⟩, by simp [Pc.done], by simp [Pc.done]⟩
      rw [stepPc, if_neg (by simp [ht]), if_neg hne, h, hf]
  | reading =>
    obtain ⟨h1, h2⟩ := h
    obtain ⟨f, hf⟩ := Option.isSome_iff_exists.mp h1
    obtain ⟨g, hg⟩ := hL n hn ht f hf
    refine ⟨fs, .pushing (complete e n g), [], ?_, fun _ _ => rfl, ⟨?_, ?_, ?_⟩, by simp [Pc.done], by simp [Pc.done]⟩
    · rw [stepPc, h2, hf]
      simp only [hg]
      rfl
    · simp only [res, hf, hg]
    · intro f0 hf0; rw [h2, hf0]
    · intro hc; rw [hf] at hc; simp at hc
  | opening g ls =>
    obtain ⟨h1, h2, h3, h4⟩ := h
    refine ⟨put fs (gridPath dir n) (.csv []), .writing g ls, [], rfl, fun p hp => put_other _ _ hp,
      ⟨h1, h3, [], put_same _ _ _, h4⟩, by simp [Pc.done], by simp [Pc.done]⟩
  | writing g ls =>
    obtain ⟨h1, h2, d, h3, h4⟩ := h
    cases ls with
    | nil =>
      refine ⟨fs, .pushing g, [], rfl, fun _ _ => rfl, ⟨?_, ?_, ?_⟩, by simp [Pc.done], by simp [Pc.done]⟩
      · simp only [res, h1]; exact h2
      · intro f0 hf0; rw [h1] at hf0; simp at hf0
      · intro _; exact ⟨d, by simpa using h4, h3⟩
    | cons l ls =>
      refine ⟨append fs (gridPath dir n) l, .writing g ls, [], rfl, fun p hp => put_other _ _ hp,
        ⟨h1, h2, d ++ [l], ?_, by simpa using h4⟩, by simp [Pc.done], by simp [Pc.done]⟩
      rw [append, put_same, h3]
  | pushing g =>
    obtain ⟨h1, h2⟩ := h
    exact ⟨fs, .fin, [g], rfl, fun _ _ => rfl, h2, by simp [Pc.done], by simp [Pc.done, h1]⟩
  | fin => exact ⟨fs, .fin, [], rfl, fun _ _ => rfl, h, by simp [Pc.done], by simp [Pc.done]⟩

/-- The grids of the images that are done. -/
def collect (f : List Char → Grid K) : List (List Char) → List (Pc K) → List (Grid K)
  | n :: ns, pc :: pcs => (if isTs n && pc.done then [f n] else []) ++ collect f ns pcs
  | _, _ => []

omit [Field K] in
theorem collect_set (f : List Char → Grid K) : ∀ (names : List (List Char)) (pcs : List (Pc K)) (k : Nat)
    (n : List Char) (pc pc' : Pc K), names[k]? = some n → pcs[k]? = some pc →
    (pc.done = true → pc'.done = true) →
    (collect f names (pcs.set k pc')).Perm
      (collect f names pcs ++ (if isTs n && (pc'.done && !pc.done) then [f n] else []))
  | [], _, _, _, _, _, h, _, _ => by simp at h
  | _ :: _, [], _, _, _, _, _, h, _ => by simp at h
  | m :: ns, p :: pcs, 0, n, pc, pc', hn, hp, hd => by
    simp only [List.getElem?_cons_zero, Option.some.injEq] at hn hp
    subst hn; subst hp
    rw [List.set_cons_zero, collect, collect]
    rcases hts : isTs m <;> rcases hpd : p.done <;> rcases hpd' : pc'.done <;> simp_all
    exact List.perm_append_comm (l₁ := [f m])
  | m :: ns, p :: pcs, k + 1, n, pc, pc', hn, hp, hd => by
    rw [List.set_cons_succ, collect, collect, List.append_assoc]
    exact (collect_set f ns pcs k n pc pc' (by simpa using hn) (by simpa using hp) hd).append_left _

omit [Field K] in
theorem collect_done (f : List Char → Grid K) : ∀ (names : List (List Char)) (pcs : List (Pc K)),
    pcs.length = names.length → (∀ pc ∈ pcs, pc.done = true) →
    collect f names pcs = (names.filter isTs).map f
  | [], [], _, _ => rfl
  | [], _ :: _, h, _ => by simp at h
  | _ :: _, [], h, _ => by simp at h
  | m :: ns, p :: pcs, h, hd => by
    rw [collect, collect_done f ns pcs (by simpa using h) (fun pc hpc => hd pc (by simp [hpc])), hd p (by simp),
      List.filter_cons]
    rcases isTs m <;> simp

omit [Field K] in
theorem collect_start (f : List Char → Grid K) : ∀ (names : List (List Char)),
    collect f names (names.map (fun _ => (.start : Pc K))) = []
  | [] => rfl
  | m :: ns => by
    rw [List.map_cons, collect, collect_start f ns]
    simp [Pc.done]

/-- The state during the loop. -/
structure Inv (e : Pre K) (fs0 : FileSys K) (dir : List Char) (names : List (List Char)) (s : St K) : Prop where
  len : s.pcs.length = names.length
  task : ∀ (k : Nat) n pc, names[k]? = some n → s.pcs[k]? = some pc → isTs n = true →
    Task e fs0 dir n (s.fs (gridPath dir n)) pc
  skip : ∀ (k : Nat) n pc, names[k]? = some n → s.pcs[k]? = some pc → isTs n = false → pc = .start ∨ pc = .fin
  other : ∀ p, (∀ n ∈ names, isTs n = true → p ≠ gridPath dir n) → s.fs p = fs0 p
  out : s.out.Perm (collect (res e fs0 dir) names s.pcs)

theorem Inv.init (e : Pre K) (fs0 : FileSys K) (dir : List Char) (names : List (List Char)) :
    Inv e fs0 dir names (St.init fs0 names) := by
  refine ⟨by simp [St.init], ?_, ?_, fun _ _ => rfl, ?_⟩
  · intro k n pc hn hp _
    simp only [St.init, List.getElem?_map, hn, Option.map_some, Option.some.injEq] at hp
    subst hp; rfl
  · intro k n pc hn hp _
    simp only [St.init, List.getElem?_map, hn, Option.map_some, Option.some.injEq] at hp
    exact .inl hp.symm
  · simp only [St.init, collect_start]; exact .refl _

theorem Inv.step {e : Pre K} {fs0 : FileSys K} {dir : List Char} {names : List (List Char)} {s : St K}
    (h : Inv e fs0 dir names s) (hS : Shots e) (hL : Loads e fs0 dir names) (hI : Images names) (k : Nat) :
    ∃ s', step e dir names s k = .ok s' ∧ Inv e fs0 dir names s' := by
  unfold Data.step
  cases hn : names[k]? with
  | none => exact ⟨s, rfl, h⟩
  | some n =>
    cases hp : s.pcs[k]? with
    | none => exact ⟨s, rfl, h⟩
    | some pc =>
      simp only
      have hmem : n ∈ names := List.mem_of_getElem? hn
      have hk : k < s.pcs.length := (List.getElem?_eq_some_iff.mp hp).1
      rcases ht : isTs n with _ | _
      · have e1 : stepPc e (gridPath dir n) n s.fs pc = .ok (s.fs, .fin, []) := by
          rcases h.skip k n pc hn hp ht with rfl | rfl
          · rw [stepPc, if_pos ht]
          · rfl
        rw [e1, AprilGrid.ok_bind]
        refine ⟨_, rfl, ⟨by simp [h.len], ?_, ?_, h.other, ?_⟩⟩
        · intro j m qc hj hq hm
          have hjk : j ≠ k := by rintro rfl; rw [hn] at hj; cases hj; rw [ht] at hm; simp at hm
          simp only [List.getElem?_set, if_neg (Ne.symm hjk)] at hq
          exact h.task j m qc hj hq hm
        · intro j m qc hj hq hm
          by_cases hjk : k = j
          · subst hjk
            simp only [List.getElem?_set, if_true, hk, Option.some.injEq] at hq
            exact .inr hq.symm
          · simp only [List.getElem?_set, if_neg hjk] at hq
            exact h.skip j m qc hj hq hm
        · have := collect_set (res e fs0 dir) names s.pcs k n pc .fin hn hp (by simp [Pc.done])
          rw [ht] at this
          simp only [Bool.false_and, List.append_nil, Bool.false_eq_true, if_false] at this ⊢
          exact h.out.trans this.symm
      · obtain ⟨fs', pc', push, e1, e2, e3, e4, e5⟩ := stepPc_task hS hL hmem (hI.1 n hmem) ht (h.task k n pc hn hp ht)
        rw [e1, AprilGrid.ok_bind]
        refine ⟨_, rfl, ⟨by simp [h.len], ?_, ?_, ?_, ?_⟩⟩
        · intro j m qc hj hq hm
          by_cases hjk : k = j
          · subst hjk
            rw [hn] at hj; cases hj
            simp only [List.getElem?_set, if_true, hk, Option.some.injEq] at hq
            subst hq; exact e3
          · simp only [List.getElem?_set, if_neg hjk] at hq
            have := h.task j m qc hj hq hm
            rw [← e2 _ (hI.paths dir hj hn hm ht (Ne.symm hjk))] at this
            exact this
        · intro j m qc hj hq hm
          have hjk : k ≠ j := by rintro rfl; rw [hn] at hj; cases hj; rw [ht] at hm; simp at hm
          simp only [List.getElem?_set, if_neg hjk] at hq
          exact h.skip j m qc hj hq hm
        · intro p hpp
          rw [← h.other p hpp]
          exact e2 p (hpp n hmem ht)
        · have := collect_set (res e fs0 dir) names s.pcs k n pc pc' hn hp e4
          rw [ht] at this
          simp only [Bool.true_and] at this
          rw [e5]
          exact (h.out.append_right _).trans this.symm

theorem Inv.run {e : Pre K} {fs0 : FileSys K} {dir : List Char} {names : List (List Char)}
    (hS : Shots e) (hL : Loads e fs0 dir names) (hI : Images names) :
    ∀ (sched : List Nat) (s : St K), Inv e fs0 dir names s →
      ∃ s', run e dir names sched s = .ok s' ∧ Inv e fs0 dir names s'
  | [], s, h => ⟨s, rfl, h⟩
  | k :: l, s, h => by
    obtain ⟨s1, e1, h1⟩ := h.step hS hL hI k
    obtain ⟨s2, e2, h2⟩ := Inv.run hS hL hI l s1 h1
    refine ⟨s2, ?_, h2⟩
    unfold Data.run at e2 ⊢
    rw [List.foldlM_cons, e1, AprilGrid.ok_bind, e2]

/-! ## Progress -/

/-- How many lines the grid of an image takes. -/
def lineCount (e : Pre K) (name : List Char) : Nat :=
  match AprilGrid.save e.p6 e.p10 (e.shot name) with
  | .ok ls => ls.length
  | .error _ => 0

/-- At most so many steps are left. -/
def left (e : Pre K) (name : List Char) : Pc K → Nat
  | .start => lineCount e name + 4
  | .reading => 2
  | .opening _ ls => ls.length + 3
  | .writing _ ls => ls.length + 2
  | .pushing _ => 1
  | .fin => 0

theorem left_zero {e : Pre K} {name : List Char} {pc : Pc K} (h : left e name pc = 0) : pc.done = true := by
  cases pc <;> simp_all [left, Pc.done]

theorem stepPc_left {e : Pre K} {path name : List Char} {fs fs' : FileSys K} {pc pc' : Pc K}
    {push : List (Grid K)} (h : stepPc e path name fs pc = .ok (fs', pc', push)) :
    left e name pc' ≤ left e name pc - 1 := by
  cases pc with
  | start =>
    rw [stepPc] at h
    by_cases h1 : isTs name = false
    · rw [if_pos h1] at h; cases h; simp [left]
    · rw [if_neg h1] at h
      by_cases h2 : name = []
      · rw [if_pos h2] at h; simp at h
      · rw [if_neg h2] at h
        cases hf : fs path with
        | some f => simp only [hf] at h; cases h; simp [left]
        | none =>
          simp only [hf] at h
          cases hs : AprilGrid.save e.p6 e.p10 (e.shot name) with
          | error x => rw [hs] at h; simp [AprilGrid.error_bind] at h
          | ok ls =>
            rw [hs, AprilGrid.ok_bind] at h
            cases h
            simp [left, lineCount, hs]
  | reading =>
    rw [stepPc] at h
    cases hf : fs path with
    | none => simp only [hf] at h; cases h; simp [left]
    | some f =>
      simp only [hf] at h
      cases hl : loadFile e.v2 f with
      | error x => rw [hl] at h; simp [AprilGrid.error_bind] at h
      | ok g => rw [hl, AprilGrid.ok_bind] at h; cases h; simp [left]
  | opening g ls => cases h; simp [left]
  | writing g ls =>
    cases ls with
    | nil => cases h; simp [left]
    | cons l ls => cases h; simp [left]
  | pushing g => cases h; simp [left]
  | fin => cases h; simp [left]

/-- After a schedule no image has more steps left than it had, less those it was given. -/
theorem run_left {e : Pre K} {dir : List Char} {names : List (List Char)} :
    ∀ (sched : List Nat) (s s' : St K), run e dir names sched s = .ok s' →
      s'.pcs.length = s.pcs.length ∧
      ∀ (k : Nat) n pc pc', names[k]? = some n → s.pcs[k]? = some pc → s'.pcs[k]? = some pc' →
        left e n pc' ≤ left e n pc - sched.count k
  | [], s, s', h => by
    cases h
    refine ⟨rfl, fun k n pc pc' _ h1 h2 => ?_⟩
    rw [h1] at h2; cases h2; simp
  | j :: l, s, s', h => by
    unfold run at h
    rw [List.foldlM_cons] at h
    cases hs : step e dir names s j with
    | error x => rw [hs] at h; simp [AprilGrid.error_bind] at h
    | ok s1 =>
      rw [hs, AprilGrid.ok_bind] at h
      obtain ⟨a1, a2⟩ := run_left l s1 s' h
      unfold step at hs
      cases hn : names[j]? with
      | none =>
        rw [hn] at hs
        cases hs
        refine ⟨a1, fun k n pc pc' h1 h2 h3 => ?_⟩
        have hjk : j ≠ k := by rintro rfl; rw [hn] at h1; simp at h1
        rw [List.count_cons_of_ne hjk]
        exact a2 k n pc pc' h1 h2 h3
      | some m =>
        cases hp : s.pcs[j]? with
        | none =>
          rw [hn, hp] at hs
          cases hs
          refine ⟨a1, fun k n pc pc' h1 h2 h3 => ?_⟩
          have hjk : j ≠ k := by rintro rfl; rw [hp] at h2; simp at h2
          rw [List.count_cons_of_ne hjk]
          exact a2 k n pc pc' h1 h2 h3
        | some qc =>
          rw [hn, hp] at hs
          simp only at hs
          cases hst : stepPc e (gridPath dir m) m s.fs qc with
          | error x => rw [hst] at hs; simp [AprilGrid.error_bind] at hs
          | ok r =>
            rw [hst, AprilGrid.ok_bind] at hs
            cases hs
            simp only [List.length_set] at a1
            refine ⟨a1, fun k n pc pc' h1 h2 h3 => ?_⟩
            by_cases hjk : j = k
            · subst hjk
              rw [hn] at h1; cases h1
              rw [hp] at h2; cases h2
              have hlt : j < s.pcs.length := (List.getElem?_eq_some_iff.mp hp).1
              have h4 := a2 j m r.2.1 pc' hn (by simp [hlt]) h3
              have h5 := stepPc_left (fs' := r.1) (pc' := r.2.1) (push := r.2.2) hst
              rw [List.count_cons_self]
              omega
            · rw [List.count_cons_of_ne hjk]
              exact a2 k n pc pc' h1 (by simpa [List.getElem?_set, hjk] using h2) h3

/-! ## Reading a saved grid -/

/-- `g'` is what is read back for the grid `g`: timestamp, target and corners are the same, the
image points to ten decimals. -/
def Reread (e : Pre K) (g g' : Grid K) : Prop :=
  g'.init = true ∧ g'.timestamp = g.timestamp ∧ g'.tagRows = g.tagRows ∧ g'.tagCols = g.tagCols ∧
  g'.detected = g.detected ∧
  (g.detected = false → g'.tagSize = g.tagSize ∧ g'.tagSpacing = g.tagSpacing) ∧
  (g.detected = true → g'.tagSize = e.p6 g.tagSize ∧ g'.tagSpacing = e.p6 g.tagSpacing ∧
    ∀ t c, Valid e.rows e.cols t c → AprilGrid.has g' t c = AprilGrid.has g t c ∧
      ∀ kp, AprilGrid.keypoint g t c = .ok kp → AprilGrid.keypoint g' t c = .ok (e.p10 kp.1, e.p10 kp.2))

theorem reread {e : Pre K} (hS : Shots e) (name : List Char) {ls : List (Line K)}
    (hls : AprilGrid.save e.p6 e.p10 (e.shot name) = .ok ls) :
    ∃ g, loadFile false (.csv ls) = .ok g ∧ Reread e (e.shot name) (complete e name g) := by
  obtain ⟨m, extra, hrel, hdet⟩ := hS.rel name
  rw [AprilGrid.save_eq e.p6 e.p10 hrel] at hls
  cases hls
  by_cases hne : AprilGrid.Spec.held e.rows e.cols m = []
  · have hd : (e.shot name).detected = false := by
      rw [← Bool.not_eq_true, hdet]; exact fun h => h hne
    rw [hne]
    refine ⟨{ AprilGrid.clear (AprilGrid.default : Grid K) with init := true }, rfl, ?_⟩
    refine ⟨rfl, hrel.hts.symm, hrel.hrows.symm, hrel.hcols.symm, hd.symm, fun _ => ?_, fun h => ?_⟩
    · exact ⟨hrel.hsize.symm, hrel.hspacing.symm⟩
    · rw [hd] at h; simp at h
  · have hd : (e.shot name).detected = true := hdet.mpr hne
    obtain ⟨file, g', h1, h2, h3, hL⟩ := AprilGrid.load_save e.p6 e.p10 hrel hne
      (AprilGrid.default : Grid K) (.inl rfl)
    rw [AprilGrid.save_eq e.p6 e.p10 hrel] at h1
    cases h1
    have hc : complete e name g' = g' := by rw [complete, if_neg (by simp [hL.hdet])]
    refine ⟨g', h2, ?_⟩
    rw [hc]
    refine ⟨h3, hL.hts.trans hrel.hts.symm, hL.hrows.trans hrel.hrows.symm, hL.hcols.trans hrel.hcols.symm,
      hL.hdet.trans hd.symm, fun h => ?_, fun _ => ⟨?_, ?_, fun t c hv => ?_⟩⟩
    · rw [hd] at h; simp at h
    · rw [hL.hsize, hrel.hsize]
    · rw [hL.hspacing, hrel.hspacing]
    · have hrow := hL.row hv
      constructor
      · rw [hrel.toCore.has_eq hv, AprilGrid.has, if_pos h3, hrow, AprilGrid.ok_bind]
        cases hm : m t c <;> simp [AprilGrid.rowLoaded, AprilGrid.zeroRow] <;> rfl
      · intro kp hkp
        rw [hrel.toCore.keypoint_eq hv] at hkp
        cases hm : m t c with
        | none => rw [hm] at hkp; simp at hkp
        | some q =>
          rw [hm] at hkp; simp only [Except.ok.injEq] at hkp
          subst hkp
          rw [AprilGrid.keypoint, hrow, AprilGrid.ok_bind, hm]
          simp [AprilGrid.rowLoaded]

end Yac.Data
