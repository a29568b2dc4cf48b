import Verif.Data.PreLemmas
import Verif.Calib.CameraLemmas
import Mathlib.Data.List.Perm.Basic

/-!
# C95: detecting or reloading the grids of all images, in parallel

Specification: `Shots`, `Images`, `Loads`, `Outcome`, `Kept`, `Reread` in `PreLemmas.lean`.
-/

namespace Yac.Data

open Yac.AprilGrid (Grid Line Op)
open Yac.AprilGrid.Spec (Valid held)
open Yac.Text (fmtLd natText isDig)

variable {K : Type} [Field K]

/-- C95: whatever the schedule of the threads, working on the images of one camera never fails;
if every image is given enough steps, it ends; and when all images are done, the result has one
grid for every image whose name starts with a timestamp, the saved one or what the detector
sees, in some order; every such image has its file, files that were there are unchanged, and
nothing else is written. -/
theorem C95_schedule (e : Pre K) (fs : FileSys K) (dir : List Char) (names : List (List Char))
    (sched : List Nat) (hS : Shots e) (hL : Loads e fs dir names) (hI : Images names) :
    ∃ s, run e dir names sched (St.init fs names) = .ok s ∧
      ((∀ (k : Nat) n, names[k]? = some n → lineCount e n + 4 ≤ sched.count k) → ∀ pc ∈ s.pcs, pc.done = true) ∧
      ((∀ pc ∈ s.pcs, pc.done = true) →
        (∃ gs, List.Forall₂ (Outcome e fs dir) (names.filter isTs) gs ∧ s.out.Perm gs) ∧
        (∀ n ∈ names, isTs n = true → Kept e fs dir n (s.fs (gridPath dir n)))) ∧
      (∀ p, (∀ n ∈ names, isTs n = true → p ≠ gridPath dir n) → s.fs p = fs p) := by
  obtain ⟨s, h1, h2⟩ := Inv.run hS hL hI sched _ (Inv.init e fs dir names)
  obtain ⟨l1, l2⟩ := run_left sched _ _ h1
  refine ⟨s, h1, fun hf pc hpc => ?_, fun hd => ⟨?_, fun n hn ht => ?_⟩, h2.other⟩
  · obtain ⟨k, hk, rfl⟩ := List.getElem_of_mem hpc
    have hk' : k < names.length := by rw [← h2.len]; exact hk
    have hn : names[k]? = some names[k] := List.getElem?_eq_getElem hk'
    have := l2 k names[k] .start s.pcs[k] hn (by simp [St.init, hk']) (List.getElem?_eq_getElem hk)
    have := hf k _ hn
    apply left_zero (e := e) (name := names[k])
    simp only [left] at *
    omega
  · refine ⟨(names.filter isTs).map (res e fs dir), ?_, ?_⟩
    · rw [List.forall₂_map_right_iff, List.forall₂_same]
      intro n hn
      obtain ⟨h3, h4⟩ := List.mem_filter.mp hn
      exact res_outcome hL h3 h4
    · rw [← collect_done (res e fs dir) names s.pcs h2.len hd]; exact h2.out
  · obtain ⟨k, hk, rfl⟩ := List.getElem_of_mem hn
    have hk' : k < s.pcs.length := by rw [h2.len]; exact hk
    have := h2.task k names[k] s.pcs[k] (List.getElem?_eq_getElem hk) (List.getElem?_eq_getElem hk') ht
    have hdd := hd s.pcs[k] (List.getElem_mem hk')
    cases hp : s.pcs[k] with
    | fin => rw [hp] at this; exact this
    | _ => rw [hp] at hdd; simp [Pc.done] at hdd

/-! ## Several cameras -/

theorem natText_slash (n : Nat) : ∀ c ∈ natText n, c ≠ '/' ∧ c ≠ '-' := by
  intro c hc
  have := Text.natText_dig n c hc
  constructor <;> rintro rfl <;> simp [isDig] at this

theorem fmtLd_slash (n : Int) : '/' ∉ fmtLd n := by
  unfold fmtLd
  intro h
  rw [List.mem_append] at h
  rcases h with h | h
  · split_ifs at h <;> simp at h
  · exact (natText_slash _ _ h).1 rfl

theorem fmtLd_inj {a b : Int} (h : fmtLd a = fmtLd b) : a = b := by
  have key : ∀ n : Nat, ∀ l, natText n ≠ '-' :: l := by
    intro n l he
    exact (natText_slash n '-' (by rw [he]; simp)).2 rfl
  unfold fmtLd at h
  have nat : ∀ m n : Nat, natText m = natText n → m = n := by
    intro m n h
    have := congrArg Text.natOf h
    rwa [Text.natOf_natText, Text.natOf_natText] at this
  by_cases ha : a < 0 <;> by_cases hb : b < 0
  · simp only [if_pos ha, if_pos hb, List.cons_append, List.nil_append, List.cons.injEq, true_and] at h
    have := nat _ _ h; omega
  · simp only [if_pos ha, if_neg hb, List.cons_append, List.nil_append] at h
    exact absurd h.symm (key _ _)
  · simp only [if_neg ha, if_pos hb, List.cons_append, List.nil_append] at h
    exact absurd h (key _ _)
  · simp only [if_neg ha, if_neg hb, List.nil_append] at h
    have := nat _ _ h; omega

theorem split_slash : ∀ {a b x y : List Char}, '/' ∉ a → '/' ∉ b → a ++ '/' :: x = b ++ '/' :: y → a = b
  | [], [], _, _, _, _, _ => rfl
  | [], c :: b, _, _, _, hb, h => by
    simp only [List.nil_append, List.cons_append, List.cons.injEq] at h
    exact absurd (by rw [h.1]; simp) hb
  | c :: a, [], _, _, ha, _, h => by
    simp only [List.nil_append, List.cons_append, List.cons.injEq] at h
    exact absurd (by rw [h.1]; simp) ha
  | c :: a, d :: b, _, _, ha, hb, h => by
    simp only [List.cons_append, List.cons.injEq] at h
    rw [h.1, split_slash (fun hc => ha (by simp [hc])) (fun hc => hb (by simp [hc])) h.2]

theorem gridPath_cam {gridsPath da db x y : List Char} {a b : Int} (ha : gridDir gridsPath a = .ok da)
    (hb : gridDir gridsPath b = .ok db) (hne : a ≠ b) : gridPath da x ≠ gridPath db y := by
  intro he
  unfold gridDir at ha hb
  cases hl : gridsPath.getLast? with
  | none => rw [hl] at ha; simp at ha
  | some c =>
    rw [hl] at ha hb
    cases ha; cases hb
    simp only [gridPath, List.append_assoc] at he
    have h1 := List.append_cancel_left (List.append_cancel_left (List.append_cancel_left he))
    exact hne (fmtLd_inj (split_slash (fmtLd_slash a) (fmtLd_slash b) h1))

/-- The grids a camera's entry has to hold, up to their order; a camera without grids has no
entry. -/
def Entry (e : Pre K) (fs : FileSys K) (dir : List Char) (cam : Int) (names : List (List Char))
    (out : List (Int × List (Grid K))) : Prop :=
  ∃ gs, List.Forall₂ (Outcome e fs dir) (names.filter isTs) gs ∧
    ((gs ≠ [] ∧ ∃ l, (cam, l) ∈ out ∧ l.Perm gs) ∨ (gs = [] ∧ cam ∉ out.map Prod.fst))

theorem camStep_ok {e : Pre K} {gridsPath : List Char} {acc acc' : FileSys K × List (Int × List (Grid K))}
    {c : Int × List (List Char) × List Nat} (h : camStep e gridsPath acc c = .ok acc') :
    ∃ dir s, gridDir gridsPath c.1 = .ok dir ∧ run e dir c.2.1 c.2.2 (St.init acc.1 c.2.1) = .ok s ∧
      (∀ pc ∈ s.pcs, pc.done = true) ∧ acc'.1 = s.fs ∧
      ((s.out = [] ∧ acc'.2 = acc.2) ∨ (s.out ≠ [] ∧ acc'.2 = acc.2 ++ [(c.1, s.out)])) := by
  unfold camStep at h
  obtain ⟨dir, h1, h⟩ := Calib.bind_ok h
  obtain ⟨s, h2, h⟩ := Calib.bind_ok h
  by_cases hd : s.pcs.all Pc.done = false
  · rw [if_pos hd] at h; simp at h
  · rw [if_neg hd] at h
    refine ⟨dir, s, h1, h2, ?_, ?_⟩
    · simpa using hd
    · cases h
      refine ⟨rfl, ?_⟩
      by_cases ho : s.out = []
      · left; simp [ho]
      · right; exact ⟨ho, by simp [ho]⟩

theorem cams_aux (e : Pre K) (gridsPath : List Char) (fs0 : FileSys K) (hS : Shots e) :
    ∀ (cams : List (Int × List (List Char) × List Nat)) (acc acc' : FileSys K × List (Int × List (Grid K))),
      (cams.map Prod.fst).Nodup → (∀ c ∈ cams, Images c.2.1) →
      (∀ c ∈ cams, ∀ dir, gridDir gridsPath c.1 = .ok dir →
        Loads e fs0 dir c.2.1 ∧ ∀ n, acc.1 (gridPath dir n) = fs0 (gridPath dir n)) →
      (∀ c ∈ cams, c.1 ∉ acc.2.map Prod.fst) →
      cams.foldlM (camStep e gridsPath) acc = .ok acc' →
      (∃ new, acc'.2 = acc.2 ++ new ∧ (new.map Prod.fst).Sublist (cams.map Prod.fst)) ∧
      ∀ c ∈ cams, ∃ dir, gridDir gridsPath c.1 = .ok dir ∧ Entry e fs0 dir c.1 c.2.1 acc'.2
  | [], acc, acc', _, _, _, _, h => by
    cases h
    exact ⟨⟨[], by simp, by simp⟩, by simp⟩
  | c :: cams, acc, acc', hn, hI, hL, hno, h => by
    rw [List.foldlM_cons] at h
    obtain ⟨acc1, h1, h⟩ := Calib.bind_ok h
    obtain ⟨dir, s, k1, k2, k3, k4, k5⟩ := camStep_ok h1
    rw [List.map_cons, List.nodup_cons] at hn
    obtain ⟨hL1, hfs⟩ := hL c (by simp) dir k1
    have hLc : Loads e acc.1 dir c.2.1 := fun n hnm ht f hf => hL1 n hnm ht f (by rw [← hfs]; exact hf)
    obtain ⟨s', j1, _, j3, j4⟩ := C95_schedule e acc.1 dir c.2.1 c.2.2 hS hLc (hI c (by simp))
    rw [k2] at j1; cases j1
    obtain ⟨⟨gs, g1, g2⟩, _⟩ := j3 k3
    have g1' : List.Forall₂ (Outcome e fs0 dir) (c.2.1.filter isTs) gs := by
      refine g1.imp (fun n g ho => ?_)
      unfold Outcome at ho ⊢
      rw [hfs] at ho; exact ho
    have hacc1 : ∀ x ∈ acc1.2.map Prod.fst, x ∈ acc.2.map Prod.fst ∨ x = c.1 := by
      intro x hx
      rcases k5 with ⟨_, k5⟩ | ⟨_, k5⟩
      · rw [k5] at hx; exact .inl hx
      · rw [k5, List.map_append, List.mem_append] at hx
        simpa using hx
    obtain ⟨⟨new, n1, n2⟩, n3⟩ := cams_aux e gridsPath fs0 hS cams acc1 acc' hn.2 (fun d hd => hI d (by simp [hd]))
      (by
        intro d hd dir' hdir'
        obtain ⟨m1, m2⟩ := hL d (by simp [hd]) dir' hdir'
        refine ⟨m1, fun n => ?_⟩
        rw [k4, ← m2 n]
        refine j4 _ (fun n' _ _ => gridPath_cam hdir' k1 ?_)
        intro heq
        exact hn.1 (by rw [← heq]; exact List.mem_map_of_mem hd))
      (by
        intro d hd hc
        rcases hacc1 _ hc with h | h
        · exact hno d (by simp [hd]) h
        · exact hn.1 (by rw [← h]; exact List.mem_map_of_mem hd)) h
    have hnew : ∀ x ∈ new.map Prod.fst, x ≠ c.1 := by
      rintro x hx rfl
      exact hn.1 (n2.subset hx)
    refine ⟨?_, ?_⟩
    · rcases k5 with ⟨_, k5⟩ | ⟨_, k5⟩
      · exact ⟨new, by rw [n1, k5], by rw [List.map_cons]; exact n2.cons _⟩
      · refine ⟨(c.1, s.out) :: new, by rw [n1, k5]; simp, ?_⟩
        rw [List.map_cons, List.map_cons]; exact n2.cons_cons _
    · intro d hd
      rcases List.mem_cons.mp hd with rfl | hd
      · refine ⟨dir, k1, gs, g1', ?_⟩
        rcases k5 with ⟨k6, k5⟩ | ⟨k6, k5⟩
        · right
          rw [k6] at g2
          refine ⟨g2.symm.eq_nil, ?_⟩
          rw [n1, k5, List.map_append, List.mem_append, not_or]
          exact ⟨hno d (by simp), fun hc => hnew _ hc rfl⟩
        · left
          refine ⟨fun he => k6 (by rw [he] at g2; exact g2.eq_nil), s.out, ?_, g2⟩
          rw [n1, k5]; simp
      · exact n3 d hd

/-- C95: the same for all cameras together: every camera has the grids of its images, judged by
the files that were there at the beginning, whatever the schedules. -/
theorem C95_cameras (e : Pre K) (gridsPath : List Char) (fs fs' : FileSys K)
    (cams : List (Int × List (List Char) × List Nat)) (out : List (Int × List (Grid K)))
    (hS : Shots e) (hn : (cams.map Prod.fst).Nodup) (hI : ∀ c ∈ cams, Images c.2.1)
    (hL : ∀ c ∈ cams, ∀ dir, gridDir gridsPath c.1 = .ok dir → Loads e fs dir c.2.1)
    (h : preprocess e gridsPath fs cams = .ok (fs', out)) :
    (out.map Prod.fst).Sublist (cams.map Prod.fst) ∧
    ∀ c ∈ cams, ∃ dir, gridDir gridsPath c.1 = .ok dir ∧ Entry e fs dir c.1 c.2.1 out := by
  obtain ⟨⟨new, h1, h2⟩, h3⟩ := cams_aux e gridsPath fs hS cams (fs, []) (fs', out) hn hI
    (fun c hc dir hd => ⟨hL c hc dir hd, fun _ => rfl⟩) (by simp) h
  simp only [List.nil_append] at h1
  exact ⟨by rw [h1]; exact h2, h3⟩

/-! ## Crashes -/

/-- C95: crashes.  If the program stops at any moment at which no file is partly written, the
next run gives, for every image, the grid an undisturbed run gives, or what is read back for
it.  (A file that is partly written is taken for complete: `C95_torn_refuted`.) -/
theorem C95_resume_partial (e : Pre K) (fs : FileSys K) (dir : List Char) (names : List (List Char))
    (sched sched2 : List Nat) (hv : e.v2 = false) (hS : Shots e) (hL : Loads e fs dir names) (hI : Images names)
    (s : St K) (h : run e dir names sched (St.init fs names) = .ok s)
    (hw : ∀ pc ∈ s.pcs, ∀ g ls, pc = .writing g ls → ls = []) :
    ∃ s2, run e dir names sched2 (St.init s.fs names) = .ok s2 ∧
      ((∀ pc ∈ s2.pcs, pc.done = true) →
        ∃ gs gs2, List.Forall₂ (Outcome e fs dir) (names.filter isTs) gs ∧
          List.Forall₂ (fun g g' => g' = g ∨ Reread e g g') gs gs2 ∧ s2.out.Perm gs2) := by
  obtain ⟨s', h1, h2⟩ := Inv.run hS hL hI sched _ (Inv.init e fs dir names)
  rw [h] at h1; cases h1
  -- the file of an image
  have hfile : ∀ n ∈ names, isTs n = true → s.fs (gridPath dir n) = fs (gridPath dir n) ∨
      (fs (gridPath dir n) = none ∧ ∃ ls, AprilGrid.save e.p6 e.p10 (e.shot n) = .ok ls ∧
        s.fs (gridPath dir n) = some (.csv ls)) := by
    intro n hn ht
    obtain ⟨k, hk, rfl⟩ := List.getElem_of_mem hn
    have hk' : k < s.pcs.length := by rw [h2.len]; exact hk
    have ht' := h2.task k names[k] s.pcs[k] (List.getElem?_eq_getElem hk) (List.getElem?_eq_getElem hk') ht
    have hkept : Kept e fs dir names[k] (s.fs (gridPath dir names[k])) →
        s.fs (gridPath dir names[k]) = fs (gridPath dir names[k]) ∨
        (fs (gridPath dir names[k]) = none ∧ ∃ ls, AprilGrid.save e.p6 e.p10 (e.shot names[k]) = .ok ls ∧
          s.fs (gridPath dir names[k]) = some (.csv ls)) := by
      rintro ⟨h5, h6⟩
      cases hf : fs (gridPath dir names[k]) with
      | none => right; exact ⟨rfl, h6 hf⟩
      | some f => left; exact h5 f hf
    cases hp : s.pcs[k] with
    | start => rw [hp] at ht'; exact .inl ht'
    | reading => rw [hp] at ht'; exact .inl ht'.2
    | opening g ls => rw [hp] at ht'; exact .inl (ht'.2.1.trans ht'.1.symm)
    | writing g ls =>
      have := hw s.pcs[k] (List.getElem_mem hk') g ls hp
      subst this
      rw [hp] at ht'
      obtain ⟨h5, _, d, h6, h7⟩ := ht'
      exact .inr ⟨h5, d, by simpa using h7, h6⟩
    | pushing g => rw [hp] at ht'; exact hkept ht'.2
    | fin => rw [hp] at ht'; exact hkept ht'
  have hL2 : Loads e s.fs dir names := by
    intro n hn ht f hf
    rcases hfile n hn ht with h5 | ⟨_, ls, h6, h7⟩
    · exact hL n hn ht f (by rw [← h5]; exact hf)
    · rw [h7] at hf; cases hf
      obtain ⟨g, hg, _⟩ := reread hS n h6
      exact ⟨g, by rw [hv]; exact hg⟩
  obtain ⟨s2, j1, _, j3, _⟩ := C95_schedule e s.fs dir names sched2 hS hL2 hI
  refine ⟨s2, j1, fun hd => ?_⟩
  obtain ⟨⟨gs2, g1, g2⟩, _⟩ := j3 hd
  have : ∀ l : List (List Char), (∀ n ∈ l, n ∈ names ∧ isTs n = true) → ∀ gs2,
      List.Forall₂ (Outcome e s.fs dir) l gs2 →
      ∃ gs, List.Forall₂ (Outcome e fs dir) l gs ∧ List.Forall₂ (fun g g' => g' = g ∨ Reread e g g') gs gs2 := by
    intro l
    induction l with
    | nil => intro _ gs2 hg; cases hg; exact ⟨[], .nil, .nil⟩
    | cons n l ih =>
      intro hl gs2 hg
      obtain ⟨hn, ht⟩ := hl n (by simp)
      cases hg with
      | @cons _ g _ gs2 ho hg =>
        obtain ⟨gs, i1, i2⟩ := ih (fun m hm => hl m (by simp [hm])) _ hg
        rcases hfile n hn ht with h5 | ⟨h5, ls, h6, h7⟩
        · refine ⟨g :: gs, .cons ?_ i1, .cons (.inl rfl) i2⟩
          unfold Outcome at ho ⊢
          rw [h5] at ho; exact ho
        · refine ⟨e.shot n :: gs, .cons ⟨?_, fun _ => rfl⟩ i1, .cons (.inr ?_) i2⟩
          · intro f hf; rw [h5] at hf; simp at hf
          · obtain ⟨g0, h8, h9⟩ := ho.1 _ h7
            obtain ⟨g1, h10, h11⟩ := reread hS n h6
            rw [hv, h10] at h8; cases h8
            rw [h9]; exact h11
  obtain ⟨gs, g3, g4⟩ := this _ (fun n hn => by
    obtain ⟨a, b⟩ := List.mem_filter.mp hn; exact ⟨a, b⟩) _ g1
  exact ⟨gs, gs2, g3, g4, g2⟩

theorem run_replicate (e : Pre K) (dir : List Char) (names : List (List Char)) (n : Nat) (s s' : St K)
    (h : step e dir names s 0 = .ok s') :
    run e dir names (List.replicate (n + 1) 0) s = run e dir names (List.replicate n 0) s' := by
  unfold run
  rw [List.replicate_succ, List.foldlM_cons, h, AprilGrid.ok_bind]

theorem run_writing (e : Pre K) (dir name : List Char) (g : Grid K) (rest : List (Line K)) :
    ∀ (ls d : List (Line K)) (fs : FileSys K) (out : List (Grid K)),
      ∃ fs', run e dir [name] (List.replicate ls.length 0)
          ⟨put fs (gridPath dir name) (.csv d), [.writing g (ls ++ rest)], out⟩ =
        .ok ⟨fs', [.writing g rest], out⟩ ∧ fs' (gridPath dir name) = some (.csv (d ++ ls))
  | [], d, fs, out => ⟨_, rfl, by simp [put]⟩
  | l :: ls, d, fs, out => by
    have hs : step e dir [name] ⟨put fs (gridPath dir name) (.csv d), [.writing g (l :: ls ++ rest)], out⟩ 0 =
        .ok ⟨put (put fs (gridPath dir name) (.csv d)) (gridPath dir name) (.csv (d ++ [l])),
          [.writing g (ls ++ rest)], out⟩ := by
      have : append (put fs (gridPath dir name) (.csv d)) (gridPath dir name) l =
          put (put fs (gridPath dir name) (.csv d)) (gridPath dir name) (.csv (d ++ [l])) := by
        rw [append, put_same]
      rw [← this]
      simp only [step, List.getElem?_cons_zero, List.cons_append, stepPc, AprilGrid.ok_bind,
        List.set_cons_zero, List.append_nil]
    obtain ⟨fs', h1, h2⟩ := run_writing e dir name g rest ls (d ++ [l]) (put fs (gridPath dir name) (.csv d)) out
    refine ⟨fs', ?_, by simpa using h2⟩
    rw [List.length_cons, run_replicate _ _ _ _ _ _ hs, h1]

/-- C95 is false for a crash while a grid is saved: after `j` of its lines the next run takes the
file for the whole grid, without any complaint; it has the first `j` corners only, and none at
all if only the header was written. -/
theorem C95_torn_refuted (e : Pre K) (fs : FileSys K) (dir name : List Char) (j : Nat)
    (hv : e.v2 = false) (hS : Shots e) (hne : name ≠ []) (ht : isTs name = true)
    (hf : fs (gridPath dir name) = none) (hj : j ≤ lineCount e name) :
    ∃ (l : List ((Int × Int) × (K × K))) (s s2 : St K) (g : Grid K),
      l.length = lineCount e name ∧
      (∀ t c, Valid e.rows e.cols t c → (AprilGrid.has (e.shot name) t c = .ok true ↔ (t, c) ∈ l.map Prod.fst)) ∧
      run e dir [name] (List.replicate (2 + j) 0) (St.init fs [name]) = .ok s ∧
      run e dir [name] (List.replicate 3 0) (St.init s.fs [name]) = .ok s2 ∧
      (∀ pc ∈ s2.pcs, pc.done = true) ∧ s2.out = [g] ∧
      g.detected = decide (0 < j) ∧ g.timestamp = tsOf name ∧ g.nbDetections = j ∧
      (0 < j → ∀ t c, Valid e.rows e.cols t c →
        AprilGrid.has g t c = .ok (decide ((t, c) ∈ (l.take j).map Prod.fst))) := by
  obtain ⟨m, extra, hrel, hdet⟩ := hS.rel name
  have hsave := AprilGrid.save_eq e.p6 e.p10 hrel
  have hcount : lineCount e name = (held e.rows e.cols m).length := by
    rw [lineCount, hsave]; simp
  have hlen : ((held e.rows e.cols m).take j).length = j := by
    rw [List.length_take]; omega
  -- the first run
  have hsplit : held e.rows e.cols m = (held e.rows e.cols m).take j ++ (held e.rows e.cols m).drop j :=
    (List.take_append_drop j _).symm
  let L := AprilGrid.lineFor e.p6 e.p10 (tsOf name) e.rows e.cols e.size e.spacing
  have hs1 : step e dir [name] (St.init fs [name]) 0 =
      .ok ⟨fs, [.opening (e.shot name) ((held e.rows e.cols m).map L)], []⟩ := by
    simp only [step, St.init, List.map_cons, List.map_nil, List.getElem?_cons_zero, stepPc]
    rw [if_neg (by simp [ht]), if_neg hne]
    simp only [hf, hsave, AprilGrid.ok_bind, List.set_cons_zero, List.append_nil, L]
  have hs2 : step e dir [name] ⟨fs, [.opening (e.shot name) ((held e.rows e.cols m).map L)], []⟩ 0 =
      .ok ⟨put fs (gridPath dir name) (.csv []), [.writing (e.shot name) ((held e.rows e.cols m).map L)], []⟩ := by
    simp only [step, List.getElem?_cons_zero, stepPc, AprilGrid.ok_bind, List.set_cons_zero, List.append_nil]
  obtain ⟨fs', hr, hfile⟩ := run_writing e dir name (e.shot name) (((held e.rows e.cols m).drop j).map L)
    (((held e.rows e.cols m).take j).map L) [] fs []
  rw [← List.map_append, ← hsplit, List.length_map, hlen] at hr
  have hrun : run e dir [name] (List.replicate (2 + j) 0) (St.init fs [name]) =
      .ok ⟨fs', [.writing (e.shot name) (((held e.rows e.cols m).drop j).map L)], []⟩ := by
    rw [show 2 + j = (j + 1) + 1 by omega, run_replicate _ _ _ _ _ _ hs1, run_replicate _ _ _ _ _ _ hs2, hr]
  -- the file is read
  obtain ⟨g0, hg0, hnil, hload⟩ := AprilGrid.load_entries e.p6 e.p10 (tsOf name) e.rows e.cols e.size e.spacing
    (AprilGrid.default : Grid K) (.inl rfl) ((held e.rows e.cols m).take j)
    (by rintro ⟨⟨t, c⟩, kp⟩ he; exact ((AprilGrid.mem_held _ _ _ _ _ _).mp (List.mem_of_mem_take he)).1)
  have hlf : loadFile e.v2 (.csv ((((held e.rows e.cols m).take j)).map L)) = .ok { g0 with init := true } := by
    rw [hv]
    show AprilGrid.load AprilGrid.default _ = _
    rw [AprilGrid.load, hg0, AprilGrid.ok_bind, AprilGrid.pure_eq_ok]
  simp only [List.nil_append] at hfile
  have t1 : step e dir [name] (St.init fs' [name]) 0 = .ok ⟨fs', [.reading], []⟩ := by
    simp only [step, St.init, List.map_cons, List.map_nil, List.getElem?_cons_zero, stepPc]
    rw [if_neg (by simp [ht]), if_neg hne]
    simp only [hfile, AprilGrid.ok_bind, List.set_cons_zero, List.append_nil]
  have t2 : step e dir [name] ⟨fs', [.reading], []⟩ 0 =
      .ok ⟨fs', [.pushing (complete e name { g0 with init := true })], []⟩ := by
    simp only [step, List.getElem?_cons_zero, stepPc, hfile, hlf, AprilGrid.ok_bind, List.set_cons_zero, List.append_nil]
  have t3 : step e dir [name] ⟨fs', [.pushing (complete e name { g0 with init := true })], []⟩ 0 =
      .ok ⟨fs', [.fin], [complete e name { g0 with init := true }]⟩ := by
    simp only [step, List.getElem?_cons_zero, stepPc, AprilGrid.ok_bind, List.set_cons_zero, List.nil_append]
  refine ⟨held e.rows e.cols m, _, ⟨fs', [.fin], [complete e name { g0 with init := true }]⟩,
    complete e name { g0 with init := true }, hcount.symm, ?_, hrun, ?_, by simp [Pc.done], rfl, ?_⟩
  · intro t c hvv
    rw [hrel.toCore.has_eq hvv, Except.ok.injEq, Option.isSome_iff_exists, List.mem_map]
    constructor
    · rintro ⟨kp, hkp⟩
      exact ⟨((t, c), kp), (AprilGrid.mem_held _ _ _ _ _ _).mpr ⟨hvv, hkp⟩, rfl⟩
    · rintro ⟨⟨⟨t', c'⟩, kp⟩, h1, h2⟩
      cases h2
      exact ⟨kp, ((AprilGrid.mem_held _ _ _ _ _ _).mp h1).2⟩
  · rw [run_replicate _ _ _ _ _ _ t1, run_replicate _ _ _ _ _ _ t2, run_replicate _ _ _ _ _ _ t3]; rfl
  · by_cases h0 : j = 0
    · subst h0
      rw [hnil rfl]
      simp [complete, AprilGrid.clear, AprilGrid.default, withTarget]
    · have hL := hload (by
        intro he; rw [he] at hlen; simp at hlen; omega)
      have hc : complete e name { g0 with init := true } = { g0 with init := true } := by
        rw [complete, if_neg (by simp [hL.hdet])]
      rw [hc]
      refine ⟨by simp [hL.hdet]; omega, hL.hts, by rw [← hlen]; exact hL.nb, fun _ t c hvv => ?_⟩
      have hkn : (((held e.rows e.cols m).take j).map Prod.fst).Nodup := by
        rw [List.map_take]
        exact (AprilGrid.held_keys_nodup _ _ _).sublist (List.take_sublist _ _)
      have hem : (AprilGrid.entriesMap ((held e.rows e.cols m).take j) t c).isSome =
          decide ((t, c) ∈ ((held e.rows e.cols m).take j).map Prod.fst) := by
        rw [Bool.eq_iff_iff, Option.isSome_iff_exists, decide_eq_true_eq, List.mem_map]
        constructor
        · rintro ⟨kp, hkp⟩
          exact ⟨((t, c), kp), (AprilGrid.entriesMap_mem _ hkn _ _ _).mp hkp, rfl⟩
        · rintro ⟨⟨⟨t', c'⟩, kp⟩, h1, h2⟩
          cases h2
          exact ⟨kp, (AprilGrid.entriesMap_mem _ hkn _ _ _).mpr h1⟩
      rw [← hem]
      obtain ⟨t, c, rfl, rfl, ht', hc', hidx, hlt, hd4, hm4⟩ := AprilGrid.valid_index hvv
      rw [AprilGrid.has, if_pos rfl, hidx]
      simp only
      rw [AprilGrid.readRow_nat _ _ (by rw [hL.data]; simpa using hlt), AprilGrid.ok_bind]
      simp only [hL.data, AprilGrid.tab_get, hd4, hm4]
      cases AprilGrid.entriesMap ((held e.rows e.cols m).take j) (t : Int) (c : Int) <;>
        simp [AprilGrid.rowLoaded, AprilGrid.zeroRow] <;> rfl

end Yac.Data
