import Verif.Tool.InfoLemmas
import Verif.Tool.InfoSpec
import Verif.VI.RecoverProps
import Verif.Csv.Props
import Verif.Calib.CameraLemmas

/-! # C134: the information reported by `calib_info` -/

namespace Yac.Tool

open Yac.AprilGrid (Grid)
open Yac.Fmt Yac.Text Yac.Csv

section camera
variable {K V : Type} [Field K] [LinearOrder K]

/-- The step of the loop as a state and a value. -/
def camG (env : Calib.Env K V) (s : Calib.Cal K V) (tv : ℤ × List (ℤ × Grid K)) :
    Except Fault (Calib.Cal K V × Option (K × K)) :=
  Calib.addView env s tv.2 >>= fun r => .ok (r.1, env.info r.1)

theorem camStep_eq (env : Calib.Env K V) : camStep env = stepOf (camG env) Prod.fst := by
  funext acc tv
  unfold camStep stepOf camG
  cases Calib.addView env acc.1 tv.2 <;> rfl

theorem run_views (env : Calib.Env K V) (s : Calib.Cal K V) (l : List (ℤ × List (ℤ × Grid K))) :
    runOf (camG env) s l = addViews env s (l.map Prod.snd) := by
  unfold runOf addViews
  rw [List.foldlM_map]
  congr 1
  funext s tv
  unfold camG
  cases Calib.addView env s tv.2 <;> rfl

theorem inner_sorted (cam : ℤ) (m : List (ℤ × List (ℤ × Grid K))) (g : Grid K)
    (h : SMap.Sorted m ∧ ∀ p ∈ m, SMap.Sorted p.2 ∧ p.2 ≠ []) :
    SMap.Sorted (addShot cam m g) ∧ ∀ p ∈ addShot cam m g, SMap.Sorted p.2 ∧ p.2 ≠ [] := by
  refine ⟨SMap.set_sorted _ _ _ h.1, ?_⟩
  intro p hp
  rcases SMap.mem_set hp with rfl | hp
  · refine ⟨SMap.set_sorted _ _ _ ?_, ?_⟩
    · cases hf : SMap.find g.timestamp m with
      | none => exact List.Pairwise.nil
      | some v => exact (h.2 _ ((SMap.find_eq_some h.1).1 hf)).1
    · intro he
      have := SMap.find_set cam cam g ((SMap.find g.timestamp m).getD [])
      simp only at he
      rw [he] at this
      simp [SMap.find] at this
  · exact h.2 p hp

theorem data_sorted (d : List (ℤ × List (Grid K))) :
    SMap.Sorted (cameraData d) ∧ ∀ p ∈ cameraData d, SMap.Sorted p.2 ∧ p.2 ≠ [] := by
  have key : ∀ (d : List (ℤ × List (Grid K))) (m : List (ℤ × List (ℤ × Grid K))),
      (SMap.Sorted m ∧ ∀ p ∈ m, SMap.Sorted p.2 ∧ p.2 ≠ []) →
      (SMap.Sorted (d.foldl (fun m cg => cg.2.foldl (addShot cg.1) m) m) ∧
        ∀ p ∈ d.foldl (fun m cg => cg.2.foldl (addShot cg.1) m) m, SMap.Sorted p.2 ∧ p.2 ≠ []) := by
    intro d
    induction d with
    | nil => intro m h; exact h
    | cons cg d ih =>
      intro m h
      apply ih
      have inner : ∀ (gs : List (Grid K)) (m : List (ℤ × List (ℤ × Grid K))), (SMap.Sorted m ∧ ∀ p ∈ m, SMap.Sorted p.2 ∧ p.2 ≠ []) →
          (SMap.Sorted (gs.foldl (addShot cg.1) m) ∧ ∀ p ∈ gs.foldl (addShot cg.1) m, SMap.Sorted p.2 ∧ p.2 ≠ []) := by
        intro gs
        induction gs with
        | nil => intro m h; exact h
        | cons g gs ih2 => intro m h; exact ih2 _ (inner_sorted cg.1 m g h)
      exact inner cg.2 m h
  exact key d [] ⟨List.Pairwise.nil, fun p hp => by cases hp⟩

/-- What is stored for a time and a camera. -/
def shotOf (m : List (ℤ × List (ℤ × Grid K))) (ts cam : ℤ) : Option (Grid K) := (SMap.find ts m).bind (SMap.find cam)

theorem shot_add (cam : ℤ) (m : List (ℤ × List (ℤ × Grid K))) (g : Grid K) (ts c : ℤ) :
    shotOf (addShot cam m g) ts c = if g.timestamp = ts ∧ cam = c then some g else shotOf m ts c := by
  unfold shotOf addShot
  rw [SMap.find_set]
  by_cases h1 : ts = g.timestamp
  · subst h1
    rw [if_pos rfl, Option.bind_some, SMap.find_set]
    by_cases h2 : c = cam
    · subst h2; simp
    · rw [if_neg h2, if_neg (fun h => h2 h.2.symm)]
      cases SMap.find g.timestamp m <;> rfl
  · rw [if_neg h1, if_neg (fun h => h1 h.1.symm)]

theorem shot_cam (cam : ℤ) (gs : List (Grid K)) (hn : (gs.map (fun g => g.timestamp)).Nodup) (m : List (ℤ × List (ℤ × Grid K)))
    (ts c : ℤ) (g : Grid K) :
    shotOf (gs.foldl (addShot cam) m) ts c = some g ↔
      (c = cam ∧ g ∈ gs ∧ g.timestamp = ts) ∨ (¬ (c = cam ∧ ts ∈ gs.map (fun g => g.timestamp)) ∧ shotOf m ts c = some g) := by
  induction gs generalizing m with
  | nil => simp
  | cons x gs ih =>
    rw [List.map_cons, List.nodup_cons] at hn
    rw [List.foldl_cons, ih hn.2, shot_add]
    by_cases hc : c = cam
    · subst hc
      by_cases hx : x.timestamp = ts
      · subst hx
        simp only [hn.1, and_self, and_false, not_false_eq_true, true_and, if_true, Option.some.injEq, List.map_cons, List.mem_cons, true_or,
          not_true, false_and, or_false]
        constructor
        · rintro (⟨h1, h2⟩ | rfl)
          · exact absurd (List.mem_map.2 ⟨g, h1, h2⟩) hn.1
          · exact ⟨Or.inl rfl, rfl⟩
        · rintro ⟨rfl | h1, h2⟩
          · exact Or.inr rfl
          · exact Or.inl ⟨h1, h2⟩
      · simp only [hx, false_and, if_false, List.map_cons, List.mem_cons, true_and, Ne.symm hx, false_or]
        constructor
        · rintro (⟨h1, h2⟩ | h)
          · exact Or.inl ⟨Or.inr h1, h2⟩
          · exact Or.inr h
        · rintro (⟨rfl | h1, h2⟩ | h)
          · exact absurd h2 hx
          · exact Or.inl ⟨h1, h2⟩
          · exact Or.inr h
    · simp [hc, Ne.symm hc]

/-- **C134, frames.**  The views are the sets of grids with one time: for a data set in which no camera has two grids of the same
time, the view of the time `ts` holds for camera `cam` the grid of that camera with this time, and nothing else; the views are in
the order of time and not empty. -/
theorem C134_frames (d : List (ℤ × List (Grid K))) (hc : (d.map Prod.fst).Nodup)
    (ht : ∀ cg ∈ d, (cg.2.map (fun g => g.timestamp)).Nodup) :
    SMap.Sorted (cameraData d) ∧ (∀ p ∈ cameraData d, SMap.Sorted p.2 ∧ p.2 ≠ []) ∧
    ∀ ts cam g, ((∃ v, (ts, v) ∈ cameraData d ∧ (cam, g) ∈ v) ↔ ∃ gs, (cam, gs) ∈ d ∧ g ∈ gs ∧ g.timestamp = ts) := by
  obtain ⟨s1, s2⟩ := data_sorted d
  refine ⟨s1, s2, ?_⟩
  intro ts cam g
  have e1 : (∃ v, (ts, v) ∈ cameraData d ∧ (cam, g) ∈ v) ↔ shotOf (cameraData d) ts cam = some g := by
    unfold shotOf
    constructor
    · rintro ⟨v, h1, h2⟩
      rw [(SMap.find_eq_some s1).2 h1, Option.bind_some]
      exact (SMap.find_eq_some (s2 _ h1).1).2 h2
    · intro h
      obtain ⟨v, h1, h2⟩ := Option.bind_eq_some_iff.1 h
      have h1' := (SMap.find_eq_some s1).1 h1
      exact ⟨v, h1', (SMap.find_eq_some (s2 _ h1').1).1 h2⟩
  rw [e1]
  have key : ∀ (d : List (ℤ × List (Grid K))) (m : List (ℤ × List (ℤ × Grid K))), (d.map Prod.fst).Nodup →
      (∀ cg ∈ d, (cg.2.map (fun g => g.timestamp)).Nodup) → (∀ c ∈ d.map Prod.fst, ∀ t, shotOf m t c = none) →
      (shotOf (d.foldl (fun m cg => cg.2.foldl (addShot cg.1) m) m) ts cam = some g ↔
        (∃ gs, (cam, gs) ∈ d ∧ g ∈ gs ∧ g.timestamp = ts) ∨ shotOf m ts cam = some g) := by
    intro d
    induction d with
    | nil => intro m _ _ _; simp
    | cons cg d ih =>
      intro m hn hg hm
      rw [List.map_cons, List.nodup_cons] at hn
      rw [List.foldl_cons, ih _ hn.2 (fun x hx => hg x (List.mem_cons_of_mem _ hx)) ?_, shot_cam _ _ (hg cg List.mem_cons_self)]
      · by_cases hc : cam = cg.1
        · subst hc
          have h0 := hm cg.1 (by simp) ts
          rw [h0]
          constructor
          · rintro (⟨gs, h1, h2⟩ | ⟨-, h1, h2⟩ | ⟨-, h⟩)
            · exact Or.inl ⟨gs, List.mem_cons_of_mem _ h1, h2⟩
            · exact Or.inl ⟨cg.2, List.mem_cons_self, h1, h2⟩
            · cases h
          · rintro (⟨gs, h1, h2, h3⟩ | h)
            · rcases List.mem_cons.1 h1 with e | h1
              · have e' : gs = cg.2 := congrArg Prod.snd e
                exact Or.inr (Or.inl ⟨rfl, e' ▸ h2, h3⟩)
              · exact Or.inl ⟨gs, h1, h2, h3⟩
            · cases h
        · constructor
          · rintro (⟨gs, h1, h2⟩ | ⟨h1, -⟩ | ⟨-, h⟩)
            · exact Or.inl ⟨gs, List.mem_cons_of_mem _ h1, h2⟩
            · exact absurd h1 hc
            · exact Or.inr h
          · rintro (⟨gs, h1, h2, h3⟩ | h)
            · rcases List.mem_cons.1 h1 with e | h1
              · exact absurd (congrArg Prod.fst e) hc
              · exact Or.inl ⟨gs, h1, h2, h3⟩
            · exact Or.inr (Or.inr ⟨fun h => hc h.1, h⟩)
      · intro c hcd t
        have hne : c ≠ cg.1 := fun e => hn.1 (e ▸ hcd)
        cases hs : shotOf (cg.2.foldl (addShot cg.1) m) t c with
        | none => rfl
        | some x =>
          rcases (shot_cam _ _ (hg cg List.mem_cons_self) _ _ _ _).1 hs with ⟨e, -⟩ | ⟨-, h⟩
          · exact absurd e hne
          · rw [hm c (by rw [List.map_cons]; exact List.mem_cons_of_mem _ hcd)] at h; cases h
  rw [cameraData, key d [] hc ht (fun _ _ _ => rfl)]
  simp [shotOf, SMap.find]

theorem split_sorted {α : Type} {l : List (ℤ × α)} (h : SMap.Sorted l) {pre post : List (ℤ × α)} {x : ℤ × α} (e : l = pre ++ x :: post) :
    l.filter (fun tv => decide (tv.1 ≤ x.1)) = pre ++ [x] ∧ l.filter (fun tv => decide (tv.1 < x.1)) = pre ∧ ∀ y ∈ post, y.1 ≠ x.1 := by
  subst e
  unfold SMap.Sorted at h
  rw [List.pairwise_append] at h
  obtain ⟨h1, h2, h3⟩ := h
  rw [List.pairwise_cons] at h2
  have hp : ∀ y ∈ pre, y.1 < x.1 := fun y hy => h3 y hy x List.mem_cons_self
  refine ⟨?_, ?_, fun y hy e => ?_⟩
  · rw [List.filter_append, List.filter_cons_of_pos (by simp), List.filter_eq_self.2 (fun y hy => by simpa using (hp y hy).le),
      List.filter_eq_nil_iff.2 (fun y hy => by simpa using h2.1 y hy)]
  · rw [List.filter_append, List.filter_cons_of_neg (by simp), List.filter_eq_self.2 (fun y hy => by simpa using hp y hy),
      List.filter_eq_nil_iff.2 (fun y hy => by simpa using (h2.1 y hy).le), List.append_nil]
  · have := h2.1 y hy; omega

/-- **C134, cameras.**  The run goes through exactly when all views can be added.  The report has an entry for a time if and only if
there is a view with this time and the information can be computed for the calibrator that holds the views up to and including this
one; the entry is what the calibrator computes then. -/
theorem C134_camera (env : Calib.Env K V) (s : Calib.Cal K V) (d : List (ℤ × List (Grid K))) :
    (∀ t m, camInfo env s d = .ok (t, m) →
      addViews env s ((cameraData d).map Prod.snd) = .ok t ∧ Paired m ∧
      ∀ ts i e, (Reports m ts i e ↔ ts ∈ (cameraData d).map Prod.fst ∧
        ∃ u, addViews env s (viewsAt (cameraData d) (fun t => decide (t ≤ ts))) = .ok u ∧ env.info u = some (i, e))) ∧
    (∀ t, addViews env s ((cameraData d).map Prod.snd) = .ok t → ∃ m, camInfo env s d = .ok (t, m)) := by
  obtain ⟨f1, f2⟩ := fold_put (camG env) Prod.fst s (cameraData d)
  unfold camInfo
  rw [camStep_eq]
  refine ⟨?_, fun t h => f2 t (by rw [run_views]; exact h)⟩
  intro t m h
  obtain ⟨a1, a2, a3, a4⟩ := f1 t m h
  have hs := (data_sorted d).1
  refine ⟨by rw [← run_views]; exact a1, ⟨a2, a3⟩, ?_⟩
  intro ts i e
  unfold Reports
  rw [a4]
  constructor
  · rintro ⟨pre, x, post, u, v, h1, h2, h3, h4, -⟩
    obtain ⟨e1, -, -⟩ := split_sorted hs h1
    refine ⟨by rw [h1, ← h2]; simp, v, ?_, ?_⟩
    · unfold viewsAt
      rw [← h2, e1, ← run_views, runOf_concat, h3]
      show camG env u x >>= _ = _
      rw [h4]
      rfl
    · unfold camG at h4
      cases hv : Calib.addView env u x.2 with
      | error e => rw [hv] at h4; cases h4
      | ok r =>
        rw [hv] at h4
        have h4' := Except.ok.inj h4
        have hr : r.1 = v := congrArg Prod.fst h4'
        rw [← hr]
        exact congrArg Prod.snd h4'
  · rintro ⟨hm, u, h1, h2⟩
    obtain ⟨x, hx, rfl⟩ := List.mem_map.1 hm
    obtain ⟨pre, post, hsplit⟩ := List.append_of_mem hx
    obtain ⟨e1, -, e2⟩ := split_sorted hs hsplit
    unfold viewsAt at h1
    rw [e1, ← run_views, runOf_concat] at h1
    cases h0 : runOf (camG env) s pre with
    | error e => rw [h0] at h1; cases h1
    | ok w =>
      rw [h0] at h1
      change camG env w x >>= _ = _ at h1
      cases hg : camG env w x with
      | error e => rw [hg] at h1; cases h1
      | ok r =>
        rw [hg] at h1
        cases h1
        refine ⟨pre, x, post, w, r.1, hsplit, rfl, h0, ?_, ?_⟩
        · rw [hg]
          have : r.2 = env.info r.1 := by
            unfold camG at hg
            cases hv : Calib.addView env w x.2 with
            | error e => rw [hv] at hg; cases hg
            | ok r' => rw [hv] at hg; cases hg; rfl
          rw [← h2, ← this]
        · intro a y b w r hp hk
          exact absurd hk (e2 y (by rw [hp]; simp))

/-- **C134 is false for times at which nothing was seen.**  A time at which no camera detected the target adds no view, and yet is
reported, with the values of the time before: the column `view_idx` does not count views. -/
theorem C134_unseen_refuted (env : Calib.Env K V) (s t u : Calib.Cal K V) (m : Maps K) (d : List (ℤ × List (Grid K)))
    (h : camInfo env s d = .ok (t, m)) (ts : ℤ) (v : List (ℤ × Grid K)) (hv : (ts, v) ∈ cameraData d)
    (hd : ∀ cg ∈ v, cg.2.detected = false)
    (hu : addViews env s (viewsAt (cameraData d) (fun t => decide (t < ts))) = .ok u) (i e : K) (hi : env.info u = some (i, e)) :
    addViews env s (viewsAt (cameraData d) (fun t => decide (t ≤ ts))) = .ok u ∧ Reports m ts i e := by
  obtain ⟨pre, post, hsplit⟩ := List.append_of_mem hv
  obtain ⟨e1, e2, -⟩ := split_sorted (data_sorted d).1 hsplit
  have hnone : Calib.viewStamp v = none := by
    unfold Calib.viewStamp
    rw [List.find?_eq_none.2 (fun x hx => by rw [hd x hx]; simp)]
    rfl
  have hadd : Calib.addView env u v = .ok (u, false) := by
    unfold Calib.addView
    rw [hnone]
  have hall : addViews env s (viewsAt (cameraData d) (fun t => decide (t ≤ ts))) = .ok u := by
    unfold viewsAt at hu ⊢
    rw [e1, ← run_views, runOf_concat]
    rw [e2, ← run_views] at hu
    rw [hu]
    show camG env u (ts, v) >>= _ = _
    unfold camG
    show (Calib.addView env u v >>= _) >>= _ = _
    rw [hadd]
    rfl
  exact ⟨hall, (((C134_camera env s d).1 t m h).2.2 ts i e).2 ⟨List.mem_map.2 ⟨_, hv, rfl⟩, u, hall, hi⟩⟩

end camera

/-! ### The file -/

theorem zip_keys (m : Maps ℚ) (hm : Paired m) : ∀ p ∈ m.info, ∃ e, SMap.find p.1 m.info = some p.2 ∧ SMap.find p.1 m.entropy = some e := by
  intro p hp
  have h1 := (SMap.find_eq_some hm.1).2 hp
  have : (SMap.find p.1 m.entropy).isSome = true := by
    rw [SMap.find_isSome, ← hm.2]
    exact List.mem_map.2 ⟨p, hp, rfl⟩
  obtain ⟨e, he⟩ := Option.isSome_iff_exists.1 this
  exact ⟨e, h1, he⟩

/-- The meaning of a line. -/
def lineOf (m : Maps ℚ) (i : ℕ) (ts : ℤ) : List (List Char → Prop) :=
  [IntCell i, IntCell ts, fun c => ∀ x, SMap.find ts m.info = some x → FixCell x c, fun c => ∀ x, SMap.find ts m.entropy = some x → FixCell x c]

/-- **C134, file.**  The file has the names of the columns and then a line for every time of the report, in ascending order and
numbered from zero: number, time, information and entropy (to six decimals). -/
theorem C134_file (m : Maps ℚ) (hm : Paired m) : ∃ f, saveInfo true m = .ok f ∧
    FileIs f ([Named "view_idx", Named "ts", Named "info", Named "entropy"] ::
      (m.info.map Prod.fst).zipIdx.map (fun t => lineOf m t.2 t.1)) := by
  refine ⟨_, rfl, ?_⟩
  apply file_is (cells := ["view_idx".toList, "ts".toList, "info".toList, "entropy".toList] ::
    (m.info.map Prod.fst).zipIdx.map (fun t => [natText t.2, fmtLd t.1, fmtF ((SMap.find t.1 m.info).getD 0), fmtF ((SMap.find t.1 m.entropy).getD 0)]))
  · rw [List.flatMap_cons]
    congr 1
    · rw [List.zipIdx_map, List.flatMap_map, List.flatMap_map]
      rfl
  · intro r hr
    rcases List.mem_cons.1 hr with rfl | hr
    · simp
    · obtain ⟨t, -, rfl⟩ := List.mem_map.1 hr
      simp
  · refine List.Forall₂.cons ?_ ?_
    · refine .cons ⟨?_, rfl⟩ (.cons ⟨?_, rfl⟩ (.cons ⟨?_, rfl⟩ (.cons ⟨?_, rfl⟩ .nil))) <;> (unfold Cell; decide)
    · apply rows_map
      intro t ht
      have ht' : t.1 ∈ m.info.map Prod.fst := by
        have := List.mem_zipIdx' ht
        rw [this.2]; exact List.getElem_mem _
      obtain ⟨p, hp, hpt⟩ := List.mem_map.1 ht'
      obtain ⟨e, f1, f2⟩ := zip_keys m hm p hp
      rw [hpt] at f1 f2
      refine .cons (says_nat _) (.cons (says_int _) (.cons ?_ (.cons ?_ .nil)))
      · refine ⟨(says_fix _).1, ?_⟩
        intro x hx
        rw [f1] at hx ⊢
        cases hx
        exact (says_fix _).2
      · refine ⟨(says_fix _).1, ?_⟩
        intro x hx
        rw [f2] at hx ⊢
        cases hx
        exact (says_fix _).2

/-- **C134, modes.**  With five arguments and one of the two modes the report of this mode is written; with another number of
arguments nothing is written. -/
theorem C134_modes (a b c d : List Char) (cam vi : Except Fault (Maps ℚ)) (opened : Bool) :
    infoMain [a, "camera".toList, b, c, d] cam vi opened = (cam >>= fun m => saveInfo opened m >>= fun f => .ok (some f)) ∧
    infoMain [a, "camera-imu".toList, b, c, d] cam vi opened = (vi >>= fun m => saveInfo opened m >>= fun f => .ok (some f)) ∧
    (∀ args : List (List Char), args.length ≠ 5 → infoMain args cam vi opened = .ok none) ∧
    ∀ m, saveInfo false m = .error .fatal := by
  refine ⟨?_, ?_, ?_, fun _ => rfl⟩
  · unfold infoMain
    simp only
    rw [if_pos trivial]
  · unfold infoMain
    simp only
    rw [if_neg (by decide), if_pos trivial]
  · intro args h
    match args, h with
    | [], _ => rfl
    | [_], _ => rfl
    | [_, _], _ => rfl
    | [_, _, _], _ => rfl
    | [_, _, _, _], _ => rfl
    | [_, _, _, _, _], h => exact absurd rfl h
    | _ :: _ :: _ :: _ :: _ :: _ :: _, _ => rfl

/-- **C134 is false for other modes.**  A mode that does not exist is not refused: a report without lines replaces the file. -/
theorem C134_mode_refuted (a mode b c d : List Char) (cam vi : Except Fault (Maps ℚ))
    (h1 : mode ≠ "camera".toList) (h2 : mode ≠ "camera-imu".toList) :
    infoMain [a, mode, b, c, d] cam vi true = .ok (some "view_idx,ts,info,entropy\n".toList) := by
  unfold infoMain
  simp only
  rw [if_neg h1, if_neg h2]
  rfl

end Yac.Tool
