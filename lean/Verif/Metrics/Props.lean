import Verif.Metrics.Model
import Verif.Residual.PriorProps
import Verif.Num.Props
import Verif.AprilGrid.Lemmas

/-!
# C115: reported reprojection errors and metrics
-/

namespace Yac.Metrics
open Matrix Yac.Geom Yac.Cam Yac.Residual

/-! ## Specification -/

namespace Spec

/-- The reprojection error of a residual that evaluates: the length of its residual vector. -/
noncomputable def err (o : Out) : Option ℝ :=
  if o.1 = 0 then o.2.map (fun r => Real.sqrt (r 0 ^ 2 + r 1 ^ 2)) else none

/-- The errors of all residuals that evaluate, by view, camera and position. -/
noncomputable def all {R : Type} (out : R → Out) (views : List (Int × List (Int × List R))) :
    List ℝ :=
  views.flatMap fun v => v.2.flatMap fun cr => cr.2.filterMap fun f => err (out f)

/-- Those of one camera. -/
noncomputable def ofCam {R : Type} (out : R → Out) (views : List (Int × List (Int × List R)))
    (c : Int) : List ℝ :=
  views.flatMap fun v => (v.2.filter (fun cr => decide (cr.1 = c))).flatMap fun cr =>
    cr.2.filterMap fun f => err (out f)

/-- The number of residuals that evaluate. -/
noncomputable def count {R : Type} (out : R → Out) (views : List (Int × List (Int × List R))) : Nat :=
  ((views.flatMap fun v => v.2.flatMap fun cr => cr.2).filter fun f => decide ((out f).1 = 0)).length

/-- A residual that evaluates has been written. -/
def Written (o : Out) : Prop := o.1 = 0 → ∃ r, o.2 = some r

/-- The pixel distance between a measurement and the image of the point `pc` in the camera. -/
noncomputable def dist (z zh : Vec2) : ℝ := Real.sqrt ((z 0 - zh 0) ^ 2 + (z 1 - zh 1) ^ 2)

end Spec

theorem norm2_eq (r : Vec2) : norm2 r = Real.sqrt (r 0 ^ 2 + r 1 ^ 2) := by
  unfold norm2; congr 1; ring

theorem ok_map {α β : Type} (f : α → β) (a : α) :
    (Except.ok a : Except Fault α).map f = .ok (f a) := rfl

theorem ifValid_eq {o : Out} (h : Spec.Written o) : ifValid o = .ok (Spec.err o) := by
  unfold ifValid Spec.err
  by_cases hc : o.1 = 0
  · obtain ⟨r, hr⟩ := h hc
    rw [if_pos hc, if_pos hc, hr]
    simp only [readR, ok_map, Option.map_some, norm2_eq]
  · rw [if_neg hc, if_neg hc]

section camera
variable {R : Type} (out : R → Out)

theorem push_fold (fs : List R) (h : ∀ f ∈ fs, Spec.Written (out f)) (acc : List ℝ) :
    fs.foldlM (pushValid out) acc = .ok (acc ++ fs.filterMap fun f => Spec.err (out f)) := by
  induction fs generalizing acc with
  | nil => simp [pure, Except.pure]
  | cons f fs ih =>
    have h1 : pushValid out acc f = .ok (match Spec.err (out f) with
        | some e => acc ++ [e]
        | none => acc) := by
      rw [pushValid, ifValid_eq (h f (by simp))]; rfl
    rw [List.foldlM_cons, h1, AprilGrid.ok_bind, ih (fun g hg => h g (by simp [hg]))]
    cases he : Spec.err (out f) with
    | none => simp [he]
    | some e => simp [he]

theorem viewErrors_fold (v : List (Int × List R))
    (h : ∀ cr ∈ v, ∀ f ∈ cr.2, Spec.Written (out f)) (acc : List ℝ) :
    v.foldlM (fun acc cr => cr.2.foldlM (pushValid out) acc) acc =
      .ok (acc ++ v.flatMap fun cr => cr.2.filterMap fun f => Spec.err (out f)) := by
  induction v generalizing acc with
  | nil => simp [pure, Except.pure]
  | cons cr v ih =>
    rw [List.foldlM_cons, push_fold out cr.2 (h cr (by simp)), AprilGrid.ok_bind,
      ih (fun c hc => h c (by simp [hc]))]
    simp

theorem viewErrorsOf_fold (cam : Int) (v : List (Int × List R))
    (h : ∀ cr ∈ v, ∀ f ∈ cr.2, Spec.Written (out f)) (acc : List ℝ) :
    v.foldlM (fun acc cr => if cr.1 ≠ cam then .ok acc else cr.2.foldlM (pushValid out) acc) acc =
      .ok (acc ++ (v.filter (fun cr => decide (cr.1 = cam))).flatMap fun cr =>
        cr.2.filterMap fun f => Spec.err (out f)) := by
  induction v generalizing acc with
  | nil => simp [pure, Except.pure]
  | cons cr v ih =>
    have ih' := fun acc => ih (fun c hc => h c (by simp [hc])) acc
    by_cases hc : cr.1 = cam
    · have h1 : (if cr.1 ≠ cam then Except.ok acc else cr.2.foldlM (pushValid out) acc) =
          .ok (acc ++ cr.2.filterMap fun f => Spec.err (out f)) := by
        rw [if_neg (by simpa using hc), push_fold out cr.2 (h cr (by simp))]
      rw [List.foldlM_cons, h1, AprilGrid.ok_bind, ih']
      simp [hc]
    · have h1 : (if cr.1 ≠ cam then Except.ok acc else cr.2.foldlM (pushValid out) acc) =
          .ok acc := if_pos hc
      rw [List.foldlM_cons, h1, AprilGrid.ok_bind, ih']
      simp [hc]

/-- C115, all errors: the query reports the errors of exactly the residuals that evaluate, in the
order of the views, cameras and corners. -/
theorem C115_all (views : List (Int × List (Int × List R)))
    (h : ∀ v ∈ views, ∀ cr ∈ v.2, ∀ f ∈ cr.2, Spec.Written (out f)) :
    allErrors out views = .ok (Spec.all out views) ∧
    (Spec.all out views).length = Spec.count out views := by
  constructor
  · have key : ∀ (vs : List (Int × List (Int × List R))),
        (∀ v ∈ vs, ∀ cr ∈ v.2, ∀ f ∈ cr.2, Spec.Written (out f)) → ∀ acc,
        vs.foldlM (fun acc v => (viewErrors out v.2).map (fun e => acc ++ e)) acc =
          .ok (acc ++ Spec.all out vs) := by
      intro vs
      induction vs with
      | nil => intro _ acc; simp [Spec.all, pure, Except.pure]
      | cons v vs ih =>
        intro hv acc
        have h1 : (viewErrors out v.2).map (fun e => acc ++ e) =
            .ok (acc ++ v.2.flatMap fun cr => cr.2.filterMap fun f => Spec.err (out f)) := by
          rw [viewErrors, viewErrors_fold out v.2 (hv v (by simp))]; rfl
        rw [List.foldlM_cons, h1, AprilGrid.ok_bind, ih (fun w hw => hv w (by simp [hw]))]
        simp [Spec.all]
    exact (key views h []).trans (by simp)
  · unfold Spec.all Spec.count
    have hf : ∀ fs : List R, (∀ f ∈ fs, Spec.Written (out f)) →
        (fs.filterMap fun f => Spec.err (out f)).length =
          (fs.filter fun f => decide ((out f).1 = 0)).length := by
      intro fs
      induction fs with
      | nil => intro _; rfl
      | cons f fs ih =>
        intro hw
        have := ih (fun g hg => hw g (by simp [hg]))
        by_cases hc : (out f).1 = 0
        · obtain ⟨r, hr⟩ := hw f (by simp) hc
          simp [Spec.err, hc, hr]
          simpa [Spec.err] using this
        · simp [Spec.err, hc]
          simpa [Spec.err] using this
    have hc : ∀ v : List (Int × List R), (∀ cr ∈ v, ∀ f ∈ cr.2, Spec.Written (out f)) →
        (v.flatMap fun cr => cr.2.filterMap fun f => Spec.err (out f)).length =
          ((v.flatMap fun cr => cr.2).filter fun f => decide ((out f).1 = 0)).length := by
      intro v
      induction v with
      | nil => intro _; rfl
      | cons c v ih =>
        intro hw
        simp only [List.flatMap_cons, List.length_append, List.filter_append]
        rw [hf c.2 (hw c (by simp)), ih (fun d hd => hw d (by simp [hd]))]
    induction views with
    | nil => rfl
    | cons v vs ih =>
      simp only [List.flatMap_cons, List.length_append, List.filter_append]
      rw [hc v.2 (h v (by simp)), ih (fun w hw => h w (by simp [hw]))]

theorem push_find (es : List ℝ) (cam : Int) (m : List (Int × List ℝ)) (c : Int) :
    SMap.find c (es.foldl (fun m e => push m cam e) m) =
      if c = cam ∧ es ≠ [] then some ((SMap.find cam m).getD [] ++ es) else SMap.find c m := by
  induction es generalizing m with
  | nil => simp
  | cons e es ih =>
    rw [List.foldl_cons, ih]
    have hp : ∀ d, SMap.find d (push m cam e) =
        if d = cam then some ((SMap.find cam m).getD [] ++ [e]) else SMap.find d m := by
      intro d; rw [push, SMap.find_set]
    simp only [hp]
    by_cases hc : c = cam
    · subst hc
      by_cases hes : es = [] <;> simp [hes]
    · simp [hc]

theorem push_sorted (es : List ℝ) (cam : Int) (m : List (Int × List ℝ)) (h : SMap.Sorted m) :
    SMap.Sorted (es.foldl (fun m e => push m cam e) m) := by
  induction es generalizing m with
  | nil => exact h
  | cons e es ih => exact ih _ (SMap.set_sorted _ _ _ h)

/-- What one view contributes to a camera. -/
noncomputable def viewOf (v : List (Int × List R)) (c : Int) : List ℝ :=
  (v.filter (fun cr => decide (cr.1 = c))).flatMap fun cr => cr.2.filterMap fun f => Spec.err (out f)

/-- An entry is absent exactly when its list is empty. -/
def entry (l : List ℝ) : Option (List ℝ) := if l = [] then none else some l

theorem entry_getD (l : List ℝ) : (entry l).getD [] = l := by
  unfold entry; split_ifs with h <;> simp [h]

theorem addCams (v : List (Int × List R)) (h : ∀ cr ∈ v, ∀ f ∈ cr.2, Spec.Written (out f))
    (cams : List Int) (hn : cams.Nodup) (m : List (Int × List ℝ)) (hm : SMap.Sorted m) :
    ∃ m', cams.foldlM (addCam out v) m = .ok m' ∧ SMap.Sorted m' ∧
      ∀ c, SMap.find c m' = if c ∈ cams then
        (if viewOf out v c = [] then SMap.find c m
          else some ((SMap.find c m).getD [] ++ viewOf out v c)) else SMap.find c m := by
  induction cams generalizing m with
  | nil => exact ⟨m, rfl, hm, by simp⟩
  | cons a cams ih =>
    have h1 : addCam out v m a = .ok ((viewOf out v a).foldl (fun m e => push m a e) m) := by
      rw [addCam, viewErrorsOf, viewErrorsOf_fold out a v h]
      simp [ok_map, viewOf]
    rw [List.nodup_cons] at hn
    obtain ⟨m', e, hs, hf⟩ := ih hn.2 _ (push_sorted (viewOf out v a) a m hm)
    refine ⟨m', by rw [List.foldlM_cons, h1, AprilGrid.ok_bind, e], hs, fun c => ?_⟩
    rw [hf c]
    simp only [push_find]
    by_cases hca : c = a
    · subst hca
      by_cases hv : viewOf out v c = [] <;> simp [hn.1, hv]
    · simp [hca]

/-- C115, per camera: the map has an entry for a camera of the calibration exactly if one of its
residuals evaluates, and the entry lists the errors of its residuals in the order of the views. -/
theorem C115_cameras (cams : List Int) (hn : cams.Nodup)
    (views : List (Int × List (Int × List R)))
    (h : ∀ v ∈ views, ∀ cr ∈ v.2, ∀ f ∈ cr.2, Spec.Written (out f)) :
    ∃ m, camErrors out cams views = .ok m ∧ SMap.Sorted m ∧
      (∀ c l, SMap.find c m = some l → l ≠ []) ∧
      (∀ c, (∃ l, SMap.find c m = some l) ↔ c ∈ cams ∧ Spec.ofCam out views c ≠ []) ∧
      ∀ c l, SMap.find c m = some l → l = Spec.ofCam out views c := by
  have key : ∀ (vs : List (Int × List (Int × List R))),
      (∀ v ∈ vs, ∀ cr ∈ v.2, ∀ f ∈ cr.2, Spec.Written (out f)) →
      ∀ (m : List (Int × List ℝ)) (g : Int → List ℝ), SMap.Sorted m →
        (∀ c, SMap.find c m = if c ∈ cams then entry (g c) else none) →
        ∃ m', vs.foldlM (fun m v => cams.foldlM (addCam out v.2) m) m = .ok m' ∧ SMap.Sorted m' ∧
          ∀ c, SMap.find c m' = if c ∈ cams then entry (g c ++ Spec.ofCam out vs c) else none := by
    intro vs
    induction vs with
    | nil => intro _ m g hm hg; exact ⟨m, rfl, hm, by simpa [Spec.ofCam] using hg⟩
    | cons v vs ih =>
      intro hw m g hm hg
      obtain ⟨m1, e1, s1, f1⟩ := addCams out v.2 (hw v (by simp)) cams hn m hm
      obtain ⟨m2, e2, s2, f2⟩ := ih (fun w hwv => hw w (by simp [hwv])) m1
        (fun c => g c ++ viewOf out v.2 c) s1 (by
          intro c
          rw [f1 c, hg c]
          by_cases hc : c ∈ cams
          · simp only [if_pos hc, entry_getD]
            by_cases hv : viewOf out v.2 c = []
            · simp [hv]
            · simp [hv, entry]
          · simp [hc])
      refine ⟨m2, by rw [List.foldlM_cons, e1, AprilGrid.ok_bind, e2], s2, fun c => ?_⟩
      rw [f2 c]
      simp [Spec.ofCam, viewOf, List.append_assoc]
  obtain ⟨m, e, s, f⟩ := key views h [] (fun _ => []) (by simp [SMap.Sorted])
    (by intro c; simp [SMap.find, entry])
  simp only [List.nil_append] at f
  refine ⟨m, e, s, ?_, ?_, ?_⟩
  · intro c l hl
    rw [f c] at hl
    split_ifs at hl with hc
    unfold entry at hl
    split_ifs at hl with hz
    simp only [Option.some.injEq] at hl
    exact hl ▸ hz
  · intro c
    rw [f c]
    by_cases hc : c ∈ cams
    · by_cases hz : Spec.ofCam out views c = [] <;> simp [hc, hz, entry]
    · simp [hc]
  · intro c l hl
    rw [f c] at hl
    split_ifs at hl with hc
    unfold entry at hl
    split_ifs at hl with hz
    simpa using hl.symm

/-! ### The per-camera lists partition the list of all errors -/

theorem flatMap_split {α β : Type} (g : α → List β) (k : α → Int) (c : Int) (v : List α) :
    (v.flatMap g).Perm ((v.filter fun a => decide (k a = c)).flatMap g ++
      (v.filter fun a => decide (k a ≠ c)).flatMap g) := by
  induction v with
  | nil => exact List.Perm.nil
  | cons a v ih =>
    by_cases hc : k a = c
    · simp only [List.flatMap_cons, List.filter_cons, hc, decide_true, if_true, ne_eq,
        not_true_eq_false, decide_false, Bool.false_eq_true, if_false, List.append_assoc]
      exact ih.append_left _
    · simp only [List.flatMap_cons, List.filter_cons, hc, decide_false, Bool.false_eq_true,
        if_false, ne_eq, not_false_eq_true, decide_true, if_true]
      refine (ih.append_left _).trans ?_
      rw [← List.append_assoc, ← List.append_assoc]
      exact List.perm_append_comm.append_right _

theorem cams_perm {α β : Type} (g : α → List β) (k : α → Int) (cams : List Int) (hn : cams.Nodup)
    (v : List α) (h : ∀ a ∈ v, k a ∈ cams) :
    (v.flatMap g).Perm (cams.flatMap fun c => (v.filter fun a => decide (k a = c)).flatMap g) := by
  induction cams generalizing v with
  | nil =>
    cases v with
    | nil => exact List.Perm.nil
    | cons a v => exact absurd (h a (by simp)) (by simp)
  | cons c cams ih =>
    rw [List.nodup_cons] at hn
    refine (flatMap_split g k c v).trans ?_
    rw [List.flatMap_cons]
    refine List.Perm.append_left _ ?_
    have h2 := ih hn.2 (v.filter fun a => decide (k a ≠ c)) (by
      intro a ha
      rw [List.mem_filter] at ha
      have := h a ha.1
      rcases List.mem_cons.1 this with h3 | h3
      · exact absurd h3 (by simpa using ha.2)
      · exact h3)
    refine h2.trans (List.Perm.of_eq ?_)
    refine List.flatMap_congr fun d hd => ?_
    congr 1
    rw [List.filter_filter]
    refine List.filter_congr fun a _ => ?_
    have : d ≠ c := fun e => hn.1 (e ▸ hd)
    by_cases hk : k a = d
    · simp [hk, this]
    · simp [hk]

end camera
end Yac.Metrics
