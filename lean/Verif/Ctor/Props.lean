import Verif.Ctor.Lemmas
import Verif.Calib.CameraLemmas

/-! # C121: calibrators built from a configuration file -/

namespace Yac.Ctor
open Yac.Config
open Yac.Text (natText)

theorem bind_must {V β : Type} (read : Y → Except Fault V) {doc : Y} (hd : Sections doc) {ks : List Str} (hp : Path ks)
    (key : Str) (hk : key = dotted ks) (old : V) (f : (ℤ × V) × Y → Except Fault β) (b : β) :
    parseWith read doc key false old >>= f = .ok b ↔ ∃ v, Gives doc ks read v ∧ f ((0, v), doc) = .ok b := by
  rw [bind_iff]
  constructor
  · rintro ⟨⟨⟨c, v⟩, y⟩, h1, h2⟩
    obtain ⟨e1, e2⟩ := (parseWith_iff read hd hp key hk false old _).mp h1
    rcases e2 with ⟨e2, e3⟩ | ⟨-, e, -⟩
    · simp only at e1 e2 e3
      subst e1 e2
      exact ⟨v, e3, h2⟩
    · cases e
  · rintro ⟨v, h1, h2⟩
    exact ⟨((0, v), doc), (parseWith_iff read hd hp key hk false old _).mpr ⟨rfl, Or.inl ⟨rfl, h1⟩⟩, h2⟩

theorem bind_text {β : Type} {doc : Y} (hd : Sections doc) {ks : List Str} (hp : Path ks) (key : Str) (hk : key = dotted ks)
    (f : (ℤ × Str) × Y → Except Fault β) (b : β) :
    parseText doc key >>= f = .ok b ↔ ∃ v, GivesScalar doc ks some v ∧ f ((0, v), doc) = .ok b := by
  rw [bind_iff]
  unfold parseText
  constructor
  · rintro ⟨⟨⟨c, v⟩, y⟩, h1, h2⟩
    obtain ⟨e1, e2⟩ := (parseT_iff some hd hp key hk false [] _).mp h1
    rcases e2 with ⟨e2, e3⟩ | ⟨-, e, -⟩
    · simp only at e1 e2 e3
      subst e1 e2
      exact ⟨v, e3, h2⟩
    · cases e
  · rintro ⟨v, h1, h2⟩
    exact ⟨((0, v), doc), (parseT_iff some hd hp key hk false [] _).mpr ⟨rfl, Or.inl ⟨rfl, h1⟩⟩, h2⟩

theorem bind_has {β : Type} {doc : Y} (hd : Sections doc) {ks : List Str} (hp : Path ks) (key : Str) (hk : key = dotted ks)
    (f : Bool × Y → Except Fault β) (b : β) :
    hasKey doc key >>= f = .ok b ↔ (Absent doc ks ∧ f (false, doc) = .ok b) ∨ (¬ Absent doc ks ∧ f (true, doc) = .ok b) := by
  rw [bind_iff]
  constructor
  · rintro ⟨⟨c, y⟩, h1, h2⟩
    obtain ⟨e1, e2⟩ := (hasKey_iff hd hp key hk _).mp h1
    simp only at e1 e2
    subst e1
    cases c with
    | false => exact Or.inl ⟨e2.mp rfl, h2⟩
    | true => exact Or.inr ⟨(fun h => by cases e2.mpr h), h2⟩
  · rintro (⟨h1, h2⟩ | ⟨h1, h2⟩)
    · exact ⟨_, (hasKey_iff hd hp key hk (false, doc)).mpr ⟨rfl, by simp [h1]⟩, h2⟩
    · exact ⟨_, (hasKey_iff hd hp key hk (true, doc)).mpr ⟨rfl, by simp [h1]⟩, h2⟩

theorem bind_table {β : Type} (D : Dec) {doc : Y} (hd : Sections doc) {sec : Str} (hs : IsSection sec) (hs' : Plain sec)
    (optional : Bool) (t : List (Str × Val)) (ht : NamesOk t) (f : List (Str × Val) × Y → Except Fault β) (b : β) :
    readTable D sec optional t doc >>= f = .ok b ↔ ∃ vals, TableIs D doc sec optional t vals ∧ f (vals, doc) = .ok b := by
  rw [bind_iff]
  constructor
  · rintro ⟨⟨v, y⟩, h1, h2⟩
    obtain ⟨e1, e2⟩ := (readTable_iff D hd hs hs' optional t ht _).mp h1
    simp only at e1 e2
    subst e1
    exact ⟨v, e2, h2⟩
  · rintro ⟨v, h1, h2⟩
    exact ⟨(v, doc), (readTable_iff D hd hs hs' optional t ht _).mpr ⟨rfl, h1⟩, h2⟩

theorem names_ok (t : List (Str × Val)) (h : (t.map Prod.fst).all (fun k => !k.isEmpty && !k.contains '.') = true) : NamesOk t := by
  intro e he
  exact plain_lit _ (List.all_eq_true.mp h _ (List.mem_map_of_mem he))

theorem supported_iff (proj dist : Str) : supported proj dist = true ↔ ModelsOk proj dist := by
  unfold supported ModelsOk
  rw [Bool.and_eq_true, Bool.or_eq_true, decide_eq_true_eq, decide_eq_true_eq, decide_eq_true_eq]

/-! ### The cameras of `calib_camera_t` -/

/-- Camera `n` before the extrinsics are read. -/
def CameraBase (D : Dec) (doc : Y) (n : ℕ) (c : Camera) : Prop :=
  ModelIs D doc n c ∧ IntrinsicsAre D doc n c.res c.k c.d ∧ c.ext = identity4 ∧ c.fixed = false ∧ c.fixedExt = decide (n = 0)

theorem addCamera_iff (cams : List (ℤ × Camera)) (n : ℕ) (res : List ℤ) (proj dist : Str) (k d : List ℝ) (r : List (ℤ × Camera)) :
    addCamera cams n res proj dist k d = .ok r ↔
      ModelsOk proj dist ∧ r = SMap.set (n : ℤ) ⟨res, proj, dist, k, d, identity4, false, decide (n = 0)⟩ cams := by
  unfold addCamera
  by_cases h : supported proj dist = true
  · rw [if_pos h]
    have := (supported_iff _ _).mp h
    exact ⟨(fun h => by cases h; exact ⟨this, rfl⟩), fun h => by rw [h.2]⟩
  · rw [if_neg h]
    exact ⟨(fun h => by cases h), fun h' => absurd ((supported_iff _ _).mpr h'.1) h⟩

theorem addCameraDefault_eq (cams : List (ℤ × Camera)) (n : ℕ) (res : List ℤ) (proj dist : Str) (r : List (ℤ × Camera)) :
    addCameraDefault cams n res proj dist = .ok r ↔
      ModelsOk proj dist ∧ ∃ w h f : ℝ, w = res.getD 0 0 ∧ h = res.getD 1 0 ∧
        f = w / 2 / Real.tan (120 * (Real.pi / 180) / 2) ∧
        r = SMap.set (n : ℤ) ⟨res, proj, dist, [f, f, (w - 1) / 2, (h - 1) / 2], [0, 0, 0, 0], identity4, false, decide (n = 0)⟩ cams := by
  unfold addCameraDefault
  by_cases h1 : proj = "pinhole".toList
  · rw [if_pos h1]
    by_cases h2 : dist = "radtan4".toList ∨ dist = "equi4".toList
    · rw [if_pos h2, addCamera_iff]
      constructor
      · rintro ⟨h, rfl⟩
        exact ⟨h, _, _, _, rfl, rfl, rfl, rfl⟩
      · rintro ⟨h, w, hh, f, rfl, rfl, rfl, rfl⟩
        exact ⟨h, rfl⟩
    · rw [if_neg h2]
      exact ⟨(fun h => by cases h), fun h => absurd h.1.2 h2⟩
  · rw [if_neg h1]
    exact ⟨(fun h => by cases h), fun h => absurd h.1.1 h1⟩

theorem readCamera_iff (D : Dec) {doc : Y} (hd : Sections doc) (n : ℕ) (cams : List (ℤ × Camera)) (r : List (ℤ × Camera) × Y) :
    readCamera D (cams, doc) n = .ok r ↔ r.2 = doc ∧ ((Absent doc [camName n] ∧ r.1 = cams) ∨
      (¬ Absent doc [camName n] ∧ ∃ c, CameraBase D doc n c ∧ r.1 = SMap.set (n : ℤ) c cams)) := by
  obtain ⟨rc, y⟩ := r
  unfold readCamera
  rw [bind_has hd (Or.inl ⟨_, rfl, camName_plain n⟩) _ (dotted_one _).symm]
  have e : ((true, doc) : Bool × Y).1 = false ↔ False := by simp
  simp only [if_true, Bool.true_eq_false, if_false]
  have h1 := fun {β : Type} (f : (ℤ × List ℤ) × Y → Except Fault β) b => bind_must (readVec D.int 2) hd
    (path_cam n "resolution".toList rfl) (camName n ++ ".resolution".toList) (dotted_two _ _).symm [] f b
  have h2 := fun {β : Type} (f : (ℤ × Str) × Y → Except Fault β) b => bind_text hd
    (path_cam n "proj_model".toList rfl) (camName n ++ ".proj_model".toList) (dotted_two _ _).symm f b
  have h3 := fun {β : Type} (f : (ℤ × Str) × Y → Except Fault β) b => bind_text hd
    (path_cam n "dist_model".toList rfl) (camName n ++ ".dist_model".toList) (dotted_two _ _).symm f b
  have h4 := fun {β : Type} (f : Bool × Y → Except Fault β) b => bind_has hd
    (path_cam n "proj_params".toList rfl) (camName n ++ ".proj_params".toList) (dotted_two _ _).symm f b
  have h5 := fun {β : Type} (f : (ℤ × List ℝ) × Y → Except Fault β) b => bind_must (readVecX D.real) hd
    (path_cam n "proj_params".toList rfl) (camName n ++ ".proj_params".toList) (dotted_two _ _).symm [] f b
  have h6 := fun {β : Type} (f : (ℤ × List ℝ) × Y → Except Fault β) b => bind_must (readVecX D.real) hd
    (path_cam n "dist_params".toList rfl) (camName n ++ ".dist_params".toList) (dotted_two _ _).symm [] f b
  simp only [h1, h2, h3, h4, h5, h6, if_true, Bool.false_eq_true, if_false, bind_iff, addCamera_iff, addCameraDefault_eq]
  constructor
  · rintro (⟨ha, hr⟩ | ⟨ha, res, hres, pm, hpm, dm, hdm, ⟨hn, c, ⟨hok, w, h, f, hw, hh, hf, rfl⟩, hr⟩ |
      ⟨-, k, hk, d, hdd, c, ⟨hok, rfl⟩, hr⟩⟩)
    · cases hr; exact ⟨rfl, Or.inl ⟨ha, rfl⟩⟩
    · cases hr
      exact ⟨rfl, Or.inr ⟨ha, _, ⟨⟨hres, hpm, hdm, hok⟩, Or.inr ⟨hn, rfl, w, h, f, hw, hh, hf, rfl⟩, rfl, rfl, rfl⟩, rfl⟩⟩
    · cases hr
      exact ⟨rfl, Or.inr ⟨ha, _, ⟨⟨hres, hpm, hdm, hok⟩, Or.inl ⟨hk, hdd⟩, rfl, rfl, rfl⟩, rfl⟩⟩
  · rintro ⟨rfl, ⟨ha, rfl⟩ | ⟨ha, ⟨res, pm, dm, k, d, ext, fx, fe⟩, ⟨⟨hres, hpm, hdm, hok⟩, hint, hext, hfx, hfe⟩, rfl⟩⟩
    · exact Or.inl ⟨ha, rfl⟩
    · simp only at hres hpm hdm hok hint hext hfx hfe
      subst hext hfx hfe
      refine Or.inr ⟨ha, res, hres, pm, hpm, dm, hdm, ?_⟩
      rcases hint with ⟨hk, hdd⟩ | ⟨hn, hd0, w, h, f, hw, hh, hf, hk⟩
      · refine Or.inr ⟨?_, k, hk, d, hdd, _, ⟨hok, rfl⟩, rfl⟩
        obtain ⟨node, hnode, -⟩ := hk
        exact fun hc => hc ⟨node, hnode⟩
      · subst hd0 hk
        exact Or.inl ⟨hn, _, ⟨hok, w, h, f, hw, hh, hf, rfl⟩, rfl⟩

/-! ### A loop over the cameras -/

/-- The state after the cameras below `N`. -/
def Upto (doc : Y) (is : ℕ → Camera → Prop) (N : ℕ) (cams : List (ℤ × Camera)) : Prop :=
  SMap.Sorted cams ∧
  (∀ n < N, (Absent doc [camName n] ∧ SMap.find (n : ℤ) cams = none) ∨
    (¬ Absent doc [camName n] ∧ ∃ c, SMap.find (n : ℤ) cams = some c ∧ is n c)) ∧
  ∀ i : ℤ, (∀ n : ℕ, n < N → i ≠ n) → SMap.find i cams = none

theorem upto_step {doc : Y} {is : ℕ → Camera → Prop} {N : ℕ} {cams cams' : List (ℤ × Camera)} (h : Upto doc is N cams)
    (hs : (Absent doc [camName N] ∧ cams' = cams) ∨ (¬ Absent doc [camName N] ∧ ∃ c, is N c ∧ cams' = SMap.set (N : ℤ) c cams)) :
    Upto doc is (N + 1) cams' := by
  obtain ⟨h1, h2, h3⟩ := h
  have hN : SMap.find (N : ℤ) cams = none := h3 N (fun n hn => by omega)
  rcases hs with ⟨ha, rfl⟩ | ⟨ha, c, hc, rfl⟩
  · refine ⟨h1, fun n hn => ?_, fun i hi => h3 i (fun n hn => hi n (by omega))⟩
    rcases Nat.lt_succ_iff_lt_or_eq.mp hn with hn | rfl
    · exact h2 n hn
    · exact Or.inl ⟨ha, hN⟩
  · refine ⟨SMap.set_sorted _ _ _ h1, fun n hn => ?_, fun i hi => ?_⟩
    · rcases Nat.lt_succ_iff_lt_or_eq.mp hn with hn | rfl
      · rw [SMap.find_set, if_neg (by omega)]; exact h2 n hn
      · right
        exact ⟨ha, c, by rw [SMap.find_set, if_pos rfl], hc⟩
    · rw [SMap.find_set, if_neg (hi N (by omega))]
      exact h3 i (fun n hn => hi n (by omega))

/-- A loop whose body reads one camera. -/
theorem loop_iff {doc : Y} {is : ℕ → Camera → Prop} {body : List (ℤ × Camera) × Y → ℕ → Except Fault (List (ℤ × Camera) × Y)}
    (hb : ∀ n cams r, body (cams, doc) n = .ok r ↔ r.2 = doc ∧ ((Absent doc [camName n] ∧ r.1 = cams) ∨
      (¬ Absent doc [camName n] ∧ ∃ c, is n c ∧ r.1 = SMap.set (n : ℤ) c cams))) (N : ℕ) :
    (∀ r, (List.range N).foldlM body ([], doc) = .ok r → r.2 = doc ∧ Upto doc is N r.1) ∧
    ((∀ n < N, ¬ Absent doc [camName n] → ∃ c, is n c) → ∃ r, (List.range N).foldlM body ([], doc) = .ok r) := by
  induction N with
  | zero =>
    refine ⟨fun r h => ?_, fun _ => ⟨_, rfl⟩⟩
    cases h
    exact ⟨rfl, by simp [SMap.Sorted], fun n hn => absurd hn (by omega), fun i _ => rfl⟩
  | succ N ih =>
    rw [List.range_succ, List.foldlM_append]
    refine ⟨fun r h => ?_, fun h => ?_⟩
    · obtain ⟨q, h1, h2⟩ := (bind_iff _ _ _).mp h
      obtain ⟨e1, e2⟩ := ih.1 q h1
      obtain ⟨q1, q2⟩ := q
      simp only at e1 e2
      subst e1
      rw [List.foldlM_cons] at h2
      obtain ⟨q', h3, h4⟩ := (bind_iff _ _ _).mp h2
      cases h4
      obtain ⟨f1, f2⟩ := (hb N q1 _).mp h3
      exact ⟨f1, upto_step e2 f2⟩
    · obtain ⟨⟨q1, q2⟩, hq⟩ := ih.2 (fun n hn => h n (by omega))
      obtain ⟨e1, -⟩ := ih.1 _ hq
      simp only at e1
      subst e1
      have : ∃ r, body (q1, q2) N = .ok r := by
        by_cases ha : Absent q2 [camName N]
        · exact ⟨(q1, q2), (hb N q1 _).mpr ⟨rfl, Or.inl ⟨ha, rfl⟩⟩⟩
        · obtain ⟨c, hc⟩ := h N (by omega) ha
          exact ⟨(SMap.set (N : ℤ) c q1, q2), (hb N q1 _).mpr ⟨rfl, Or.inr ⟨ha, c, hc, rfl⟩⟩⟩
      obtain ⟨r, hr⟩ := this
      exact ⟨r, by
        rw [hq]
        show (List.foldlM body (q1, q2) [N]) = _
        rw [List.foldlM_cons, hr]
        rfl⟩

/-! ### Extrinsics -/

theorem readExt_iff (D : Dec) {doc : Y} (hd : Sections doc) (i : ℤ) (cams : List (ℤ × Camera)) (c : Camera)
    (hc : SMap.find i cams = some c) (r : List (ℤ × Camera) × Y) :
    readExt D (cams, doc) i = .ok r ↔ r.2 = doc ∧ ((Absent doc [extName i.toNat] ∧ r.1 = cams) ∨
      ∃ e, Gives doc [extName i.toNat] (readMat D.int D.real 4) e ∧ r.1 = SMap.set i { c with ext := e } cams) := by
  obtain ⟨rc, y⟩ := r
  unfold readExt
  rw [bind_has hd (Or.inl ⟨_, rfl, extName_plain _⟩) _ (dotted_one _).symm]
  have h1 := fun {β : Type} (f : (ℤ × List (List ℝ)) × Y → Except Fault β) b => bind_must (readMat D.int D.real 4) hd
    (Or.inl ⟨_, rfl, extName_plain i.toNat⟩) (extName i.toNat) (dotted_one _).symm [] f b
  simp only [if_true, Bool.true_eq_false, if_false, h1, hc]
  constructor
  · rintro (⟨ha, hr⟩ | ⟨ha, e, he, hr⟩)
    · cases hr; exact ⟨rfl, Or.inl ⟨ha, rfl⟩⟩
    · cases hr; exact ⟨rfl, Or.inr ⟨e, he, rfl⟩⟩
  · rintro ⟨rfl, ⟨ha, rfl⟩ | ⟨e, he, rfl⟩⟩
    · exact Or.inl ⟨ha, rfl⟩
    · refine Or.inr ⟨?_, e, he, rfl⟩
      obtain ⟨n, hn, -⟩ := he
      exact fun hc => hc ⟨n, hn⟩

theorem exts_ok (D : Dec) {doc : Y} (hd : Sections doc) : ∀ (l : List ℤ) (_ : l.Nodup) (cams : List (ℤ × Camera)),
    SMap.Sorted cams → (∀ i ∈ l, ∃ c, SMap.find i cams = some c ∧ c.ext = identity4) →
    (∀ r, l.foldlM (readExt D) (cams, doc) = .ok r → r.2 = doc ∧ SMap.Sorted r.1 ∧
      (∀ i, i ∉ l → SMap.find i r.1 = SMap.find i cams) ∧
      ∀ i ∈ l, ∀ c, SMap.find i cams = some c → ∃ e, SMap.find i r.1 = some { c with ext := e } ∧ ExtIs D doc i.toNat e) ∧
    ((∀ i ∈ l, ∃ e, ExtIs D doc i.toNat e) → ∃ r, l.foldlM (readExt D) (cams, doc) = .ok r) := by
  intro l
  induction l with
  | nil =>
    intro _ cams hs _
    refine ⟨fun r h => ?_, fun _ => ⟨_, rfl⟩⟩
    cases h
    exact ⟨rfl, hs, fun _ _ => rfl, fun i hi => absurd hi (by simp)⟩
  | cons i l ih =>
    intro hn cams hs hl
    obtain ⟨hil, hn'⟩ := List.nodup_cons.mp hn
    obtain ⟨c, hc, hce⟩ := hl i List.mem_cons_self
    -- one step: the new map and its facts
    have step : ∀ r, readExt D (cams, doc) i = .ok r → r.2 = doc ∧ SMap.Sorted r.1 ∧
        (∀ j, j ≠ i → SMap.find j r.1 = SMap.find j cams) ∧
        ∃ e, SMap.find i r.1 = some { c with ext := e } ∧ ExtIs D doc i.toNat e := by
      intro r hr
      obtain ⟨e1, e2⟩ := (readExt_iff D hd i cams c hc r).mp hr
      rcases e2 with ⟨ha, e2⟩ | ⟨e, he, e2⟩
      · rw [e2]
        refine ⟨e1, hs, fun _ _ => rfl, identity4, ?_, Or.inr ⟨ha, rfl⟩⟩
        rw [hc, ← hce]
      · rw [e2]
        refine ⟨e1, SMap.set_sorted _ _ _ hs, fun j hj => by rw [SMap.find_set, if_neg hj], e, ?_, Or.inl he⟩
        rw [SMap.find_set, if_pos rfl]
    rw [List.foldlM_cons]
    constructor
    · intro r h
      obtain ⟨⟨q1, q2⟩, h1, h2⟩ := (bind_iff _ _ _).mp h
      obtain ⟨s1, s2, s3, e, s4, s5⟩ := step _ h1
      simp only at s1 s2 s3 s4
      subst s1
      obtain ⟨t1, t2, t3, t4⟩ := (ih hn' q1 s2 (fun j hj => by
        rw [s3 j (fun hh => hil (hh ▸ hj))]; exact hl j (List.mem_cons_of_mem _ hj))).1 r h2
      refine ⟨t1, t2, fun j hj => ?_, fun j hj c' hc' => ?_⟩
      · rw [t3 j (fun hh => hj (List.mem_cons_of_mem _ hh)), s3 j (fun hh => hj (by rw [hh]; exact List.mem_cons_self))]
      · rcases List.mem_cons.mp hj with rfl | hj
        · rw [t3 j hil, s4]
          rw [hc] at hc'
          cases hc'
          exact ⟨e, rfl, s5⟩
        · exact t4 j hj c' (by rw [s3 j (fun hh => hil (hh ▸ hj))]; exact hc')
    · intro h
      have : ∃ r, readExt D (cams, doc) i = .ok r := by
        obtain ⟨e, he⟩ := h i List.mem_cons_self
        rcases he with he | ⟨ha, -⟩
        · exact ⟨(_, doc), (readExt_iff D hd i cams c hc _).mpr ⟨rfl, Or.inr ⟨e, he, rfl⟩⟩⟩
        · exact ⟨(_, doc), (readExt_iff D hd i cams c hc _).mpr ⟨rfl, Or.inl ⟨ha, rfl⟩⟩⟩
      obtain ⟨⟨q1, q2⟩, h1⟩ := this
      obtain ⟨s1, s2, s3, -⟩ := step _ h1
      simp only at s1 s2 s3
      subst s1
      obtain ⟨r, hr⟩ := (ih hn' q1 s2 (fun j hj => by
        rw [s3 j (fun hh => hil (hh ▸ hj))]; exact hl j (List.mem_cons_of_mem _ hj))).2
        (fun j hj => h j (List.mem_cons_of_mem _ hj))
      exact ⟨r, by rw [h1]; exact hr⟩

end Yac.Ctor
