import Verif.Ctor.Main

/-! # C121: the theorem for `calib_vi_t` -/

namespace Yac.Ctor
open Yac.Config

/-! ### The value of a setting -/

theorem setting_iff {t : List (Str × Val)} (hn : (t.map Prod.fst).Nodup) (name : Str) (v : Val) :
    setting t name = some v ↔ (name, v) ∈ t := by
  unfold setting
  induction t with
  | nil => simp
  | cons e t ih =>
    obtain ⟨k, w⟩ := e
    rw [List.map_cons, List.nodup_cons] at hn
    by_cases hk : k = name
    · subst hk
      rw [List.find?_cons_of_pos (by simp)]
      constructor
      · intro h; cases h; exact List.mem_cons_self
      · intro h
        rcases List.mem_cons.mp h with h | h
        · cases h; rfl
        · exact absurd (List.mem_map.mpr ⟨_, h, rfl⟩) hn.1
    · rw [List.find?_cons_of_neg (by simpa using hk), ih hn.2]
      constructor
      · exact fun h => List.mem_cons_of_mem _ h
      · intro h
        rcases List.mem_cons.mp h with h | h
        · cases h; exact absurd rfl hk
        · exact h

theorem table_names {D : Dec} {doc : Y} {sec : Str} {o : Bool} {t v : List (Str × Val)} (h : TableIs D doc sec o t v) :
    v.map Prod.fst = t.map Prod.fst := by
  unfold TableIs at h
  induction h with
  | nil => rfl
  | cons hd _ ih => rw [List.map_cons, List.map_cons, ih, hd.1]

/-- Two values of the same type. -/
def Same : Val → Val → Prop
  | .flag _, .flag _ => True
  | .int _, .int _ => True
  | .real _, .real _ => True
  | .text _, .text _ => True
  | _, _ => False

theorem like_same {D : Dec} {d v : Val} {s : Str} (h : D.like d s = some v) : Same d v := by
  unfold Dec.like at h
  cases d with
  | flag b =>
    simp only at h
    obtain ⟨x, -, rfl⟩ := Option.map_eq_some_iff.mp h
    exact trivial
  | int b =>
    simp only at h
    obtain ⟨x, -, rfl⟩ := Option.map_eq_some_iff.mp h
    exact trivial
  | real b =>
    simp only at h
    obtain ⟨x, -, rfl⟩ := Option.map_eq_some_iff.mp h
    exact trivial
  | text b => cases h; exact trivial

theorem same_refl (d : Val) : Same d d := by cases d <;> exact trivial

theorem table_mem {D : Dec} {doc : Y} {sec : Str} {o : Bool} {t v : List (Str × Val)} (h : TableIs D doc sec o t v)
    {k : Str} {d : Val} (hk : (k, d) ∈ t) : ∃ x, (k, x) ∈ v ∧ Same d x := by
  unfold TableIs at h
  induction h with
  | nil => cases hk
  | @cons e w t vs hd _ ih =>
    rcases List.mem_cons.mp hk with rfl | hk
    · refine ⟨w.2, ?_, ?_⟩
      · have : w = (k, w.2) := Prod.ext hd.1 rfl
        rw [← this]; exact List.mem_cons_self
      · rcases hd.2 with ⟨s, -, hs⟩ | ⟨-, -, hs⟩
        · exact like_same hs
        · rw [hs]; exact same_refl _
    · obtain ⟨x, h1, h2⟩ := ih hk
      exact ⟨x, List.mem_cons_of_mem _ h1, h2⟩

theorem lossIf_iff {t : List (Str × Val)} (hn : (t.map Prod.fst).Nodup) {e k p : Str} {on : Bool} {ty : Str} {x : ℝ}
    (h1 : (e, .flag on) ∈ t) (h2 : (k, .text ty) ∈ t) (h3 : (p, .real x) ∈ t) (o : Option Loss) :
    lossIf t e k p = .ok o ↔ LossIs t ["BLAKE-ZISSERMAN", "CAUCHY", "HUBER"] e k p o := by
  have s1 := (setting_iff hn _ _).mpr h1
  have s2 := (setting_iff hn _ _).mpr h2
  have s3 := (setting_iff hn _ _).mpr h3
  have hspec : LossIs t ["BLAKE-ZISSERMAN", "CAUCHY", "HUBER"] e k p o ↔
      ((on = false ∧ o = none) ∨ (on = true ∧ (∃ a ∈ ["BLAKE-ZISSERMAN", "CAUCHY", "HUBER"], ty = String.toList a) ∧
      ((ty = "BLAKE-ZISSERMAN".toList → ∃ n : ℤ, o = some (.blakeZisserman n) ∧ ((0 ≤ x ∧ n = ⌊x⌋) ∨ (x < 0 ∧ n = ⌈x⌉))) ∧
       (ty = "CAUCHY".toList → o = some (.cauchy x)) ∧ (ty = "HUBER".toList → o = some (.huber x))))) := by
    constructor
    · rintro ⟨on', ty', x', g1, g2, g3, g⟩
      have e1 := (setting_iff hn _ _).mpr g1
      have e2 := (setting_iff hn _ _).mpr g2
      have e3 := (setting_iff hn _ _).mpr g3
      rw [s1] at e1; rw [s2] at e2; rw [s3] at e3
      cases e1; cases e2; cases e3
      exact g
    · exact fun g => ⟨on, ty, x, h1, h2, h3, g⟩
  rw [hspec]
  have hdef : lossIf t e k p = if on = true then (viLoss ty x >>= fun l => .ok (some l)) else .ok none := by
    unfold lossIf
    rw [s1, s2, s3]
    cases on <;> rfl
  rw [hdef]
  cases on with
  | false =>
    rw [if_neg (by decide)]
    constructor
    · intro h; cases h; exact Or.inl ⟨rfl, rfl⟩
    · rintro (⟨-, rfl⟩ | ⟨h, -⟩)
      · rfl
      · cases h
  | true =>
    rw [if_pos rfl]
    unfold viLoss
    by_cases b1 : ty = "BLAKE-ZISSERMAN".toList
    · rw [if_pos b1]
      have hint : ∀ n : ℤ, n = toInt x ↔ ((0 ≤ x ∧ n = ⌊x⌋) ∨ (x < 0 ∧ n = ⌈x⌉)) := by
        intro n
        unfold toInt
        by_cases hx : 0 ≤ x
        · rw [if_pos hx]
          exact ⟨fun h => Or.inl ⟨hx, h⟩, fun h => by
            rcases h with ⟨-, h⟩ | ⟨h', -⟩
            · exact h
            · exact absurd hx (not_le.mpr h')⟩
        · rw [if_neg hx]
          exact ⟨fun h => Or.inr ⟨not_le.mp hx, h⟩, fun h => by
            rcases h with ⟨h', -⟩ | ⟨-, h⟩
            · exact absurd h' hx
            · exact h⟩
      constructor
      · intro h
        cases h
        refine Or.inr ⟨rfl, ⟨_, List.mem_cons_self, b1⟩, fun _ => ⟨_, rfl, (hint _).mp rfl⟩, fun h => ?_, fun h => ?_⟩
        · rw [b1] at h; exact absurd h (by decide)
        · rw [b1] at h; exact absurd h (by decide)
      · rintro (⟨h, -⟩ | ⟨-, -, h, -⟩)
        · cases h
        · obtain ⟨n, hn1, hn2⟩ := h b1
          rw [hn1, (hint n).mpr hn2]; rfl
    · rw [if_neg b1]
      by_cases b2 : ty = "CAUCHY".toList
      · rw [if_pos b2]
        constructor
        · intro h
          cases h
          refine Or.inr ⟨rfl, ⟨"CAUCHY", by simp, b2⟩, fun h => absurd h b1, fun h => rfl, fun h => ?_⟩
          rw [b2] at h; exact absurd h (by decide)
        · rintro (⟨h, -⟩ | ⟨-, -, -, h, -⟩)
          · cases h
          · rw [h b2]; rfl
      · rw [if_neg b2]
        by_cases b3 : ty = "HUBER".toList
        · rw [if_pos b3]
          constructor
          · intro h
            cases h
            exact Or.inr ⟨rfl, ⟨"HUBER", by simp, b3⟩, fun h => absurd h b1, fun h => absurd h b2, fun h => rfl⟩
          · rintro (⟨h, -⟩ | ⟨-, -, -, -, h⟩)
            · cases h
            · rw [h b3]; rfl
        · rw [if_neg b3]
          constructor
          · intro h; cases h
          · rintro (⟨h, -⟩ | ⟨-, ⟨a, ha, h⟩, -⟩)
            · cases h
            · simp only [List.mem_cons, List.not_mem_nil, or_false] at ha
              rcases ha with rfl | rfl | rfl
              · exact absurd h b1
              · exact absurd h b2
              · exact absurd h b3

/-! ### Cameras -/

theorem readViCamera_iff (D : Dec) {doc : Y} (hd : Sections doc) (n : ℕ) (cams : List (ℤ × Camera)) (r : List (ℤ × Camera) × Y) :
    readViCamera D (cams, doc) n = .ok r ↔ r.2 = doc ∧ ((Absent doc [camName n] ∧ r.1 = cams) ∨
      (¬ Absent doc [camName n] ∧ ∃ c, ViCameraIs D doc n c ∧ r.1 = SMap.set (n : ℤ) c cams)) := by
  obtain ⟨rc, y⟩ := r
  unfold readViCamera
  rw [bind_has hd (Or.inl ⟨_, rfl, camName_plain n⟩) _ (dotted_one _).symm]
  have h1 := fun {β : Type} (f : (ℤ × List ℤ) × Y → Except Fault β) b => bind_must (readVec D.int 2) hd
    (path_cam n "resolution".toList rfl) (camName n ++ ".resolution".toList) (dotted_two _ _).symm [] f b
  have h2 := fun {β : Type} (f : (ℤ × Str) × Y → Except Fault β) b => bind_text hd
    (path_cam n "proj_model".toList rfl) (camName n ++ ".proj_model".toList) (dotted_two _ _).symm f b
  have h3 := fun {β : Type} (f : (ℤ × Str) × Y → Except Fault β) b => bind_text hd
    (path_cam n "dist_model".toList rfl) (camName n ++ ".dist_model".toList) (dotted_two _ _).symm f b
  have h5 := fun {β : Type} (f : (ℤ × List ℝ) × Y → Except Fault β) b => bind_must (readVecX D.real) hd
    (path_cam n "proj_params".toList rfl) (camName n ++ ".proj_params".toList) (dotted_two _ _).symm [] f b
  have h6 := fun {β : Type} (f : (ℤ × List ℝ) × Y → Except Fault β) b => bind_must (readVecX D.real) hd
    (path_cam n "dist_params".toList rfl) (camName n ++ ".dist_params".toList) (dotted_two _ _).symm [] f b
  have h7 := fun {β : Type} (f : (ℤ × List (List ℝ)) × Y → Except Fault β) b => bind_must (readMat D.int D.real 4) hd
    (Or.inl ⟨_, rfl, extName_plain n⟩) (extName n) (dotted_one _).symm identity4 f b
  have hpose : ∀ e : List (List ℝ) × Y, ((if n ≠ 0 then parseWith (readMat D.int D.real 4) doc (extName n) false identity4 >>= fun m => .ok (m.1.2, m.2)
      else .ok (identity4, doc)) = Except.ok (ε := Fault) e) ↔ e.2 = doc ∧ (n ≠ 0 → Gives doc [extName n] (readMat D.int D.real 4) e.1) ∧
        (n = 0 → e.1 = identity4) := by
    rintro ⟨e, y'⟩
    by_cases hn : n = 0
    · rw [if_neg (by simpa using hn)]
      constructor
      · intro h; cases h; exact ⟨rfl, fun h => absurd hn h, fun _ => rfl⟩
      · rintro ⟨h', -, h⟩
        simp only at h h'
        rw [h hn, h']
    · rw [if_pos hn, h7]
      constructor
      · rintro ⟨v, hv, h⟩
        cases h
        exact ⟨rfl, fun _ => hv, fun h => absurd h hn⟩
      · rintro ⟨rfl, h, -⟩
        exact ⟨e, h hn, rfl⟩
  simp only [if_true, Bool.true_eq_false, if_false, h1, h2, h3, h5, h6]
  constructor
  · rintro (⟨ha, hr⟩ | ⟨ha, res, hres, pm, hpm, dm, hdm, k, hk, d, hdd, hr⟩)
    · cases hr; exact ⟨rfl, Or.inl ⟨ha, rfl⟩⟩
    · obtain ⟨e, he, hr⟩ := (bind_iff _ _ _).mp hr
      obtain ⟨e1, e2, e3⟩ := (hpose e).mp he
      by_cases hs : supported pm dm = true
      · rw [if_pos hs] at hr
        cases hr
        exact ⟨e1, Or.inr ⟨ha, _, ⟨⟨hres, hpm, hdm, (supported_iff _ _).mp hs⟩, hk, hdd, e2, e3, rfl, rfl⟩, rfl⟩⟩
      · rw [if_neg hs] at hr; cases hr
  · rintro ⟨rfl, ⟨ha, rfl⟩ | ⟨ha, ⟨res, pm, dm, k, d, ext, fx, fe⟩, ⟨⟨hres, hpm, hdm, hok⟩, hk, hdd, he1, he2, hfx, hfe⟩, rfl⟩⟩
    · exact Or.inl ⟨ha, rfl⟩
    · simp only at hres hpm hdm hok hk hdd he1 he2 hfx hfe
      subst hfx hfe
      refine Or.inr ⟨ha, res, hres, pm, hpm, dm, hdm, k, hk, d, hdd, (bind_iff _ _ _).mpr ⟨(ext, y), (hpose _).mpr ⟨rfl, he1, he2⟩, ?_⟩⟩
      rw [if_pos ((supported_iff _ _).mpr hok)]

theorem vicamera_unique {D : Dec} {doc : Y} (n : ℕ) (c c' : Camera) (h : ViCameraIs D doc n c) (h' : ViCameraIs D doc n c') : c = c' := by
  obtain ⟨h1, h2, h3, h4, h5, h6, h7⟩ := h
  obtain ⟨g1, g2, g3, g4, g5, g6, g7⟩ := h'
  obtain ⟨e1, e2, e3⟩ := model_unique h1 g1
  obtain ⟨res, proj, dist, k, d, ext, fx, fe⟩ := c
  obtain ⟨res', proj', dist', k', d', ext', fx', fe'⟩ := c'
  simp only at *
  subst e1 e2 e3 h6 g6 h7 g7
  have e5 : ext = ext' := by
    by_cases hn : n = 0
    · rw [h5 hn, g5 hn]
    · exact gives_unique (h4 hn) (g4 hn)
  rw [e5, gives_unique h2 g2, gives_unique h3 g3]

/-! ### Poses -/

theorem readPose_iff (D : Dec) {doc : Y} (hd : Sections doc) (key : Str) (hk : (!key.isEmpty && !key.contains '.') = true)
    (r : Option (List (List ℝ)) × Y) : readPose D doc key = .ok r ↔ r.2 = doc ∧ PoseIs D doc key r.1 := by
  obtain ⟨o, y⟩ := r
  unfold readPose
  rw [bind_has hd (path_one _ hk) _ (dotted_one _).symm, if_pos rfl, if_neg (show ¬ (false = true) by decide),
    bind_must _ hd (path_one _ hk) _ (dotted_one _).symm]
  unfold PoseIs
  constructor
  · rintro (⟨ha, hr⟩ | ⟨ha, v, hv, hr⟩)
    · cases hr; exact ⟨rfl, Or.inr ⟨rfl, ha⟩⟩
    · cases hr; exact ⟨rfl, Or.inl ⟨v, rfl, hv⟩⟩
  · rintro ⟨rfl, ⟨v, h, hv⟩ | ⟨h, ha⟩⟩
    · simp only at h; subst h; exact Or.inr ⟨gives_not_absent hv, v, hv, rfl⟩
    · simp only at h; subst h; exact Or.inl ⟨ha, rfl⟩

theorem pose_unique {D : Dec} {doc : Y} {key : Str} {o o' : Option (List (List ℝ))} (h : PoseIs D doc key o) (h' : PoseIs D doc key o') :
    o = o' := by
  rcases h with ⟨m, rfl, h⟩ | ⟨rfl, h⟩ <;> rcases h' with ⟨m', rfl, h'⟩ | ⟨rfl, h'⟩
  · rw [gives_unique h h']
  · exact absurd h' (gives_not_absent h)
  · exact absurd h (gives_not_absent h')
  · rfl

theorem names_vi : NamesOk viSettings := names_ok _ (by decide)
theorem names_needed : NamesOk imuNeeded := names_ok _ (by decide)
theorem names_optional : NamesOk imuOptional := names_ok _ (by decide)
theorem names_g : NamesOk [("g".toList, .real 9.81)] := names_ok _ (by decide)
theorem viSettings_eq : viSettings = keys viTable := rfl
theorem imuNeeded_eq : imuNeeded = keys (imuTable.take 5) := rfl
theorem imuOptional_eq : imuOptional = keys ((imuTable.drop 5).take 2) := rfl
theorem imuG_eq : [("g".toList, Val.real 9.81)] = keys (imuTable.drop 7) := rfl

/-- A setting of the table with its type. -/
theorem vi_flag {D : Dec} {doc : Y} {sec : Str} {o : Bool} {t v : List (Str × Val)} (h : TableIs D doc sec o t v)
    {k : Str} {b : Bool} (hk : (k, .flag b) ∈ t) : ∃ x, (k, .flag x) ∈ v := by
  obtain ⟨x, h1, h2⟩ := table_mem h hk
  cases x with
  | flag x => exact ⟨x, h1⟩
  | int x => exact h2.elim
  | real x => exact h2.elim
  | text x => exact h2.elim

theorem vi_text {D : Dec} {doc : Y} {sec : Str} {o : Bool} {t v : List (Str × Val)} (h : TableIs D doc sec o t v)
    {k : Str} {b : Str} (hk : (k, .text b) ∈ t) : ∃ x, (k, .text x) ∈ v := by
  obtain ⟨x, h1, h2⟩ := table_mem h hk
  cases x with
  | text x => exact ⟨x, h1⟩
  | int x => exact h2.elim
  | real x => exact h2.elim
  | flag x => exact h2.elim

theorem vi_real {D : Dec} {doc : Y} {sec : Str} {o : Bool} {t v : List (Str × Val)} (h : TableIs D doc sec o t v)
    {k : Str} {b : ℝ} (hk : (k, .real b) ∈ t) : ∃ x, (k, .real x) ∈ v := by
  obtain ⟨x, h1, h2⟩ := table_mem h hk
  cases x with
  | real x => exact ⟨x, h1⟩
  | int x => exact h2.elim
  | text x => exact h2.elim
  | flag x => exact h2.elim

theorem vi_nodup : (viSettings.map Prod.fst).Nodup := by
  show (["verbose".toList, "max_num_threads".toList, "max_iter".toList, "enable_outlier_rejection".toList,
    "enable_marginalization".toList, "enable_vision_loss_fn".toList, "vision_loss_fn_type".toList, "vision_loss_fn_param".toList,
    "enable_imu_loss_fn".toList, "imu_loss_fn_type".toList, "imu_loss_fn_param".toList, "outlier_threshold".toList,
    "window_size".toList, "estimate_time_delay".toList, "time_delay_jac_step".toList, "format_v2".toList] : List Str).Nodup
  decide

/-- `calib_vi_t(config_file)` succeeds exactly on the configuration files that say what a calibrator needs, and it then holds
what the file says. -/
theorem C121_vi (D : Dec) (doc : Y) (hd : Sections doc) (b : BuiltVi) : viCtor D doc = .ok b ↔ ViFile D doc b := by
  have fwd : ∀ b, viCtor D doc = .ok b → ViFile D doc b := by
    intro b h
    unfold viCtor at h
    rw [bind_table D hd sec_settings (plain_lit _ rfl) true _ names_vi] at h
    obtain ⟨st, hst, h⟩ := h
    rw [bind_target D hd] at h
    obtain ⟨tg, htg, h⟩ := h
    rw [bind_table D hd sec_imu (plain_lit _ rfl) false _ names_needed] at h
    obtain ⟨i1, hi1, h⟩ := h
    rw [bind_table D hd sec_imu (plain_lit _ rfl) true _ names_optional] at h
    obtain ⟨i2, hi2, h⟩ := h
    rw [bind_table D hd sec_imu (plain_lit _ rfl) false _ names_g] at h
    obtain ⟨i3, hi3, h⟩ := h
    obtain ⟨⟨tsc, y⟩, htsc, h⟩ := (bind_iff _ _ _).mp h
    obtain ⟨hy, htsc⟩ := (readPose_iff D hd _ (by decide) _).mp htsc
    simp only at hy htsc
    subst hy
    obtain ⟨⟨cs, y'⟩, hcs, h⟩ := (bind_iff _ _ _).mp h
    obtain ⟨hy', hcams⟩ := (loop_iff (readViCamera_iff D hd) 100).1 _ hcs
    simp only at hy' hcams
    subst hy'
    by_cases h0 : cs.length = 0
    · rw [if_pos h0] at h; cases h
    rw [if_neg h0] at h
    obtain ⟨⟨fid, y''⟩, hfid, h⟩ := (bind_iff _ _ _).mp h
    obtain ⟨hy'', hfid⟩ := (readPose_iff D hd _ (by decide) _).mp hfid
    simp only at hy'' hfid
    subst hy''
    obtain ⟨vl, hvl, h⟩ := (bind_iff _ _ _).mp h
    obtain ⟨il, hil, h⟩ := (bind_iff _ _ _).mp h
    have hnd : (st.map Prod.fst).Nodup := by rw [table_names hst]; exact vi_nodup
    obtain ⟨o1, ho1⟩ := vi_flag hst (k := "enable_vision_loss_fn".toList) (b := false) (by simp [viSettings])
    obtain ⟨o2, ho2⟩ := vi_text hst (k := "vision_loss_fn_type".toList) (b := "CAUCHY".toList) (by simp [viSettings])
    obtain ⟨o3, ho3⟩ := vi_real hst (k := "vision_loss_fn_param".toList) (b := 1) (by simp [viSettings])
    obtain ⟨p1, hp1⟩ := vi_flag hst (k := "enable_imu_loss_fn".toList) (b := false) (by simp [viSettings])
    obtain ⟨p2, hp2⟩ := vi_text hst (k := "imu_loss_fn_type".toList) (b := "HUBER".toList) (by simp [viSettings])
    obtain ⟨p3, hp3⟩ := vi_real hst (k := "imu_loss_fn_param".toList) (b := 1) (by simp [viSettings])
    obtain ⟨d1, hd1⟩ := vi_flag hst (k := "estimate_time_delay".toList) (b := true) (by simp [viSettings])
    have hdl := (setting_iff hnd _ _).mpr hd1
    cases h
    refine ⟨hst, htg, ⟨i1, i2, i3, rfl, hi1, hi2, hi3⟩, ⟨tsc, htsc, ?_, ?_⟩, ⟨d1, hd1, ?_⟩, hcams, (nonempty_iff hcams).mp h0, hfid,
      (lossIf_iff hnd ho1 ho2 ho3 vl).mp hvl, (lossIf_iff hnd hp1 hp2 hp3 il).mp hil⟩
    · rintro rfl; rfl
    · rintro m rfl; rfl
    · simp only [delayFixed, hdl]
  constructor
  · exact fwd b
  · intro h
    have ex : ∃ b', viCtor D doc = .ok b' := by
      obtain ⟨i1, i2, i3, -, hi1, hi2, hi3⟩ := h.imu
      obtain ⟨tsc, htsc, -, -⟩ := h.extrinsics
      obtain ⟨⟨cs, y'⟩, hcs⟩ := (loop_iff (readViCamera_iff D hd) 100).2 (fun n hn ha => by
        rcases h.cameras.2.1 n hn with ⟨h, -⟩ | ⟨-, c, -, h⟩
        · exact absurd h ha
        · exact ⟨c, h⟩)
      obtain ⟨hy', hcams⟩ := (loop_iff (readViCamera_iff D hd) 100).1 _ hcs
      simp only at hy' hcams
      subst hy'
      have hnd : (b.settings.map Prod.fst).Nodup := by rw [table_names h.settings]; exact vi_nodup
      obtain ⟨o1, o2, o3, ho1, ho2, ho3, -⟩ := h.vision_loss
      obtain ⟨p1, p2, p3, hp1, hp2, hp3, -⟩ := h.imu_loss
      refine ⟨⟨b.settings, b.target, i1 ++ i2 ++ i3, imuPose tsc, delayFixed b.settings, cs, b.fiducial, b.visionLoss, b.imuLoss⟩, ?_⟩
      · unfold viCtor
        rw [bind_table D hd sec_settings (plain_lit _ rfl) true _ names_vi]
        refine ⟨_, h.settings, ?_⟩
        rw [bind_target D hd]
        refine ⟨_, h.target, ?_⟩
        rw [bind_table D hd sec_imu (plain_lit _ rfl) false _ names_needed]
        refine ⟨_, hi1, ?_⟩
        rw [bind_table D hd sec_imu (plain_lit _ rfl) true _ names_optional]
        refine ⟨_, hi2, ?_⟩
        rw [bind_table D hd sec_imu (plain_lit _ rfl) false _ names_g]
        refine ⟨_, hi3, ?_⟩
        refine (bind_iff _ _ _).mpr ⟨(tsc, y'), (readPose_iff D hd _ (by decide) _).mpr ⟨rfl, htsc⟩, ?_⟩
        refine (bind_iff _ _ _).mpr ⟨_, hcs, ?_⟩
        rw [if_neg ((nonempty_iff hcams).mpr h.some_camera)]
        refine (bind_iff _ _ _).mpr ⟨(b.fiducial, y'), (readPose_iff D hd _ (by decide) _).mpr ⟨rfl, h.fiducial⟩, ?_⟩
        refine (bind_iff _ _ _).mpr ⟨b.visionLoss, (lossIf_iff hnd ho1 ho2 ho3 _).mpr h.vision_loss, ?_⟩
        refine (bind_iff _ _ _).mpr ⟨b.imuLoss, (lossIf_iff hnd hp1 hp2 hp3 _).mpr h.imu_loss, rfl⟩
    obtain ⟨b', hb'⟩ := ex
    have g := fwd b' hb'
    rw [hb']
    obtain ⟨s, t, i, T, dl, c, fid, vl, il⟩ := b
    obtain ⟨s', t', i', T', dl', c', fid', vl', il'⟩ := b'
    have e1 : s' = s := table_unique g.settings h.settings
    subst e1
    have hnd : (s'.map Prod.fst).Nodup := by rw [table_names h.settings]; exact vi_nodup
    have e2 : t' = t := table_unique g.target h.target
    have e3 : c' = c := cameras_unique vicamera_unique g.cameras h.cameras
    have e4 : i' = i := by
      obtain ⟨a1, a2, a3, a4, a5, a6, a7⟩ := g.imu
      obtain ⟨c1, c2, c3, c4, c5, c6, c7⟩ := h.imu
      simp only at a4 c4
      rw [a4, c4, table_unique a5 c5, table_unique a6 c6, table_unique a7 c7]
    have e5 : fid' = fid := pose_unique g.fiducial h.fiducial
    have e6 : T' = T := by
      obtain ⟨o, h1, h2, h3⟩ := g.extrinsics
      obtain ⟨o', g1, g2, g3⟩ := h.extrinsics
      simp only at h2 h3 g2 g3
      have := pose_unique h1 g1
      subst this
      cases o with
      | none => rw [h2 rfl, g2 rfl]
      | some m => rw [h3 m rfl, g3 m rfl]
    have e7 : dl' = dl := by
      obtain ⟨d, h1, h2⟩ := g.delay
      obtain ⟨d', g1, g2⟩ := h.delay
      simp only at h1 h2 g1 g2
      have f1 := (setting_iff hnd _ _).mpr h1
      rw [(setting_iff hnd _ _).mpr g1] at f1
      cases f1
      rw [h2, g2]
    have e8 : vl' = vl := by
      obtain ⟨o1, o2, o3, ho1, ho2, ho3, -⟩ := h.vision_loss
      have a := (lossIf_iff hnd ho1 ho2 ho3 _).mpr g.vision_loss
      have c := (lossIf_iff hnd ho1 ho2 ho3 _).mpr h.vision_loss
      simp only at a c
      rw [a] at c; cases c; rfl
    have e9 : il' = il := by
      obtain ⟨o1, o2, o3, ho1, ho2, ho3, -⟩ := h.imu_loss
      have a := (lossIf_iff hnd ho1 ho2 ho3 _).mpr g.imu_loss
      have c := (lossIf_iff hnd ho1 ho2 ho3 _).mpr h.imu_loss
      simp only at a c
      rw [a] at c; cases c; rfl
    rw [e2, e3, e4, e5, e6, e7, e8, e9]

end Yac.Ctor
