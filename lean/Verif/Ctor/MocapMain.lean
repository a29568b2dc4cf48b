import Verif.Ctor.ViMain

/-! # C121: the theorem for `calib_mocap_t` -/

namespace Yac.Ctor
open Yac.Config

theorem mocapLoss_iff {t : List (Str × Val)} (hn : (t.map Prod.fst).Nodup) {on : Bool} {ty : Str} {x : ℝ}
    (h1 : ("enable_loss_fn".toList, .flag on) ∈ t) (h2 : ("loss_fn_type".toList, .text ty) ∈ t)
    (h3 : ("loss_fn_param".toList, .real x) ∈ t) (o : Option Loss) :
    mocapLoss t = .ok o ↔ LossIs t ["BLAKE-ZISSERMAN", "CAUCHY"] "enable_loss_fn".toList "loss_fn_type".toList "loss_fn_param".toList o := by
  have s1 := (setting_iff hn _ _).mpr h1
  have s2 := (setting_iff hn _ _).mpr h2
  have s3 := (setting_iff hn _ _).mpr h3
  have hdef : mocapLoss t = if on = true then (if ty = "HUBER".toList then .error .fatal else (viLoss ty x >>= fun l => .ok (some l)))
      else .ok none := by
    unfold mocapLoss
    rw [s1, s2, s3]
    cases on with
    | false => rfl
    | true =>
      rw [if_pos rfl]
      unfold viLoss
      simp only
      by_cases b1 : ty = "BLAKE-ZISSERMAN".toList
      · rw [if_pos b1, if_neg (by rw [b1]; decide), if_pos b1]; rfl
      · rw [if_neg b1, if_neg b1]
        by_cases b2 : ty = "CAUCHY".toList
        · rw [if_pos b2, if_neg (by rw [b2]; decide), if_pos b2]; rfl
        · rw [if_neg b2, if_neg b2]
          by_cases b3 : ty = "HUBER".toList
          · rw [if_pos b3]
          · rw [if_neg b3, if_neg b3]; rfl
  have hv := lossIf_iff hn h1 h2 h3 o
  have hdef' : lossIf t "enable_loss_fn".toList "loss_fn_type".toList "loss_fn_param".toList =
      if on = true then (viLoss ty x >>= fun l => .ok (some l)) else .ok none := by
    unfold lossIf
    rw [s1, s2, s3]
    cases on <;> rfl
  have hmem : ∀ {l : List String}, LossIs t l "enable_loss_fn".toList "loss_fn_type".toList "loss_fn_param".toList o ↔
      ((on = false ∧ o = none) ∨ (on = true ∧ (∃ a ∈ l, ty = String.toList a) ∧
      ((ty = "BLAKE-ZISSERMAN".toList → ∃ n : ℤ, o = some (.blakeZisserman n) ∧ ((0 ≤ x ∧ n = ⌊x⌋) ∨ (x < 0 ∧ n = ⌈x⌉))) ∧
       (ty = "CAUCHY".toList → o = some (.cauchy x)) ∧ (ty = "HUBER".toList → o = some (.huber x))))) := by
    intro l
    constructor
    · rintro ⟨on', ty', x', g1, g2, g3, g⟩
      have e1 := (setting_iff hn _ _).mpr g1
      have e2 := (setting_iff hn _ _).mpr g2
      have e3 := (setting_iff hn _ _).mpr g3
      rw [s1] at e1; rw [s2] at e2; rw [s3] at e3
      cases e1; cases e2; cases e3
      exact g
    · exact fun g => ⟨on, ty, x, h1, h2, h3, g⟩
  rw [hmem] at hv ⊢
  rw [hdef'] at hv
  rw [hdef]
  cases on with
  | false =>
    rw [if_neg (by decide)] at hv ⊢
    rw [hv]
    simp
  | true =>
    rw [if_pos rfl] at hv ⊢
    by_cases b3 : ty = "HUBER".toList
    · rw [if_pos b3]
      constructor
      · intro h; cases h
      · rintro (⟨h, -⟩ | ⟨-, ⟨a, ha, h⟩, -⟩)
        · cases h
        · simp only [List.mem_cons, List.not_mem_nil, or_false] at ha
          rw [b3] at h
          rcases ha with rfl | rfl
          · exact absurd h (by decide)
          · exact absurd h (by decide)
    · rw [if_neg b3, hv]
      constructor
      · rintro (⟨h, -⟩ | ⟨h, ⟨a, ha, h'⟩, h''⟩)
        · cases h
        · refine Or.inr ⟨h, ⟨a, ?_, h'⟩, h''⟩
          simp only [List.mem_cons, List.not_mem_nil, or_false] at ha ⊢
          rcases ha with rfl | rfl | rfl
          · exact Or.inl rfl
          · exact Or.inr rfl
          · exact absurd h' b3
      · rintro (⟨h, -⟩ | ⟨h, ⟨a, ha, h'⟩, h''⟩)
        · cases h
        · refine Or.inr ⟨h, ⟨a, ?_, h'⟩, h''⟩
          simp only [List.mem_cons, List.not_mem_nil, or_false] at ha ⊢
          rcases ha with rfl | rfl
          · exact Or.inl rfl
          · exact Or.inr (Or.inl rfl)

theorem mocapSettings_eq : mocapSettings = keys mocapTable := rfl
theorem names_mocap : NamesOk mocapSettings := names_ok _ (by decide)

theorem mocap_nodup : (mocapSettings.map Prod.fst).Nodup := by
  show (["fix_intrinsics".toList, "fix_mocap_poses".toList, "fix_fiducial_pose".toList, "outlier_threshold".toList,
    "info_gain_threshold".toList, "enable_loss_fn".toList, "loss_fn_type".toList, "loss_fn_param".toList,
    "enable_shuffle_views".toList, "show_progress".toList, "max_iter".toList] : List Str).Nodup
  decide

theorem sec_cam0 : IsSection "cam0".toList := Or.inr (Or.inr (Or.inr ⟨0, by decide⟩))

theorem path_cam0 (k : Str) (h : (!k.isEmpty && !k.contains '.') = true) : Path ["cam0".toList, k] :=
  Or.inr ⟨_, _, rfl, sec_cam0, plain_lit _ rfl, plain_lit k h⟩

theorem bind_std {β : Type} (D : Dec) {doc : Y} (hd : Sections doc) (f : (ℤ × List ℤ) × Y → Except Fault β) (b : β) :
    parseStd D.int doc "cam0.resolution".toList false [] >>= f = .ok b ↔
      ∃ v, Gives doc ["cam0".toList, "resolution".toList] (readStd D.int []) v ∧ f ((0, v), doc) = .ok b := by
  have h := bind_must (readStd D.int []) hd (path_cam0 "resolution".toList rfl) "cam0.resolution".toList
    (by rw [dotted_two]; rfl) [] f b
  rw [← h, bind_iff, bind_iff]
  unfold parseStd
  simp only [caught_iff]

theorem bind_params {β : Type} (D : Dec) {doc : Y} (hd : Sections doc) (name : String)
    (hn : (!name.toList.isEmpty && !name.toList.contains '.') = true) (key : Str) (hk : key = "cam0".toList ++ '.' :: name.toList)
    (f : List ℝ × Y → Except Fault β) (b : β) :
    readParams D doc key >>= f = .ok b ↔
      ∃ v, ParamsAre D doc name v ∧ f (v, doc) = .ok b := by
  rw [bind_iff]
  unfold readParams
  have e := fun r => parseWith_iff (readVecX D.real) hd (path_cam0 name.toList hn) key (by rw [hk, dotted_two]) true [] r
  constructor
  · rintro ⟨q, h0, h2⟩
    obtain ⟨⟨⟨c, v⟩, y⟩, h1, h3⟩ := (bind_iff _ _ _).mp h0
    cases h3
    obtain ⟨e1, e2⟩ := (e _).mp h1
    simp only at e1 e2 h2
    subst e1
    rcases e2 with ⟨-, h⟩ | ⟨-, -, h, h'⟩
    · exact ⟨v, Or.inl h, h2⟩
    · exact ⟨v, Or.inr ⟨h, h'⟩, h2⟩
  · rintro ⟨v, h | ⟨h, h'⟩, h2⟩
    · exact ⟨_, (bind_iff _ _ _).mpr ⟨((0, v), doc), (e _).mpr ⟨rfl, Or.inl ⟨rfl, h⟩⟩, rfl⟩, h2⟩
    · exact ⟨_, (bind_iff _ _ _).mpr ⟨((-1, v), doc), (e _).mpr ⟨rfl, Or.inr ⟨rfl, rfl, h, h'⟩⟩, rfl⟩, h2⟩

/-- The configuration part of `calib_mocap_t` succeeds exactly on the files that say what it needs, and holds what the file
says. -/
theorem C121_mocap (D : Dec) (doc : Y) (hd : Sections doc) (b : BuiltMocap) : mocapCtor D doc = .ok b ↔ MocapFile D doc b := by
  unfold mocapCtor
  have b2 := fun {β : Type} (f : (ℤ × Str) × Y → Except Fault β) b => bind_text hd
    (path_cam0 "proj_model".toList rfl) "cam0.proj_model".toList (by rw [dotted_two]; rfl) f b
  have b3 := fun {β : Type} (f : (ℤ × Str) × Y → Except Fault β) b => bind_text hd
    (path_cam0 "dist_model".toList rfl) "cam0.dist_model".toList (by rw [dotted_two]; rfl) f b
  have b4 := fun {β : Type} (f : List ℝ × Y → Except Fault β) b => bind_params D hd "proj_params" rfl "cam0.proj_params".toList rfl f b
  have b5 := fun {β : Type} (f : List ℝ × Y → Except Fault β) b => bind_params D hd "dist_params" rfl "cam0.dist_params".toList rfl f b
  have b6 := fun {β : Type} (f : Bool × Y → Except Fault β) b => bind_has hd (path_cam0 "proj_params".toList rfl)
    "cam0.proj_params".toList (by rw [dotted_two]; rfl) f b
  rw [bind_table D hd sec_settings (plain_lit _ rfl) true _ names_mocap]
  constructor
  · rintro ⟨st, hst, h⟩
    rw [bind_std D hd] at h
    obtain ⟨res, hres, h⟩ := h
    rw [b2] at h
    obtain ⟨pm, hpm, h⟩ := h
    rw [b3] at h
    obtain ⟨dm, hdm, h⟩ := h
    rw [b4] at h
    obtain ⟨k, hk, h⟩ := h
    rw [b5] at h
    obtain ⟨d, hdd, h⟩ := h
    rw [bind_target D hd] at h
    obtain ⟨tg, htg, h⟩ := h
    obtain ⟨loss, hloss, h⟩ := (bind_iff _ _ _).mp h
    by_cases hs : supported pm dm = true
    · rw [if_pos hs, b6] at h
      have hnd : (st.map Prod.fst).Nodup := by rw [table_names hst]; exact mocap_nodup
      obtain ⟨o1, ho1⟩ := vi_flag hst (k := "enable_loss_fn".toList) (b := true) (by simp [mocapSettings])
      obtain ⟨o2, ho2⟩ := vi_text hst (k := "loss_fn_type".toList) (b := "CAUCHY".toList) (by simp [mocapSettings])
      obtain ⟨o3, ho3⟩ := vi_real hst (k := "loss_fn_param".toList) (b := 1) (by simp [mocapSettings])
      have hl := (mocapLoss_iff hnd ho1 ho2 ho3 loss).mp hloss
      have hm := (supported_iff _ _).mp hs
      rcases h with ⟨ha, h⟩ | ⟨ha, h⟩
      · cases h
        exact ⟨hst, htg, hres, hpm, hdm, hm, hk, hdd, ⟨fun _ => ha, fun _ => rfl⟩, hl⟩
      · cases h
        exact ⟨hst, htg, hres, hpm, hdm, hm, hk, hdd, ⟨(fun h => by cases h), fun h => absurd h ha⟩, hl⟩
    · rw [if_neg hs] at h; cases h
  · rintro h
    obtain ⟨st, tg, res, pm, dm, k, d, ca, loss⟩ := b
    refine ⟨st, h.settings, ?_⟩
    rw [bind_std D hd]
    refine ⟨res, h.resolution, ?_⟩
    rw [b2]
    refine ⟨pm, h.proj, ?_⟩
    rw [b3]
    refine ⟨dm, h.dist, ?_⟩
    rw [b4]
    refine ⟨k, h.proj_params, ?_⟩
    rw [b5]
    refine ⟨d, h.dist_params, ?_⟩
    rw [bind_target D hd]
    refine ⟨tg, h.target, ?_⟩
    have hnd : (st.map Prod.fst).Nodup := by rw [table_names h.settings]; exact mocap_nodup
    have hl := h.loss
    obtain ⟨o1, o2, o3, ho1, ho2, ho3, -⟩ := h.loss
    refine (bind_iff _ _ _).mpr ⟨loss, (mocapLoss_iff hnd ho1 ho2 ho3 _).mpr hl, ?_⟩
    rw [if_pos ((supported_iff _ _).mpr h.models), b6]
    have hc := h.calibrate
    simp only at hc
    by_cases ha : Absent doc ["cam0".toList, "proj_params".toList]
    · left
      rw [hc.mpr ha]
      exact ⟨ha, rfl⟩
    · right
      have : ca = false := by
        cases ca with
        | false => rfl
        | true => exact absurd (hc.mp rfl) ha
      rw [this]
      exact ⟨ha, rfl⟩

end Yac.Ctor
