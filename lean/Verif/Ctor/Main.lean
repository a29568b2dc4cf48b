import Verif.Ctor.Props

/-! # C121: the theorem for `calib_camera_t` -/

namespace Yac.Ctor
open Yac.Config

theorem gives_unique {V : Type} {doc : Y} {ks : List Str} {read : Y → Except Fault V} {v w : V} (h : Gives doc ks read v)
    (h' : Gives doc ks read w) : v = w := by
  obtain ⟨n, h1, h2⟩ := h
  obtain ⟨m, h3, h4⟩ := h'
  rw [reach_unique h1 h3, h4] at h2
  cases h2; rfl

theorem gives_not_absent {V : Type} {doc : Y} {ks : List Str} {read : Y → Except Fault V} {v : V} (h : Gives doc ks read v) :
    ¬ Absent doc ks := by
  obtain ⟨n, h1, -⟩ := h
  exact fun hc => hc ⟨n, h1⟩

theorem scalar_unique {V : Type} {doc : Y} {ks : List Str} {dec : Str → Option V} {v w : V} (h : GivesScalar doc ks dec v)
    (h' : GivesScalar doc ks dec w) : v = w := by
  rw [← gives_asT] at h h'
  exact gives_unique h h'

theorem scalar_not_absent {V : Type} {doc : Y} {ks : List Str} {dec : Str → Option V} {v : V} (h : GivesScalar doc ks dec v) :
    ¬ Absent doc ks := by
  rw [← gives_asT] at h
  exact gives_not_absent h

theorem table_unique {D : Dec} {doc : Y} {sec : Str} {o : Bool} {t v w : List (Str × Val)} (h : TableIs D doc sec o t v)
    (h' : TableIs D doc sec o t w) : v = w := by
  unfold TableIs at h h'
  induction h generalizing w with
  | nil => cases h'; rfl
  | @cons d v t vs hd _ ih =>
    cases h' with
    | @cons _ w _ ws hd' ht' =>
      rw [ih ht']
      congr 1
      obtain ⟨e1, e2⟩ := hd
      obtain ⟨f1, f2⟩ := hd'
      refine Prod.ext (by rw [e1, f1]) ?_
      rcases e2 with e2 | ⟨-, e2, e3⟩ <;> rcases f2 with f2 | ⟨-, f2, f3⟩
      · exact scalar_unique e2 f2
      · exact absurd f2 (scalar_not_absent e2)
      · exact absurd e2 (scalar_not_absent f2)
      · rw [e3, f3]

theorem cameras_unique {doc : Y} {is : ℕ → Camera → Prop} (hu : ∀ n c c', is n c → is n c' → c = c') {a b : List (ℤ × Camera)}
    (ha : CamerasAre doc is a) (hb : CamerasAre doc is b) : a = b := by
  refine SMap.sorted_ext ha.1 hb.1 (fun i => ?_)
  by_cases hi : ∀ n : ℕ, n < 100 → i ≠ n
  · rw [ha.2.2 i hi, hb.2.2 i hi]
  · push Not at hi
    obtain ⟨n, hn, rfl⟩ := hi
    rcases ha.2.1 n hn with ⟨h1, h2⟩ | ⟨h1, c, h2, h3⟩ <;> rcases hb.2.1 n hn with ⟨g1, g2⟩ | ⟨g1, c', g2, g3⟩
    · rw [h2, g2]
    · exact absurd h1 g1
    · exact absurd g1 h1
    · rw [h2, g2, hu n c c' h3 g3]

theorem model_unique {D : Dec} {doc : Y} {n : ℕ} {c c' : Camera} (h : ModelIs D doc n c) (h' : ModelIs D doc n c') :
    c.res = c'.res ∧ c.proj = c'.proj ∧ c.dist = c'.dist :=
  ⟨gives_unique h.1 h'.1, scalar_unique h.2.1 h'.2.1, scalar_unique h.2.2.1 h'.2.2.1⟩

theorem camera_unique {D : Dec} {doc : Y} (n : ℕ) (c c' : Camera) (h : CameraIs D doc n c) (h' : CameraIs D doc n c') : c = c' := by
  obtain ⟨h1, h2, h3, h4, h5⟩ := h
  obtain ⟨g1, g2, g3, g4, g5⟩ := h'
  obtain ⟨e1, e2, e3⟩ := model_unique h1 g1
  obtain ⟨res, proj, dist, k, d, ext, fx, fe⟩ := c
  obtain ⟨res', proj', dist', k', d', ext', fx', fe'⟩ := c'
  simp only at *
  subst e1 e2 e3 h4 g4
  have e4 : fe = fe' := by
    rw [Bool.eq_iff_iff, h5, g5]
  have e5 : ext = ext' := by
    rcases h3 with h3 | ⟨h3, h3'⟩ <;> rcases g3 with g3 | ⟨g3, g3'⟩
    · exact gives_unique h3 g3
    · exact absurd g3 (gives_not_absent h3)
    · exact absurd h3 (gives_not_absent g3)
    · rw [h3', g3']
  have e6 : k = k' ∧ d = d' := by
    rcases h2 with ⟨a1, a2⟩ | ⟨a1, a2, w, h, f, a3, a4, a5, a6⟩ <;> rcases g2 with ⟨b1, b2⟩ | ⟨b1, b2, w', h', f', b3, b4, b5, b6⟩
    · exact ⟨gives_unique a1 b1, gives_unique a2 b2⟩
    · exact absurd b1 (gives_not_absent a1)
    · exact absurd a1 (gives_not_absent b1)
    · rw [a6, b6, a5, b5, a4, b4, a3, b3, a2, b2]; exact ⟨rfl, rfl⟩
  rw [e4, e5, e6.1, e6.2]

theorem nonempty_iff {doc : Y} {is : ℕ → Camera → Prop} {cams : List (ℤ × Camera)} (h : CamerasAre doc is cams) :
    cams.length ≠ 0 ↔ ∃ n < 100, ¬ Absent doc [camName n] := by
  constructor
  · intro hl
    by_contra hc
    push Not at hc
    apply hl
    have : cams = [] := SMap.sorted_ext h.1 (by simp [SMap.Sorted]) (fun i => by
      by_cases hi : ∀ n : ℕ, n < 100 → i ≠ n
      · rw [h.2.2 i hi]; rfl
      · push Not at hi
        obtain ⟨n, hn, rfl⟩ := hi
        rcases h.2.1 n hn with ⟨-, h2⟩ | ⟨h1, -⟩
        · rw [h2]; rfl
        · exact absurd (hc n hn) h1)
    rw [this]; rfl
  · rintro ⟨n, hn, ha⟩ hl
    rcases h.2.1 n hn with ⟨h1, -⟩ | ⟨-, c, h2, -⟩
    · exact ha h1
    · rw [List.length_eq_zero_iff.mp hl] at h2
      cases h2

theorem mem_keys {i : ℤ} {cams : List (ℤ × Camera)} : i ∈ cams.map Prod.fst ↔ ∃ c, SMap.find i cams = some c := by
  rw [← SMap.find_isSome, Option.isSome_iff_exists]

theorem keys_nodup {cams : List (ℤ × Camera)} (h : SMap.Sorted cams) : (cams.map Prod.fst).Nodup :=
  (List.pairwise_map.mpr (h.imp (fun hab => ne_of_lt hab)))

theorem sec_settings : IsSection "settings".toList := Or.inl rfl
theorem sec_target : IsSection "calib_target".toList := Or.inr (Or.inl rfl)
theorem sec_imu : IsSection "imu0".toList := Or.inr (Or.inr (Or.inl rfl))

theorem cameraSettings_eq : cameraSettings = keys cameraTable := rfl
theorem targetFields_eq : targetFields = keys targetTable := rfl
theorem imuFields_eq : imuFields = keys imuTable := rfl

theorem names_camera : NamesOk cameraSettings := names_ok _ (by decide)
theorem names_target : NamesOk targetFields := names_ok _ (by decide)
theorem names_imu : NamesOk imuFields := names_ok _ (by decide)

theorem bind_target {β : Type} (D : Dec) {doc : Y} (hd : Sections doc) (f : List (Str × Val) → Except Fault β) (b : β) :
    loadTarget D doc "calib_target".toList >>= f = .ok b ↔
      ∃ vals, TableIs D doc "calib_target".toList false (keys targetTable) vals ∧ f vals = .ok b := by
  have e := fun v => readTable_iff D hd sec_target (plain_lit _ rfl) false targetFields names_target v
  unfold loadTarget
  rw [bind_iff]
  constructor
  · rintro ⟨v, h1, h2⟩
    obtain ⟨r, h3, h4⟩ := (bind_iff _ _ _).mp h1
    cases h4
    exact ⟨_, ((e r).mp h3).2, h2⟩
  · rintro ⟨v, h1, h2⟩
    exact ⟨v, (bind_iff _ _ _).mpr ⟨(v, doc), (e _).mpr ⟨rfl, h1⟩, rfl⟩, h2⟩

theorem readImu_iff (D : Dec) {doc : Y} (hd : Sections doc) (r : Option (List (Str × Val)) × Y) :
    readImu D doc doc = .ok r ↔ r.2 = doc ∧ ((r.1 = none ∧ Absent doc ["imu0".toList]) ∨
      (¬ Absent doc ["imu0".toList] ∧ ∃ v, r.1 = some v ∧ TableIs D doc "imu0".toList true (keys imuTable) v)) := by
  obtain ⟨o, y⟩ := r
  unfold readImu
  rw [bind_has hd (path_one _ rfl) _ (dotted_one _).symm, if_pos rfl, if_neg (show ¬ (false = true) by decide),
    bind_table D hd sec_imu (plain_lit _ rfl) true imuFields names_imu]
  constructor
  · rintro (⟨ha, hr⟩ | ⟨ha, v, hv, hr⟩)
    · cases hr; exact ⟨rfl, Or.inl ⟨rfl, ha⟩⟩
    · cases hr; exact ⟨rfl, Or.inr ⟨ha, v, rfl, hv⟩⟩
  · rintro ⟨rfl, ⟨h, ha⟩ | ⟨ha, v, h, hv⟩⟩
    · simp only at h; subst h; exact Or.inl ⟨ha, rfl⟩
    · simp only at h; subst h; exact Or.inr ⟨ha, v, hv, rfl⟩

theorem readDataPath_iff {doc : Y} (hd : Sections doc) (y : Y) :
    readDataPath doc = .ok y ↔ y = doc ∧ (Absent doc ["settings".toList, "data_path".toList] ∨
      ∃ s, GivesScalar doc ["settings".toList, "data_path".toList] some s) := by
  have hp : Path ["settings".toList, "data_path".toList] :=
    Or.inr ⟨_, _, rfl, sec_settings, plain_lit _ rfl, plain_lit _ rfl⟩
  have hk : "settings.data_path".toList = dotted ["settings".toList, "data_path".toList] := by rw [dotted_two]; rfl
  unfold readDataPath
  rw [bind_has hd hp _ hk, if_pos rfl, if_neg (show ¬ (false = true) by decide), bind_text hd hp _ hk]
  constructor
  · rintro (⟨ha, hr⟩ | ⟨ha, v, hv, hr⟩)
    · cases hr; exact ⟨rfl, Or.inl ha⟩
    · cases hr; exact ⟨rfl, Or.inr ⟨v, hv⟩⟩
  · rintro ⟨rfl, ha | ⟨v, hv⟩⟩
    · exact Or.inl ⟨ha, rfl⟩
    · exact Or.inr ⟨scalar_not_absent hv, v, hv, rfl⟩

/-- The two loops over the cameras, calib_camera.cpp:604-644. -/
theorem cams_iff (D : Dec) {doc : Y} (hd : Sections doc) :
    (∀ cs r, (List.range 100).foldlM (readCamera D) ([], doc) = .ok cs →
      (cs.1.map Prod.fst).foldlM (readExt D) cs = .ok r → cs.2 = doc ∧ r.2 = doc ∧ CamerasAre doc (CameraIs D doc) r.1 ∧
        (cs.1.length = 0 ↔ r.1.length = 0)) ∧
    ((∃ cams, CamerasAre doc (CameraIs D doc) cams) → ∃ cs r, (List.range 100).foldlM (readCamera D) ([], doc) = .ok cs ∧
      (cs.1.map Prod.fst).foldlM (readExt D) cs = .ok r) := by
  have hl := loop_iff (readCamera_iff D hd) 100
  have key : ∀ cs, (List.range 100).foldlM (readCamera D) ([], doc) = .ok cs → cs.2 = doc ∧ Upto doc (CameraBase D doc) 100 cs.1 ∧
      (cs.1.map Prod.fst).Nodup ∧ ∀ i ∈ cs.1.map Prod.fst, ∃ n : ℕ, n < 100 ∧ i = n ∧ ∃ c, SMap.find i cs.1 = some c ∧ CameraBase D doc n c := by
    intro cs h
    obtain ⟨e1, e2⟩ := hl.1 cs h
    refine ⟨e1, e2, keys_nodup e2.1, fun i hi => ?_⟩
    obtain ⟨c, hc⟩ := mem_keys.mp hi
    by_cases hn : ∀ n : ℕ, n < 100 → i ≠ n
    · rw [e2.2.2 i hn] at hc; cases hc
    · push Not at hn
      obtain ⟨n, hn, rfl⟩ := hn
      rcases e2.2.1 n hn with ⟨-, h2⟩ | ⟨-, c', h2, h3⟩
      · rw [h2] at hc; cases hc
      · exact ⟨n, hn, rfl, c', h2, h3⟩
  constructor
  · rintro ⟨cs, y⟩ r h1 h2
    obtain ⟨e1, e2, e3, e4⟩ := key _ h1
    simp only at e1 e2 e3 e4 h2
    subst e1
    have hx := exts_ok D hd _ e3 cs e2.1 (fun i hi => by
      obtain ⟨n, -, -, c, hc, hb⟩ := e4 i hi
      exact ⟨c, hc, hb.2.2.1⟩)
    obtain ⟨f1, f2, f3, f4⟩ := hx.1 r h2
    have none_of : ∀ i, SMap.find i cs = none → SMap.find i r.1 = none := fun i hi => by
      rw [f3 i (fun hm => by
        obtain ⟨n, -, -, c, hc, -⟩ := e4 i hm
        rw [hi] at hc; cases hc), hi]
    have hcam : CamerasAre y (CameraIs D y) r.1 := by
      refine ⟨f2, fun n hn => ?_, fun i hi => none_of i (e2.2.2 i hi)⟩
      rcases e2.2.1 n hn with ⟨a1, a2⟩ | ⟨a1, c, a2, a3⟩
      · exact Or.inl ⟨a1, none_of _ a2⟩
      · obtain ⟨e, he, hx⟩ := f4 (n : ℤ) (mem_keys.mpr ⟨c, a2⟩) c a2
        refine Or.inr ⟨a1, _, he, ⟨a3.1.1, a3.1.2.1, a3.1.2.2.1, a3.1.2.2.2⟩, a3.2.1, ?_, a3.2.2.2.1, ?_⟩
        · rw [Int.toNat_natCast] at hx; exact hx
        · show c.fixedExt = true ↔ _
          rw [a3.2.2.2.2, decide_eq_true_eq]
    refine ⟨rfl, f1, hcam, ?_⟩
    have hbase : CamerasAre y (CameraBase D y) cs := e2
    have := (nonempty_iff hbase).trans (nonempty_iff hcam).symm
    simp only [ne_eq] at this
    exact not_iff_not.mp this
  · rintro ⟨cams, hc⟩
    obtain ⟨⟨cs, y⟩, h1⟩ := hl.2 (fun n hn ha => by
      rcases hc.2.1 n hn with ⟨h, -⟩ | ⟨-, c, -, h⟩
      · exact absurd h ha
      · exact ⟨{ c with ext := identity4, fixedExt := decide (n = 0) }, h.1, h.2.1, rfl, h.2.2.2.1, rfl⟩)
    obtain ⟨e1, e2, e3, e4⟩ := key _ h1
    simp only at e1 e2 e3 e4
    subst e1
    have hx := exts_ok D hd _ e3 cs e2.1 (fun i hi => by
      obtain ⟨n, -, -, c, hc, hb⟩ := e4 i hi
      exact ⟨c, hc, hb.2.2.1⟩)
    obtain ⟨r, hr⟩ := hx.2 (fun i hi => by
      obtain ⟨n, hn, rfl, c, hf, hb⟩ := e4 i hi
      rw [Int.toNat_natCast]
      rcases e2.2.1 n hn with ⟨-, h2⟩ | ⟨h1, -⟩
      · rw [h2] at hf; cases hf
      · rcases hc.2.1 n hn with ⟨h, -⟩ | ⟨-, c', -, h⟩
        · exact absurd h h1
        · exact ⟨_, h.2.2.1⟩)
    exact ⟨_, r, h1, hr⟩

/-- `calib_camera_t(config_path)` succeeds exactly on the configuration files that say what a calibrator needs, and it
then holds what the file says. -/
theorem C121_camera (D : Dec) (doc : Y) (hd : Sections doc) (b : Built) : cameraCtor D doc = .ok b ↔ CameraFile D doc b := by
  have fwd : ∀ b, cameraCtor D doc = .ok b → CameraFile D doc b := by
    intro b h
    unfold cameraCtor at h
    rw [bind_table D hd sec_settings (plain_lit _ rfl) true _ names_camera] at h
    obtain ⟨st, hst, h⟩ := h
    rw [bind_target D hd] at h
    obtain ⟨tg, htg, h⟩ := h
    obtain ⟨⟨cs, y⟩, hcs, h⟩ := (bind_iff _ _ _).mp h
    have hl := loop_iff (readCamera_iff D hd) 100
    obtain ⟨hy, hbase⟩ := hl.1 _ hcs
    simp only at hy
    subst hy
    by_cases h0 : cs.length = 0
    · rw [if_pos h0] at h; cases h
    rw [if_neg h0] at h
    obtain ⟨⟨es, y'⟩, hes, h⟩ := (bind_iff _ _ _).mp h
    obtain ⟨-, hy', hcams, hlen⟩ := (cams_iff D hd).1 _ _ hcs hes
    simp only at hy' hcams hlen
    subst hy'
    obtain ⟨⟨im, y''⟩, him, h⟩ := (bind_iff _ _ _).mp h
    obtain ⟨hy'', him⟩ := (readImu_iff D hd _).mp him
    simp only at hy'' him
    subst hy''
    obtain ⟨yy, hdp, h⟩ := (bind_iff _ _ _).mp h
    obtain ⟨-, hdp⟩ := (readDataPath_iff hd _).mp hdp
    cases h
    exact ⟨hst, htg, hcams, (nonempty_iff hcams).mp (fun hc => h0 (hlen.mpr hc)), him, hdp⟩
  constructor
  · exact fwd b
  · intro h
    have : ∃ b', cameraCtor D doc = .ok b' := by
      obtain ⟨cs, r, hcs, hr⟩ := (cams_iff D hd).2 ⟨_, h.cameras⟩
      obtain ⟨c1, c2, c3, c4⟩ := (cams_iff D hd).1 _ _ hcs hr
      refine ⟨⟨b.settings, b.target, r.1, b.imu⟩, ?_⟩
      unfold cameraCtor
      rw [bind_table D hd sec_settings (plain_lit _ rfl) true _ names_camera]
      refine ⟨_, h.settings, ?_⟩
      rw [bind_target D hd]
      refine ⟨_, h.target, (bind_iff _ _ _).mpr ⟨cs, hcs, ?_⟩⟩
      rw [if_neg (fun hc => (nonempty_iff c3).mpr h.some_camera (c4.mp hc))]
      refine (bind_iff _ _ _).mpr ⟨r, hr, ?_⟩
      rw [c2]
      refine (bind_iff _ _ _).mpr ⟨(b.imu, doc), (readImu_iff D hd _).mpr ⟨rfl, h.imu⟩, ?_⟩
      exact (bind_iff _ _ _).mpr ⟨doc, (readDataPath_iff hd _).mpr ⟨rfl, h.data_path⟩, rfl⟩
    obtain ⟨b', hb'⟩ := this
    have g := fwd b' hb'
    rw [hb']
    obtain ⟨s, t, c, i⟩ := b
    obtain ⟨s', t', c', i'⟩ := b'
    have e1 : s' = s := table_unique g.settings h.settings
    have e2 : t' = t := table_unique g.target h.target
    have e3 : c' = c := cameras_unique camera_unique g.cameras h.cameras
    have e4 : i' = i := by
      rcases g.imu with ⟨h1, h2⟩ | ⟨h1, v, h2, h3⟩ <;> rcases h.imu with ⟨g1, g2⟩ | ⟨g1, w, g2, g3⟩
      · simp only at h1 g1; rw [h1, g1]
      · exact absurd h2 g1
      · exact absurd g2 h1
      · simp only at h2 g2
        rw [h2, g2, table_unique h3 g3]
    rw [e1, e2, e3, e4]

end Yac.Ctor
