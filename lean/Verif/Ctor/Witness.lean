import Verif.Ctor.MocapMain

/-! # C121: consequences, surprises and concrete files -/

namespace Yac.Ctor
open Yac.Config

/-! ### Consequences that hold for every file -/

/-- A section `cam100` (or above) is not read. -/
theorem C121_ignored (D : Dec) (doc : Y) (hd : Sections doc) (b : Built) (h : cameraCtor D doc = .ok b) (n : ℕ) (hn : 100 ≤ n) :
    SMap.find (n : ℤ) b.cams = none :=
  ((C121_camera D doc hd b).mp h).cameras.2.2 n (fun m hm => by omega)

/-- `T_cam0_cam0`, if it is given, becomes the (fixed) pose of camera 0 of `calib_camera_t`. -/
theorem C121_origin (D : Dec) (doc : Y) (hd : Sections doc) (b : Built) (h : cameraCtor D doc = .ok b) (c : Camera)
    (hc : SMap.find 0 b.cams = some c) (e : List (List ℝ)) (he : Gives doc ["T_cam0_cam0".toList] (readMat D.int D.real 4) e) :
    c.ext = e ∧ c.fixedExt = true := by
  rcases ((C121_camera D doc hd b).mp h).cameras.2.1 0 (by omega) with ⟨-, h2⟩ | ⟨-, c', h2, h3⟩
  · have : SMap.find (0 : ℤ) b.cams = none := h2
    rw [hc] at this; cases this
  · have h2 : SMap.find (0 : ℤ) b.cams = some c' := h2
    rw [hc] at h2
    cases h2
    refine ⟨?_, h3.2.2.2.2.mpr rfl⟩
    have hn : extName 0 = "T_cam0_cam0".toList := by decide
    rcases h3.2.2.1 with h | ⟨h, -⟩
    · rw [hn] at h; exact gives_unique h he
    · rw [hn] at h; exact absurd h (gives_not_absent he)

/-- ... and is not read by `calib_vi_t`. -/
theorem C121_vi_origin (D : Dec) (doc : Y) (hd : Sections doc) (b : BuiltVi) (h : viCtor D doc = .ok b) (c : Camera)
    (hc : SMap.find 0 b.cams = some c) : c.ext = identity4 := by
  rcases ((C121_vi D doc hd b).mp h).cameras.2.1 0 (by omega) with ⟨-, h2⟩ | ⟨-, c', h2, h3⟩
  · have : SMap.find (0 : ℤ) b.cams = none := h2
    rw [hc] at this; cases this
  · have h2 : SMap.find (0 : ℤ) b.cams = some c' := h2
    rw [hc] at h2
    cases h2
    exact h3.2.2.2.2.1 rfl

/-- `calib_mocap_t` does not know the Huber loss: with the default settings but `loss_fn_type: HUBER` there is no calibrator. -/
theorem C121_huber (D : Dec) (doc : Y) (hd : Sections doc)
    (h1 : Absent doc ["settings".toList, "enable_loss_fn".toList])
    (h2 : GivesScalar doc ["settings".toList, "loss_fn_type".toList] some "HUBER".toList) (b : BuiltMocap) :
    mocapCtor D doc ≠ .ok b := by
  intro h
  have g := (C121_mocap D doc hd b).mp h
  have hst := g.settings
  have hnd : (b.settings.map Prod.fst).Nodup := by rw [table_names hst]; exact mocap_nodup
  obtain ⟨on, ty, x, e1, e2, e3, e⟩ := g.loss
  -- what the table says of the two settings
  have key : ∀ {t v : List (Str × Val)} {k : Str} {d w : Val}, TableIs D doc "settings".toList true t v → (t.map Prod.fst).Nodup →
      (k, d) ∈ t → (k, w) ∈ v → (GivesScalar doc ["settings".toList, k] (D.like d) w ∨ Absent doc ["settings".toList, k] ∧ w = d) := by
    intro t v k d w ht hn hk hw
    unfold TableIs at ht
    induction ht with
    | nil => cases hk
    | @cons e f t vs hd ht ih =>
      obtain ⟨ek, ed⟩ := e
      obtain ⟨fk, fd⟩ := f
      simp only at hd
      obtain ⟨rfl, hd⟩ := hd
      rw [List.map_cons, List.nodup_cons] at hn
      have hnames : vs.map Prod.fst = t.map Prod.fst := table_names ht
      rcases List.mem_cons.mp hk with h | hk'
      · cases h
        rcases List.mem_cons.mp hw with h | hw
        · cases h
          rcases hd with hd | ⟨-, hd⟩
          · exact Or.inl hd
          · exact Or.inr hd
        · exact absurd (List.mem_map.mpr ⟨_, hw, rfl⟩) (by rw [hnames]; exact hn.1)
      · rcases List.mem_cons.mp hw with h | hw
        · cases h
          exact absurd (List.mem_map_of_mem (f := Prod.fst) hk') hn.1
        · exact ih hn.2 hk' hw
  have k1 := key hst mocap_nodup (k := "enable_loss_fn".toList) (d := .flag true) (by simp [keys, mocapTable]) e1
  have k2 := key hst mocap_nodup (k := "loss_fn_type".toList) (d := .text "CAUCHY".toList) (by simp [keys, mocapTable]) e2
  have hon : on = true := by
    rcases k1 with k1 | ⟨-, k1⟩
    · exact absurd h1 (scalar_not_absent k1)
    · cases k1; rfl
  have hty : ty = "HUBER".toList := by
    rcases k2 with ⟨s, hs, k2⟩ | ⟨k2, -⟩
    · obtain ⟨s', hs', k3⟩ := h2
      have := reach_unique hs hs'
      cases this
      cases k3
      injection k2 with k2
      injection k2 with k2
      exact k2.symm
    · exact absurd k2 (scalar_not_absent h2)
  rcases e with ⟨e, -⟩ | ⟨-, ⟨a, ha, e⟩, -⟩
  · rw [hon] at e; cases e
  · rw [hty] at e
    simp only [List.mem_cons, List.not_mem_nil, or_false] at ha
    rcases ha with rfl | rfl
    · exact absurd e (by decide)
    · exact absurd e (by decide)

/-! ### Concrete files -/

/-- A conversion of scalars: one digit. -/
noncomputable def exDec : Dec := ⟨fun s => if s = "true".toList then some true else if s = "false".toList then some false else none,
  digitI, fun s => (digitI s).map (fun i => (i : ℝ))⟩

def sc (s : String) : Y := .scalar s.toList

def exTarget : Y := .map [("target_type".toList, sc "aprilgrid"), ("tag_rows".toList, sc "6"), ("tag_cols".toList, sc "6"),
  ("tag_size".toList, sc "1"), ("tag_spacing".toList, sc "0")]

def exCam : Y := .map [("resolution".toList, .seq [sc "8", sc "6"]), ("proj_model".toList, sc "pinhole"), ("dist_model".toList, sc "radtan4")]

/-- The parameters are too short: one of four. -/
def exCamParams : Y := .map [("resolution".toList, .seq [sc "8", sc "6"]), ("proj_model".toList, sc "pinhole"), ("dist_model".toList, sc "equi4"),
  ("proj_params".toList, .seq [sc "5"]), ("dist_params".toList, .seq [])]

def exPose : Y := matNode "4".toList "4".toList ([0, 1, 0, 0, 1, 0, 0, 0, 0, 0, 1, 0, 0, 0, 0, 1].map (fun i => if i = 0 then sc "0" else sc "1"))

/-- Camera 0 with defaults, camera 1 with parameters, a pose for each, and a camera 100. -/
def exDoc : Y := .map [("settings".toList, .map [("enable_nbv".toList, sc "true"), ("min_nbv_views".toList, sc "7")]), ("calib_target".toList, exTarget),
  ("cam0".toList, exCam), ("cam1".toList, exCamParams), ("cam100".toList, exCam), ("T_cam0_cam0".toList, exPose), ("T_cam0_cam1".toList, exPose)]

theorem exDoc_sections : Sections exDoc := by
  refine ⟨_, rfl, fun s y hs hf => ?_⟩
  obtain ⟨a, b, h, -⟩ := hf
  have hm : (s, y) ∈ [("settings".toList, Y.map [("enable_nbv".toList, sc "true"), ("min_nbv_views".toList, sc "7")]), ("calib_target".toList, exTarget),
      ("cam0".toList, exCam), ("cam1".toList, exCamParams), ("cam100".toList, exCam), ("T_cam0_cam0".toList, exPose), ("T_cam0_cam1".toList, exPose)] := by
    rw [h]; simp
  simp only [List.mem_cons, List.not_mem_nil, or_false, Prod.mk.injEq] at hm
  rcases hm with ⟨-, rfl⟩ | ⟨-, rfl⟩ | ⟨-, rfl⟩ | ⟨-, rfl⟩ | ⟨-, rfl⟩ | ⟨-, rfl⟩ | ⟨-, rfl⟩
  all_goals exact ⟨_, rfl⟩

/-- Whether there is a result. -/
def built {α : Type} : Except Fault α → Bool
  | .ok _ => true
  | .error _ => false

theorem built_iff {α : Type} (x : Except Fault α) : built x = true ↔ ∃ a, x = .ok a := by
  cases x with
  | error e => simp [built]
  | ok a => simp [built]

theorem exDoc_built : ∃ b, cameraCtor exDec exDoc = .ok b := (built_iff _).mp (by decide +kernel)

/-- C121 witness: the file meets the hypotheses, and the theorem says what is built. -/
example : ∃ b, CameraFile exDec exDoc b := by
  obtain ⟨b, hb⟩ := exDoc_built
  exact ⟨b, (C121_camera _ _ exDoc_sections b).mp hb⟩


/-- The node found by descending. -/
theorem reach_of {y n : Y} {ks : List Str} (h : descend ks y = .ok (some n, y)) (hd : Sections y) (hp : Path ks) : Reach y ks n := by
  by_cases ha : ∃ n', Reach y ks n'
  · obtain ⟨n', hn'⟩ := ha
    rw [descend_reach hn'] at h
    cases h; exact hn'
  · rw [descend_absent hd hp ha] at h
    cases h

theorem not_absent_one {m : List (Str × Y)} {k : Str} {y : Y} (h : lookup m k = some y) : ¬ Absent (.map m) [k] := by
  intro hc
  rcases first_or m k with ⟨c, hf⟩ | hn
  · exact hc ⟨c, reach_one.mpr hf⟩
  · rw [lookup_missing hn] at h; cases h

theorem first_of_lookup {m : List (Str × Y)} {k : Str} {y : Y} (h : lookup m k = some y) : First m k y := by
  rcases first_or m k with ⟨c, hf⟩ | hn
  · rw [lookup_first hf] at h
    cases h; exact hf
  · rw [lookup_missing hn] at h; cases h

theorem give_two {V : Type} {m m' : List (Str × Y)} {s k : Str} {n : Y} {read : Y → Except Fault V} {v : V}
    (h1 : lookup m s = some (.map m')) (h2 : lookup m' k = some n) (h3 : read n = .ok v) : Gives (.map m) [s, k] read v :=
  ⟨n, .step (first_of_lookup h1) (reach_one.mpr (first_of_lookup h2)), h3⟩

theorem give_one {V : Type} {m : List (Str × Y)} {k : Str} {n : Y} {read : Y → Except Fault V} {v : V}
    (h2 : lookup m k = some n) (h3 : read n = .ok v) : Gives (.map m) [k] read v :=
  ⟨n, reach_one.mpr (first_of_lookup h2), h3⟩

/-- Not every camera section of a file that is accepted becomes a camera. -/
theorem C121_every_camera_refuted : ¬ ∀ (D : Dec) (doc : Y) (b : Built) (n : ℕ), Sections doc → cameraCtor D doc = .ok b →
    ¬ Absent doc [camName n] → SMap.find (n : ℤ) b.cams ≠ none := by
  intro h
  obtain ⟨b, hb⟩ := exDoc_built
  have hn : camName 100 = "cam100".toList := by decide
  exact h exDec exDoc b 100 exDoc_sections hb (by rw [hn]; exact not_absent_one rfl) (C121_ignored _ _ exDoc_sections b hb 100 (by omega))

theorem exCam0 {b : Built} (hb : cameraCtor exDec exDoc = .ok b) (n : ℕ) (hn : n < 100) {y : Y}
    (h : Gives exDoc [camName n] .ok y) : ∃ c, SMap.find (n : ℤ) b.cams = some c ∧ CameraIs exDec exDoc n c := by
  rcases ((C121_camera _ _ exDoc_sections b).mp hb).cameras.2.1 n hn with ⟨h1, -⟩ | ⟨-, c, h1, h2⟩
  · exact absurd h1 (gives_not_absent h)
  · exact ⟨c, h1, h2⟩

/-- The pose of camera 0, whose frame is the frame of the rig, is not always the identity. -/
theorem C121_identity_refuted : ¬ ∀ (D : Dec) (doc : Y) (b : Built) (c : Camera), Sections doc → cameraCtor D doc = .ok b →
    SMap.find 0 b.cams = some c → c.ext = identity4 := by
  intro h
  obtain ⟨b, hb⟩ := exDoc_built
  obtain ⟨c, hc, -⟩ := exCam0 hb 0 (by omega) (y := exCam) (by rw [show camName 0 = "cam0".toList by decide]; exact give_one rfl rfl)
  have he : Gives exDoc ["T_cam0_cam0".toList] (readMat exDec.int exDec.real 4) [[((0 : ℤ) : ℝ), ((1 : ℤ) : ℝ), ((0 : ℤ) : ℝ), ((0 : ℤ) : ℝ)],
      [((1 : ℤ) : ℝ), ((0 : ℤ) : ℝ), ((0 : ℤ) : ℝ), ((0 : ℤ) : ℝ)], [((0 : ℤ) : ℝ), ((0 : ℤ) : ℝ), ((1 : ℤ) : ℝ), ((0 : ℤ) : ℝ)],
      [((0 : ℤ) : ℝ), ((0 : ℤ) : ℝ), ((0 : ℤ) : ℝ), ((1 : ℤ) : ℝ)]] :=
    give_one (n := exPose) rfl rfl
  have h1 := (C121_origin _ _ exDoc_sections b hb c hc _ he).1
  have h2 := h exDec exDoc b c exDoc_sections hb hc
  rw [h1] at h2
  unfold identity4 at h2
  have h3 := (List.cons.inj h2).1
  have h4 := (List.cons.inj h3).1
  norm_num at h4

/-- The number of parameters of a camera is not checked. -/
theorem C121_lengths_refuted : ¬ ∀ (D : Dec) (doc : Y) (b : Built) (i : ℤ) (c : Camera), Sections doc → cameraCtor D doc = .ok b →
    SMap.find i b.cams = some c → c.k.length = 4 ∧ c.d.length = 4 := by
  intro h
  obtain ⟨b, hb⟩ := exDoc_built
  have hn : camName 1 = "cam1".toList := by decide
  obtain ⟨c, hc, hcam⟩ := exCam0 hb 1 (by omega) (y := exCamParams) (by rw [hn]; exact give_one rfl rfl)
  have hk : Gives exDoc [camName 1, "proj_params".toList] (readVecX exDec.real) [((5 : ℤ) : ℝ)] := by
    rw [hn]; exact give_two (n := .seq [sc "5"]) rfl rfl rfl
  have := (h exDec exDoc b _ c exDoc_sections hb hc).1
  rcases hcam.2.1 with ⟨g, -⟩ | ⟨g, -⟩
  · rw [gives_unique g hk] at this
    exact absurd this (by decide)
  · exact absurd g (gives_not_absent hk)

/-- A section that is not a map ends the program, although all of its settings are optional. -/
theorem C121_scalar_section : cameraCtor exDec (.map [("settings".toList, sc "x"), ("calib_target".toList, exTarget), ("cam0".toList, exCam)]) =
    .error .fatal := by
  rfl

/-! ### `calib_vi_t` and `calib_mocap_t` -/

def exCamFull : Y := .map [("resolution".toList, .seq [sc "8", sc "6"]), ("proj_model".toList, sc "pinhole"), ("dist_model".toList, sc "equi4"),
  ("proj_params".toList, .seq [sc "5", sc "5", sc "4", sc "3"]), ("dist_params".toList, .seq [sc "0", sc "0", sc "0", sc "0"])]

def exImu : Y := .map [("rate".toList, sc "2"), ("sigma_g_c".toList, sc "1"), ("sigma_a_c".toList, sc "1"), ("sigma_gw_c".toList, sc "1"),
  ("sigma_aw_c".toList, sc "1"), ("g".toList, sc "9")]

def exVi : Y := .map [("settings".toList, .map [("enable_imu_loss_fn".toList, sc "true"), ("estimate_time_delay".toList, sc "false")]),
  ("calib_target".toList, exTarget), ("imu0".toList, exImu), ("cam0".toList, exCamFull), ("cam1".toList, exCamFull),
  ("T_cam0_cam1".toList, exPose), ("T_imu0_cam0".toList, exPose)]

theorem exVi_sections : Sections exVi := by
  refine ⟨_, rfl, fun s y hs hf => ?_⟩
  obtain ⟨a, b, h, -⟩ := hf
  have hm : (s, y) ∈ [("settings".toList, Y.map [("enable_imu_loss_fn".toList, sc "true"), ("estimate_time_delay".toList, sc "false")]),
      ("calib_target".toList, exTarget), ("imu0".toList, exImu), ("cam0".toList, exCamFull), ("cam1".toList, exCamFull),
      ("T_cam0_cam1".toList, exPose), ("T_imu0_cam0".toList, exPose)] := by
    rw [h]; simp
  simp only [List.mem_cons, List.not_mem_nil, or_false, Prod.mk.injEq] at hm
  rcases hm with ⟨-, rfl⟩ | ⟨-, rfl⟩ | ⟨-, rfl⟩ | ⟨-, rfl⟩ | ⟨-, rfl⟩ | ⟨-, rfl⟩ | ⟨-, rfl⟩
  all_goals exact ⟨_, rfl⟩

/-- C121 witness for `calib_vi_t`. -/
example : ∃ b, ViFile exDec exVi b := by
  obtain ⟨b, hb⟩ := (built_iff (viCtor exDec exVi)).mp (by decide +kernel)
  exact ⟨b, (C121_vi _ _ exVi_sections b).mp hb⟩

/-- C121 witness: without the pose of camera 1 there is no calibrator. -/
example : built (viCtor exDec (.map [("calib_target".toList, exTarget), ("imu0".toList, exImu), ("cam0".toList, exCamFull),
    ("cam1".toList, exCamFull)])) = false := by decide +kernel

/-- C121 witness for `calib_mocap_t`: a camera with parameters. -/
theorem exMocap : ∃ b, mocapCtor exDec exVi = .ok b := (built_iff _).mp (by decide +kernel)

/-- Nothing was found. -/
def missing : Except Fault (Option Y × Y) → Bool
  | .ok (none, _) => true
  | _ => false

/-- `proj_params` may be given without `dist_params`: the distortion is then empty, and the camera is not calibrated first. -/
theorem C121_mocap_distortion_refuted : ¬ ∀ (D : Dec) (doc : Y) (b : BuiltMocap), Sections doc → mocapCtor D doc = .ok b →
    b.calibrate = false → b.d ≠ [] := by
  intro h
  have hs : Sections (.map [("calib_target".toList, exTarget), ("cam0".toList, .map [("resolution".toList, .seq [sc "8", sc "6"]),
      ("proj_model".toList, sc "pinhole"), ("dist_model".toList, sc "equi4"), ("proj_params".toList, .seq [sc "5", sc "5", sc "4", sc "3"])])]) := by
    refine ⟨_, rfl, fun s y hs hf => ?_⟩
    obtain ⟨a, b, h, -⟩ := hf
    have hm : (s, y) ∈ [("calib_target".toList, exTarget), ("cam0".toList, Y.map [("resolution".toList, .seq [sc "8", sc "6"]),
      ("proj_model".toList, sc "pinhole"), ("dist_model".toList, sc "equi4"), ("proj_params".toList, .seq [sc "5", sc "5", sc "4", sc "3"])])] := by
      rw [h]; simp
    simp only [List.mem_cons, List.not_mem_nil, or_false, Prod.mk.injEq] at hm
    rcases hm with ⟨-, rfl⟩ | ⟨-, rfl⟩
    all_goals exact ⟨_, rfl⟩
  obtain ⟨b, hb⟩ := (built_iff (mocapCtor exDec _)).mp (show built (mocapCtor exDec (.map [("calib_target".toList, exTarget), ("cam0".toList, .map [("resolution".toList, .seq [sc "8", sc "6"]),
      ("proj_model".toList, sc "pinhole"), ("dist_model".toList, sc "equi4"), ("proj_params".toList, .seq [sc "5", sc "5", sc "4", sc "3"])])])) = true by
    decide +kernel)
  have g := (C121_mocap _ _ hs b).mp hb
  refine h _ _ b hs hb ?_ ?_
  · cases hc : b.calibrate with
    | false => rfl
    | true =>
      refine absurd (g.calibrate.mp hc) (gives_not_absent (read := Except.ok (ε := Fault)) (give_two rfl rfl rfl))
  · rcases g.dist_params with ⟨n, hn, -⟩ | ⟨-, g⟩
    · exfalso
      have h1 := descend_reach hn
      have h2 : missing (descend ["cam0".toList, "dist_params".toList] (.map [("calib_target".toList, exTarget), ("cam0".toList, .map [("resolution".toList, .seq [sc "8", sc "6"]),
        ("proj_model".toList, sc "pinhole"), ("dist_model".toList, sc "equi4"), ("proj_params".toList, .seq [sc "5", sc "5", sc "4", sc "3"])])])) = true := by
        decide +kernel
      have h1' : descend ["cam0".toList, "dist_params".toList] (.map [("calib_target".toList, exTarget), ("cam0".toList, .map [("resolution".toList, .seq [sc "8", sc "6"]),
        ("proj_model".toList, sc "pinhole"), ("dist_model".toList, sc "equi4"), ("proj_params".toList, .seq [sc "5", sc "5", sc "4", sc "3"])])]) = _ := h1
      rw [h1'] at h2
      exact absurd h2 (by simp [missing])
    · exact g

/-- C121 witness for the Huber loss: the same file is accepted with CAUCHY. -/
example : built (mocapCtor exDec (.map [("settings".toList, .map [("loss_fn_type".toList, sc "HUBER")]), ("calib_target".toList, exTarget),
    ("cam0".toList, exCam)])) = false ∧
  built (mocapCtor exDec (.map [("settings".toList, .map [("loss_fn_type".toList, sc "CAUCHY")]), ("calib_target".toList, exTarget),
    ("cam0".toList, exCam)])) = true := by decide +kernel

end Yac.Ctor
