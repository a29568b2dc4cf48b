import Verif.Euroc.Lemmas

/-! # C122: EuRoC datasets -/

namespace Yac.Euroc
open Yac.Config Yac.Num Yac.Ctor
open Yac.Text (isDig natOf isSpace fmtLd parseReal parseInt scanf Conv rowsM loadRows getLines skipLine)

theorem okb {α β : Type} (a : α) (f : α → Except Fault β) : ((.ok a : Except Fault α) >>= f) = f a := rfl

/-! ### Lines contain no line feed -/

theorem dcm_no_newline (x : Dcm) (hx : x.Ok) : '\n' ∉ x.text := by
  unfold Dcm.text
  intro h
  rcases List.mem_append.mp h with h | h
  · rcases List.mem_append.mp h with h | h
    · split at h
      · revert h; decide
      · cases h
    · exact absurd (hx.2.1 _ h) (by decide)
  · split at h
    · cases h
    · rename_i f hf
      rcases List.mem_cons.mp h with h | h
      · revert h; decide
      · exact absurd (hx.2.2 f hf _ h) (by decide)

theorem line_no_newline {n : ℕ} (s : Line n) (hs : s.Ok) : '\n' ∉ s.text := by
  unfold Line.text
  intro h
  rcases List.mem_append.mp h with h | h
  · exact Text.fmtLd_not_mem _ _ (by decide) (by decide) h
  · obtain ⟨x, hx, h⟩ := List.mem_flatMap.mp h
    obtain ⟨i, rfl⟩ := (List.mem_ofFn' _ _).mp hx
    rcases List.mem_cons.mp h with h | h
    · revert h; decide
    · exact dcm_no_newline _ (hs.2.2 i) h

theorem shot_no_newline (s : Shot) (hs : s.Ok) : '\n' ∉ s.text := by
  unfold Shot.text
  intro h
  rcases List.mem_append.mp h with h | h
  · exact Text.fmtLd_not_mem _ _ (by decide) (by decide) h
  · rcases List.mem_cons.mp h with h | h
    · revert h; decide
    · exact absurd (hs.2.2.2 _ h) (by decide)

/-! ### IMU -/

theorem imuRow_line (s : Line 6) (hs : s.Ok) (ws rest : Str) (hw : ∀ c ∈ ws, isSpace c = true) (hr : Space rest) :
    Text.imuRow (ws ++ (s.text ++ rest)) = .ok ((s.t, s.three 3 4 5, s.three 0 1 2), rest) := by
  have h := scan_line s hs ws rest hw hr.stop
  unfold Text.imuRow
  rw [show Text.imuFmt = .lu :: Text.moreFmt 6 from rfl, h]
  rfl

theorem imuRow_blank (ws : Str) (hw : ∀ c ∈ ws, isSpace c = true) : Text.imuRow ws = .error .fatal := by
  have h : parseInt ws = none := by
    unfold parseInt
    have : ws.dropWhile isSpace = [] := by rw [List.dropWhile_eq_nil_iff]; exact hw
    rw [this]; rfl
  unfold Text.imuRow
  rw [show Text.imuFmt = .lu :: Text.moreFmt 6 from rfl, scanf, h]

theorem imuSensor_iff (D : Dec) (disk : Disk) (dir : Str) (m : List (Str × Y)) (hd : disk.doc (dir ++ "/sensor.yaml".toList) = some (.map m))
    (ts : List ℤ) (gyr acc : List V3) (i : Imu) :
    (imuSensor D disk dir >>= fun s => .ok ⟨ts, gyr, acc, s.1, s.2.1, s.2.2⟩) = (.ok i : Except Fault Imu) ↔
      i.timestamps = ts ∧ i.gyr = gyr ∧ i.acc = acc ∧ ImuSensor D (.map m) i := by
  unfold imuSensor
  rw [hd]
  simp only [bind_assoc, okb]
  rw [bind_readTop D m false [("sensor_type", .text []), ("comment", .text [])] kindFields rfl (by decide)]
  constructor
  · rintro ⟨k, h1, h2⟩
    rw [bind_top _ m _ (plain_lit _ (by decide)) _ _ _ _ (fun _ _ _ => rfl)] at h2
    obtain ⟨T, h3, h4⟩ := h2
    rw [bind_readTop D m false [("rate_hz", .real 0), ("gyroscope_noise_density", .real 0),
      ("gyroscope_random_walk", .real 0), ("accelerometer_noise_density", .real 0), ("accelerometer_random_walk", .real 0)]
      noiseFields rfl (by decide)] at h4
    obtain ⟨n, h5, h6⟩ := h4
    cases h6
    rcases h3 with h3 | ⟨h3, -⟩
    · exact ⟨rfl, rfl, rfl, h1, h3, h5⟩
    · cases h3
  · rintro ⟨rfl, rfl, rfl, h1, h2, h3⟩
    refine ⟨i.kind, h1, ?_⟩
    rw [bind_top _ m _ (plain_lit _ (by decide)) _ _ _ _ (fun _ _ _ => rfl)]
    refine ⟨i.T_BS, Or.inl h2, ?_⟩
    rw [bind_readTop D m false [("rate_hz", .real 0), ("gyroscope_noise_density", .real 0),
      ("gyroscope_random_walk", .real 0), ("accelerometer_noise_density", .real 0), ("accelerometer_random_walk", .real 0)]
      noiseFields rfl (by decide)]
    exact ⟨i.noise, h3, rfl⟩

/-- C122: an IMU directory whose `data.csv` has a header and lines `t,wx,wy,wz,ax,ay,az` (with either line end) gives, when
`sensor.yaml` has the required keys, the timestamps, angular velocities and accelerations of all lines in order. -/
theorem C122_imu (D : Dec) (disk : Disk) (dir : Str) (cr : Bool) (hd : Str) (hh : HeaderOk hd) (lines : List (Line 6)) (hl : ∀ s ∈ lines, s.Ok)
    (ht : disk.text (dir ++ "/data.csv".toList) = some (csv cr hd (lines.map Line.text)))
    (m : List (Str × Y)) (hm : disk.doc (dir ++ "/sensor.yaml".toList) = some (.map m)) (i : Imu) :
    imu D disk dir = .ok i ↔ i.timestamps = lines.map (fun s => s.t) ∧ i.gyr = lines.map (fun s => s.three 0 1 2) ∧
      i.acc = lines.map (fun s => s.three 3 4 5) ∧ ImuSensor D (.map m) i := by
  unfold imu
  rw [ht]
  simp only
  rw [loadRows_csv cr hd hh Text.imuRow Line.text (fun s => (s.t, s.three 3 4 5, s.three 0 1 2)) lines
    (fun s hs => line_no_newline s (hl s hs)) (fun s hs ws rest hw hr => imuRow_line s (hl s hs) ws rest hw hr), okb,
    imuSensor_iff D disk dir m hm]
  simp only [List.map_map]
  rfl

/-- C122: a directory without one of the two files is fatal. -/
theorem C122_missing (D : Dec) (disk : Disk) (dir : Str) (calib : Bool)
    (h : disk.text (dir ++ "/data.csv".toList) = none) :
    imu D disk dir = .error .fatal ∧ camera D disk dir calib = .error .fatal ∧ truth disk dir = .error .fatal := by
  unfold imu camera truth
  rw [h]
  exact ⟨rfl, rfl, rfl⟩

/-- C122: a blank line after the data (an empty line, or one of spaces) is fatal. -/
theorem C122_blank (D : Dec) (disk : Disk) (dir : Str) (cr : Bool) (hd : Str) (hh : HeaderOk hd) (lines : List (Line 6)) (hl : ∀ s ∈ lines, s.Ok)
    (blank : Str) (hb : ∀ c ∈ blank, isSpace c = true ∧ c ≠ '\n')
    (ht : disk.text (dir ++ "/data.csv".toList) = some (csv cr hd (lines.map Line.text ++ [blank]))) :
    imu D disk dir = .error .fatal := by
  unfold imu
  rw [ht]
  simp only
  have hn : ∀ s ∈ lines.map Line.text ++ [blank], '\n' ∉ s := by
    intro s hs
    rcases List.mem_append.mp hs with hs | hs
    · obtain ⟨a, ha, rfl⟩ := List.mem_map.mp hs
      exact line_no_newline a (hl a ha)
    · rw [List.mem_singleton] at hs
      subst hs
      intro h
      exact (hb _ h).2 rfl
  have h1 : loadRows Text.imuRow (csv cr hd (lines.map Line.text ++ [blank])) = .error .fatal := by
    unfold loadRows
    rw [lines_csv cr hd hh.1 _ hn, List.length_append, List.length_map]
    simp only
    obtain ⟨hes, e, he, hen, hel⟩ := eol_cases cr
    have h1 : csv cr hd (lines.map Line.text ++ [blank]) =
        (hd ++ e) ++ '\n' :: ((lines.flatMap (fun a => a.text ++ csv.eol cr)) ++ (blank ++ csv.eol cr)) := by
      unfold csv
      rw [List.flatMap_append, List.flatMap_map, he]
      simp [List.append_assoc]
    rw [h1, Text.skipLine_line _ _ (by rw [List.mem_append]; rintro (h | h); exacts [hh.1 h, hen h])
      (by rw [List.length_append]; have := hh.2; omega)]
    have := rowsM_fail cr Text.imuRow Line.text (fun s => (s.t, s.three 3 4 5, s.three 0 1 2)) lines
      (fun s hs ws rest hw hr => imuRow_line s (hl s hs) ws rest hw hr) imuRow_blank [] (blank ++ csv.eol cr) (by simp)
      (by intro c hc; rcases List.mem_append.mp hc with hc | hc; exacts [(hb c hc).1, hes c hc])
    rw [List.nil_append] at this
    exact this
  rw [h1]
  rfl

/-! ### Ground truth -/

theorem truthRow_line (s : Line 16) (hs : s.Ok) (ws rest : Str) (hw : ∀ c ∈ ws, isSpace c = true) (hr : Space rest) :
    truthRow (ws ++ (s.text ++ rest)) = .ok (⟨s.t, s.three 0 1 2,
      ((s.x 6).value, (s.x 3).value, (s.x 4).value, (s.x 5).value), s.three 7 8 9, s.three 10 11 12, s.three 13 14 15⟩, rest) := by
  have h := scan_line s hs ws rest hw hr.stop
  unfold truthRow
  rw [show truthFmt = .lu :: Text.moreFmt 16 from rfl, h]
  rfl

/-- C122: the ground truth.  The columns after the timestamp are taken as position (1–3), quaternion x, y, z, w (4–7), velocity (8–10),
gyroscope bias (11–13) and accelerometer bias (14–16).  (The files of the EuRoC dataset have w first.) -/
theorem C122_truth (disk : Disk) (dir : Str) (cr : Bool) (hd : Str) (hh : HeaderOk hd) (lines : List (Line 16)) (hl : ∀ s ∈ lines, s.Ok)
    (ht : disk.text (dir ++ "/data.csv".toList) = some (csv cr hd (lines.map Line.text))) :
    ∃ g, truth disk dir = .ok g ∧ g.map Truth.ts = lines.map (fun s => s.t) ∧ g.map Truth.p = lines.map (fun s => s.three 0 1 2) ∧
      g.map Truth.q = lines.map (fun s => ((s.x 6).value, (s.x 3).value, (s.x 4).value, (s.x 5).value)) ∧
      g.map Truth.v = lines.map (fun s => s.three 7 8 9) ∧ g.map Truth.bw = lines.map (fun s => s.three 10 11 12) ∧
      g.map Truth.ba = lines.map (fun s => s.three 13 14 15) := by
  unfold truth
  rw [ht]
  simp only
  rw [loadRows_csv cr hd hh truthRow Line.text _ lines
    (fun s hs => line_no_newline s (hl s hs)) (fun s hs ws rest hw hr => truthRow_line s (hl s hs) ws rest hw hr)]
  refine ⟨_, rfl, ?_, ?_, ?_, ?_, ?_, ?_⟩ <;> · rw [List.map_map]; rfl

/-! ### Cameras -/

theorem camRow_shot (s : Shot) (hs : s.Ok) (ws rest : Str) (hw : ∀ c ∈ ws, isSpace c = true) (hr : Space rest) :
    camRow (ws ++ (s.text ++ rest)) = if 50 ≤ s.name.length then .error .oob else .ok ((s.t, s.name), rest) := by
  obtain ⟨t, name⟩ := s
  obtain ⟨h0, h1, h2, h3⟩ := hs
  simp only at h0 h1 h2 h3
  unfold Shot.text camRow
  rw [List.append_assoc, List.cons_append, Text.parseInt_fmtLd t ws _ hw (Text.noDig_cons (by decide))]
  simp only [Text.toULong_natAbs (show -2 ^ 63 ≤ t by omega) h1]
  obtain ⟨c, cs, rfl⟩ := List.exists_cons_of_ne_nil h2
  have hc := h3 c List.mem_cons_self
  have e0 : ((c :: cs) ++ rest).dropWhile isSpace = (c :: cs) ++ rest := by
    rw [List.cons_append, List.dropWhile_cons_of_neg (by simp [hc])]
  have e1 : ((c :: cs) ++ rest).takeWhile (fun c => !isSpace c) = c :: cs := by
    rw [List.takeWhile_append_of_pos (by intro x hx; simp [h3 x hx])]
    cases rest with
    | nil => simp
    | cons d r => rw [List.takeWhile_cons_of_neg (by simp [hr d rfl]), List.append_nil]
  have e2 : ((c :: cs) ++ rest).dropWhile (fun c => !isSpace c) = rest := by
    rw [List.dropWhile_append_of_pos (by intro x hx; simp [h3 x hx])]
    cases rest with
    | nil => simp
    | cons d r => rw [List.dropWhile_cons_of_neg (by simp [hr d rfl])]
  rw [e0, e1, e2, if_neg (by intro h; cases h)]

theorem camEntry_shot (disk : Disk) (dir : Str) (s : Shot) (hs : s.Ok) (hn : s.name.length < 50)
    (hf : disk.isFile (dir ++ "/data/".toList ++ s.name) = true) (ws rest : Str) (hw : ∀ c ∈ ws, isSpace c = true) (hr : Space rest) :
    camEntry disk dir (ws ++ (s.text ++ rest)) = .ok ((s.t, dir ++ "/data/".toList ++ s.name), rest) := by
  unfold camEntry
  rw [camRow_shot s hs ws rest hw hr, if_neg (by omega), okb, if_pos hf]

theorem camSensor_iff (D : Dec) (disk : Disk) (dir : Str) (calib : Bool) (ts : List ℤ) (paths : List Str) (m : List (Str × Y))
    (hd : disk.doc (dir ++ "/sensor.yaml".toList) = some (.map m)) (c : Camera) :
    camSensor D disk dir calib ts paths = .ok c ↔ c.timestamps = ts ∧ c.paths = paths ∧ CamSensor D (.map m) calib c := by
  unfold camSensor
  rw [hd]
  simp only
  have z4 : ([0, 0, 0, 0] : List ℝ) = List.replicate 4 0 := rfl
  rw [z4]
  constructor
  · intro h
    rw [bind_readTop D m false [("sensor_type", .text []), ("comment", .text [])] kindFields rfl (by decide)] at h
    obtain ⟨k, a1, h⟩ := h
    rw [bind_top _ m _ (plain_lit _ (by decide)) _ _ _ _ (fun _ _ _ => rfl)] at h
    obtain ⟨T, a2, h⟩ := h
    rw [bind_readTop D m false [("rate_hz", .real 0)] [("rate_hz".toList, .real 0)] rfl (by decide)] at h
    obtain ⟨r, a3, h⟩ := h
    rw [bind_top _ m _ (plain_lit _ (by decide)) _ _ _ _ (fun _ _ _ => rfl)] at h
    obtain ⟨res, a4, h⟩ := h
    rw [bind_readTop D m calib [("camera_model", .text [])] [("camera_model".toList, .text [])] rfl (by decide)] at h
    obtain ⟨cm, a5, h⟩ := h
    rw [bind_top _ m _ (plain_lit _ (by decide)) _ _ _ _ (fun _ _ _ => rfl)] at h
    obtain ⟨it, a6, h⟩ := h
    rw [bind_readTop D m calib [("distortion_model", .text [])] [("distortion_model".toList, .text [])] rfl (by decide)] at h
    obtain ⟨dm, a7, h⟩ := h
    rw [bind_top _ m _ (plain_lit _ (by decide)) _ _ _ _ (fun _ _ _ => rfl)] at h
    obtain ⟨d, a8, h⟩ := h
    cases h
    rcases a2 with a2 | ⟨a2, -⟩
    · rcases a4 with a4 | ⟨a4, -⟩
      · exact ⟨rfl, rfl, a1, a2, a3, a4, a5, a6, a7, a8⟩
      · cases a4
    · cases a2
  · rintro ⟨rfl, rfl, a1, a2, a3, a4, a5, a6, a7, a8⟩
    rw [bind_readTop D m false [("sensor_type", .text []), ("comment", .text [])] kindFields rfl (by decide)]
    refine ⟨c.kind, a1, ?_⟩
    rw [bind_top _ m _ (plain_lit _ (by decide)) _ _ _ _ (fun _ _ _ => rfl)]
    refine ⟨c.T_BS, Or.inl a2, ?_⟩
    rw [bind_readTop D m false [("rate_hz", .real 0)] [("rate_hz".toList, .real 0)] rfl (by decide)]
    refine ⟨c.rate, a3, ?_⟩
    rw [bind_top _ m _ (plain_lit _ (by decide)) _ _ _ _ (fun _ _ _ => rfl)]
    refine ⟨c.resolution, Or.inl a4, ?_⟩
    rw [bind_readTop D m calib [("camera_model", .text [])] [("camera_model".toList, .text [])] rfl (by decide)]
    refine ⟨c.camModel, a5, ?_⟩
    rw [bind_top _ m _ (plain_lit _ (by decide)) _ _ _ _ (fun _ _ _ => rfl)]
    refine ⟨c.intrinsics, a6, ?_⟩
    rw [bind_readTop D m calib [("distortion_model", .text [])] [("distortion_model".toList, .text [])] rfl (by decide)]
    refine ⟨c.distModel, a7, ?_⟩
    rw [bind_top _ m _ (plain_lit _ (by decide)) _ _ _ _ (fun _ _ _ => rfl)]
    exact ⟨c.distortion, a8, rfl⟩

/-- C122: a camera directory whose `data.csv` lists images that exist, with names of at most 49 characters, gives their timestamps
and paths in order, with what `sensor.yaml` says (in calibration data the camera model may be missing). -/
theorem C122_camera_partial (D : Dec) (disk : Disk) (dir : Str) (calib : Bool) (cr : Bool) (hd : Str) (hh : HeaderOk hd) (shots : List Shot)
    (hl : ∀ s ∈ shots, s.Ok) (hlen : ∀ s ∈ shots, s.name.length < 50)
    (hf : ∀ s ∈ shots, disk.isFile (dir ++ "/data/".toList ++ s.name) = true)
    (ht : disk.text (dir ++ "/data.csv".toList) = some (csv cr hd (shots.map Shot.text)))
    (m : List (Str × Y)) (hm : disk.doc (dir ++ "/sensor.yaml".toList) = some (.map m)) (c : Camera) :
    camera D disk dir calib = .ok c ↔ c.timestamps = shots.map (fun s => s.t) ∧
      c.paths = shots.map (fun s => dir ++ "/data/".toList ++ s.name) ∧ CamSensor D (.map m) calib c := by
  unfold camera
  rw [ht]
  simp only
  rw [loadRows_csv cr hd hh (camEntry disk dir) Shot.text (fun s => (s.t, dir ++ "/data/".toList ++ s.name)) shots
    (fun s hs => shot_no_newline s (hl s hs))
    (fun s hs ws rest hw hr => camEntry_shot disk dir s (hl s hs) (hlen s hs) (hf s hs) ws rest hw hr), okb,
    camSensor_iff D disk dir calib _ _ m hm]
  simp only [List.map_map]
  rfl

/-- The rows up to one that fails. -/
theorem rowsM_stop {α β : Type} (cr : Bool) (f : Str → Except Fault (β × Str)) (txt : α → Str) (val : α → β) (l : List α) (bad : α) (e : Fault)
    (h : ∀ a ∈ l, ∀ ws rest, (∀ c ∈ ws, isSpace c = true) → Space rest → f (ws ++ (txt a ++ rest)) = .ok (val a, rest))
    (hf : ∀ ws rest, (∀ c ∈ ws, isSpace c = true) → Space rest → f (ws ++ (txt bad ++ rest)) = .error e) (n : ℕ) :
    ∀ (ws tail : Str), (∀ c ∈ ws, isSpace c = true) →
    rowsM f (l.length + 1 + n) (ws ++ (l.flatMap (fun a => txt a ++ csv.eol cr) ++ (txt bad ++ (csv.eol cr ++ tail)))) = .error e := by
  obtain ⟨he, -⟩ := eol_cases cr
  have hspace : ∀ t : Str, Space (csv.eol cr ++ t) := by
    intro t c hc
    apply he
    cases cr with
    | false => cases hc; exact List.mem_cons_self
    | true => cases hc; exact List.mem_cons_self
  induction l with
  | nil =>
    intro ws tail hw
    rw [List.length_nil, Nat.zero_add, Nat.add_comm, rowsM, List.flatMap_nil, List.nil_append, hf ws _ hw (hspace _)]
    rfl
  | cons a l ih =>
    intro ws tail hw
    rw [List.length_cons, show l.length + 1 + 1 + n = (l.length + 1 + n) + 1 by omega, rowsM, List.flatMap_cons, List.append_assoc,
      List.append_assoc (txt a), h a List.mem_cons_self ws _ hw (hspace _)]
    have := ih (fun a ha => h a (List.mem_cons_of_mem _ ha)) (csv.eol cr) tail he
    simp only [bind, Except.bind, this]

theorem camera_stop (D : Dec) (disk : Disk) (dir : Str) (calib : Bool) (cr : Bool) (hd : Str) (hh : HeaderOk hd) (shots later : List Shot)
    (bad : Shot) (hl : ∀ s ∈ shots ++ bad :: later, s.Ok) (hlen : ∀ s ∈ shots, s.name.length < 50)
    (hf : ∀ s ∈ shots, disk.isFile (dir ++ "/data/".toList ++ s.name) = true) (e : Fault)
    (hb : ∀ ws rest, (∀ c ∈ ws, isSpace c = true) → Space rest → camEntry disk dir (ws ++ (bad.text ++ rest)) = .error e)
    (ht : disk.text (dir ++ "/data.csv".toList) = some (csv cr hd ((shots ++ bad :: later).map Shot.text))) :
    camera D disk dir calib = .error e := by
  unfold camera
  rw [ht]
  simp only
  have h1 : loadRows (camEntry disk dir) (csv cr hd ((shots ++ bad :: later).map Shot.text)) = .error e := by
    unfold loadRows
    rw [lines_csv cr hd hh.1 _ (by
      intro s hs
      obtain ⟨a, ha, rfl⟩ := List.mem_map.mp hs
      exact shot_no_newline a (hl a ha)), List.length_map, List.length_append, List.length_cons]
    simp only
    obtain ⟨-, e', he, hen, hel⟩ := eol_cases cr
    have h1 : csv cr hd ((shots ++ bad :: later).map Shot.text) = (hd ++ e') ++ '\n' ::
        (shots.flatMap (fun a => a.text ++ csv.eol cr) ++ (bad.text ++ (csv.eol cr ++ later.flatMap (fun a => a.text ++ csv.eol cr)))) := by
      unfold csv
      rw [List.flatMap_map, List.flatMap_append, List.flatMap_cons, he]
      simp [List.append_assoc]
    rw [h1, Text.skipLine_line _ _ (by rw [List.mem_append]; rintro (h | h); exacts [hh.1 h, hen h])
      (by rw [List.length_append]; have := hh.2; omega)]
    have := rowsM_stop cr (camEntry disk dir) Shot.text (fun s => (s.t, dir ++ "/data/".toList ++ s.name)) shots bad e
      (fun s hs ws rest hw hr => camEntry_shot disk dir s (hl s (List.mem_append_left _ hs)) (hlen s hs) (hf s hs) ws rest hw hr) hb
      later.length [] (later.flatMap (fun a => a.text ++ csv.eol cr)) (by simp)
    rw [List.nil_append] at this
    rw [show shots.length + (later.length + 1) = shots.length + 1 + later.length by omega]
    exact this
  rw [h1]
  rfl

/-- C122: the first image that does not exist is fatal. -/
theorem C122_no_image (D : Dec) (disk : Disk) (dir : Str) (calib : Bool) (cr : Bool) (hd : Str) (hh : HeaderOk hd) (shots later : List Shot)
    (bad : Shot) (hl : ∀ s ∈ shots ++ bad :: later, s.Ok) (hlen : ∀ s ∈ shots ++ [bad], s.name.length < 50)
    (hf : ∀ s ∈ shots, disk.isFile (dir ++ "/data/".toList ++ s.name) = true)
    (hb : disk.isFile (dir ++ "/data/".toList ++ bad.name) = false)
    (ht : disk.text (dir ++ "/data.csv".toList) = some (csv cr hd ((shots ++ bad :: later).map Shot.text))) :
    camera D disk dir calib = .error .fatal := by
  refine camera_stop D disk dir calib cr hd hh shots later bad hl (fun s hs => hlen s (List.mem_append_left _ hs)) hf .fatal ?_ ht
  intro ws rest hw hr
  unfold camEntry
  have := hlen bad (by simp)
  rw [camRow_shot bad (hl bad (by simp)) ws rest hw hr, if_neg (by omega), okb, if_neg (by rw [hb]; decide)]

/-- C122 is false of long names: a name of 50 characters or more is written beyond the end of a local array. -/
theorem C122_name_refuted (D : Dec) (disk : Disk) (dir : Str) (calib : Bool) (cr : Bool) (hd : Str) (hh : HeaderOk hd) (shots later : List Shot)
    (bad : Shot) (hl : ∀ s ∈ shots ++ bad :: later, s.Ok) (hlen : ∀ s ∈ shots, s.name.length < 50) (hbad : 50 ≤ bad.name.length)
    (hf : ∀ s ∈ shots, disk.isFile (dir ++ "/data/".toList ++ s.name) = true)
    (ht : disk.text (dir ++ "/data.csv".toList) = some (csv cr hd ((shots ++ bad :: later).map Shot.text))) :
    camera D disk dir calib = .error .oob := by
  refine camera_stop D disk dir calib cr hd hh shots later bad hl hlen hf .oob ?_ ht
  intro ws rest hw hr
  unfold camEntry
  rw [camRow_shot bad (hl bad (by simp)) ws rest hw hr, if_pos hbad]
  rfl

end Yac.Euroc
