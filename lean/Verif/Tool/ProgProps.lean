import Verif.Tool.ProgModel
import Verif.Data.PreTight
import Verif.Setup.InspectWitness
import Verif.Save.CamWitness
import Verif.Data.Witness

/-! # C150: the programs calib_camera, calib_vi, calib_mocap and calib_inspect -/

namespace Yac.Tool.Prog
open Yac.Save Yac.Config
open Yac.AprilGrid (Grid)

variable {C Y : Type}

/-- A program is given a configuration file and a data directory, and writes to a file of a fixed name in that directory the
results of what it does: the three programs. -/
inductive IsProgram (s : Steps C Y) (w : List Char → Bool) : (List (List Char) → Disk Y → Disk Y × Except Fault Int) → List Char →
    (Disk Y → List Char → List Char → Except Fault C) → Prop where
  | camera : IsProgram s w (cameraMain s w) "/calib_camera-results.yaml".toList
      (fun d config data => s.make d config data >>= fun c => s.load d data c >>= fun c => s.solve c)
  | vi : IsProgram s w (viMain s w) "/calib_vi-results.yaml".toList
      (fun d config data => s.make d config data >>= fun c => s.load d data c >>= fun c => s.solve c)
  | mocap : IsProgram s w (mocapMain s w) "/calib_mocap-results.yaml".toList
      (fun d config data => s.make d config data >>= fun c => s.solve c)

theorem program_eq {s : Steps C Y} {w : List Char → Bool} {main name calibrate} (h : IsProgram s w main name calibrate)
    (prog config data : List Char) (d : Disk Y) :
    main [prog, config, data] d = finish s w (data ++ name) d (calibrate d config data) := by
  cases h <;> rfl

/-- **C150, usage.**  With any other number of arguments than two nothing is done and the exit status is -1. -/
theorem C150_usage {s : Steps C Y} {w : List Char → Bool} {main name calibrate} (h : IsProgram s w main name calibrate)
    (args : List (List Char)) (d : Disk Y) (ha : args.length ≠ 3) : main args d = (d, .ok (-1)) := by
  cases h <;>
  · unfold_projs
    first
    | unfold cameraMain
    | unfold viMain
    | unfold mocapMain
    split
    · exact absurd rfl ha
    · rfl

/-- **C150, results.**  When the calibration comes to its end and the results can be written, the file of results holds those of
the calibrator made of that configuration and those data; the exit status is 0. -/
theorem C150_results {s : Steps C Y} {w : List Char → Bool} {main name calibrate} (h : IsProgram s w main name calibrate)
    (prog config data : List Char) (d : Disk Y) (c : C) (y : Y) (hc : calibrate d config data = .ok c) (hy : s.doc c = .ok y)
    (hw : w (data ++ name) = true) :
    ∃ d', main [prog, config, data] d = (d', .ok 0) ∧ d' (data ++ name) = some (.doc y) := by
  refine ⟨put d (data ++ name) (.doc y), ?_, by simp [put]⟩
  rw [program_eq h, hc]
  unfold finish saveResults
  simp [hw, hy]

/-- **C150, nothing else.**  No other file is written, whatever happens. -/
theorem C150_other_files {s : Steps C Y} {w : List Char → Bool} {main name calibrate} (h : IsProgram s w main name calibrate)
    (args : List (List Char)) (d : Disk Y) (p : List Char) (hp : ∀ data ∈ args[2]?, p ≠ data ++ name) : (main args d).1 p = d p := by
  by_cases ha : args.length = 3
  · obtain ⟨prog, config, data, rfl⟩ : ∃ a b c, args = [a, b, c] := by
      match args, ha with
      | [a, b, c], _ => exact ⟨a, b, c, rfl⟩
    have hne := hp data (by simp)
    rw [program_eq h]
    unfold finish saveResults
    cases calibrate d config data with
    | error f => rfl
    | ok c =>
      simp only
      by_cases hw : w (data ++ name) = false
      · simp [hw]
      · rw [if_neg hw]
        cases s.doc c <;> simp [put, hne]
  · rw [C150_usage h args d ha]

/-- **C150, a calibration that fails.**  When the program ends before the results are saved, it does so with the fault of that
step, and the results of an earlier calibration are still there. -/
theorem C150_fails {s : Steps C Y} {w : List Char → Bool} {main name calibrate} (h : IsProgram s w main name calibrate)
    (prog config data : List Char) (d : Disk Y) (f : Fault) (hc : calibrate d config data = .error f) :
    main [prog, config, data] d = (d, .error f) := by
  rw [program_eq h, hc]
  rfl

/-- **C150, exit status.**  A status of 0 means that the calibration came to its end. -/
theorem C150_status_partial {s : Steps C Y} {w : List Char → Bool} {main name calibrate} (h : IsProgram s w main name calibrate)
    (args : List (List Char)) (d : Disk Y) (h0 : (main args d).2 = .ok 0) :
    ∃ prog config data c, args = [prog, config, data] ∧ calibrate d config data = .ok c ∧
      ((∃ y, s.doc c = .ok y ∧ (main args d).1 (data ++ name) = some (.doc y)) ∨ w (data ++ name) = false) := by
  by_cases ha : args.length = 3
  · obtain ⟨prog, config, data, rfl⟩ : ∃ a b c, args = [a, b, c] := by
      match args, ha with
      | [a, b, c], _ => exact ⟨a, b, c, rfl⟩
    cases hc : calibrate d config data with
    | error f => rw [C150_fails h _ _ _ _ f hc] at h0; cases h0
    | ok c =>
      refine ⟨prog, config, data, c, rfl, hc, ?_⟩
      cases hw : w (data ++ name) with
      | false => exact .inr rfl
      | true =>
        left
        cases hy : s.doc c with
        | ok y =>
          obtain ⟨d', e1, e2⟩ := C150_results h prog config data d c y hc hy hw
          exact ⟨y, rfl, by rw [e1]; exact e2⟩
        | error f =>
          rw [program_eq h, hc] at h0
          unfold finish saveResults at h0
          simp [hw, hy] at h0
  · rw [C150_usage h args d ha] at h0
    cases h0

/-- **C150, refuted.**  The exit status is 0 although the results could not be written: the file of an earlier calibration, if
there is one, is still there. -/
theorem C150_status_refuted {s : Steps C Y} {w : List Char → Bool} {main name calibrate} (h : IsProgram s w main name calibrate)
    (prog config data : List Char) (d : Disk Y) (c : C) (hc : calibrate d config data = .ok c) (hw : w (data ++ name) = false) :
    main [prog, config, data] d = (d, .ok 0) := by
  rw [program_eq h, hc]
  unfold finish saveResults
  simp [hw]

/-- **C150, refuted.**  The results of an earlier calibration do not survive one whose results cannot be printed: with no camera 0
`calib_camera` calibrates and then leaves a broken file in their place. -/
theorem C150_earlier_refuted (make : Disk Config.Y → List Char → List Char → Except Fault CamCalib) (load : Disk Config.Y → List Char → CamCalib → Except Fault CamCalib)
    (solve : CamCalib → Except Fault CamCalib) (total : CamCalib → Config.Y) (each : CamCalib → List (ℤ × Config.Y))
    (prog config data : List Char) (d : Disk Config.Y) (w : List Char → Bool) (c1 c2 c : CamCalib)
    (h1 : make d config data = .ok c1) (h2 : load d data c1 = .ok c2) (h3 : solve c2 = .ok c) (hw : w (data ++ "/calib_camera-results.yaml".toList) = true)
    (h0 : SMap.find 0 c.exts = none) :
    ∃ d', cameraMain ⟨make, load, solve, fun c => saveCam c (total c) (each c)⟩ w [prog, config, data] d = (d', .error .exn) ∧
      d' (data ++ "/calib_camera-results.yaml".toList) = some .broken := by
  refine ⟨put d (data ++ "/calib_camera-results.yaml".toList) .broken, ?_, by simp [put]⟩
  have hs : saveCam c (total c) (each c) = .error .exn := by
    unfold saveCam estimateNodes
    rw [h0]
    rfl
  unfold cameraMain
  simp only
  rw [h1]
  show finish _ w _ d (load d data c1 >>= fun c => solve c) = _
  rw [h2]
  show finish _ w _ d (solve c2) = _
  rw [h3]
  unfold finish saveResults
  simp only
  rw [if_neg (by rw [hw]; simp), hs]

/-! ### calib_inspect -/

section
variable {K V D : Type} [DecidableEq K]

/-- **C150, inspection, usage.**  The program wants three arguments, the first of them `camera` or `camera-imu`. -/
theorem C150_inspect_usage (i : Insp K V D) (dataset : List Char → Except Fault (List (Int × List (Grid ℝ)))) (args : List (List Char)) :
    (args.length ≠ 4 → inspectMain i dataset args = .ok (.usage, -1)) ∧
    (args.length = 4 → ∀ r n, inspectMain i dataset args = .ok (r, n) →
      n = 0 ∧ (args[1]? = some "camera".toList ∧ (∃ e, r = .camera e) ∨ args[1]? = some "camera-imu".toList ∧ ∃ s k, r = .vi s k)) := by
  constructor
  · intro h
    unfold inspectMain
    split
    · exact absurd rfl h
    · rfl
  · intro h r n hr
    obtain ⟨prog, mode, config, data, rfl⟩ : ∃ a b c d, args = [a, b, c, d] := by
      match args, h with
      | [a, b, c, d], _ => exact ⟨a, b, c, d, rfl⟩
    unfold inspectMain at hr
    simp only at hr
    by_cases h1 : mode = "camera".toList
    · rw [if_pos h1] at hr
      obtain ⟨valid, -, hr⟩ := Calib.bind_ok hr
      obtain ⟨c, -, hr⟩ := Calib.bind_ok hr
      obtain ⟨e, -, hr⟩ := Calib.bind_ok hr
      cases hr
      exact ⟨rfl, .inl ⟨by rw [h1]; rfl, e, rfl⟩⟩
    · rw [if_neg h1] at hr
      by_cases h2 : mode = "camera-imu".toList
      · rw [if_pos h2] at hr
        obtain ⟨c, -, hr⟩ := Calib.bind_ok hr
        obtain ⟨s, -, hr⟩ := Calib.bind_ok hr
        obtain ⟨o, -, hr⟩ := Calib.bind_ok hr
        cases hr
        exact ⟨rfl, .inr ⟨by rw [h2]; rfl, o.1, o.2.2, rfl⟩⟩
      · rw [if_neg h2] at hr
        cases hr

/-- **C150, inspection of cameras.**  The number that is reported is the error of the configured calibration on the data set
(C100). -/
theorem C150_inspect_camera (i : Insp K V D) (dataset : List Char → Except Fault (List (Int × List (Grid ℝ))))
    (prog config data : List Char) (e : ℝ) :
    inspectMain i dataset [prog, "camera".toList, config, data] = .ok (.camera e, 0) ↔
      ∃ valid c, dataset data = .ok valid ∧ i.camera config = .ok c ∧ Setup.inspect i.env c valid = .ok e := by
  unfold inspectMain
  simp only
  simp only [if_true]
  constructor
  · intro hr
    obtain ⟨valid, h1, hr⟩ := Calib.bind_ok hr
    obtain ⟨c, h2, hr⟩ := Calib.bind_ok hr
    obtain ⟨e', h3, hr⟩ := Calib.bind_ok hr
    cases hr
    exact ⟨valid, c, h1, h2, h3⟩
  · rintro ⟨valid, c, h1, h2, h3⟩
    rw [h1, AprilGrid.ok_bind, h2, AprilGrid.ok_bind, h3]
    rfl

/-- **C150, inspection of cameras and IMU.**  Nothing is rejected: the statistics are those of all the views and residuals that the
data gave; the solver is called twice on all of them (with no iterations). -/
theorem C150_inspect_vi (i : Insp K V D) (dataset : List Char → Except Fault (List (Int × List (Grid ℝ))))
    (prog config data : List Char) (c : VI.St K D × (VI.Par → Bool)) (s : VI.St K D) (hc : i.vi config = .ok c) (hl : i.load data c.1 = .ok s) :
    ∃ calls, inspectMain i dataset [prog, "camera-imu".toList, config, data] = .ok (.vi s calls, 0) ∧
      calls.length = 2 ∧ ∀ k ∈ calls, k.residuals = s.prob.rblocks.map Prod.snd := by
  refine ⟨[⟨VI.setConst c.2 .delay true, s.prob.rblocks.map Prod.snd⟩,
    ⟨VI.setConst (VI.setConst c.2 .delay true) .delay false, s.prob.rblocks.map Prod.snd⟩], ?_, ?_⟩
  · unfold inspectMain
    simp only
    rw [if_neg (by decide), if_pos trivial, hc, AprilGrid.ok_bind, hl, AprilGrid.ok_bind]
    unfold VI.solve
    rw [if_neg (by simp)]
    rfl
  · refine ⟨rfl, ?_⟩
    intro k hk
    simp only [List.mem_cons, List.not_mem_nil, or_false] at hk
    rcases hk with rfl | rfl <;> rfl

/-- An inspection that succeeds has data for every camera. -/
theorem inspect_data {env : Setup.InspEnv V} {s : Calib.Cal ℝ V} {valid : List (Int × List (Grid ℝ))} {e : ℝ}
    (h : Setup.inspect env s valid = .ok e) : ∀ cam ∈ Calib.camIdxs s, cam ∈ valid.map Prod.fst := by
  unfold Setup.inspect at h
  split_ifs at h
  obtain ⟨poses, h1, -⟩ := Calib.bind_ok h
  unfold Setup.inspPoses at h1
  have key : ∀ (l : List Int) (a b : List (Int × Geom.Mat4 ℝ)),
      l.foldlM (fun poses cam => Setup.inspCam s valid cam >>= fun c => .ok (c.2.2.foldl (Setup.inspPose env cam c.1 c.2.1) poses)) a = .ok b →
      ∀ cam ∈ l, cam ∈ valid.map Prod.fst := by
    intro l
    induction l with
    | nil => intro a b _ cam hcam; cases hcam
    | cons x l ih =>
      intro a b hl cam hcam
      rw [List.foldlM_cons] at hl
      obtain ⟨a', h2, h3⟩ := Calib.bind_ok hl
      rcases List.mem_cons.mp hcam with rfl | hcam
      · obtain ⟨c, h4, -⟩ := Calib.bind_ok h2
        have := (Setup.inspCam_ok h4).2.2
        rw [← SMap.find_isSome, this]
        rfl
      · exact ih a' b h3 cam hcam
  exact key _ _ _ h1

/-- The cameras of a data set are those that were asked for. -/
theorem preprocess_keys {K : Type} [Field K] {e : Data.Pre K} {gridsPath : List Char} {fs fs' : Data.FileSys K}
    {cams : List (Int × List (List Char) × List Nat)} {out : List (Int × List (Grid K))}
    (h : Data.preprocess e gridsPath fs cams = .ok (fs', out)) : ∀ c ∈ out.map Prod.fst, c ∈ cams.map Prod.fst := by
  unfold Data.preprocess at h
  have key : ∀ (l : List (Int × List (List Char) × List Nat)) (a b : Data.FileSys K × List (Int × List (Grid K))),
      l.foldlM (Data.camStep e gridsPath) a = .ok b → ∀ c ∈ b.2.map Prod.fst, c ∈ a.2.map Prod.fst ∨ c ∈ l.map Prod.fst := by
    intro l
    induction l with
    | nil => intro a b hl c hc; cases hl; exact .inl hc
    | cons x l ih =>
      intro a b hl c hc
      rw [List.foldlM_cons] at hl
      obtain ⟨a', h2, h3⟩ := Calib.bind_ok hl
      obtain ⟨dir, s, -, -, -, -, h4⟩ := Data.camStep_ok h2
      rcases ih a' b h3 c hc with h5 | h5
      · rcases h4 with ⟨-, h4⟩ | ⟨-, h4⟩
        · rw [h4] at h5; exact .inl h5
        · rw [h4, List.map_append, List.mem_append] at h5
          rcases h5 with h5 | h5
          · exact .inl h5
          · right
            simp only [List.map_cons, List.map_nil, List.mem_cons, List.not_mem_nil, or_false] at h5
            rw [h5]
            simp
      · exact .inr (by simp [h5])
  intro c hc
  rcases key cams (fs, []) (fs', out) h c hc with h | h
  · simp at h
  · exact h

/-- **C150, refuted.**  A configuration with a third camera cannot be inspected, whatever is in the data set. -/
theorem C150_third_camera_refuted (i : Insp K V D) (p6 p10 : ℝ → ℝ) (shot : Nat → Nat → ℝ → ℝ → List Char → Grid ℝ)
    (images : List Char → List (List Char) × List Nat) (fs : Data.FileSys ℝ) (prog config data : List Char) (c : Calib.Cal ℝ V)
    (hc : i.camera config = .ok c) (cam : Int) (hm : cam ∈ Calib.camIdxs c) (h0 : cam ≠ 0) (h1 : cam ≠ 1) :
    ∀ r, inspectMain i (fun data => loadDataset p6 p10 shot images data fs >>= fun o => .ok o.2) [prog, "camera".toList, config, data] ≠ .ok r := by
  intro r hr
  obtain ⟨r, n⟩ := r
  obtain ⟨rfl, ⟨-, e, rfl⟩ | ⟨h, -⟩⟩ := (C150_inspect_usage i _ _).2 rfl _ _ hr
  · obtain ⟨valid, c', h2, h3, h4⟩ := (C150_inspect_camera i _ prog config data e).mp hr
    rw [hc] at h3
    cases h3
    obtain ⟨⟨fs', out⟩, h5, h6⟩ := Calib.bind_ok h2
    cases h6
    have := preprocess_keys h5 _ (inspect_data h4 cam hm)
    simp only [List.map_cons, List.map_nil, List.mem_cons, List.not_mem_nil, or_false] at this
    rcases this with h | h
    · exact h0 h
    · exact h1 h
  · simp at h

end

/-- The target every inspection uses. -/
abbrev usualPre {K : Type} [Field K] (p6 p10 : K → K) (shot : Nat → Nat → K → K → List Char → Grid K) : Data.Pre K :=
  ⟨6, 6, 88 / 1000, 3 / 10, false, shot 6 6 (88 / 1000) (3 / 10), p6, p10⟩

/-- **C150, the data of an inspection.**  Cameras 0 and 1 have the grids of the images in `mav0/cam0/data` and `mav0/cam1/data`, in
some order: those saved in `mav0/grid0`, if there are any, and otherwise what the detector sees (for the usual target). -/
theorem C150_dataset {K : Type} [Field K] (p6 p10 : K → K) (shot : Nat → Nat → K → K → List Char → Grid K)
    (images : List Char → List (List Char) × List Nat) (data : List Char) (fs fs' : Data.FileSys K) (out : List (Int × List (Grid K)))
    (hS : Data.Shots (usualPre p6 p10 shot)) (hI : ∀ dir, Data.Images (images dir).1)
    (hL : ∀ dir names, Data.Loads (usualPre p6 p10 shot) fs dir names) (h : loadDataset p6 p10 shot images data fs = .ok (fs', out)) :
    (∀ c ∈ out.map Prod.fst, c = 0 ∨ c = 1) ∧ (out.map Prod.fst).Nodup ∧
    Data.Entry (usualPre p6 p10 shot) fs (data ++ "/mav0/grid0/cam0".toList) 0 (images (data ++ "/mav0/cam0/data".toList)).1 out ∧
    Data.Entry (usualPre p6 p10 shot) fs (data ++ "/mav0/grid0/cam1".toList) 1 (images (data ++ "/mav0/cam1/data".toList)).1 out := by
  unfold loadDataset at h
  have hkeys := preprocess_keys h
  obtain ⟨hsub, hall⟩ := Data.C95_cameras (usualPre p6 p10 shot) (data ++ "/mav0/grid0".toList) fs fs'
    [(0, images (data ++ "/mav0/cam0/data".toList)), (1, images (data ++ "/mav0/cam1/data".toList))] out hS
    (show [(0 : Int), 1].Nodup by decide) (by
      intro c hc
      simp only [List.mem_cons, List.not_mem_nil, or_false] at hc
      rcases hc with rfl | rfl <;> exact hI _) (fun _ _ _ _ => hL _ _) h
  have hdir : ∀ c : Int, Data.gridDir (data ++ "/mav0/grid0".toList) c = .ok (data ++ "/mav0/grid0".toList ++ "/cam".toList ++ Text.fmtLd c) :=
    fun c => by
      unfold Data.gridDir
      have : (data ++ "/mav0/grid0".toList).getLast? = some '0' := by
        rw [List.getLast?_append]; rfl
      rw [this]
      simp
  refine ⟨fun c hc => by simpa using hkeys c hc, hsub.nodup (show [(0 : Int), 1].Nodup by decide), ?_, ?_⟩
  · obtain ⟨dir, h1, h2⟩ := hall (0, images (data ++ "/mav0/cam0/data".toList)) (by simp)
    rw [hdir] at h1
    cases h1
    have e : data ++ "/mav0/grid0".toList ++ "/cam".toList ++ Text.fmtLd 0 = data ++ "/mav0/grid0/cam0".toList := by
      rw [List.append_assoc, List.append_assoc]
      congr 1
    rw [e] at h2
    exact h2
  · obtain ⟨dir, h1, h2⟩ := hall (1, images (data ++ "/mav0/cam1/data".toList)) (by simp)
    rw [hdir] at h1
    cases h1
    have e : data ++ "/mav0/grid0".toList ++ "/cam".toList ++ Text.fmtLd 1 = data ++ "/mav0/grid0/cam1".toList := by
      rw [List.append_assoc, List.append_assoc]
      congr 1
    rw [e] at h2
    exact h2

/-- **C150, refuted.**  The boards of an inspection are measured as 6 x 6 tags of 88 mm with a spacing of 0.3, whatever target
the configuration names. -/
theorem C150_target_refuted {K : Type} [Field K] (p6 p10 : K → K) (shot : Nat → Nat → K → K → List Char → Grid K)
    (images : List Char → List (List Char) × List Nat) (data : List Char) (fs fs' : Data.FileSys K) (out : List (Int × List (Grid K)))
    (hS : Data.Shots (usualPre p6 p10 shot)) (hI : ∀ dir, Data.Images (images dir).1) (hn : ∀ p, fs p = none)
    (h : loadDataset p6 p10 shot images data fs = .ok (fs', out)) :
    ∀ e ∈ out, ∀ g ∈ e.2, g.tagRows = 6 ∧ g.tagCols = 6 ∧ g.tagSize = 88 / 1000 ∧ g.tagSpacing = 3 / 10 := by
  obtain ⟨hk, hnd, h0, h1⟩ := C150_dataset p6 p10 shot images data fs fs' out hS hI (by
    intro dir names n _ _ f hf
    rw [hn] at hf; cases hf) h
  have key : ∀ (cam : Int) (dir : List Char) (names : List (List Char)), Data.Entry (usualPre p6 p10 shot) fs dir cam names out →
      ∀ l, (cam, l) ∈ out → ∀ g ∈ l, g.tagRows = 6 ∧ g.tagCols = 6 ∧ g.tagSize = 88 / 1000 ∧ g.tagSpacing = 3 / 10 := by
    intro cam dir names hent l hl g hg
    obtain ⟨gs, hgs, hent⟩ := hent
    rcases hent with ⟨-, l', hl', hp⟩ | ⟨-, hno⟩
    · have : l' = l := (Prod.mk.inj (List.inj_on_of_nodup_map hnd hl' hl rfl)).2
      subst this
      have hg' := hp.mem_iff.mp hg
      have : ∀ (ns : List (List Char)) (gs : List (Grid K)),
          List.Forall₂ (Data.Outcome (usualPre p6 p10 shot) fs dir) ns gs →
          g ∈ gs → ∃ name, g = shot 6 6 (88 / 1000) (3 / 10) name := by
        intro ns gs hf
        induction hf with
        | nil => intro h; cases h
        | @cons n g' _ _ ho _ ih =>
          intro h
          rcases List.mem_cons.mp h with rfl | h
          · exact ⟨n, ho.2 (hn _)⟩
          · exact ih h
      obtain ⟨name, rfl⟩ := this _ _ hgs hg'
      obtain ⟨m, extra, hr, -⟩ := hS.rel name
      exact ⟨hr.hrows, hr.hcols, hr.hsize, hr.hspacing⟩
    · exact absurd (List.mem_map_of_mem hl) hno
  rintro ⟨c, l⟩ he
  rcases hk c (List.mem_map_of_mem he) with rfl | rfl
  · exact key _ _ _ h0 l he
  · exact key _ _ _ h1 l he

/-! ### Witnesses -/

namespace Witness

/-- A calibrator that is the text of its configuration and data; the configuration `bad` is refused. -/
def echo : Steps (List Char) (List Char) where
  make _ config _ := if config = "bad".toList then .error .fatal else .ok config
  load _ data c := .ok (c ++ data)
  solve c := .ok (c ++ "!".toList)
  doc c := .ok c

def empty : Disk (List Char) := fun _ => none

example : ∃ d', cameraMain echo (fun _ => true) ["calib".toList, "a.yaml".toList, "/d".toList] empty = (d', .ok 0) ∧
    d' "/d/calib_camera-results.yaml".toList = some (.doc "a.yaml/d!".toList) :=
  C150_results (IsProgram.camera (s := echo) (w := fun _ => true)) _ "a.yaml".toList "/d".toList empty "a.yaml/d!".toList _
    (by decide +kernel) rfl rfl

example : viMain echo (fun _ => false) ["calib".toList, "a.yaml".toList, "/d".toList] empty = (empty, .ok 0) :=
  C150_status_refuted (IsProgram.vi (s := echo) (w := fun _ => false)) _ "a.yaml".toList "/d".toList empty "a.yaml/d!".toList
    (by decide +kernel) rfl

example : mocapMain echo (fun _ => true) ["calib".toList, "bad".toList, "/d".toList] empty = (empty, .error .fatal) :=
  C150_fails (IsProgram.mocap (s := echo) (w := fun _ => true)) _ "bad".toList "/d".toList empty .fatal (by decide +kernel)

/-- A calibrator of camera 2 alone. -/
example : ∃ d', cameraMain ⟨fun _ _ _ => .ok { stereo with exts := [] }, fun _ _ c => .ok c, .ok, fun c => saveCam c (.map []) []⟩
      (fun _ => true) [[], [], "/d".toList] (fun _ => some (.doc (.map []))) = (d', .error .exn) ∧
    d' "/d/calib_camera-results.yaml".toList = some .broken :=
  C150_earlier_refuted _ _ _ (fun _ => .map []) (fun _ => []) [] [] "/d".toList _ _ _ _ _ rfl rfl rfl rfl rfl

/-- The calibration of `InspectWitness`, inspected. -/
noncomputable def insp : Insp ℚ Unit Unit where
  camera _ := .ok Setup.InspectWitness.cal
  env := Setup.InspectWitness.env
  vi _ := .ok (VI.St.new true 2 false false, fun _ => false)
  load _ s := .ok s
  factor := 3
  res _ := (0, 0)

/-- Images that are off by 5 pixels at one time of two. -/
example : ∃ e, inspectMain insp (fun _ => .ok (Setup.InspectWitness.valid 5 7)) [[], "camera".toList, [], []] = .ok (.camera e, 0) := by
  have h : Setup.inspect Setup.InspectWitness.env Setup.InspectWitness.cal (Setup.InspectWitness.valid 5 7) = .ok (Real.sqrt (25 / 3)) :=
    Setup.InspectWitness.off
  exact ⟨_, (C150_inspect_camera insp _ [] [] [] _).mpr ⟨_, _, rfl, rfl, h⟩⟩

example : ∃ calls, inspectMain insp (fun _ => .error .fatal) [[], "camera-imu".toList, [], []] =
      .ok (.vi (VI.St.new true 2 false false) calls, 0) ∧ calls.length = 2 ∧ ∀ k ∈ calls, k.residuals = [] :=
  C150_inspect_vi insp _ [] [] [] (VI.St.new true 2 false false, fun _ => false) _ rfl rfl

/-- A detector that sees one corner. -/
def see (rows cols : Nat) (size spacing : ℚ) (name : List Char) : Grid ℚ :=
  match AprilGrid.run (AprilGrid.new (Data.tsOf name) rows cols size spacing) [.add 3 1 (2, 5)] with
  | .ok g => g
  | .error _ => AprilGrid.default

theorem see_eq {rows cols : Nat} {size spacing : ℚ} {name : List Char} {g : Grid ℚ}
    (h : AprilGrid.run (AprilGrid.new (Data.tsOf name) rows cols size spacing) [.add 3 1 (2, 5)] = .ok g) :
    see rows cols size spacing name = g := by
  unfold see
  rw [h]

attribute [local irreducible] see

theorem see_shots : Data.Shots (usualPre id id see) := by
  intro name
  refine ⟨[((3, 1), (2, 5))], ?_, ?_⟩
  · intro c hc
    simp only [List.mem_cons, List.not_mem_nil, or_false] at hc
    subst hc
    simp [AprilGrid.Spec.Valid]
  · obtain ⟨g, hg, -⟩ := AprilGrid.run_rel (Data.tsOf name) 6 6 (88 / 1000 : ℚ) (3 / 10) [.add 3 1 (2, 5)] (by
      intro op hop
      simp only [List.mem_cons, List.not_mem_nil, or_false] at hop
      subst hop
      simp [AprilGrid.Spec.OpValid, AprilGrid.Spec.Valid])
    exact hg.trans (congrArg Except.ok (see_eq hg).symm)

/-- One image of camera 0, none of camera 1. -/
def shots (dir : List Char) : List (List Char) × List Nat :=
  if dir = "/d/mav0/cam0/data".toList then (["1403636579763555584.png".toList], List.replicate 6 0) else ([], [])

example : ∀ dir, Data.Images (shots dir).1 := by
  intro dir
  unfold shots
  split_ifs
  · exact ⟨by decide, by decide⟩
  · exact ⟨by decide, by decide⟩

example : (match loadDataset id id see shots "/d".toList (fun _ => none) with
    | .ok r => decide (r.2.map (fun e => (e.1, e.2.map Grid.timestamp)) = [(0, [1403636579763555584])])
    | .error _ => false) = true := by decide +kernel

end Witness

end Yac.Tool.Prog
