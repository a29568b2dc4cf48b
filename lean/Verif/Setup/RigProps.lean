import Verif.Setup.RigModel
import Verif.Setup.FocalProps
import Verif.Cam.Props
import Verif.Calib.CameraProps

/-!
# C98: initial intrinsics
-/

namespace Yac.Setup
open Yac.AprilGrid (Grid fullyObservable)
open Yac.Calib Yac.Misc

theorem set_set {κ ν : Type} [LinearOrder κ] (k : κ) (v w : ν) (m : List (κ × ν)) :
    SMap.set k v (SMap.set k w m) = SMap.set k v m := by
  induction m with
  | nil => simp [SMap.set]
  | cons a m ih =>
    obtain ⟨q, u⟩ := a
    rcases lt_trichotomy k q with h | h | h
    · simp [SMap.set, h]
    · subst h; simp [SMap.set]
    · have h' : ¬ k < q := not_lt.mpr h.le
      simp [SMap.set, h, h', ih]

/-- What a camera is given when it is added without intrinsics: focal length `f`, the image centre,
no distortion. -/
noncomputable def centred (w h : ℤ) (f : ℝ) : List ℝ :=
  [f, f, ((w : ℝ) - 1) / 2, ((h : ℝ) - 1) / 2, 0, 0, 0, 0]

/-- The models the calibrator supports. -/
def Supported (projModel distModel : String) : Prop :=
  projModel = "pinhole" ∧ (distModel = "radtan4" ∨ distModel = "equi4")

/-- **C98, the camera added.**  A new camera of a supported model is added with the focal length that
the data of the camera gave, else with the one of a field of view of 120 degrees; principal point at the
centre; no distortion; the flags asked for, the extrinsics of camera 0 always fixed; no other camera
changes. -/
theorem C98_default (s : Rig) (i : Int) (w h : ℤ) (pm dm : String) (ext : List ℝ) (fixI fixE : Bool)
    (hs : Supported pm dm) (hn : SMap.find i s.cal.params = none) :
    ∃ s', addCamDefault s i w h pm dm ext fixI fixE = .ok s' ∧ s'.focal = s.focal ∧
      (∀ f, SMap.find i s.focal = some f →
        SMap.find i s'.cal.params = some ⟨centred w h f, fixI⟩) ∧
      (SMap.find i s.focal = none → ∃ f, f * Real.tan (60 * (Real.pi / 180)) = w / 2 ∧
        SMap.find i s'.cal.params = some ⟨centred w h f, fixI⟩) ∧
      SMap.find i s'.cal.exts = some ⟨ext, decide (i = 0) || fixE⟩ ∧
      (∀ j, j ≠ i → SMap.find j s'.cal.params = SMap.find j s.cal.params ∧
        SMap.find j s'.cal.exts = SMap.find j s.cal.exts) ∧
      s'.cal.data = s.cal.data ∧ s'.cal.timestamps = s.cal.timestamps := by
  unfold addCamDefault
  rw [if_pos hs.1]
  simp only
  rw [if_pos hs.2]
  have hsu : pm = "pinhole" ∧ (dm = "radtan4" ∨ dm = "equi4") := hs
  unfold addCam Calib.addCamera
  rw [if_pos hsu, hn]
  refine ⟨_, rfl, rfl, ?_, ?_, ?_, ?_, rfl, rfl⟩
  · intro f hf
    simp only [hf, SMap.find_set, if_pos]
    rfl
  · intro hf
    refine ⟨Cam.pinholeFocal w 120, ?_, ?_⟩
    · have := Cam.C39_focal w 120 (by norm_num) (by norm_num)
      rw [← this]; norm_num
    · simp only [hf, SMap.find_set, if_pos]
      rfl
  · simp only [SMap.find_set, if_pos]
    cases decide (i = 0) <;> simp
  · intro j hj
    simp [SMap.find_set, hj]

/-- **C98, models.**  Any other model is refused. -/
theorem C98_unsupported (s : Rig) (i : Int) (w h : ℤ) (pm dm : String) (proj dist ext : List ℝ) (fixI fixE : Bool)
    (hs : ¬ Supported pm dm) :
    addCamDefault s i w h pm dm ext fixI fixE = .error .fatal ∧
    addCam s i pm dm proj dist ext fixI fixE = .error .fatal ∧ paramsInit w h pm dm = .error .fatal := by
  unfold addCamDefault addCam paramsInit
  unfold Supported at hs
  refine ⟨?_, if_neg hs, ?_⟩
  · by_cases h1 : pm = "pinhole"
    · have h2 : ¬ (dm = "radtan4" ∨ dm = "equi4") := fun h => hs ⟨h1, h⟩
      rw [if_pos h1]; simp only; rw [if_neg h2]
    · rw [if_neg h1]
  · by_cases h1 : pm = "pinhole"
    · have h2 : ¬ (dm = "radtan4" ∨ dm = "equi4") := fun h => hs ⟨h1, h⟩
      rw [if_pos h1, if_neg h2]
    · rw [if_neg h1]

/-- **C98, parameter vectors.**  `camera_params_t::init` gives a field of view of 90 degrees and the
image centre (without the half pixel of `add_camera`), and projection and distortion parameters are read
back as they were given. -/
theorem C98_init (w h : ℤ) (pm dm : String) (hs : Supported pm dm) :
    ∃ f v, paramsInit w h pm dm = .ok v ∧ f = (w : ℝ) / 2 ∧
      projParams 4 v = [f, f, (w : ℝ) / 2, (h : ℝ) / 2] ∧ distParams 4 v = [0, 0, 0, 0] := by
  unfold paramsInit
  rw [if_pos hs.1, if_pos hs.2]
  refine ⟨_, _, rfl, rfl, ?_, rfl⟩
  have h1 := Cam.C39_focal w 90 (by norm_num) (by norm_num)
  have h2 : Real.tan (90 / 2 * (Real.pi / 180)) = 1 := by
    rw [show (90 : ℝ) / 2 * (Real.pi / 180) = Real.pi / 4 by ring, Real.tan_pi_div_four]
  rw [h2, mul_one] at h1
  show [Cam.pinholeFocal w 90, Cam.pinholeFocal w 90, (w : ℝ) / 2, (h : ℝ) / 2] = _
  rw [h1]

theorem C98_parts (proj dist : List ℝ) : projParams proj.length (proj ++ dist) = proj ∧
    distParams dist.length (proj ++ dist) = dist := by
  simp [projParams, distParams]

/-! ### Data -/

/-- The focal lengths estimated from the grids of a call: those of the completely seen boards for which
`focal_init` succeeds. -/
def Estimates (solve : LinSolver) (grids : List (Grid ℝ)) (fs : List ℝ) : Prop :=
  ∃ os : List (Option ℝ), List.Forall₂ (fun g o =>
    if g.detected = true ∧ fullyObservable g = .ok true then focalInit solve g 0 = .ok o
    else o = none) grids os ∧ fs = os.filterMap id

theorem mapM_of_forall2 {α β : Type} (f : α → Except Fault β) (l : List α) (bs : List β)
    (h : List.Forall₂ (fun a b => f a = .ok b) l bs) : l.mapM f = .ok bs := by
  induction h with
  | nil => rfl
  | cons h _ ih => rw [List.mapM_cons, h, AprilGrid.ok_bind, ih, AprilGrid.ok_bind]; rfl

theorem gridFocal_eq (solve : LinSolver) (g : Grid ℝ) (o : Option ℝ)
    (hi : g.detected = true → g.init = true)
    (h : if g.detected = true ∧ fullyObservable g = .ok true then focalInit solve g 0 = .ok o else o = none) :
    gridFocal solve true g = .ok o := by
  unfold gridFocal
  by_cases hd : g.detected = true
  · rw [if_pos (by simp [hd])]
    have hb : ∃ b, fullyObservable g = .ok b := by
      unfold fullyObservable; rw [if_pos (hi hd)]; exact ⟨_, rfl⟩
    obtain ⟨b, hb⟩ := hb
    rw [hb, AprilGrid.ok_bind]
    cases b with
    | true => rw [if_pos ⟨hd, hb⟩] at h; simpa using h
    | false =>
      rw [if_neg (by rw [hb]; simp)] at h
      rw [h]; simp
  · rw [if_neg (by simp [hd])]
    rw [if_neg (fun x => hd x.1)] at h
    rw [h]

theorem addData_of (solve : LinSolver) (s : Rig) (cam : Int) (grids : List (Grid ℝ)) (fs : List ℝ)
    (hi : ∀ g ∈ grids, g.detected = true → g.init = true) (h : Estimates solve grids fs) :
    addData solve s cam grids true = storeFocal { s with cal := addCameraData s.cal cam grids } cam fs := by
  obtain ⟨os, ho, rfl⟩ := h
  unfold addData
  have : grids.mapM (gridFocal solve true) = .ok os := by
    apply mapM_of_forall2
    induction ho with
    | nil => exact .nil
    | cons h _ ih =>
      exact .cons (gridFocal_eq solve _ _ (hi _ List.mem_cons_self) h)
        (ih (fun g hg => hi g (List.mem_cons_of_mem _ hg)))
  rw [this, AprilGrid.ok_bind]

/-- **C98, few boards.**  With three estimates or fewer, or without `init_intrinsics`, adding data
changes neither intrinsics nor the stored focal length; the data are stored. -/
theorem C98_few (solve : LinSolver) (s : Rig) (cam : Int) (grids : List (Grid ℝ)) :
    addData solve s cam grids false = .ok { s with cal := addCameraData s.cal cam grids } ∧
    ((∀ g ∈ grids, g.detected = true → g.init = true) → ∀ fs, Estimates solve grids fs → fs.length ≤ 3 →
      addData solve s cam grids true = .ok { s with cal := addCameraData s.cal cam grids }) := by
  constructor
  · unfold addData
    have : grids.mapM (gridFocal solve false) = .ok (List.replicate grids.length none) := by
      apply mapM_const
      intro g _
      unfold gridFocal
      simp
    rw [this, AprilGrid.ok_bind]
    have e : (List.replicate grids.length (none : Option ℝ)).filterMap id = [] := by
      rw [List.filterMap_eq_nil_iff]
      intro a ha
      rw [List.eq_of_mem_replicate ha]; rfl
    rw [e]
    unfold storeFocal
    rw [if_neg (by simp)]
  · intro hi fs hfs hle
    rw [addData_of solve s cam grids fs hi hfs]
    unfold storeFocal
    rw [if_neg (by omega)]

/-- **C98, the focal length.**  With at least four estimates, adding data sets the focal length of the
camera to their median: it is stored for a camera added later, and written to both focal lengths of a
camera that exists, whose other parameters and flag stay. -/
theorem C98_focal (solve : LinSolver) (s : Rig) (cam : Int) (grids : List (Grid ℝ)) (fs : List ℝ) (f : ℝ)
    (hi : ∀ g ∈ grids, g.detected = true → g.init = true) (hfs : Estimates solve grids fs)
    (hlen : 4 ≤ fs.length) (hf : Num.median fs = .ok f) :
    (SMap.find cam s.cal.params = none →
      addData solve s cam grids true = .ok ⟨addCameraData s.cal cam grids, SMap.set cam f s.focal⟩) ∧
    (∀ fx fy rest fixed, SMap.find cam s.cal.params = some ⟨fx :: fy :: rest, fixed⟩ →
      ∃ s', addData solve s cam grids true = .ok s' ∧ s'.focal = SMap.set cam f s.focal ∧
        SMap.find cam s'.cal.params = some ⟨f :: f :: rest, fixed⟩ ∧
        (∀ j, j ≠ cam → SMap.find j s'.cal.params = SMap.find j s.cal.params) ∧
        s'.cal = { addCameraData s.cal cam grids with params := s'.cal.params }) := by
  have hpar : (addCameraData s.cal cam grids).params = s.cal.params := by
    obtain ⟨d, t, e⟩ := addCameraData_frame s.cal cam grids
    rw [e]
  rw [addData_of solve s cam grids fs hi hfs]
  unfold storeFocal
  rw [if_pos (by omega), hf, AprilGrid.ok_bind]
  simp only [hpar]
  constructor
  · intro hn
    rw [hn]
  · intro fx fy rest fixed hp
    rw [hp]
    refine ⟨_, rfl, rfl, ?_, ?_, rfl⟩
    · simp [SMap.find_set]
    · intro j hj
      simp [SMap.find_set, hj]

theorem addCameraData_addCamera (c : Cal ℝ (List ℝ)) (cam : Int) (grids : List (Grid ℝ))
    (p : List (Int × CamP (List ℝ))) (e : List (Int × CamP (List ℝ))) (b : Solver.CBook Par (Res ℝ)) :
    addCameraData { c with params := p, exts := e, solver := b } cam grids =
      { addCameraData c cam grids with params := p, exts := e, solver := b } := by
  unfold addCameraData
  induction grids generalizing c with
  | nil => rfl
  | cons g l ih =>
    rw [List.foldl_cons, List.foldl_cons, ← ih]
    rfl

/-- **C98, the order does not matter.**  For a new camera added without intrinsics: adding its data
before or after the camera gives the same calibrator. -/
theorem C98_order (solve : LinSolver) (s : Rig) (i : Int) (w h : ℤ) (pm dm : String) (ext : List ℝ)
    (fixI fixE init : Bool) (grids : List (Grid ℝ)) (hn : SMap.find i s.cal.params = none) :
    (addData solve s i grids init >>= fun s => addCamDefault s i w h pm dm ext fixI fixE).toOption =
    (addCamDefault s i w h pm dm ext fixI fixE >>= fun s => addData solve s i grids init).toOption := by
  have hpar : (addCameraData s.cal i grids).params = s.cal.params := by
    obtain ⟨d, t, e⟩ := addCameraData_frame s.cal i grids
    rw [e]
  by_cases hs : Supported pm dm
  · obtain ⟨s', hs', _⟩ := C98_default s i w h pm dm ext fixI fixE hs hn
    rw [hs', AprilGrid.ok_bind]
    unfold addCamDefault addCam Calib.addCamera at hs'
    rw [if_pos hs.1] at hs'
    simp only at hs'
    have hsu : pm = "pinhole" ∧ (dm = "radtan4" ∨ dm = "equi4") := hs
    rw [if_pos hs.2, if_pos hsu, hn] at hs'
    simp only [Option.isSome_none, Bool.false_eq_true, if_false, AprilGrid.ok_bind, Except.ok.injEq] at hs'
    unfold addData
    cases hm : grids.mapM (gridFocal solve init) with
    | error e => rfl
    | ok fs =>
      rw [AprilGrid.ok_bind, AprilGrid.ok_bind]
      have hexts : (addCameraData s.cal i grids).exts = s.cal.exts ∧
          (addCameraData s.cal i grids).solver = s.cal.solver := by
        obtain ⟨d, t, e⟩ := addCameraData_frame s.cal i grids
        rw [e]; exact ⟨rfl, rfl⟩
      unfold storeFocal
      by_cases hl : (fs.filterMap id).length > 3
      · rw [if_pos hl, if_pos hl]
        cases hmed : Num.median (fs.filterMap id) with
        | error e => rfl
        | ok f =>
          rw [AprilGrid.ok_bind, AprilGrid.ok_bind]
          simp only [hpar, hn]
          rw [AprilGrid.ok_bind, ← hs']
          unfold addCamDefault addCam Calib.addCamera
          rw [if_pos hs.1]
          simp only [addCameraData_addCamera]
          rw [if_pos hs.2, if_pos hsu]
          simp only [hpar, hn, SMap.find_set, if_pos, Option.isSome_none, Bool.false_eq_true, if_false,
            AprilGrid.ok_bind, List.cons_append, writeFocal, set_set, hexts.1, hexts.2]
      · rw [if_neg hl, if_neg hl, AprilGrid.ok_bind, ← hs']
        unfold addCamDefault addCam Calib.addCamera
        rw [if_pos hs.1]
        simp only [addCameraData_addCamera]
        rw [if_pos hs.2, if_pos hsu]
        simp only [hpar, hn, Option.isSome_none, Bool.false_eq_true, if_false,
            AprilGrid.ok_bind, hexts.1, hexts.2]
  · have hfat := fun s => (C98_unsupported s i w h pm dm [] [] ext fixI fixE hs).1
    rw [hfat s, AprilGrid.error_bind]
    cases addData solve s i grids init with
    | error e => rfl
    | ok s₁ => rw [AprilGrid.ok_bind, hfat s₁]

/-- **C98, fisheye cameras.**  Four or more images of the board under an equidistant projection of
focal length `f`, among any number of incompletely seen boards: the camera added afterwards starts with
exactly `f`. -/
theorem C98_fisheye (solve : LinSolver) (hsolve : ∀ rows, IsLeastSquares rows (solve rows)) (s : Rig)
    (i : Int) (w h : ℤ) (pm dm : String) (ext : List ℝ) (fixI fixE : Bool) (hs : Supported pm dm)
    (hn : SMap.find i s.cal.params = none) (f : ℝ) (grids : List (Grid ℝ))
    (hg : ∀ g ∈ grids, g.init = true ∧ (g.nbDetections < (g.tagRows * g.tagCols * 4 : Nat) ∨
      (g.detected = true ∧ Fisheye g 0 f)))
    (h4 : 4 ≤ (grids.filter (fun g => g.nbDetections == ((g.tagRows * g.tagCols * 4 : Nat) : Int))).length) :
    ∃ s₁ s', addData solve s i grids true = .ok s₁ ∧ addCamDefault s₁ i w h pm dm ext fixI fixE = .ok s' ∧
      SMap.find i s'.cal.params = some ⟨centred w h f, fixI⟩ := by
  obtain ⟨fs, hfs, hlen, hall⟩ : ∃ fs, Estimates solve grids fs ∧
      fs.length = (grids.filter (fun g => g.nbDetections == ((g.tagRows * g.tagCols * 4 : Nat) : Int))).length ∧
      ∀ x ∈ fs, x = f := by
    clear h4
    induction grids with
    | nil => exact ⟨[], ⟨[], .nil, rfl⟩, rfl, by simp⟩
    | cons g l ih =>
      obtain ⟨fs, ⟨os, ho, rfl⟩, hl, ha⟩ := ih (fun g hg' => hg g (List.mem_cons_of_mem _ hg'))
      obtain ⟨hinit, hc⟩ := hg g List.mem_cons_self
      rcases hc with hlt | ⟨hd, hfe⟩
      · refine ⟨_, ⟨none :: os, .cons ?_ ho, rfl⟩, ?_, by simpa using ha⟩
        · rw [if_neg]
          rintro ⟨_, hfo⟩
          unfold fullyObservable at hfo
          rw [if_pos hinit, Except.ok.injEq, beq_iff_eq] at hfo
          omega
        · rw [List.filter_cons_of_neg]
          · simpa using hl
          · simp only [beq_iff_eq]; omega
      · refine ⟨_, ⟨some f :: os, .cons ?_ ho, rfl⟩, ?_, by simpa using ha⟩
        · rw [if_pos]
          · exact C97_focal solve hsolve g 0 f hfe
          · refine ⟨hd, ?_⟩
            unfold fullyObservable
            rw [if_pos hinit, hfe.count]
            simp
        · rw [List.filter_cons_of_pos]
          · simpa using hl
          · simp only [beq_iff_eq]; exact hfe.count
  have hrep : fs = List.replicate fs.length f := List.eq_replicate_iff.mpr ⟨rfl, hall⟩
  have hmed : Num.median fs = .ok f := by
    rw [hrep]; exact median_replicate _ (by omega) f
  have h1 := (C98_focal solve s i grids fs f (fun g hg' _ => (hg g hg').1) hfs (by omega) hmed).1 hn
  have hpar : (addCameraData s.cal i grids).params = s.cal.params := by
    obtain ⟨d, t, e⟩ := addCameraData_frame s.cal i grids
    rw [e]
  obtain ⟨s', h2, _, h3, _⟩ := C98_default ⟨addCameraData s.cal i grids, SMap.set i f s.focal⟩ i w h pm dm ext
    fixI fixE hs (by show SMap.find i (addCameraData s.cal i grids).params = none; rw [hpar, hn])
  exact ⟨_, s', h1, h2, h3 f (by simp [SMap.find_set])⟩

/-- **C98 refuted.**  Intrinsics that the user gave and fixed are overwritten by data added with the
default arguments: whatever the focal lengths of a camera were, four estimates replace them. -/
theorem C98_fixed_refuted (solve : LinSolver) (s : Rig) (cam : Int) (grids : List (Grid ℝ)) (fs : List ℝ)
    (f fx fy : ℝ) (rest : List ℝ) (hi : ∀ g ∈ grids, g.detected = true → g.init = true)
    (hfs : Estimates solve grids fs) (hlen : 4 ≤ fs.length) (hf : Num.median fs = .ok f) (hne : f ≠ fx)
    (hp : SMap.find cam s.cal.params = some ⟨fx :: fy :: rest, true⟩) :
    ∃ s', addData solve s cam grids true = .ok s' ∧
      SMap.find cam s'.cal.params ≠ SMap.find cam s.cal.params := by
  obtain ⟨s', h1, _, h2, _⟩ := (C98_focal solve s cam grids fs f hi hfs hlen hf).2 fx fy rest true hp
  refine ⟨s', h1, ?_⟩
  rw [h2, hp]
  simp [hne]

/-- **C98 refuted.**  Data added in two calls is not the same as data added in one: with at most three
estimates in each, no focal length is found, however many there are together. -/
theorem C98_split_refuted (solve : LinSolver) (s : Rig) (cam : Int) (g₁ g₂ : List (Grid ℝ)) (f₁ f₂ : List ℝ)
    (f : ℝ) (hi : ∀ g ∈ g₁ ++ g₂, g.detected = true → g.init = true) (h₁ : Estimates solve g₁ f₁)
    (h₂ : Estimates solve g₂ f₂) (l₁ : f₁.length ≤ 3) (l₂ : f₂.length ≤ 3) (l : 4 ≤ (f₁ ++ f₂).length)
    (hf : Num.median (f₁ ++ f₂) = .ok f) (hn : SMap.find cam s.cal.params = none) :
    (∃ s', addData solve s cam (g₁ ++ g₂) true = .ok s' ∧ SMap.find cam s'.focal = some f) ∧
    ∃ s', (addData solve s cam g₁ true >>= fun s => addData solve s cam g₂ true) = .ok s' ∧
      s'.focal = s.focal := by
  have hjoin : Estimates solve (g₁ ++ g₂) (f₁ ++ f₂) := by
    obtain ⟨o₁, a₁, rfl⟩ := h₁
    obtain ⟨o₂, a₂, rfl⟩ := h₂
    exact ⟨o₁ ++ o₂, List.rel_append a₁ a₂, by rw [List.filterMap_append]⟩
  constructor
  · refine ⟨_, (C98_focal solve s cam (g₁ ++ g₂) (f₁ ++ f₂) f hi hjoin l hf).1 hn, ?_⟩
    simp [SMap.find_set]
  · have e1 := (C98_few solve s cam g₁).2 (fun g hg => hi g (List.mem_append_left _ hg)) f₁ h₁ l₁
    have e2 := (C98_few solve { s with cal := addCameraData s.cal cam g₁ } cam g₂).2
      (fun g hg => hi g (List.mem_append_right _ hg)) f₂ h₂ l₂
    rw [e1, AprilGrid.ok_bind, e2]
    exact ⟨_, rfl, rfl⟩

end Yac.Setup
