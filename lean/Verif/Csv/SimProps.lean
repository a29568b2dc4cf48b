import Verif.Csv.Props

/-! # C130: saved simulations and trajectories -/

namespace Yac.Csv
open Yac.Num Yac.Text Yac.Fmt Yac.Geom Matrix

theorem zipRows2_eq {α β : Type} (row : ℤ → α → β → List Char) (l : List (ℤ × α × β)) :
    zipRows2 row (l.map Prod.fst) (l.map (fun e => e.2.1)) (l.map (fun e => e.2.2)) = .ok (l.flatMap fun e => row e.1 e.2.1 e.2.2) := by
  induction l with
  | nil => rfl
  | cons a l ih =>
    show (zipRows2 row (l.map Prod.fst) (l.map (fun e => e.2.1)) (l.map (fun e => e.2.2)) >>= _) = _
    rw [ih]
    rfl

theorem camPoses_eq (l : List (ℤ × Quat ℚ × Vec3 ℚ)) :
    camPoses (l.map Prod.fst) (l.map (fun e => e.2.1)) (l.map (fun e => e.2.2)) = .ok (l.map fun e => tfQuat e.2.1 e.2.2) := by
  induction l with
  | nil => rfl
  | cons a l ih =>
    show (camPoses (l.map Prod.fst) (l.map (fun e => e.2.1)) (l.map (fun e => e.2.2)) >>= _) = _
    rw [ih]
    rfl

/-- A frame of the simulation. -/
structure Frame where
  ts : ℤ
  obs : List ℕ
  kps : List (ℚ × ℚ)
  q : Quat ℚ
  r : Vec3 ℚ

/-- A sample of the simulation. -/
structure Sample where
  ts : ℤ
  acc : Vec3 ℚ
  gyr : Vec3 ℚ
  q : Quat ℚ
  r : Vec3 ℚ
  v : Vec3 ℚ

/-- The data of these frames and samples. -/
def dataOf (features : List (Vec3 ℚ)) (fs : List Frame) (ss : List Sample) : SimData where
  features := features
  camTs := fs.map (·.ts)
  observations := fs.map (·.obs)
  keypoints := fs.map (·.kps)
  camRot := fs.map (·.q)
  camPos := fs.map (·.r)
  imuTs := ss.map (·.ts)
  imuAcc := ss.map (·.acc)
  imuGyr := ss.map (·.gyr)
  imuRot := ss.map (·.q)
  imuPos := ss.map (·.r)
  imuVel := ss.map (·.v)

theorem zipRows_of {α β : Type} (row : ℤ → α → List Char) (l : List β) (t : β → ℤ) (y : β → α) :
    zipRows row (l.map t) (l.map y) = .ok (l.flatMap fun e => row (t e) (y e)) := by
  have := zipRows_pairs row (l.map fun e => (t e, y e))
  simp only [List.map_map, List.flatMap_map] at this
  exact this

theorem zipRows2_of {α β γ : Type} (row : ℤ → α → β → List Char) (l : List γ) (t : γ → ℤ) (y : γ → α) (z : γ → β) :
    zipRows2 row (l.map t) (l.map y) (l.map z) = .ok (l.flatMap fun e => row (t e) (y e) (z e)) := by
  have := zipRows2_eq row (l.map fun e => (t e, y e, z e))
  simp only [List.map_map, List.flatMap_map] at this
  exact this

/-- What `simSave` writes. -/
theorem sim_files (quatOf : Mat4 ℚ → Quat ℚ) (features : List (Vec3 ℚ)) (fs : List Frame) (ss : List Sample) :
    ∃ poses, savePoses quatOf (fs.map (·.ts)) (fs.map fun f => tfQuat f.q f.r) = .ok poses ∧
    simSave quatOf true (dataOf features fs ss) = .ok ⟨features.flatMap f3, fs.flatMap (fun f => obsRow f.ts f.obs), fs.flatMap (fun f => kpRow f.ts f.kps),
      poses, ss.flatMap (fun s => imuRow s.ts s.acc s.gyr), ss.flatMap (fun s => imuPoseRow s.ts s.q s.r), ss.flatMap (fun s => imuVelRow s.ts s.v)⟩ := by
  have h1 : camPoses (fs.map (·.ts)) (fs.map (·.q)) (fs.map (·.r)) = .ok (fs.map fun f => tfQuat f.q f.r) := by
    have := camPoses_eq (fs.map fun f => (f.ts, f.q, f.r))
    simp only [List.map_map] at this
    exact this
  have h2 : savePoses quatOf (fs.map (·.ts)) (fs.map fun f => tfQuat f.q f.r) = .ok (poseHeader ++
      ((fs.map (·.ts)).zip (fs.map fun f => tfQuat f.q f.r)).flatMap (fun e => poseText e.1 (tfTrans e.2) (quatOf e.2))) := by
    unfold savePoses
    rw [if_pos (by simp)]
  refine ⟨_, h2, ?_⟩
  show (zipRows obsRow (fs.map (·.ts)) (fs.map (·.obs)) >>= fun obs => zipRows kpRow (fs.map (·.ts)) (fs.map (·.kps)) >>= fun kps =>
    camPoses (fs.map (·.ts)) (fs.map (·.q)) (fs.map (·.r)) >>= fun ps => savePoses quatOf (fs.map (·.ts)) ps >>= fun poses =>
    zipRows2 imuRow (ss.map (·.ts)) (ss.map (·.acc)) (ss.map (·.gyr)) >>= fun imu =>
    zipRows2 imuPoseRow (ss.map (·.ts)) (ss.map (·.q)) (ss.map (·.r)) >>= fun imuPose =>
    zipRows imuVelRow (ss.map (·.ts)) (ss.map (·.v)) >>= fun imuVel =>
    Except.ok (⟨features.flatMap f3, obs, kps, poses, imu, imuPose, imuVel⟩ : SimFiles)) = _
  rw [zipRows_of, zipRows_of, h1, zipRows2_of, zipRows2_of, zipRows_of]
  show (savePoses quatOf (fs.map (·.ts)) (fs.map fun f => tfQuat f.q f.r) >>= _) = _
  rw [h2]
  rfl

/-- A timestamp that `PRIu64` prints as it is. -/
def IsTs (t : ℤ) : Prop := 0 ≤ t ∧ t < 2 ^ 63

theorem line_cons {c : List Char} {cs : List (List Char)} (h : cs ≠ []) : line (c :: cs) = c ++ ',' :: line cs := by
  cases cs with
  | nil => exact absurd rfl h
  | cons => rfl

theorem obsText_line (obs : List ℕ) (h : obs ≠ []) : obsText obs = line (obs.map natText) := by
  induction obs with
  | nil => exact absurd rfl h
  | cons o t ih =>
    cases t with
    | nil => rfl
    | cons o' t =>
      show natText o ++ ',' :: obsText (o' :: t) = natText o ++ ',' :: line ((o' :: t).map natText)
      rw [ih (by simp)]

/-- The cells of the keypoints. -/
def kpCells (kps : List (ℚ × ℚ)) : List (List Char) := kps.flatMap fun p => [fmtF p.1, fmtF p.2]

theorem kpCells_ne {kps : List (ℚ × ℚ)} (h : kps ≠ []) : kpCells kps ≠ [] := by
  cases kps with
  | nil => exact absurd rfl h
  | cons p t => simp [kpCells]

theorem kpText_line (kps : List (ℚ × ℚ)) (h : kps ≠ []) : kpText kps = line (kpCells kps) := by
  induction kps with
  | nil => exact absurd rfl h
  | cons p t ih =>
    cases t with
    | nil => rfl
    | cons p' t =>
      have hc : kpCells (p :: p' :: t) = fmtF p.1 :: fmtF p.2 :: kpCells (p' :: t) := rfl
      rw [hc, line_cons (by simp), line_cons (kpCells_ne (by simp)), ← ih (by simp)]
      rfl

theorem file_map' {α : Type} {l : List α} {text : α → List Char} (m : α → List (List Char → Prop)) (c : α → List (List Char))
    (ht : ∀ a ∈ l, text a = line (c a)) (hn : ∀ a, c a ≠ []) (h : ∀ a ∈ l, List.Forall₂ Says (m a) (c a)) : FileIs (l.flatMap text) (l.map m) := by
  refine file_is (cells := l.map c) ?_ ?_ (rows_map l m c h)
  · rw [List.flatMap_map]
    clear h
    induction l with
    | nil => rfl
    | cons a l ih => rw [List.flatMap_cons, List.flatMap_cons, ht a (by simp), ih (fun x hx => ht x (by simp [hx]))]
  · intro r hr
    obtain ⟨a, -, rfl⟩ := List.mem_map.mp hr
    exact hn a

theorem says_map {α : Type} (l : List α) (m : α → List Char → Prop) (c : α → List Char) (h : ∀ a, Says (m a) (c a)) :
    List.Forall₂ Says (l.map m) (l.map c) := by
  induction l with
  | nil => exact .nil
  | cons a l ih => exact .cons (h a) ih

theorem says_kps (kps : List (ℚ × ℚ)) : List.Forall₂ Says (kps.flatMap fun p => [FixCell p.1, FixCell p.2]) (kpCells kps) := by
  induction kps with
  | nil => exact .nil
  | cons p t ih => exact .cons (says_fix _) (.cons (says_fix _) ih)

/-- The saved simulation: features, per frame the indices of the features and their pixels (for frames that see a feature),
per sample the measurements, pose and velocity; the camera poses can be loaded again. -/
theorem C130_sim_partial (quatOf : Mat4 ℚ → Quat ℚ) (features : List (Vec3 ℚ)) (fs : List Frame) (ss : List Sample)
    (hf : ∀ f ∈ fs, IsTs f.ts ∧ f.obs ≠ [] ∧ f.kps ≠ []) (hs : ∀ s ∈ ss, IsTs s.ts) :
    ∃ out, simSave quatOf true (dataOf features fs ss) = .ok out ∧
      FileIs out.features (features.map fix3) ∧
      FileIs out.observations (fs.map fun f => IntCell f.ts :: IntCell f.obs.length :: f.obs.map (fun n : ℕ => IntCell n)) ∧
      FileIs out.keypoints (fs.map fun f => IntCell f.ts :: IntCell f.kps.length :: f.kps.flatMap (fun p => [FixCell p.1, FixCell p.2])) ∧
      FileIs out.imu (ss.map fun s => IntCell s.ts :: (fix3 s.acc ++ fix3 s.gyr)) ∧
      FileIs out.imuPose (ss.map fun s => IntCell s.ts :: FixCell s.q.w :: FixCell s.q.x :: FixCell s.q.y :: FixCell s.q.z :: fix3 s.r) ∧
      FileIs out.imuVel (ss.map fun s => IntCell s.ts :: fix3 s.v) ∧
      ∃ poses, loadPoses out.camPose = .ok poses ∧ List.Forall₂ (fun (f : Frame) o => o.1 = f.ts ∧ PoseBack quatOf (tfQuat f.q f.r) o.2) fs poses := by
  obtain ⟨text, h1, h2⟩ := sim_files quatOf features fs ss
  refine ⟨_, h2, (file_map _ (fun v => [fmtF (v 0), fmtF (v 1), fmtF (v 2)]) (fun v => rfl) (fun v => by simp)
      (fun v _ => .cons (says_fix _) <| .cons (says_fix _) <| .cons (says_fix _) .nil)), ?_, ?_, ?_, ?_, ?_, ?_⟩
  · refine file_map' _ (fun f => fmtU64 f.ts :: natText f.obs.length :: f.obs.map natText) (fun f h => ?_) (fun f => by simp) (fun f h => ?_)
    · have hn := (hf f h).2.1
      rw [line_cons (by simp), line_cons (by simpa using hn), ← obsText_line _ hn]
      rfl
    · exact .cons (says_u64 (hf f h).1.1 (hf f h).1.2) (.cons (says_nat _) (says_map _ _ _ (fun n => says_nat n)))
  · refine file_map' _ (fun f => fmtU64 f.ts :: natText f.kps.length :: kpCells f.kps) (fun f h => ?_) (fun f => by simp) (fun f h => ?_)
    · have hn := (hf f h).2.2
      rw [line_cons (by simp), line_cons (kpCells_ne hn), ← kpText_line _ hn]
      rfl
    · exact .cons (says_u64 (hf f h).1.1 (hf f h).1.2) (.cons (says_nat _) (says_kps _))
  · exact file_map _ (fun s => [fmtU64 s.ts, fmtF (s.acc 0), fmtF (s.acc 1), fmtF (s.acc 2), fmtF (s.gyr 0), fmtF (s.gyr 1), fmtF (s.gyr 2)])
      (fun s => rfl) (fun s => by simp) (fun s h => .cons (says_u64 (hs s h).1 (hs s h).2) <| .cons (says_fix _) <| .cons (says_fix _) <|
        .cons (says_fix _) <| .cons (says_fix _) <| .cons (says_fix _) <| .cons (says_fix _) .nil)
  · exact file_map _ (fun s => [fmtU64 s.ts, fmtF s.q.w, fmtF s.q.x, fmtF s.q.y, fmtF s.q.z, fmtF (s.r 0), fmtF (s.r 1), fmtF (s.r 2)])
      (fun s => rfl) (fun s => by simp) (fun s h => .cons (says_u64 (hs s h).1 (hs s h).2) <| .cons (says_fix _) <| .cons (says_fix _) <|
        .cons (says_fix _) <| .cons (says_fix _) <| .cons (says_fix _) <| .cons (says_fix _) <| .cons (says_fix _) .nil)
  · exact file_map _ (fun s => [fmtU64 s.ts, fmtF (s.v 0), fmtF (s.v 1), fmtF (s.v 2)])
      (fun s => rfl) (fun s => by simp) (fun s h => .cons (says_u64 (hs s h).1 (hs s h).2) <| .cons (says_fix _) <| .cons (says_fix _) <|
        .cons (says_fix _) .nil)
  · obtain ⟨file, out, e1, e2, e3⟩ := C19_roundtrip quatOf (fs.map fun f => (f.ts, tfQuat f.q f.r)) (by
      intro e he
      obtain ⟨f, h, rfl⟩ := List.mem_map.mp he
      have := (hf f h).1
      unfold IsTs at this
      constructor
      · show -2 ^ 63 ≤ f.ts
        omega
      · exact this.2)
    simp only [List.map_map] at e1
    have : text = file := by
      have := h1.symm.trans e1
      cases this
      rfl
    subst this
    exact ⟨out, e2, List.forall₂_map_left_iff.mp e3⟩

theorem count_natText (n : ℕ) : (natText n).count '\n' = 0 :=
  List.count_eq_zero.mpr (fun h => absurd (natText_dig n _ h) (by decide))

theorem count_obs (obs : List ℕ) : (obsText obs).count '\n' = if obs = [] then 0 else 1 := by
  induction obs with
  | nil => rfl
  | cons o t ih =>
    cases t with
    | nil => simp [obsText, count_natText]
    | cons o' t =>
      show (natText o ++ ',' :: obsText (o' :: t)).count '\n' = _
      rw [List.count_append, count_natText, List.count_cons_of_ne (by decide), ih]
      simp

theorem count_fmtF (x : ℚ) : (fmtF x).count '\n' = 0 := List.count_eq_zero.mpr (cell_token (token_fmtF x)).2

theorem count_kps (kps : List (ℚ × ℚ)) : (kpText kps).count '\n' = if kps = [] then 0 else 1 := by
  induction kps with
  | nil => rfl
  | cons p t ih =>
    cases t with
    | nil => simp [kpText, count_fmtF]
    | cons p' t =>
      show (fmtF p.1 ++ ',' :: (fmtF p.2 ++ ',' :: kpText (p' :: t))).count '\n' = _
      rw [List.count_append, count_fmtF, List.count_cons_of_ne (by decide), List.count_append, count_fmtF, List.count_cons_of_ne (by decide), ih]
      simp

/-- A frame that sees no feature does not end its line: the files have fewer lines than there are frames, and the row of the next
frame is appended to the row of this one. -/
theorem C130_empty_frame_refuted (quatOf : Mat4 ℚ → Quat ℚ) (features : List (Vec3 ℚ)) (fs : List Frame) (ss : List Sample)
    (h : ∃ f ∈ fs, f.obs = [] ∧ f.kps = []) :
    ∃ out, simSave quatOf true (dataOf features fs ss) = .ok out ∧ out.observations.count '\n' < fs.length ∧ out.keypoints.count '\n' < fs.length := by
  obtain ⟨text, h1, h2⟩ := sim_files quatOf features fs ss
  refine ⟨_, h2, ?_, ?_⟩
  · show (fs.flatMap (fun f => obsRow f.ts f.obs)).count '\n' < fs.length
    have row : ∀ f : Frame, (obsRow f.ts f.obs).count '\n' = if f.obs = [] then 0 else 1 := by
      intro f
      unfold obsRow fmtU64
      rw [List.count_append, count_natText, List.count_cons_of_ne (by decide), List.count_append, count_natText, List.count_cons_of_ne (by decide), count_obs]
      simp
    have le : ∀ l : List Frame, (l.flatMap (fun f => obsRow f.ts f.obs)).count '\n' ≤ l.length := by
      intro l
      induction l with
      | nil => simp
      | cons a l ih =>
        rw [List.flatMap_cons, List.count_append, row, List.length_cons]
        split_ifs <;> omega
    obtain ⟨f, hf, e, -⟩ := h
    obtain ⟨a, b, rfl⟩ := List.append_of_mem hf
    rw [List.flatMap_append, List.flatMap_cons, List.count_append, List.count_append, row f, if_pos e]
    have := le a
    have := le b
    simp only [List.length_append, List.length_cons]
    omega
  · show (fs.flatMap (fun f => kpRow f.ts f.kps)).count '\n' < fs.length
    have row : ∀ f : Frame, (kpRow f.ts f.kps).count '\n' = if f.kps = [] then 0 else 1 := by
      intro f
      unfold kpRow fmtU64
      rw [List.count_append, count_natText, List.count_cons_of_ne (by decide), List.count_append, count_natText, List.count_cons_of_ne (by decide), count_kps]
      simp
    have le : ∀ l : List Frame, (l.flatMap (fun f => kpRow f.ts f.kps)).count '\n' ≤ l.length := by
      intro l
      induction l with
      | nil => simp
      | cons a l ih =>
        rw [List.flatMap_cons, List.count_append, row, List.length_cons]
        split_ifs <;> omega
    obtain ⟨f, hf, -, e⟩ := h
    obtain ⟨a, b, rfl⟩ := List.append_of_mem hf
    rw [List.flatMap_append, List.flatMap_cons, List.count_append, List.count_append, row f, if_pos e]
    have := le a
    have := le b
    simp only [List.length_append, List.length_cons]
    omega

/-! ### Lissajous trajectories -/

/-- The names of the columns. -/
def columns : List String := ["#ts", "r_WS_W_x", "r_WS_W_y", "r_WS_W_z", "q_WS_W_x", "q_WS_W_y", "q_WS_W_z", "q_WS_W_w",
  "v_WS_W_x", "v_WS_W_y", "v_WS_W_z", "a_WS_S_x", "a_WS_S_y", "a_WS_S_z", "w_WS_S_x", "w_WS_S_y", "w_WS_S_z"]

/-- What the row of a time must say: position, orientation and velocity in the world, specific force and angular velocity in the
body. -/
def trajRow (t : ℤ) (s : At) : List (List Char → Prop) :=
  IntCell t :: (six3 s.r ++ [SixCell s.q.x, SixCell s.q.y, SixCell s.q.z, SixCell s.q.w] ++ six3 s.v ++
    six3 (s.Cᵀ *ᵥ (s.a + ![0, 0, 10])) ++ six3 (s.Cᵀ *ᵥ s.w))

theorem header_line : lissajousHeader = line (columns.map String.toList) := by decide +kernel

/-- The saved trajectory. -/
theorem C130_trajectory (start stop : ℤ) (traj : ℤ → At) :
    ∃ f, lissajousSave true start stop traj = some f ∧ FileIs f (columns.map Named :: (linspaceTs start stop 1000).map fun t => trajRow t (traj t)) ∧
      lissajousSave false start stop traj = none := by
  refine ⟨_, rfl, ?_, rfl⟩
  set c : ℤ → List (List Char) := fun t =>
    let s := traj t
    let w := s.Cᵀ *ᵥ s.w
    let a := s.Cᵀ *ᵥ (s.a + ![0, 0, 10])
    [fmtLd t, g6 (s.r 0), g6 (s.r 1), g6 (s.r 2), g6 s.q.x, g6 s.q.y, g6 s.q.z, g6 s.q.w, g6 (s.v 0), g6 (s.v 1), g6 (s.v 2),
      g6 (a 0), g6 (a 1), g6 (a 2), g6 (w 0), g6 (w 1), g6 (w 2)] with hc
  refine file_is (cells := columns.map String.toList :: (linspaceTs start stop 1000).map c) ?_ ?_ (.cons ?_ ?_)
  · rw [List.flatMap_cons, header_line, List.flatMap_map]
    rfl
  · intro r hr
    rcases List.mem_cons.mp hr with rfl | hr
    · simp [columns]
    · obtain ⟨t, -, rfl⟩ := List.mem_map.mp hr
      simp [c]
  · have : ∀ s ∈ columns, Says (Named s) s.toList := by
      intro s hs
      refine ⟨?_, rfl⟩
      revert s
      unfold Cell
      decide +kernel
    exact List.forall₂_map_left_iff.mpr (List.forall₂_map_right_iff.mpr (List.forall₂_same.mpr this))
  · refine rows_map _ _ _ (fun t _ => ?_)
    exact .cons (says_int _) <| .cons (says_six _) <| .cons (says_six _) <| .cons (says_six _) <| .cons (says_six _) <| .cons (says_six _) <|
      .cons (says_six _) <| .cons (says_six _) <| .cons (says_six _) <| .cons (says_six _) <| .cons (says_six _) <| .cons (says_six _) <|
      .cons (says_six _) <| .cons (says_six _) <| .cons (says_six _) <| .cons (says_six _) <| .cons (says_six _) .nil

end Yac.Csv
