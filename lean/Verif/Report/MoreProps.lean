import Verif.Report.Props

/-! # C136: camera parameters, poses, errors -/

namespace Yac.Report
open Yac.Text Yac.Fmt Yac.Csv

/-! ### Camera parameters -/

/-- The tokens of `vec2str` as a weave. -/
theorem commaJoin_weave (ts : List Str) (hn : ts ≠ []) : ∃ l : List (Str × Str), l ≠ [] ∧ (∀ p ∈ l, ∀ c ∈ p.1, isSpace c = true) ∧
    commaJoin ts = weave l ∧ l.map Prod.snd = ts := by
  induction ts with
  | nil => exact absurd rfl hn
  | cons a t ih =>
    cases t with
    | nil => exact ⟨[([], a)], by simp, (by intro p hp c hc; simp at hp; subst hp; cases hc), by simp [commaJoin, weave], rfl⟩
    | cons b t =>
      obtain ⟨l, h1, h2, h3, h4⟩ := ih (by simp)
      cases l with
      | nil => exact absurd rfl h1
      | cons x l =>
        refine ⟨([], a) :: (" ".toList ++ x.1, x.2) :: l, by simp, ?_, ?_, ?_⟩
        · intro p hp c hc
          simp only [List.mem_cons] at hp
          rcases hp with rfl | rfl | hp
          · cases hc
          · rcases List.mem_append.mp hc with h | h
            · exact blank_one c h
            · exact h2 x (by simp) c h
          · exact h2 p (by simp [hp]) c hc
        · show a ++ ", ".toList ++ commaJoin (b :: t) = _
          rw [h3]
          cases l with
          | nil => simp [weave]
          | cons y l => simp [weave]
        · simpa using h4

theorem param_row (ts : ℤ) (a : Bool) (p : List ℚ) (hp : p ≠ []) :
    RowText ("    ".toList ++ fmtLd ts ++ ",".toList ++ flagText a ++ ",".toList ++ vec2str p false false)
      (fmtLd ts :: flagText a :: p.map (fmtG 6)) := by
  obtain ⟨l, h1, h2, h3, h4⟩ := commaJoin_weave (p.map (fmtG 6)) (by simpa using hp)
  have hv : vec2str p false false = weave l := by
    unfold vec2str precision
    simpa using h3
  refine ⟨("    ".toList, fmtLd ts) :: ([], flagText a) :: l, by simp, ?_, ?_, ?_⟩
  · intro q hq
    simp only [List.mem_cons] at hq
    rcases hq with rfl | rfl | hq
    · exact ⟨blank_four, Save.token_fmtLd _⟩
    · exact ⟨(by intro c hc; cases hc), token_flag _⟩
    · refine ⟨h2 q hq, ?_⟩
      have : q.2 ∈ p.map (fmtG 6) := by rw [← h4]; exact List.mem_map_of_mem hq
      obtain ⟨x, -, e⟩ := List.mem_map.mp this
      rw [← e]
      exact token_fmtG 6 x
  · rw [hv]
    cases l with
    | nil => exact absurd rfl h1
    | cons x l => simp [weave, List.append_assoc]
  · rw [List.map_cons, List.map_cons, h4]

/-- **C136, the cameras.**  A table for every camera, with one row for every call: time, acceptance and the parameters to six
digits.  Each row has two entries more than there are parameters, but three more are announced. -/
theorem C136_cameras_partial (idxs : List ℤ) (snaps : List Snap) (h : SameCameras idxs snaps) (hs : snaps ≠ []) (n : ℕ) (hn : 0 < n)
    (hp : ∀ s ∈ snaps, ∀ e ∈ s.cams, e.2.length = n) :
    ∃ ts, camTables (after snaps) idxs = .ok ts ∧ ts.map Prod.fst = idxs ∧
    ∀ i t, (i, t) ∈ ts → t.cols = n + 3 ∧ ∃ params : Snap → List ℚ, (∀ s ∈ snaps, (i, params s) ∈ (shown snaps s).cams) ∧
      TableIs { t with cols := n + 2 } (snaps.map (fun s => [IntCell s.ts, IntCell (bit (shown snaps s).accepted)] ++ (params s).map SixCell)) := by
  obtain ⟨hd, hc⟩ := h
  let par : ℤ → Snap → List ℚ := fun i s => (SMap.find i (shown snaps s).cams).getD []
  have hpar : ∀ i ∈ idxs, ∀ s ∈ snaps, (i, par i s) ∈ (shown snaps s).cams := by
    intro i hi s hs
    have hk : i ∈ (shown snaps s).cams.map Prod.fst := by rw [(hc _ (shown_mem hs).1).1]; exact hi
    obtain ⟨v, hv⟩ := Option.isSome_iff_exists.mp (SMap.find_isSome.mpr hk)
    have := SMap.mem_of_find hv
    simp only [par, hv]
    exact this
  have hlen : ∀ i ∈ idxs, ∀ s ∈ snaps, (par i s).length = n := fun i hi s hs => hp _ (shown_mem hs).1 _ (hpar i hi s hs)
  have hfind : ∀ i ∈ idxs, ∀ s ∈ snaps, ∃ m, SMap.find s.ts (after snaps).cams = some m ∧ SMap.find i m = some (par i s) := by
    intro i hi s hs
    exact after_nested Hist.cams Snap.cams rfl (fun _ _ => rfl) hd snaps (fun s hs => (hc s hs).1) (lastAt_some hs) (hpar i hi s hs)
  let text : ℤ → Snap → Str := fun i s =>
    "    ".toList ++ fmtLd s.ts ++ ",".toList ++ flagText (shown snaps s).accepted ++ ",".toList ++ vec2str (par i s) false false
  let tab : ℤ → Table := fun i => ⟨(after snaps).times.length, n + 2 + 1, body (glue (snaps.map (text i)))⟩
  have ht : ∀ i ∈ idxs, camTable (after snaps) i = .ok (tab i) := by
    intro i hi
    have hm : (after snaps).times.mapM (camRow (after snaps) i) = .ok (snaps.map (text i)) := by
      rw [after_times, List.mapM_map]
      refine mapM_ok _ _ _ ?_
      intro s hs
      have e1 : atKey (after snaps).accepted s.ts = .ok (shown snaps s).accepted :=
        at_find (by rw [after_find Hist.accepted Snap.accepted rfl (fun _ _ => rfl), lastAt_some hs]; rfl)
      obtain ⟨m, e2, e3⟩ := hfind i hi s hs
      simp only [Function.comp, camRow, at_find e2, at_find e3, e1, okb]
      rfl
    obtain ⟨s0, rest, hs0⟩ := List.exists_cons_of_ne_nil hs
    have hmem : s0 ∈ snaps := by rw [hs0]; simp
    have htimes : (after snaps).times = s0.ts :: rest.map Snap.ts := by rw [after_times, hs0]; rfl
    obtain ⟨m, e2, e3⟩ := hfind i hi s0 hmem
    unfold camTable
    split
    · rename_i e
      rw [htimes] at e
      cases e
    · rename_i t0 ts e
      rw [htimes] at e
      cases e
      rw [at_find e2, okb, at_find e3, okb, hm, okb, hlen i hi s0 hmem]
  refine ⟨idxs.map (fun i => (i, tab i)), ?_, ?_, ?_⟩
  · refine mapM_ok _ _ _ ?_
    intro i hi
    rw [ht i hi]
    rfl
  · rw [List.map_map]
    simp [Function.comp_def]
  · intro i t hit
    obtain ⟨j, hj, e⟩ := List.mem_map.mp hit
    cases e
    refine ⟨rfl, par i, hpar i hj, ?_⟩
    refine table_is _ _ (fun s => fmtLd s.ts :: flagText (shown snaps s).accepted :: (par i s).map (fmtG 6)) _ _ _ ?_ ?_ ?_ ?_
    · show (after snaps).times.length = _
      rw [after_times]; simp
    · intro s hs
      simp [hlen i hj s hs]
    · intro s hs
      refine param_row _ _ _ ?_
      intro e
      have := hlen i hj s hs
      rw [e] at this
      simp at this
      omega
    · intro s _
      refine .cons (says_int _).2 (.cons (int_flag _) ?_)
      exact forall_map _ _ _ (fun x _ => C126_six x)

/-- A snapshot with one camera that has one parameter. -/
def tiny : Snap := ⟨5, true, [(0, [3])], [(0, 0)], 1, 2, []⟩

/-- **C136, refuted.**  The table of a camera does not have the size that it announces. -/
theorem C136_cameras_refuted : ∃ snaps : List Snap, SameCameras [0] snaps ∧ ∃ t, camTables (after snaps) [0] = .ok [(0, t)] ∧
    (items t.data).length ≠ t.rows * t.cols := by
  have hsame : SameCameras [0] [tiny] := ⟨by simp, by intro s hs; simp at hs; subst hs; exact ⟨rfl, rfl⟩⟩
  refine ⟨[tiny], hsame, ?_⟩
  obtain ⟨ts, h1, h2, h3⟩ := C136_cameras_partial [0] [tiny] hsame (by simp) 1 (by norm_num)
    (by intro s hs e he; simp at hs; subst hs; simp [tiny] at he; subst he; rfl)
  obtain ⟨⟨i, t⟩, rest, rfl⟩ : ∃ e r, ts = e :: r := by
    cases ts with
    | nil => cases h2
    | cons e r => exact ⟨e, r, rfl⟩
  rw [List.map_cons] at h2
  injection h2 with h4 h5
  rw [List.map_eq_nil_iff] at h5
  subst h5
  simp only at h4
  subst h4
  obtain ⟨hc, params, hpar, hr, hl, hf⟩ := h3 0 t (by simp)
  have hl' := hf.length_eq
  have hk := hl _ (List.mem_map_of_mem (f := fun s => [IntCell s.ts, IntCell (bit (shown [tiny] s).accepted)] ++ (params s).map SixCell)
    (show tiny ∈ [tiny] by simp))
  refine ⟨t, h1, ?_⟩
  have hr' : t.rows = 1 := by simpa using hr
  simp only [List.map_cons, List.map_nil, List.flatten_cons, List.flatten_nil, List.append_nil] at hl'
  rw [hk] at hl'
  rw [hr', hc]
  show (items t.data).length ≠ _
  have : (items t.data).length = 1 + 2 := hl'.symm
  omega

/-! ### Poses -/

/-- **C136, the poses.**  The data are the poses in the order of time, each as time, position and quaternion; the announced
number of rows is that of the views. -/
theorem C136_poses (views : ℕ) (poses : List (ℤ × (Fin 7 → ℚ))) :
    (posesTable views poses).rows = views ∧
    TableIs { posesTable views poses with rows := poses.length } (poses.map (fun e => IntCell e.1 :: poseMeans e.2)) ∧
    (TableIs (posesTable views poses) (poses.map (fun e => IntCell e.1 :: poseMeans e.2)) ↔ views = poses.length) := by
  have h : TableIs { posesTable views poses with rows := poses.length } (poses.map (fun e => IntCell e.1 :: poseMeans e.2)) := by
    refine table_is poses poseRow (fun e => fmtLd e.1 :: List.ofFn (fun i => fmtF (e.2 i))) _ _ 8 rfl ?_ ?_ ?_
    · intro e _
      simp [poseMeans]
    · intro e _
      refine csv_row (by simp) ?_
      intro t ht
      rcases List.mem_cons.mp ht with rfl | ht
      · exact Save.token_fmtLd _
      · obtain ⟨j, rfl⟩ := (List.mem_ofFn).mp ht
        exact token_fmtF _
    · intro e _
      refine .cons (says_int _).2 ?_
      unfold poseMeans
      simp only [List.ofFn_eq_map]
      exact forall_map _ _ _ (fun i _ => (says_fix _).2)
  refine ⟨rfl, h, ?_, ?_⟩
  · intro h'
    have := h'.1
    rwa [List.length_map] at this
  · intro e
    rw [e]
    rw [e] at h
    exact h

/-- **C136, the poses of the camera calibrator.**  In every state that the calibrator reaches, the table of its poses (printed
through any function from poses to numbers) has the announced size and says what they are. -/
theorem C136_camera_poses {K V : Type} [Field K] [LinearOrder K] (env : Calib.Env K V) {s : Calib.Cal K V} (h : Calib.Reach env s)
    (num : Calib.PoseObj V → Fin 7 → ℚ) :
    TableIs (posesTable s.views.length (s.poses.map (fun e => (e.1, num e.2)))) (s.poses.map (fun e => IntCell e.1 :: poseMeans (num e.2))) := by
  have := (C136_poses s.views.length (s.poses.map (fun e => (e.1, num e.2)))).2.2.mpr ?_
  · rw [List.map_map] at this
    exact this
  · have hk := (Calib.C53_consistent_partial env h).2.1
    have := SMap.keys_eq h.wf.1.posesSorted h.wf.1.viewsSorted hk
    have := congrArg List.length this
    simpa using this.symm

end Yac.Report
