import Verif.Calib.LoadLemmas
import Verif.Calib.CameraWitness
import Verif.Data.PreTight

/-!
# C117: `load_data` of the camera calibrator
-/

namespace Yac.Calib

open Yac.AprilGrid (Grid)
open Yac.Data (File isTs tsOf loadFile)
open Yac.Geom Yac.Text
open Yac.Solver (CBook)

variable {K V : Type} [Field K] [LinearOrder K]

/-- The camera is one of the calibrator. -/
def HasCam (s : Cal K V) (cam : Int) : Prop := (SMap.find cam s.params).isSome = true

theorem cam_known (s : Cal K V) (c : Int) : c ∈ camIdxs s ↔ HasCam s c := by
  unfold camIdxs HasCam
  rw [SMap.find_isSome]

theorem find_of_mem_table {m : List (Int × List (Int × File K))} (h : TableOk m) {e : Int × List (Int × File K)}
    (he : e ∈ m) : SMap.find e.1 m = some e.2 := (SMap.find_eq_some h.1).2 he

theorem record_of_mem (d : DataSet K) (s : Cal K V) {e : Int × List (Int × File K)}
    (he : e ∈ gridData d (camIdxs s)) {cf : Int × File K} (hcf : cf ∈ e.2) :
    HasCam s cf.1 ∧ record d cf.1 e.1 = some cf.2 := by
  have hok := gridData_ok d (camIdxs s)
  have h1 := gridData_find d (camIdxs s) e.1 cf.1
  rw [find_of_mem_table hok he, Option.getD_some, (SMap.find_eq_some (hok.2 e he).2).2 hcf] at h1
  by_cases hc : cf.1 ∈ camIdxs s
  · rw [if_pos hc] at h1
    exact ⟨(cam_known s _).1 hc, h1.symm⟩
  · rw [if_neg hc] at h1; simp at h1

theorem mem_stamps (d : DataSet K) (s : Cal K V) (t : Int) :
    t ∈ (gridData d (camIdxs s)).map Prod.fst ↔ ∃ cam, HasCam s cam ∧ (record d cam t).isSome = true := by
  have hok := gridData_ok d (camIdxs s)
  constructor
  · intro h
    obtain ⟨e, he, rfl⟩ := List.mem_map.1 h
    obtain ⟨cf, hcf⟩ := List.exists_mem_of_ne_nil _ (hok.2 e he).1
    obtain ⟨h1, h2⟩ := record_of_mem d s he hcf
    exact ⟨cf.1, h1, by rw [h2]; rfl⟩
  · rintro ⟨cam, h1, h2⟩
    have := gridData_find d (camIdxs s) t cam
    rw [if_pos ((cam_known s _).2 h1)] at this
    rw [← SMap.find_isSome]
    cases hf : SMap.find t (gridData d (camIdxs s)) with
    | none => rw [hf] at this; rw [← this] at h2; simp [SMap.find] at h2
    | some x => rfl

/-- The hypothesis on the data set: a grid of a calibrated camera in which something was detected
carries the timestamp of its file name. -/
def ProperData (v2 : Bool) (d : DataSet K) (s : Cal K V) : Prop :=
  ∀ cam ts f g, HasCam s cam → record d cam ts = some f → fileGrid v2 f = .ok g → g.detected = true →
    g.timestamp = ts

theorem ProperData.good {v2 : Bool} {d : DataSet K} {s : Cal K V} (h : ProperData v2 d s) :
    ∀ e ∈ gridData d (camIdxs s), ∀ cf ∈ e.2, GoodFile v2 e.1 cf.2 := by
  intro e he cf hcf g hg
  obtain ⟨h1, h2⟩ := record_of_mem d s he hcf
  exact ⟨fun _ => fileGrid_ok hg, fun hd => h _ _ _ g h1 h2 hg hd⟩

/-- C117, views (missing: what happens when the timestamp in a file differs from its name): a
calibrator without data reads, for every camera and timestamp, the last file named after the
timestamp, and nothing else; its timestamps are those of the files; there is a view at exactly the
timestamps at which something was detected, and it consists of exactly the corners in the files. -/
theorem C117_views_partial (env : Env K V) {s s' : Cal K V} (h : Reach env s) (h0 : s.data = [])
    (h1 : s.views = []) (v2 : Bool) (d : DataSet K) (hd : ProperData v2 d s)
    (hs : loadViews env v2 d s = .ok s') :
    (∀ ts cam f, HasCam s cam → record d cam ts = some f →
      ∃ g, fileGrid v2 f = .ok g ∧ SMap.find cam ((SMap.find ts s'.data).getD []) = some g) ∧
    (∀ ts cam, (¬ HasCam s cam ∨ record d cam ts = none) →
      SMap.find cam ((SMap.find ts s'.data).getD []) = none) ∧
    (∀ ts, ts ∈ s'.timestamps ↔ ts ∈ s.timestamps ∨ ∃ cam, HasCam s cam ∧ (record d cam ts).isSome = true) ∧
    (∀ ts, (SMap.find ts s'.views).isSome = true ↔
      ∃ cam g, SMap.find cam ((SMap.find ts s'.data).getD []) = some g ∧ g.detected = true) ∧
    (∀ ts v, SMap.find ts s'.views = some v → v.grids = (SMap.find ts s'.data).getD [] ∧
      ∀ cam g, SMap.find cam v.grids = some g →
        v.camKeys cam = if g.detected = true then gridMeas g else []) ∧
    s'.params = s.params ∧ s'.exts = s.exts := by
  obtain ⟨hw, hp⟩ := h.wf
  have hok := gridData_ok d (camIdxs s)
  obtain ⟨b1, b2, b3, b4, b5, b6, b7, b8, b9⟩ := loadFrames_spec _ s s' hw hp hok
    (fun e _ => by rw [h0, h1]; exact ⟨rfl, rfl⟩) hd.good hs
  have hdata : ∀ (ts _cam : Int), SMap.find ts (gridData d (camIdxs s)) = none →
      SMap.find ts s'.data = none ∧ SMap.find ts s'.views = none := by
    intro ts _ hf
    have hn : ts ∉ (gridData d (camIdxs s)).map Prod.fst := by
      rw [← SMap.find_isSome, hf]; simp
    obtain ⟨c1, c2, _⟩ := b7 ts hn
    rw [c1, c2, h0, h1]; exact ⟨rfl, rfl⟩
  have hfr : ∀ ts cfs, SMap.find ts (gridData d (camIdxs s)) = some cfs → FrameIn v2 s' ts cfs ∧
      SMap.Sorted cfs := by
    intro ts cfs hf
    have := SMap.mem_of_find hf
    exact ⟨b6 (ts, cfs) this, (hok.2 _ this).2⟩
  refine ⟨?_, ?_, ?_, ?_, ?_, b3, b4⟩
  · intro ts cam f hc hr
    have hg := gridData_find d (camIdxs s) ts cam
    rw [if_pos ((cam_known s _).2 hc), hr] at hg
    cases hf : SMap.find ts (gridData d (camIdxs s)) with
    | none => rw [hf] at hg; simp [SMap.find] at hg
    | some cfs =>
      rw [hf, Option.getD_some] at hg
      obtain ⟨gs, q1, q2, _⟩ := (hfr ts cfs hf).1.grids
      obtain ⟨g, e1, e2⟩ := (q1.find cam).1 f hg
      exact ⟨g, e1, by rw [q2]; exact e2⟩
  · intro ts cam hn
    have hg := gridData_find d (camIdxs s) ts cam
    have hz : (if cam ∈ camIdxs s then record d cam ts else none) = none := by
      rcases hn with hn | hn
      · rw [if_neg (fun hh => hn ((cam_known s _).1 hh))]
      · rw [hn]; simp
    rw [hz] at hg
    cases hf : SMap.find ts (gridData d (camIdxs s)) with
    | none => rw [(hdata ts cam hf).1]; rfl
    | some cfs =>
      rw [hf, Option.getD_some] at hg
      obtain ⟨gs, q1, q2, _⟩ := (hfr ts cfs hf).1.grids
      rw [q2]
      exact (q1.find cam).2 hg
  · intro ts
    rw [b8, mem_stamps]
  · intro ts
    cases hf : SMap.find ts (gridData d (camIdxs s)) with
    | none => rw [(hdata ts 0 hf).1, (hdata ts 0 hf).2]; simp [SMap.find]
    | some cfs =>
      obtain ⟨⟨gs, q1, q2, q3, q4⟩, hsrt⟩ := hfr ts cfs hf
      rw [q2]
      constructor
      · intro hv
        by_contra hno
        have : SMap.find ts s'.views = none := q3 (fun cg hcg => by
          by_contra hd
          exact hno ⟨cg.1, cg.2, (SMap.find_eq_some (q1.sorted hsrt)).2 hcg, by simpa using hd⟩)
        rw [this] at hv; simp at hv
      · rintro ⟨cam, g, e1, e2⟩
        obtain ⟨v, hv, _⟩ := q4 ⟨(cam, g), SMap.mem_of_find e1, e2⟩
        rw [hv]; rfl
  · intro ts v hv
    cases hf : SMap.find ts (gridData d (camIdxs s)) with
    | none => rw [(hdata ts 0 hf).2] at hv; simp at hv
    | some cfs =>
      obtain ⟨⟨gs, q1, q2, q3, q4⟩, hsrt⟩ := hfr ts cfs hf
      by_cases hdet : ∃ cg ∈ gs, cg.2.detected = true
      · obtain ⟨w, e1, e2, e3⟩ := q4 hdet
        rw [e1, Option.some.injEq] at hv
        subst hv
        refine ⟨by rw [e2, q2]; rfl, fun cam g hg => ?_⟩
        rw [e2] at hg
        have hm := SMap.mem_of_find hg
        have hk := e3 (cam, g) hm
        obtain ⟨f, m1, _⟩ := q1.mem hm
        have hc := (record_of_mem d s (SMap.mem_of_find hf) m1).1
        unfold HasCam at hc
        simp only [b3, hc, true_and] at hk
        exact hk
      · have : SMap.find ts s'.views = none := q3 (fun cg hcg => by
          by_contra hd
          exact hdet ⟨cg, hcg, by simpa using hd⟩)
        rw [this] at hv; simp at hv

/-- C117, problem: after loading, the optimisation problem holds exactly the residuals of the views
(and the marginalisation prior), once each, and there is a pose for every view and no other. -/
theorem C117_problem (env : Env K V) {s s' : Cal K V} (h : Reach env s) (h0 : s.data = [])
    (h1 : s.views = []) (v2 : Bool) (d : DataSet K) (hd : ProperData v2 d s)
    (hs : loadViews env v2 d s = .ok s') :
    (problemResiduals s').Nodup ∧
    (∀ r, r ∈ problemResiduals s' ↔
      (∃ ts v x, SMap.find ts s'.views = some v ∧ x ∈ v.all ∧ r = .reproj x) ∨ s.marg = some r) ∧
    (∀ ts, (SMap.find ts s'.poses).isSome = (SMap.find ts s'.views).isSome) ∧
    s'.viewTs.Nodup ∧ (∀ ts, ts ∈ s'.viewTs ↔ (SMap.find ts s'.views).isSome = true) := by
  obtain ⟨hw, hp⟩ := h.wf
  obtain ⟨b1, b2, b3, b4, b5, b6, b7, b8, b9⟩ := loadFrames_spec _ s s' hw hp (gridData_ok d (camIdxs s))
    (fun e _ => by rw [h0, h1]; exact ⟨rfl, rfl⟩) hd.good hs
  obtain ⟨_, c2, c3, c4, _, c6, c7, _⟩ := b1.consistent b2
  rw [b5] at c7
  exact ⟨c6, c7, c2, c3, c4⟩

/-! ## File names -/

/-- C117, names: `<ts>.csv` is a file of the timestamp `ts` if `ts` has nineteen digits (and fits
into 63 bits) ... -/
theorem C117_names (n : Nat) (h : (natText n).length = 19) (hn : n < 2 ^ 63) (rest : List Char) :
    isTs (natText n ++ rest) = true ∧ tsOf (natText n ++ rest) = n := by
  have ht : Data.tsStr (natText n ++ rest) = natText n := by
    unfold Data.tsStr
    rw [← h, List.take_left']
    rfl
  refine ⟨?_, ?_⟩
  · unfold isTs
    rw [ht, List.all_eq_true]
    exact natText_dig n
  · unfold tsOf
    rw [ht, natOf_natText, if_pos hn]

/-- C117 refuted: ... but the grids of a data set whose timestamps have fewer digits, such as a
simulated one that starts at zero, are all ignored. -/
theorem C117_short_names_refuted (env : Env K V) (v2 : Bool) (d : DataSet K) (s : Cal K V)
    (hd : ∀ cam, ∀ nf ∈ d.grids cam, ∃ n, nf.1 = natText n ++ ".csv".toList ∧ (natText n).length < 19) :
    loadViews env v2 d s = .ok s := by
  have hno : ∀ cam, ∀ nf ∈ d.grids cam, isTs nf.1 = false := by
    intro cam nf hnf
    obtain ⟨n, e, hl⟩ := hd cam nf hnf
    rw [e]
    unfold isTs Data.tsStr
    rw [Bool.eq_false_iff]
    intro hall
    rw [List.all_eq_true] at hall
    have hm : '.' ∈ List.take 19 (natText n ++ ".csv".toList) := by
      rw [List.take_append]
      refine List.mem_append_right _ ?_
      obtain ⟨k, hk⟩ : ∃ k, 19 - (natText n).length = k + 1 := ⟨18 - (natText n).length, by omega⟩
      rw [hk]
      exact List.mem_cons_self ..
    have := hall '.' hm
    revert this; decide
  have hz : ∀ cams, gridData d cams = [] := by
    intro cams
    have inner : ∀ (cam : Int) (l : List (List Char × File K)), (∀ nf ∈ l, isTs nf.1 = false) →
        l.foldl (noteFile cam) [] = [] := by
      intro cam l
      induction l with
      | nil => intro _; rfl
      | cons x l ih =>
        intro hx
        rw [List.foldl_cons]
        have : noteFile cam [] x = [] := by
          unfold noteFile; rw [hx x (by simp)]; rfl
        rw [this]
        exact ih (fun y hy => hx y (by simp [hy]))
    unfold gridData
    induction cams with
    | nil => rfl
    | cons c cams ih => rw [List.foldl_cons, inner c _ (hno c)]; exact ih
  unfold loadViews
  rw [hz]
  rfl

/-! ## Poses -/

/-- The last row of a timestamp. -/
def lastRow (rows : List (Int × Vec3 ℚ × Quat ℚ)) (t : Int) : Option (Vec3 ℚ × Quat ℚ) :=
  ((rows.filter (fun r => decide (r.1 = t))).getLast?).map Prod.snd

theorem setPose_find (mk : Vec3 ℚ → Quat ℚ → V) (s : Cal K V) (t u : Int) (r : Vec3 ℚ) (q : Quat ℚ) :
    SMap.find u (setPose mk s t r q).poses = if u = t then
      (SMap.find u s.poses).map (fun p => ⟨p.id, mk r q⟩) else SMap.find u s.poses := by
  unfold setPose
  cases hf : SMap.find t s.poses with
  | none =>
    by_cases h : u = t
    · rw [if_pos h, h, hf]; rfl
    · rw [if_neg h]
  | some p =>
    simp only [SMap.find_set]
    by_cases h : u = t
    · rw [if_pos h, if_pos h, h, hf]; rfl
    · rw [if_neg h, if_neg h]

theorem setPose_frame (mk : Vec3 ℚ → Quat ℚ → V) (s : Cal K V) (t : Int) (r : Vec3 ℚ) (q : Quat ℚ) :
    setPose mk s t r q = { s with poses := (setPose mk s t r q).poses } := by
  unfold setPose
  cases SMap.find t s.poses <;> rfl

/-- The position and the quaternion as they come back from the text. -/
def backR (r : Vec3 ℚ) : Vec3 ℚ := ![back (r 0), back (r 1), back (r 2)]
def backQ (q : Quat ℚ) : Quat ℚ := ⟨back q.w, back q.x, back q.y, back q.z⟩

theorem scan_pose (t : ℤ) (h1 : -2 ^ 63 ≤ t) (h2 : t < 2 ^ 63) (r : Vec3 ℚ) (q : Quat ℚ)
    (ws rest : List Char) (hw : ∀ c ∈ ws, isSpace c = true) (hr : NoDig rest) :
    scanf poseFmt (ws ++ ((line7 t (r 0) (r 1) (r 2) q.x q.y q.z ++ ',' :: fmtF q.w) ++ rest)) =
      ([.int t, .real (back (r 0)), .real (back (r 1)), .real (back (r 2)), .real (back q.x),
        .real (back q.y), .real (back q.z), .real (back q.w)], rest) := by
  unfold poseFmt line7
  simp only [List.append_assoc, List.cons_append]
  rw [scanf, parseInt_fmtLd t ws _ hw (comma_noDig _)]
  simp only [toLong_natAbs h1 h2, scan_lit]
  rw [scan_lf _ _ _ (comma_noDig _), scan_lit, scan_lf _ _ _ (comma_noDig _), scan_lit,
    scan_lf _ _ _ (comma_noDig _), scan_lit, scan_lf _ _ _ (comma_noDig _), scan_lit,
    scan_lf _ _ _ (comma_noDig _), scan_lit, scan_lf _ _ _ (comma_noDig _), scan_lit,
    scan_lf _ _ _ hr]
  rfl

theorem poseRows_lines (mk : Vec3 ℚ → Quat ℚ → V) : ∀ (rows : List (Int × Vec3 ℚ × Quat ℚ)),
    (∀ e ∈ rows, -2 ^ 63 ≤ e.1 ∧ e.1 < 2 ^ 63) → ∀ (ws : List Char), (∀ c ∈ ws, isSpace c = true) →
    ∀ s : Cal K V,
    poseRows mk rows.length (ws ++ rows.flatMap (fun e => poseText e.1 e.2.1 e.2.2)) s =
      rows.foldl (fun s e => setPose mk s e.1 (backR e.2.1) (backQ e.2.2)) s
  | [], _, _, _, _ => rfl
  | e :: rows, h, ws, hw, s => by
    rw [List.length_cons, List.flatMap_cons, poseText_eq, List.append_assoc, List.singleton_append,
      poseRows, scan_pose e.1 (h e (by simp)).1 (h e (by simp)).2 e.2.1 e.2.2 ws _ hw
        (noDig_cons (by decide))]
    simp only [List.foldl_cons]
    have := poseRows_lines mk rows (fun x hx => h x (by simp [hx])) ['\n'] (by simp [isSpace])
      (setPose mk s e.1 (backR e.2.1) (backQ e.2.2))
    rw [List.singleton_append] at this
    exact this

/-- C117, poses: a table of poses with a header line, written with six decimals, sets the pose of
every view listed in it to the last row of the view's timestamp, and changes nothing else. -/
theorem C117_poses (mk : Vec3 ℚ → Quat ℚ → V) (d : DataSet K) (s : Cal K V)
    (hd : List Char) (hn : '\n' ∉ hd) (hlen : hd.length < 8191) (rows : List (Int × Vec3 ℚ × Quat ℚ))
    (hr : ∀ e ∈ rows, -2 ^ 63 ≤ e.1 ∧ e.1 < 2 ^ 63)
    (hf : d.poses = some (hd ++ '\n' :: rows.flatMap (fun e => poseText e.1 e.2.1 e.2.2))) :
    ∃ s', loadCameraPoses mk d s = .ok s' ∧ s' = { s with poses := s'.poses } ∧
      ∀ t, (SMap.find t s.poses = none → SMap.find t s'.poses = none) ∧
        ∀ p, SMap.find t s.poses = some p →
          (lastRow rows t = none → SMap.find t s'.poses = some p) ∧
          ∀ r q, lastRow rows t = some (r, q) → ∃ r' q', SMap.find t s'.poses = some ⟨p.id, mk r' q'⟩ ∧
            (∀ i, Printed (r i) (r' i)) ∧ Printed q.w q'.w ∧ Printed q.x q'.x ∧ Printed q.y q'.y ∧
            Printed q.z q'.z := by
  refine ⟨rows.foldl (fun s e => setPose mk s e.1 (backR e.2.1) (backQ e.2.2)) s, ?_, ?_, ?_⟩
  · unfold loadCameraPoses
    rw [hf]
    simp only
    have hl : (getLines (hd ++ '\n' :: rows.flatMap (fun e => poseText e.1 e.2.1 e.2.2))).length =
        rows.length + 1 := by
      simp only [poseText_eq]
      rw [getLines_cons_line _ hn, getLines_flatMap
        (fun e : Int × Vec3 ℚ × Quat ℚ => line7 e.1 (e.2.1 0) (e.2.1 1) (e.2.1 2) e.2.2.x e.2.2.y e.2.2.z ++
          ',' :: fmtF e.2.2.w)
        (fun e => poseText_no_nl e.1 e.2.1 e.2.2)]
      simp
    rw [hl]
    simp only
    rw [skipLine_line _ _ hn hlen, AprilGrid.ok_bind]
    have := poseRows_lines mk rows hr [] (by simp) s
    rw [List.nil_append] at this
    rw [this]
  · clear hr hf
    induction rows generalizing s with
    | nil => rfl
    | cons e rows ih =>
      rw [List.foldl_cons]
      have h1 := ih (setPose mk s e.1 (backR e.2.1) (backQ e.2.2))
      have h2 := setPose_frame mk s e.1 (backR e.2.1) (backQ e.2.2)
      generalize hX : rows.foldl (fun s e => setPose mk s e.1 (backR e.2.1) (backQ e.2.2))
        (setPose mk s e.1 (backR e.2.1) (backQ e.2.2)) = X at h1 ⊢
      rw [h1, h2]
  · have key : ∀ (l : List (Int × Vec3 ℚ × Quat ℚ)) (s : Cal K V) (t : Int),
        SMap.find t (l.foldl (fun s e => setPose mk s e.1 (backR e.2.1) (backQ e.2.2)) s).poses =
        (SMap.find t s.poses).map (fun p => match lastRow l t with
          | none => p
          | some rq => ⟨p.id, mk (backR rq.1) (backQ rq.2)⟩) := by
      intro l
      induction l with
      | nil => intro s t; simp [lastRow]
      | cons e l ih =>
        intro s t
        rw [List.foldl_cons, ih, setPose_find]
        unfold lastRow
        rw [List.filter_cons]
        by_cases h : t = e.1
        · rw [if_pos h, if_pos (by simp [h]), List.getLast?_cons]
          cases (l.filter (fun r => decide (r.1 = t))).getLast? <;> cases SMap.find t s.poses <;> rfl
        · rw [if_neg h, if_neg (by simpa using fun hh => h hh.symm)]
    intro t
    rw [key]
    refine ⟨fun h => by rw [h]; rfl, fun p hp => ⟨fun h => by rw [hp, h]; rfl, fun r q h => ?_⟩⟩
    refine ⟨backR r, backQ q, by rw [hp, h]; rfl, ?_, printed_back _, printed_back _, printed_back _,
      printed_back _⟩
    intro i
    fin_cases i <;> exact printed_back _

/-- C117, poses: without the file nothing changes. -/
theorem C117_no_poses (mk : Vec3 ℚ → Quat ℚ → V) (d : DataSet K) (s : Cal K V) (h : d.poses = none) :
    loadCameraPoses mk d s = .ok s := by
  unfold loadCameraPoses
  rw [h]

/-! ## Solving afterwards -/

theorem addResidual_mono {blocks : Res K → List Par} {b b' : CBook Par (Res K)} {r x : Res K}
    (h : b.addResidual blocks r = .ok b') (hx : x ∈ b.prob.rblocks.map Prod.snd) :
    x ∈ b'.prob.rblocks.map Prod.snd := by
  unfold CBook.addResidual at h
  obtain ⟨base, _, h⟩ := bind_ok h
  split_ifs at h
  simp only [AprilGrid.pure_eq_ok, Except.ok.injEq] at h
  rw [← h]
  simp only [List.map_append, List.mem_append]
  exact Or.inl hx

theorem addReproj_mono {rows cols : Nat} {cam : Int} {pose : Nat} {n0 : Nat} :
    ∀ (ms : List ((Int × Int) × (K × K))) (a a' : List (Reproj K) × CBook Par (Res K) × Nat),
    n0 ≤ a.2.2 → (∀ x ∈ a.1, n0 ≤ x.id) → ms.foldlM (addReproj rows cols cam pose) a = .ok a' →
    n0 ≤ a'.2.2 ∧ (∀ x ∈ a'.1, n0 ≤ x.id) ∧
      ∀ r, r ∈ a.2.1.prob.rblocks.map Prod.snd → r ∈ a'.2.1.prob.rblocks.map Prod.snd
  | [], a, a', h1, h2, h => by
    rw [List.foldlM_nil, AprilGrid.pure_eq_ok, Except.ok.injEq] at h
    subst h
    exact ⟨h1, h2, fun _ h => h⟩
  | m :: ms, a, a', h1, h2, h => by
    rw [List.foldlM_cons] at h
    obtain ⟨a1, e, h⟩ := bind_ok h
    unfold addReproj at e
    split_ifs at e
    obtain ⟨b, e1, e⟩ := bind_ok e
    simp only [AprilGrid.pure_eq_ok, Except.ok.injEq] at e
    obtain ⟨q1, q2, q3⟩ := addReproj_mono (n0 := n0) ms a1 a' (by rw [← e]; exact Nat.le_succ_of_le h1) (by
      rw [← e]
      intro x hx
      simp only [List.mem_append, List.mem_singleton] at hx
      rcases hx with hx | rfl
      · exact h2 x hx
      · exact h1) h
    exact ⟨q1, q2, fun r hr => q3 r (by rw [← e]; exact addResidual_mono e1 hr)⟩

theorem addCamGrid_mono {rows cols : Nat} {params exts : List (Int × CamP V)} {pose n0 : Nat} :
    ∀ (gs : List (Int × Grid K)) (a a' : List (Int × List (Reproj K)) × CBook Par (Res K) × Nat),
    n0 ≤ a.2.2 → (∀ cr ∈ a.1, ∀ x ∈ cr.2, n0 ≤ x.id) →
    gs.foldlM (addCamGrid rows cols params exts pose) a = .ok a' →
    n0 ≤ a'.2.2 ∧ (∀ cr ∈ a'.1, ∀ x ∈ cr.2, n0 ≤ x.id) ∧
      ∀ r, r ∈ a.2.1.prob.rblocks.map Prod.snd → r ∈ a'.2.1.prob.rblocks.map Prod.snd
  | [], a, a', h1, h2, h => by
    rw [List.foldlM_nil, AprilGrid.pure_eq_ok, Except.ok.injEq] at h
    subst h
    exact ⟨h1, h2, fun _ h => h⟩
  | g :: gs, a, a', h1, h2, h => by
    rw [List.foldlM_cons] at h
    obtain ⟨a1, e, h⟩ := bind_ok h
    have step : n0 ≤ a1.2.2 ∧ (∀ cr ∈ a1.1, ∀ x ∈ cr.2, n0 ≤ x.id) ∧
        ∀ r, r ∈ a.2.1.prob.rblocks.map Prod.snd → r ∈ a1.2.1.prob.rblocks.map Prod.snd := by
      unfold addCamGrid at e
      by_cases c1 : (SMap.find g.1 params).isNone = true
      · rw [if_pos c1, Except.ok.injEq] at e
        rw [← e]; exact ⟨h1, h2, fun _ h => h⟩
      rw [if_neg c1] at e
      by_cases c2 : g.2.detected = false
      · rw [if_pos c2, Except.ok.injEq] at e
        rw [← e]; exact ⟨h1, h2, fun _ h => h⟩
      rw [if_neg c2] at e
      obtain ⟨m, _, e⟩ := bind_ok e
      simp only at e
      by_cases c3 : (m.tagIds.zip m.corners).zip m.keypoints = []
      · rw [if_pos c3, AprilGrid.pure_eq_ok, Except.ok.injEq] at e
        rw [← e]; exact ⟨h1, h2, fun _ h => h⟩
      rw [if_neg c3] at e
      by_cases c4 : (SMap.find g.1 exts).isNone = true
      · rw [if_pos c4] at e; simp at e
      rw [if_neg c4] at e
      obtain ⟨out, e1, e⟩ := bind_ok e
      simp only [AprilGrid.pure_eq_ok, Except.ok.injEq] at e
      have hold : ∀ x ∈ (SMap.find g.1 a.1).getD [], n0 ≤ x.id := by
        cases hf : SMap.find g.1 a.1 with
        | none => simp
        | some l => exact h2 (g.1, l) (SMap.mem_of_find hf)
      obtain ⟨q1, q2, q3⟩ := addReproj_mono (n0 := n0) _ _ _ h1 hold e1
      rw [← e]
      refine ⟨q1, ?_, q3⟩
      intro cr hcr
      rcases SMap.mem_set hcr with rfl | hcr
      · exact q2
      · exact h2 cr hcr
    obtain ⟨q1, q2, q3⟩ := addCamGrid_mono (n0 := n0) gs a1 a' step.1 step.2.1 h
    exact ⟨q1, q2, fun r hr => q3 r (step.2.2 r hr)⟩

/-- `add_view` only adds to the problem; the residuals of the new view are new objects. -/
theorem addView_mono {env : Env K V} {s s' : Cal K V} {grids : List (Int × Grid K)} {ts : Int} {b : Bool}
    (hts : viewStamp grids = some ts) (hs : addView env s grids = .ok (s', b)) :
    s.next ≤ s'.next ∧ (∀ r ∈ problemResiduals s, r ∈ problemResiduals s') ∧
    ∃ v, s'.views = SMap.set ts v s.views ∧ ∀ x ∈ v.all, s.next ≤ x.id := by
  unfold addView at hs
  rw [hts] at hs
  simp only at hs
  obtain ⟨s1, h1, hs⟩ := bind_ok hs
  have hd : (ensureData s ts grids).solver = s.solver ∧ (ensureData s ts grids).views = s.views ∧
      (ensureData s ts grids).next = s.next := by
    unfold ensureData; split_ifs <;> exact ⟨rfl, rfl, rfl⟩
  have h2 : s1.views = s.views ∧ s.next ≤ s1.next ∧ problemResiduals s1 = problemResiduals s := by
    unfold ensurePose at h1
    split_ifs at h1
    · simp only [Except.ok.injEq] at h1
      subst h1
      exact ⟨hd.2.1, le_of_eq hd.2.2.symm, by unfold problemResiduals; rw [hd.1]⟩
    · obtain ⟨_, x, rfl⟩ := addPose_ok h1
      refine ⟨hd.2.1, ?_, ?_⟩
      · simp only [hd.2.2]; omega
      · unfold problemResiduals
        rw [← hd.1]
        rfl
  cases hp : SMap.find ts s1.poses with
  | none => rw [hp] at hs; simp at hs
  | some p =>
    rw [hp] at hs
    simp only [attachView] at hs
    obtain ⟨out, ho, hs⟩ := bind_ok hs
    simp only [Except.ok.injEq, Prod.mk.injEq] at hs
    obtain ⟨rfl, rfl⟩ := hs
    have h3 : (ensureParam s1 p).views = s1.views ∧ (ensureParam s1 p).next = s1.next ∧
        problemResiduals (ensureParam s1 p) = problemResiduals s1 := by
      unfold ensureParam; split_ifs <;> exact ⟨rfl, rfl, rfl⟩
    unfold View.new at ho
    obtain ⟨a, ho', ha⟩ := bind_ok ho
    simp only [AprilGrid.pure_eq_ok, Except.ok.injEq] at ha
    subst ha
    obtain ⟨q1, q2, q3⟩ := addCamGrid_mono (n0 := s.next) _ _ _ (le_of_le_of_eq h2.2.1 h3.2.1.symm) (by simp) ho'
    refine ⟨q1, ?_, ⟨ts, grids, p.id, a.1⟩, by simp only [h3.1, h2.1], ?_⟩
    · intro r hr
      refine q3 r ?_
      rw [← h2.2.2, ← h3.2.2] at hr
      exact hr
    · intro x hx
      unfold View.all at hx
      obtain ⟨cr, c1, c2⟩ := List.mem_flatMap.1 hx
      exact q2 cr c1 x c2

theorem batch_again {L : LoopEnv K V} (n0 : Nat) : ∀ (l : List Int) (s out : Cal K V),
    (∀ ts, ∀ cg ∈ (SMap.find ts s.data).getD [], cg.2.detected = true → cg.2.timestamp = ts) →
    (∀ ts, (∃ cg ∈ (SMap.find ts s.data).getD [], cg.2.detected = true) → (SMap.find ts s.data).isSome = true) →
    n0 ≤ s.next →
    l.foldlM (fun (s : Cal K V) ts =>
      addView L.toEnv s ((SMap.find ts s.data).getD []) >>= fun r => .ok r.1) s = .ok out →
    s.next ≤ out.next ∧ (∀ r ∈ problemResiduals s, r ∈ problemResiduals out) ∧
    out.viewTs = s.viewTs ++ l.filter (fun t => decide (Seen s t)) ∧
    (∀ t, t ∈ l → Seen s t → ∃ v, SMap.find t out.views = some v ∧ ∀ x ∈ v.all, n0 ≤ x.id) ∧
    ∀ t, ¬ (t ∈ l ∧ Seen s t) → SMap.find t out.views = SMap.find t s.views
  | [], s, out, _, _, _, h => by
    rw [List.foldlM_nil, AprilGrid.pure_eq_ok, Except.ok.injEq] at h
    subst h
    exact ⟨le_refl _, fun _ h => h, by simp, by simp, fun _ _ => rfl⟩
  | ts :: l, s, out, hst, hsm, hn, h => by
    rw [List.foldlM_cons] at h
    obtain ⟨s1, h1', h5⟩ := bind_ok h
    obtain ⟨⟨s1', b⟩, h1, e1⟩ := bind_ok h1'
    simp only [Except.ok.injEq] at e1
    subst e1
    have hse : Seen s ts ↔ ∃ cg ∈ (SMap.find ts s.data).getD [], cg.2.detected = true := by
      unfold Seen
      cases SMap.find ts s.data with
      | none => simp
      | some gs => simp
    by_cases hS : Seen s ts
    · have hvs : viewStamp ((SMap.find ts s.data).getD []) = some ts := by
        obtain ⟨cg, c1, c2⟩ := hse.1 hS
        unfold viewStamp
        cases hf : ((SMap.find ts s.data).getD []).find? (fun cg => cg.2.detected) with
        | none =>
          have := List.find?_eq_none.1 hf cg c1
          rw [c2] at this; simp at this
        | some x =>
          rw [Option.map_some, hst ts x (List.mem_of_find?_eq_some hf) (by simpa using List.find?_some hf)]
      obtain ⟨d1, _⟩ := addView_data (fun t ht => by
        rw [hvs, Option.some.injEq] at ht
        rw [← ht]; exact hsm ts (hse.1 hS)) h1
      obtain ⟨m1, m2, v, m3, m4⟩ := addView_mono hvs h1
      obtain ⟨_, vt, _⟩ := addView_lists hvs h1
      have hss : ∀ t, Seen s1' t ↔ Seen s t := fun t => seen_congr d1 t
      obtain ⟨q1, q2, q3, q4, q5⟩ := batch_again n0 l s1' out (by rw [d1]; exact hst) (by rw [d1]; exact hsm)
        (le_trans hn m1) h5
      refine ⟨le_trans m1 q1, fun r hr => q2 r (m2 r hr), ?_, ?_, ?_⟩
      · rw [q3, vt, List.filter_cons, if_pos (by simpa using hS), List.append_assoc, List.singleton_append]
        simp only [hss]
      · intro t ht hs
        by_cases hl : t ∈ l
        · exact q4 t hl ((hss t).2 hs)
        · rcases List.mem_cons.1 ht with rfl | ht
          · refine ⟨v, ?_, fun x hx => le_trans hn (m4 x hx)⟩
            rw [q5 t (fun h => hl h.1), m3, SMap.find_set, if_pos rfl]
          · exact absurd ht hl
      · intro t ht
        have hne : t ≠ ts := by rintro rfl; exact ht ⟨by simp, hS⟩
        rw [q5 t (fun h => ht ⟨by simp [h.1], (hss t).1 h.2⟩), m3, SMap.find_set, if_neg hne]
    · have hvs : viewStamp ((SMap.find ts s.data).getD []) = none := by
        unfold viewStamp
        rw [Option.map_eq_none_iff, List.find?_eq_none]
        intro x hx hd
        exact hS (hse.2 ⟨x, hx, by simpa using hd⟩)
      have hss : s1' = s := by
        unfold addView at h1
        rw [hvs] at h1
        simp only [Except.ok.injEq, Prod.mk.injEq] at h1
        exact h1.1.symm
      subst hss
      obtain ⟨q1, q2, q3, q4, q5⟩ := batch_again n0 l s1' out hst hsm hn h5
      refine ⟨q1, q2, ?_, ?_, ?_⟩
      · rw [q3, List.filter_cons, if_neg (by simpa using hS)]
      · intro t ht hs
        rcases List.mem_cons.1 ht with rfl | ht
        · exact absurd hs hS
        · exact q4 t ht hs
      · intro t ht
        exact q5 t (fun h => ht ⟨by simp [h.1], h.2⟩)

/-- C117 refuted: `load_data` followed by `solve`, as the calibration program does, adds every view a
second time: the residuals of the loaded views stay in the problem although no view owns them any
more, next to those of the new views, so that every measurement counts twice and only one copy can
ever be filtered. -/
theorem C117_solve_refuted (L : LoopEnv K V) {s s' s'' : Cal K V} (h : Reach L.toEnv s) (h0 : s.data = [])
    (h1 : s.views = []) (v2 : Bool) (d : DataSet K) (hd : ProperData v2 d s)
    (hs : loadViews L.toEnv v2 d s = .ok s') (hb : solveBatch L s' = .ok s'') :
    s''.viewTs = s'.viewTs ++ seen s' ∧
    (∀ ts, ts ∈ s'.viewTs ↔ Seen s' ts) ∧
    (∀ ts v x, SMap.find ts s'.views = some v → x ∈ v.all →
      .reproj x ∈ problemResiduals s'' ∧
      ∀ t w, SMap.find t s''.views = some w → x ∉ w.all) := by
  obtain ⟨hw, hp⟩ := h.wf
  obtain ⟨b1, b2, b3, b4, b5, b6, b7, b8, b9⟩ := loadFrames_spec _ s s' hw hp (gridData_ok d (camIdxs s))
    (fun e _ => by rw [h0, h1]; exact ⟨rfl, rfl⟩) hd.good hs
  obtain ⟨c1, c2, c3, c4, c5, -, -⟩ := C117_views_partial L.toEnv h h0 h1 v2 d hd hs
  obtain ⟨_, p2, _, _, p5⟩ := C117_problem L.toEnv h h0 h1 v2 d hd hs
  have hsorted : ∀ ts gs, SMap.find ts s'.data = some gs → SMap.Sorted gs := by
    intro ts gs hg
    cases hf : SMap.find ts (gridData d (camIdxs s)) with
    | none =>
      have hn : ts ∉ (gridData d (camIdxs s)).map Prod.fst := by rw [← SMap.find_isSome, hf]; simp
      rw [(b7 ts hn).1, h0] at hg
      simp [SMap.find] at hg
    | some cfs =>
      have hm := SMap.mem_of_find hf
      obtain ⟨gs', q1, q2, _⟩ := (b6 _ hm).grids
      simp only at q1 q2
      rw [q2, Option.some.injEq] at hg
      rw [← hg]
      exact q1.sorted ((gridData_ok d (camIdxs s)).2 _ hm).2
  have hseen : ∀ ts, Seen s' ts ↔ (SMap.find ts s'.views).isSome = true := by
    intro ts
    rw [c4]
    unfold Seen
    constructor
    · rintro ⟨gs, hg, cg, hcg, hd⟩
      exact ⟨cg.1, cg.2, by rw [hg]; exact (SMap.find_eq_some (hsorted ts gs hg)).2 hcg, hd⟩
    · rintro ⟨cam, g, hg, hd⟩
      cases hf : SMap.find ts s'.data with
      | none => rw [hf] at hg; simp [SMap.find] at hg
      | some gs => rw [hf] at hg; exact ⟨gs, rfl, (cam, g), SMap.mem_of_find hg, hd⟩
  have hstamp : ∀ ts, ∀ cg ∈ (SMap.find ts s'.data).getD [], cg.2.detected = true → cg.2.timestamp = ts := by
    intro ts cg hcg hdt
    cases hg : SMap.find ts s'.data with
    | none => rw [hg] at hcg; simp at hcg
    | some gs =>
      rw [hg] at hcg
      have hfc : SMap.find cg.1 ((SMap.find ts s'.data).getD []) = some cg.2 := by
        rw [hg]; exact (SMap.find_eq_some (hsorted ts gs hg)).2 hcg
      by_cases hk : HasCam s cg.1 ∧ ∃ f, record d cg.1 ts = some f
      · obtain ⟨hk, f, hf⟩ := hk
        obtain ⟨g, e1, e2⟩ := c1 ts cg.1 f hk hf
        rw [hfc, Option.some.injEq] at e2
        subst e2
        exact hd _ _ _ _ hk hf e1 hdt
      · have := c2 ts cg.1 (by
          by_contra hh
          rw [not_or, not_not] at hh
          refine hk ⟨hh.1, ?_⟩
          cases hr : record d cg.1 ts with
          | none => exact absurd hr hh.2
          | some f => exact ⟨f, rfl⟩)
        rw [hfc] at this; simp at this
  unfold solveBatch at hb
  obtain ⟨c, e1, e2⟩ := bind_ok hb
  simp only [Except.ok.injEq] at e2
  subst e2
  obtain ⟨q1, q2, q3, q4, q5⟩ := batch_again s'.next s'.timestamps s' c hstamp (by
    rintro ts ⟨cg, hcg, _⟩
    cases hg : SMap.find ts s'.data with
    | none => rw [hg] at hcg; simp at hcg
    | some gs => rfl) (le_refl _) e1
  refine ⟨q3, fun ts => by rw [p5, hseen], ?_⟩
  intro ts v x hv hx
  refine ⟨q2 _ ((p2 _).2 (Or.inl ⟨ts, v, x, hv, hx, rfl⟩)), ?_⟩
  intro t w hw' hxw
  have hw'' : SMap.find t c.views = some w := hw'
  have hlt : x.id < s'.next := ((b1.views ts v hv).2.2.of_mem hx).2.1
  by_cases hSt : Seen s' t
  · have htm : t ∈ s'.timestamps := by
      rw [c3]
      right
      obtain ⟨gs, hg, cg, hcg, _⟩ := hSt
      refine ⟨cg.1, ?_⟩
      have hfc : SMap.find cg.1 ((SMap.find t s'.data).getD []) = some cg.2 := by
        rw [hg]; exact (SMap.find_eq_some (hsorted t gs hg)).2 hcg
      by_contra hh
      have := c2 t cg.1 (by
        by_contra hh2
        rw [not_or, not_not] at hh2
        refine hh ⟨hh2.1, ?_⟩
        cases hr : record d cg.1 t with
        | none => exact absurd hr hh2.2
        | some f => rfl)
      rw [hfc] at this; simp at this
    obtain ⟨v', hv', hid⟩ := q4 t htm hSt
    rw [hv', Option.some.injEq] at hw''
    subst hw''
    have := hid x hxw
    omega
  · rw [q5 t (fun hh => hSt hh.2)] at hw''
    exact hSt ((hseen t).2 (by rw [hw'']; rfl))

end Yac.Calib
