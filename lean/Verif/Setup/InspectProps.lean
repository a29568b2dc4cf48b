import Verif.Setup.InspectModel
import Verif.Num.Props
import Verif.Calib.CamchainProps
import Verif.Calib.CameraLemmas
import Verif.Calib.CameraAdd
import Verif.AprilGrid.Lemmas

/-!
# C100: the validation error of a calibration
-/

namespace Yac.Setup

open Yac.AprilGrid (Grid Meas)
open Yac.Calib
open Yac.Geom (Mat4 Vec3 tfInv tfPoint)

variable {V : Type}

/-! ### Specification -/

/-- A camera with its intrinsics, extrinsics and validation images. -/
structure CamData (V : Type) where
  cam : Int
  p : V
  e : V
  grids : List (Grid ℝ)

/-- The pose estimates of a camera, in the order of its images: time and pose relative to camera 0. -/
noncomputable def estimates (env : InspEnv V) (c : CamData V) : List (Int × Mat4 ℝ) :=
  c.grids.filterMap (fun g => if g.detected then
    (env.estimate c.cam c.p g).map (fun T => (g.timestamp, env.tf c.e * T)) else none)

/-- The pose of a time: the first estimate for it, in the order of the cameras. -/
noncomputable def poseAt (env : InspEnv V) (cs : List (CamData V)) (t : Int) : Option (Mat4 ℝ) :=
  ((cs.flatMap (estimates env)).find? (fun x => x.1 = t)).map Prod.snd

/-- The corner of the board. -/
noncomputable def corner3 (g : Grid ℝ) (t c : Int) : Vec3 ℝ :=
  let q := AprilGrid.Spec.boardPoint g.tagCols g.tagSize g.tagSpacing t.toNat c.toNat
  ![q.1, q.2.1, q.2.2]

/-- The reprojection errors of an image, given the pose of the board relative to camera 0. -/
noncomputable def imageErrors (env : InspEnv V) (c : CamData V) (T : Mat4 ℝ) (g : Grid ℝ) : List ℝ :=
  (gridMeas g).filterMap (fun m =>
    (env.project c.cam c.p (tfPoint (tfInv (env.tf c.e) * T) (corner3 g m.1.1 m.1.2))).map
      (fun zh => Real.sqrt ((m.2.1 - zh.1) ^ 2 + (m.2.2 - zh.2) ^ 2)))

/-- The reprojection errors of all detected boards. -/
noncomputable def allErrors (env : InspEnv V) (cs : List (CamData V)) : List ℝ :=
  cs.flatMap (fun c => (c.grids.filter (fun g => g.detected)).flatMap (fun g =>
    imageErrors env c ((poseAt env cs g.timestamp).getD 0) g))

/-- The cameras of the calibrator with the validation data. -/
def Cams (s : Cal ℝ V) (valid : List (Int × List (Grid ℝ))) (cs : List (CamData V)) : Prop :=
  List.Forall₂ (fun i c => c.cam = i ∧ (∃ b, SMap.find i s.params = some ⟨c.p, b⟩) ∧
    (∃ b, SMap.find i s.exts = some ⟨c.e, b⟩) ∧ SMap.find i valid = some c.grids) (camIdxs s) cs

/-! ### Poses -/

theorem inspCam_eq {s : Cal ℝ V} {valid : List (Int × List (Grid ℝ))} {i : Int} {c : CamData V}
    (hp : ∃ b, SMap.find i s.params = some ⟨c.p, b⟩) (he : ∃ b, SMap.find i s.exts = some ⟨c.e, b⟩)
    (hg : SMap.find i valid = some c.grids) : inspCam s valid i = .ok (c.p, c.e, c.grids) := by
  obtain ⟨b, hp⟩ := hp
  obtain ⟨b', he⟩ := he
  unfold inspCam
  rw [hp, he, hg]

theorem inspCam_ok {s : Cal ℝ V} {valid : List (Int × List (Grid ℝ))} {i : Int} {x : V × V × List (Grid ℝ)}
    (h : inspCam s valid i = .ok x) : (∃ b, SMap.find i s.params = some ⟨x.1, b⟩) ∧
      (∃ b, SMap.find i s.exts = some ⟨x.2.1, b⟩) ∧ SMap.find i valid = some x.2.2 := by
  unfold inspCam at h
  split at h
  · rename_i p e gs hp he hg
    cases h
    exact ⟨⟨p.fixed, hp⟩, ⟨e.fixed, he⟩, hg⟩
  · cases h
  · cases h

/-- A map holds for every time the first entry of a list. -/
def Holds' (poses : List (Int × Mat4 ℝ)) (l : List (Int × Mat4 ℝ)) : Prop :=
  ∀ t, SMap.find t poses = (l.find? (fun x => x.1 = t)).map Prod.snd

theorem inspPose_holds (env : InspEnv V) (c : CamData V) (l : List (Int × Mat4 ℝ)) (poses : List (Int × Mat4 ℝ))
    (h : Holds' poses l) (gs : List (Grid ℝ)) :
    Holds' (gs.foldl (inspPose env c.cam c.p c.e) poses)
      (l ++ estimates env { c with grids := gs }) := by
  induction gs generalizing l poses with
  | nil => simpa [estimates] using h
  | cons g gs ih =>
    rw [List.foldl_cons]
    have hstep : Holds' (inspPose env c.cam c.p c.e poses g)
        (l ++ estimates env { c with grids := [g] }) := by
      unfold inspPose estimates
      cases hd : g.detected with
      | false => simpa [hd] using h
      | true =>
        rw [if_neg (by simp)]
        simp only [hd, if_true, List.filterMap_cons, List.filterMap_nil]
        cases hest : env.estimate c.cam c.p g with
        | none =>
          simp only [Option.map_none, List.append_nil]
          split_ifs <;> exact h
        | some T =>
          simp only [Option.map_some]
          cases hf : SMap.find g.timestamp poses with
          | some T' =>
            rw [if_pos (by rfl)]
            intro t
            rw [List.find?_append, h t]
            by_cases ht : g.timestamp = t
            · have := h g.timestamp
              rw [hf] at this
              rw [← ht]
              cases hq : l.find? (fun x => x.1 = g.timestamp) with
              | none => rw [hq] at this; cases this
              | some y => simp
            · simp [ht]
          | none =>
            rw [if_neg (by simp)]
            intro t
            rw [SMap.find_set, List.find?_append, h t]
            by_cases ht : g.timestamp = t
            · have := h g.timestamp
              rw [hf] at this
              have hn : l.find? (fun x => x.1 = t) = none := by
                rw [ht] at this
                cases hq : l.find? (fun x => x.1 = t) with
                | none => rfl
                | some y => rw [hq] at this; cases this
              rw [hn, if_pos ht.symm]
              simp [ht]
            · rw [if_neg (fun e => ht e.symm)]
              simp [ht]
    have := ih _ _ hstep
    have e : estimates env { c with grids := g :: gs } =
        estimates env { c with grids := [g] } ++ estimates env { c with grids := gs } := by
      unfold estimates
      rw [← List.filterMap_append]
      rfl
    rw [e, ← List.append_assoc]
    exact this

theorem inspPoses_holds (env : InspEnv V) (s : Cal ℝ V) (valid : List (Int × List (Grid ℝ)))
    (is : List Int) (cs : List (CamData V))
    (h : List.Forall₂ (fun i c => c.cam = i ∧ (∃ b, SMap.find i s.params = some ⟨c.p, b⟩) ∧
      (∃ b, SMap.find i s.exts = some ⟨c.e, b⟩) ∧ SMap.find i valid = some c.grids) is cs) :
    ∀ l poses, Holds' poses l → ∃ out, is.foldlM (fun poses cam =>
      inspCam s valid cam >>= fun c => .ok (c.2.2.foldl (inspPose env cam c.1 c.2.1) poses)) poses = .ok out ∧
      Holds' out (l ++ cs.flatMap (estimates env)) := by
  induction h with
  | nil => intro l poses hl; exact ⟨poses, rfl, by simpa using hl⟩
  | @cons i c is cs hc _ ih =>
    intro l poses hl
    obtain ⟨hcam, hp, he, hg⟩ := hc
    have h1 := inspPose_holds env c l poses hl c.grids
    obtain ⟨out, ho, hh⟩ := ih _ _ h1
    refine ⟨out, ?_, ?_⟩
    · rw [List.foldlM_cons, inspCam_eq hp he hg, AprilGrid.ok_bind, AprilGrid.ok_bind, ← hcam]
      exact ho
    · rw [List.flatMap_cons, ← List.append_assoc]
      exact hh

/-! ### Errors -/

theorem gridMeas_range (g : Grid ℝ) (m) (h : m ∈ gridMeas g) :
    ∃ t c : Nat, m.1 = ((t : Int), (c : Int)) ∧ t < g.tagRows * g.tagCols ∧ c < 4 := by
  unfold gridMeas at h
  obtain ⟨i, hi, hr⟩ := List.mem_filterMap.mp h
  obtain ⟨r, _, _, rfl⟩ := rowMeas_some g i m hr
  rw [List.mem_range] at hi
  exact ⟨i / 4, i % 4, rfl, by omega, by omega⟩

theorem inspMeas_eq (env : InspEnv V) (c : CamData V) (T : Mat4 ℝ) (g : Grid ℝ) (errs : List ℝ)
    (m : (Int × Int) × (ℝ × ℝ)) (hm : m ∈ gridMeas g) :
    inspMeas env c.cam c.p T g errs m = .ok (errs ++
      ((env.project c.cam c.p (tfPoint T (corner3 g m.1.1 m.1.2))).map
        (fun zh => Real.sqrt ((m.2.1 - zh.1) ^ 2 + (m.2.2 - zh.2) ^ 2))).toList) := by
  obtain ⟨t, k, ht, h1, h2⟩ := gridMeas_range g m hm
  unfold inspMeas corner3
  rw [ht]
  simp only [Int.toNat_natCast]
  rw [AprilGrid.objectPoint_eq g t k h1 h2, AprilGrid.ok_bind]
  cases env.project c.cam c.p (tfPoint T _) <;> simp

theorem inspGrid_eq (env : InspEnv V) (c : CamData V) (poses : List (Int × Mat4 ℝ)) (g : Grid ℝ) (T : Mat4 ℝ)
    (hd : g.detected = true) (hT : SMap.find g.timestamp poses = some T)
    (hm : ∃ m, AprilGrid.getMeasurements g Meas.empty = .ok m) (errs : List ℝ) :
    inspGrid env c.cam c.p c.e poses errs g = .ok (errs ++ imageErrors env c T g) := by
  obtain ⟨m, hm⟩ := hm
  unfold inspGrid
  rw [if_neg (by simp [hd]), hT]
  simp only
  rw [hm, AprilGrid.ok_bind, getMeasurements_list g m hd hm]
  unfold imageErrors
  have : ∀ (l : List ((Int × Int) × (ℝ × ℝ))) (errs : List ℝ), (∀ m ∈ l, m ∈ gridMeas g) →
      l.foldlM (inspMeas env c.cam c.p (tfInv (env.tf c.e) * T) g) errs = .ok (errs ++
        l.filterMap (fun m =>
          (env.project c.cam c.p (tfPoint (tfInv (env.tf c.e) * T) (corner3 g m.1.1 m.1.2))).map
            (fun zh => Real.sqrt ((m.2.1 - zh.1) ^ 2 + (m.2.2 - zh.2) ^ 2)))) := by
    intro l
    induction l with
    | nil => intro errs _; simp [AprilGrid.pure_eq_ok]
    | cons x l ih =>
      intro errs hl
      rw [List.foldlM_cons, inspMeas_eq env c _ g errs x (hl x List.mem_cons_self), AprilGrid.ok_bind,
        ih _ (fun m hm => hl m (List.mem_cons_of_mem _ hm)), List.append_assoc]
      congr 2
      rw [List.filterMap_cons]
      cases (env.project c.cam c.p (tfPoint (tfInv (env.tf c.e) * T) (corner3 g x.1.1 x.1.2))) <;> simp
  exact this _ errs (fun _ h => h)

theorem inspGrid_ok (env : InspEnv V) (c : CamData V) (poses : List (Int × Mat4 ℝ)) (g : Grid ℝ)
    {errs out : List ℝ} (h : inspGrid env c.cam c.p c.e poses errs g = .ok out) (hd : g.detected = true) :
    (SMap.find g.timestamp poses).isSome ∧ ∃ m, AprilGrid.getMeasurements g Meas.empty = .ok m := by
  unfold inspGrid at h
  rw [if_neg (by simp [hd])] at h
  split at h
  · cases h
  · rename_i T hT
    obtain ⟨m, hm, _⟩ := bind_ok h
    exact ⟨by rw [hT]; rfl, m, hm⟩

/-- A board that can be read and whose time has a pose. -/
def Readable (env : InspEnv V) (cs : List (CamData V)) (g : Grid ℝ) : Prop :=
  g.detected = true → (poseAt env cs g.timestamp).isSome ∧
    ∃ m, AprilGrid.getMeasurements g Meas.empty = .ok m

theorem inspGrids_eq (env : InspEnv V) (c : CamData V) (pose : Int → Option (Mat4 ℝ)) (poses : List (Int × Mat4 ℝ))
    (hpose : ∀ t, SMap.find t poses = pose t) (gs : List (Grid ℝ)) (errs : List ℝ)
    (h : ∀ g ∈ gs, g.detected = true → (pose g.timestamp).isSome ∧
      ∃ m, AprilGrid.getMeasurements g Meas.empty = .ok m) :
    gs.foldlM (inspGrid env c.cam c.p c.e poses) errs = .ok (errs ++
      (gs.filter (fun g => g.detected)).flatMap (fun g => imageErrors env c ((pose g.timestamp).getD 0) g)) := by
  induction gs generalizing errs with
  | nil => simp [AprilGrid.pure_eq_ok]
  | cons g gs ih =>
    rw [List.foldlM_cons]
    have ih' := fun e => ih e (fun x hx => h x (List.mem_cons_of_mem _ hx))
    cases hd : g.detected with
    | false =>
      have : inspGrid env c.cam c.p c.e poses errs g = .ok errs := by
        unfold inspGrid; rw [if_pos hd]
      rw [this, AprilGrid.ok_bind, ih', List.filter_cons_of_neg (by simp [hd])]
    | true =>
      obtain ⟨h1, h2⟩ := h g List.mem_cons_self hd
      obtain ⟨T, hT⟩ := Option.isSome_iff_exists.mp h1
      rw [inspGrid_eq env c poses g T hd (by rw [hpose, hT]) h2, AprilGrid.ok_bind, ih',
        List.filter_cons_of_pos (by simp [hd]), List.flatMap_cons, List.append_assoc, hT]
      rfl

theorem inspGrids_ok (env : InspEnv V) (c : CamData V) (poses : List (Int × Mat4 ℝ)) (gs : List (Grid ℝ)) :
    ∀ errs out, gs.foldlM (inspGrid env c.cam c.p c.e poses) errs = .ok out →
      ∀ g ∈ gs, g.detected = true → (SMap.find g.timestamp poses).isSome ∧
        ∃ m, AprilGrid.getMeasurements g Meas.empty = .ok m := by
  induction gs with
  | nil => simp
  | cons g gs ih =>
    intro errs out h x hx hd
    rw [List.foldlM_cons] at h
    obtain ⟨mid, hm, h⟩ := bind_ok h
    rcases List.mem_cons.mp hx with rfl | hx
    · exact inspGrid_ok env c poses x hm hd
    · exact ih mid out h x hx hd

theorem inspErrors_eq (env : InspEnv V) (s : Cal ℝ V) (valid : List (Int × List (Grid ℝ)))
    (pose : Int → Option (Mat4 ℝ)) (poses : List (Int × Mat4 ℝ)) (hpose : ∀ t, SMap.find t poses = pose t)
    (is : List Int) (cs : List (CamData V))
    (h : List.Forall₂ (fun i c => c.cam = i ∧ (∃ b, SMap.find i s.params = some ⟨c.p, b⟩) ∧
      (∃ b, SMap.find i s.exts = some ⟨c.e, b⟩) ∧ SMap.find i valid = some c.grids) is cs) :
    ∀ errs, ((∀ c ∈ cs, ∀ g ∈ c.grids, g.detected = true → (pose g.timestamp).isSome ∧
        ∃ m, AprilGrid.getMeasurements g Meas.empty = .ok m) →
      is.foldlM (fun errs cam => inspCam s valid cam >>= fun c =>
        c.2.2.foldlM (inspGrid env cam c.1 c.2.1 poses) errs) errs = .ok (errs ++ cs.flatMap (fun c =>
          (c.grids.filter (fun g => g.detected)).flatMap (fun g =>
            imageErrors env c ((pose g.timestamp).getD 0) g)))) ∧
    ∀ out, is.foldlM (fun errs cam => inspCam s valid cam >>= fun c =>
        c.2.2.foldlM (inspGrid env cam c.1 c.2.1 poses) errs) errs = .ok out →
      ∀ c ∈ cs, ∀ g ∈ c.grids, g.detected = true → (pose g.timestamp).isSome ∧
        ∃ m, AprilGrid.getMeasurements g Meas.empty = .ok m := by
  induction h with
  | nil => intro errs; exact ⟨fun _ => by simp [AprilGrid.pure_eq_ok], by simp⟩
  | @cons i c is cs hc _ ih =>
    intro errs
    obtain ⟨hcam, hp, he, hg⟩ := hc
    constructor
    · intro hr
      rw [List.foldlM_cons, inspCam_eq hp he hg, AprilGrid.ok_bind, ← hcam,
        inspGrids_eq env c pose poses hpose c.grids errs (hr c List.mem_cons_self), AprilGrid.ok_bind,
        (ih _).1 (fun c hc => hr c (List.mem_cons_of_mem _ hc)), List.flatMap_cons, List.append_assoc]
    · intro out h x hx
      rw [List.foldlM_cons, inspCam_eq hp he hg, AprilGrid.ok_bind, ← hcam] at h
      obtain ⟨mid, hm, h⟩ := bind_ok h
      rcases List.mem_cons.mp hx with rfl | hx
      · intro g hg hd
        have := inspGrids_ok env x poses x.grids errs mid hm g hg hd
        rw [hpose] at this
        exact this
      · exact (ih mid).2 out h x hx

/-! ### C100 -/

/-- **C100, the value.**  For every calibrator with as many extrinsics as intrinsics, all its cameras in
the validation data: `inspect` returns `r` exactly if every detected board can be read and its time has a
pose, there is some measurement that projects, and `r` is the root mean square of the reprojection errors
of all measurements that project; the pose of a time is the first estimate that succeeds, in the order of
the cameras. -/
theorem C100_value (env : InspEnv V) (s : Cal ℝ V) (valid : List (Int × List (Grid ℝ))) (cs : List (CamData V))
    (hn : s.params ≠ []) (hl : s.exts.length = s.params.length) (hc : Cams s valid cs) (r : ℝ) :
    inspect env s valid = .ok r ↔
      (∀ c ∈ cs, ∀ g ∈ c.grids, Readable env cs g) ∧ allErrors env cs ≠ [] ∧ 0 ≤ r ∧
      r ^ 2 * ((allErrors env cs).length : ℝ) = ((allErrors env cs).map (fun a => a ^ 2)).sum := by
  have hlen : s.params.length ≠ 0 := by simpa using hn
  obtain ⟨poses, hp, hh⟩ := inspPoses_holds env s valid (camIdxs s) cs hc [] [] (by intro t; rfl)
  rw [List.nil_append] at hh
  have hpose : ∀ t, SMap.find t poses = poseAt env cs t := hh
  obtain ⟨e1, e2⟩ := inspErrors_eq env s valid (poseAt env cs) poses hpose (camIdxs s) cs hc []
  have hrun : inspect env s valid = (inspErrors env s valid poses >>= fun errs => inspRmse errs) := by
    unfold inspect
    rw [if_neg hlen, if_neg (by rw [hl]; exact hlen), if_neg (by simp [hl])]
    unfold inspPoses
    rw [hp, AprilGrid.ok_bind]
  have key : (∀ c ∈ cs, ∀ g ∈ c.grids, Readable env cs g) →
      inspErrors env s valid poses = .ok (allErrors env cs) := by
    intro hr
    unfold inspErrors
    rw [e1 hr, List.nil_append]
    rfl
  rw [hrun]
  constructor
  · intro h
    obtain ⟨errs, he, h⟩ := bind_ok h
    have hread : ∀ c ∈ cs, ∀ g ∈ c.grids, Readable env cs g := fun c hc g hg hd => e2 errs he c hc g hg hd
    rw [key hread] at he
    cases he
    refine ⟨hread, ?_⟩
    unfold inspRmse at h
    by_cases hne : allErrors env cs = []
    · rw [hne] at h; simp [Num.rmse] at h
    · obtain ⟨e, he, h0, hs, _⟩ := (Num.C29_stddev_rmse (allErrors env cs)).2.1 hne
      rw [he] at h
      cases h
      exact ⟨hne, h0, hs⟩
  · rintro ⟨hread, hne, h0, hs⟩
    rw [key hread, AprilGrid.ok_bind]
    obtain ⟨e, he, h0', hs', _⟩ := (Num.C29_stddev_rmse (allErrors env cs)).2.1 hne
    unfold inspRmse
    rw [he]
    have hpos : (0 : ℝ) < ((allErrors env cs).length : ℝ) := by
      exact_mod_cast List.length_pos_iff.mpr hne
    have : e ^ 2 = r ^ 2 := by
      have := hs'.trans hs.symm
      exact mul_right_cancel₀ hpos.ne' this
    have : e = r := by
      rcases sq_eq_sq_iff_eq_or_eq_neg.mp this with h | h
      · exact h
      · linarith
    rw [this]

/-- **C100, exact data.**  If the images are exactly those of boards at poses `B t` relative to camera 0,
the extrinsics are rigid, and every pose estimate is the true pose in its camera, then `inspect` returns 0
(as soon as one corner is seen). -/
theorem C100_exact (env : InspEnv V) (s : Cal ℝ V) (valid : List (Int × List (Grid ℝ))) (cs : List (CamData V))
    (hn : s.params ≠ []) (hl : s.exts.length = s.params.length) (hc : Cams s valid cs) (B : Int → Mat4 ℝ)
    (hrigid : ∀ c ∈ cs, Calib.Rigid (env.tf c.e))
    (hread : ∀ c ∈ cs, ∀ g ∈ c.grids, g.detected = true →
      (∃ m, AprilGrid.getMeasurements g Meas.empty = .ok m) ∧
      env.estimate c.cam c.p g = some (tfInv (env.tf c.e) * B g.timestamp) ∧
      ∀ m ∈ gridMeas g, env.project c.cam c.p
        (tfPoint (tfInv (env.tf c.e) * B g.timestamp) (corner3 g m.1.1 m.1.2)) = some m.2)
    (hsome : ∃ c ∈ cs, ∃ g ∈ c.grids, g.detected = true ∧ gridMeas g ≠ []) :
    inspect env s valid = .ok 0 := by
  have hest : ∀ x ∈ cs.flatMap (estimates env), x.2 = B x.1 := by
    intro x hx
    obtain ⟨c, hcm, hx⟩ := List.mem_flatMap.mp hx
    unfold estimates at hx
    obtain ⟨g, hg, hx⟩ := List.mem_filterMap.mp hx
    cases hd : g.detected with
    | false => rw [hd] at hx; cases hx
    | true =>
      rw [hd, if_pos rfl, (hread c hcm g hg hd).2.1] at hx
      cases hx
      show env.tf c.e * (tfInv (env.tf c.e) * B g.timestamp) = _
      rw [← Matrix.mul_assoc]
      have : env.tf c.e * tfInv (env.tf c.e) = 1 := (Calib.Rigid.inv_inv (hrigid c hcm)).2.1
      rw [this, Matrix.one_mul]
  have hpose : ∀ c ∈ cs, ∀ g ∈ c.grids, g.detected = true → poseAt env cs g.timestamp = some (B g.timestamp) := by
    intro c hcm g hg hd
    unfold poseAt
    have hmem : ∃ x ∈ cs.flatMap (estimates env), x.1 = g.timestamp := by
      refine ⟨(g.timestamp, env.tf c.e * (tfInv (env.tf c.e) * B g.timestamp)), ?_, rfl⟩
      refine List.mem_flatMap.mpr ⟨c, hcm, ?_⟩
      unfold estimates
      refine List.mem_filterMap.mpr ⟨g, hg, ?_⟩
      rw [hd, if_pos rfl, (hread c hcm g hg hd).2.1]
      rfl
    cases hf : (cs.flatMap (estimates env)).find? (fun x => x.1 = g.timestamp) with
    | none =>
      obtain ⟨x, hx, hxt⟩ := hmem
      have := List.find?_eq_none.mp hf x hx
      simp [hxt] at this
    | some x =>
      have h1 := List.mem_of_find?_eq_some hf
      have h2 : x.1 = g.timestamp := by simpa using List.find?_some hf
      rw [Option.map_some, hest x h1, h2]
  have himg : ∀ c ∈ cs, ∀ g ∈ c.grids, g.detected = true →
      imageErrors env c ((poseAt env cs g.timestamp).getD 0) g = (gridMeas g).map (fun _ => 0) := by
    intro c hcm g hg hd
    rw [hpose c hcm g hg hd]
    unfold imageErrors
    simp only [Option.getD_some]
    have := (hread c hcm g hg hd).2.2
    generalize gridMeas g = l at this
    induction l with
    | nil => rfl
    | cons m l ih =>
      rw [List.filterMap_cons, this m List.mem_cons_self]
      simp only [Option.map_some, sub_self]
      rw [ih (fun m hm => this m (List.mem_cons_of_mem _ hm))]
      simp
  have hzero : ∀ a ∈ allErrors env cs, a = 0 := by
    intro a ha
    unfold allErrors at ha
    obtain ⟨c, hcm, ha⟩ := List.mem_flatMap.mp ha
    obtain ⟨g, hg, ha⟩ := List.mem_flatMap.mp ha
    obtain ⟨hg, hd⟩ := List.mem_filter.mp hg
    rw [himg c hcm g hg (by simpa using hd)] at ha
    obtain ⟨_, _, rfl⟩ := List.mem_map.mp ha
    rfl
  refine (C100_value env s valid cs hn hl hc 0).mpr ⟨?_, ?_, le_refl _, ?_⟩
  · intro c hcm g hg hd
    exact ⟨by rw [hpose c hcm g hg hd]; rfl, (hread c hcm g hg hd).1⟩
  · obtain ⟨c, hcm, g, hg, hd, hne⟩ := hsome
    obtain ⟨m, l, hml⟩ := List.exists_cons_of_ne_nil hne
    intro e
    have : (0 : ℝ) ∈ allErrors env cs := by
      unfold allErrors
      refine List.mem_flatMap.mpr ⟨c, hcm, List.mem_flatMap.mpr ⟨g, List.mem_filter.mpr ⟨hg, by simpa using hd⟩, ?_⟩⟩
      rw [himg c hcm g hg hd, hml]
      simp
    rw [e] at this
    cases this
  · have : (allErrors env cs).map (fun a => a ^ 2) = (allErrors env cs).map (fun _ => (0 : ℝ)) := by
      apply List.map_congr_left
      intro a ha
      rw [hzero a ha]; norm_num
    rw [this]
    simp

/-- **C100 refuted.**  A calibrated camera without an entry in the validation data makes `inspect` throw,
whatever the other cameras have. -/
theorem C100_missing_refuted (env : InspEnv V) (s : Cal ℝ V) (valid : List (Int × List (Grid ℝ)))
    (hl : s.exts.length = s.params.length) (i : Int) (hi : i ∈ camIdxs s) (hm : SMap.find i valid = none) :
    ∃ err, inspect env s valid = .error err := by
  cases hr : inspect env s valid with
  | error err => exact ⟨err, rfl⟩
  | ok r =>
    exfalso
    unfold inspect at hr
    split_ifs at hr
    obtain ⟨poses, hp, _⟩ := bind_ok hr
    unfold inspPoses at hp
    have : ∀ (l : List Int) (acc out : List (Int × Mat4 ℝ)), i ∈ l → l.foldlM (fun poses cam =>
        inspCam s valid cam >>= fun c => .ok (c.2.2.foldl (inspPose env cam c.1 c.2.1) poses)) acc = .ok out →
        False := by
      intro l
      induction l with
      | nil => intro _ _ h; cases h
      | cons a l ih =>
        intro acc out h ho
        rw [List.foldlM_cons] at ho
        obtain ⟨mid, h1, ho⟩ := bind_ok ho
        rcases List.mem_cons.mp h with rfl | h
        · obtain ⟨x, hx, _⟩ := bind_ok h1
          have := (inspCam_ok hx).2.2
          rw [hm] at this; cases this
        · exact ih mid out h ho
    exact this _ _ _ hi hp

/-- **C100 refuted.**  A detected board whose pose cannot be estimated in any camera: its pose is read
from a matrix that was never initialised; the call has no defined result. -/
theorem C100_uninit_refuted (env : InspEnv V) (s : Cal ℝ V) (valid : List (Int × List (Grid ℝ)))
    (cs : List (CamData V)) (hn : s.params ≠ []) (hl : s.exts.length = s.params.length) (hc : Cams s valid cs)
    (c : CamData V) (hcm : c ∈ cs) (g : Grid ℝ) (hg : g ∈ c.grids) (hd : g.detected = true)
    (hbad : poseAt env cs g.timestamp = none) : ∃ err, inspect env s valid = .error err := by
  cases hr : inspect env s valid with
  | error err => exact ⟨err, rfl⟩
  | ok r =>
    have := ((C100_value env s valid cs hn hl hc r).mp hr).1 c hcm g hg hd
    rw [hbad] at this
    cases this.1

end Yac.Setup
