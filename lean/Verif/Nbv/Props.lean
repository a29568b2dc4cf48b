import Verif.Nbv.Lemmas
import Mathlib.Tactic.FinCases
import Mathlib.Tactic.Linarith

/-!
# C56: simulated views of the calibration target
-/

namespace Yac.Nbv
open Matrix Yac.Geom Yac.Cam AprilGrid.Spec
open AprilGrid (Grid Op)

/-! ### Specification -/

/-- The camera at pose `T` (camera to target coordinates) projects every corner of the target
successfully: `q` is the corner in camera coordinates. -/
def Sees (tg : Target) (cam : Camera) (T : Mat4 ℝ) : Prop :=
  ∀ t c, t < tg.rows * tg.cols → c < 4 → ∀ q, tfPoint T q = corner tg t c → (cam.project q).code = 0

/-- The camera at position `pos` with its optical axis towards `centre` and its image rows level
(the camera's x axis is perpendicular to the y axis of the target). -/
def LooksAt (centre : Vec3 ℝ) (T : Mat4 ℝ) (pos : Vec3 ℝ) : Prop :=
  ∃ C d, IsRot C ∧ T = tf C pos ∧ 0 < d ∧ tfPoint T ![0, 0, d] = centre ∧ C 1 0 = 0

/-- The point in front of the target's centre from which its width covers `scale` of the image. -/
noncomputable def vantage (tg : Target) (cam : Camera) (scale : ℝ) : Vec3 ℝ :=
  ![tg.width / 2, tg.height / 2, cam.params 0 * tg.width / (cam.res 0 * scale)]

/-- The camera at `r` facing the target. -/
def facing (r : Vec3 ℝ) : Mat4 ℝ := tf !![1, 0, 0; 0, -1, 0; 0, 0, -1] r

/-- The centre of the target. -/
noncomputable def centre (tg : Target) : Vec3 ℝ := ![tg.width / 2, tg.height / 2, 0]

theorem flip_rot : IsRot (!![1, 0, 0; 0, -1, 0; 0, 0, -1] : Mat3 ℝ) := by
  constructor
  · ext i j; fin_cases i <;> fin_cases j <;> simp [Matrix.mul_apply, Fin.sum_univ_three]
  · simp [Matrix.det_fin_three]

theorem one_rot : IsRot (1 : Mat3 ℝ) := ⟨by simp, by simp⟩

/-! ### The simulated grid -/

theorem sees_iff {tg : Target} {cam : Camera} {C : Mat3 ℝ} (h : IsRot C) (r : Vec3 ℝ) :
    Sees tg cam (tf C r) ↔
      ∀ tc ∈ corners (tg.rows * tg.cols), (image tg cam (tf C r)⁻¹ tc).code = 0 := by
  constructor
  · rintro hs ⟨t, c⟩ htc
    rw [mem_corners] at htc
    exact hs t c htc.1 htc.2 _ ((inv_point h r _ _).mp rfl)
  · intro hs t c ht hc q hq
    have := hs (t, c) ((mem_corners _ _ _).mpr ⟨ht, hc⟩)
    rwa [image, (inv_point h r _ _).mpr hq] at this

/-- C56: the grid simulated for a pose has the time stamp given and contains a corner exactly
when the projection of that corner succeeds, with the pixel as keypoint. -/
theorem C56_grid (tg : Target) (cam : Camera) (ts : ℤ) (C : Mat3 ℝ) (r : Vec3 ℝ) (hC : IsRot C) :
    ∃ g, targetGrid tg cam ts (tf C r) = .ok g ∧ g.timestamp = ts ∧
      g.tagRows = tg.rows ∧ g.tagCols = tg.cols ∧ g.tagSize = tg.size ∧ g.tagSpacing = tg.spacing ∧
      (∀ t c : Nat, t < tg.rows * tg.cols → c < 4 → ∀ q, tfPoint (tf C r) q = corner tg t c →
        AprilGrid.has g t c = .ok (decide ((cam.project q).code = 0)) ∧
        ((cam.project q).code = 0 → ∃ z, (cam.project q).zhat = some z ∧
          AprilGrid.keypoint g t c = .ok (z 0, z 1))) ∧
      (AprilGrid.fullyObservable g = .ok true ↔ Sees tg cam (tf C r)) ∧
      (g.detected = true ↔ ∃ t c, t < tg.rows * tg.cols ∧ c < 4 ∧
        ∃ q, tfPoint (tf C r) q = corner tg t c ∧ (cam.project q).code = 0) := by
  have hl : ∀ tc ∈ corners (tg.rows * tg.cols), tc.1 < tg.rows * tg.cols ∧ tc.2 < 4 :=
    fun tc h => (mem_corners _ tc.1 tc.2).mp h
  have hv := seenOps_valid tg cam (tf C r)⁻¹ _ hl
  obtain ⟨g, hg, hm⟩ := AprilGrid.C01_map_refinement ts tg.rows tg.cols tg.size tg.spacing _ hv
  obtain ⟨-, f0, f1, f2, f3, f4, -⟩ := AprilGrid.C01_frame ts tg.rows tg.cols tg.size tg.spacing _ hv g hg
  obtain ⟨s1, s2⟩ := seen_map tg cam (tf C r)⁻¹ _ (corners_nodup (tg.rows * tg.cols))
  obtain ⟨-, k2, k3⟩ := AprilGrid.C02_counter_partial ts tg.rows tg.cols tg.size tg.spacing _ hv s1 g hg
  refine ⟨g, ?_, f0, f1, f2, f3, f4, ?_, ?_, ?_⟩
  · rw [targetGrid, inverse_tf hC, AprilGrid.ok_bind, addSeen_run _ _ _ _ _ hl, hg]
  · intro t c ht hc q hq
    have hq' := (inv_point hC r _ _).mpr hq
    have hvalid : Valid tg.rows tg.cols t c :=
      ⟨by omega, by exact_mod_cast ht, by omega, by omega⟩
    obtain ⟨m1, m2⟩ := hm t c hvalid
    have hmem : (t, c) ∈ corners (tg.rows * tg.cols) := (mem_corners _ _ _).mpr ⟨ht, hc⟩
    have him : image tg cam (tf C r)⁻¹ (t, c) = cam.project q := by rw [image, hq']
    rw [m1, m2, s2]
    by_cases h0 : (cam.project q).code = 0
    · rw [if_pos ⟨hmem, by rw [him]; exact h0⟩]
      refine ⟨by simp [h0], fun _ => ?_⟩
      obtain ⟨z, hz⟩ := project_writes cam q h0
      exact ⟨z, hz, by simp [spot, him, hz]⟩
    · rw [if_neg (fun h => h0 (by rw [← him]; exact h.2))]
      exact ⟨by simp [h0], fun h => absurd h h0⟩
  · rw [k3, sees_iff hC]
    constructor
    · rintro h ⟨t, c⟩ htc
      obtain ⟨ht, hc⟩ := (mem_corners _ _ _).mp htc
      have := h t c ⟨by omega, by exact_mod_cast ht, by omega, by omega⟩
      rw [s2] at this
      by_contra hcode
      rw [if_neg (fun h => hcode h.2)] at this
      cases this
    · intro h t c hvalid
      obtain ⟨t, c, rfl, rfl, ht, hc, -⟩ := AprilGrid.valid_index hvalid
      have hmem := (mem_corners _ _ _).mpr ⟨ht, hc⟩
      rw [s2, if_pos ⟨hmem, h _ hmem⟩]
      rfl
  · rw [k2, AprilGrid.Spec.size, List.length_pos_iff_exists_mem]
    constructor
    · rintro ⟨⟨⟨t, c⟩, kp⟩, he⟩
      obtain ⟨hvalid, hr⟩ := (AprilGrid.mem_held _ _ _ _ _ _).mp he
      obtain ⟨t, c, rfl, rfl, ht, hc, -⟩ := AprilGrid.valid_index hvalid
      rw [s2] at hr
      by_cases hcond : (t, c) ∈ corners (tg.rows * tg.cols) ∧ (image tg cam (tf C r)⁻¹ (t, c)).code = 0
      · exact ⟨t, c, ht, hc, _, (inv_point hC r _ _).mp rfl, hcond.2⟩
      · rw [if_neg hcond] at hr; cases hr
    · rintro ⟨t, c, ht, hc, q, hq, h0⟩
      have hq' := (inv_point hC r _ _).mpr hq
      refine ⟨((t, c), spot tg cam (tf C r)⁻¹ (t, c)), (AprilGrid.mem_held _ _ _ _ _ _).mpr
        ⟨⟨by omega, by exact_mod_cast ht, by omega, by omega⟩, ?_⟩⟩
      rw [s2, if_pos ⟨(mem_corners _ _ _).mpr ⟨ht, hc⟩, by rw [image, hq']; exact h0⟩]

/-- C56: `check_fully_observable` says whether every corner is projected successfully. -/
theorem C56_observable (tg : Target) (cam : Camera) (C : Mat3 ℝ) (r : Vec3 ℝ) (hC : IsRot C) :
    ∃ b, checkFullyObservable tg cam (tf C r) = .ok b ∧ (b = true ↔ Sees tg cam (tf C r)) := by
  obtain ⟨b, hb, hi⟩ := allSeen_eq tg cam (tf C r)⁻¹ (corners (tg.rows * tg.cols))
    (fun tc h => (mem_corners _ tc.1 tc.2).mp h)
  exact ⟨b, by rw [checkFullyObservable, inverse_tf hC, AprilGrid.ok_bind, hb],
    by rw [hi, sees_iff hC]⟩

/-- C56: the whole target is observable exactly when the simulated grid holds every corner. -/
theorem C56_observable_grid (tg : Target) (cam : Camera) (ts : ℤ) (C : Mat3 ℝ) (r : Vec3 ℝ) (hC : IsRot C)
    (g : Grid ℝ) (hg : targetGrid tg cam ts (tf C r) = .ok g) :
    checkFullyObservable tg cam (tf C r) = AprilGrid.fullyObservable g := by
  obtain ⟨g', hg', -, -, -, -, -, -, h1, -⟩ := C56_grid tg cam ts C r hC
  rw [hg] at hg'
  injection hg' with hg'
  subst hg'
  obtain ⟨b, hb, h2⟩ := C56_observable tg cam C r hC
  rw [hb]
  have hl : ∀ tc ∈ corners (tg.rows * tg.cols), tc.1 < tg.rows * tg.cols ∧ tc.2 < 4 :=
    fun tc h => (mem_corners _ tc.1 tc.2).mp h
  have hv := seenOps_valid tg cam (tf C r)⁻¹ _ hl
  rw [targetGrid, inverse_tf hC, AprilGrid.ok_bind, addSeen_run _ _ _ _ _ hl] at hg
  obtain ⟨-, -, h3⟩ := AprilGrid.C02_counter_exact ts tg.rows tg.cols tg.size tg.spacing _ hv g hg
  rw [h3] at h1 ⊢
  cases b with
  | true => rw [h1.mpr (h2.mp rfl)]
  | false =>
    have : ¬ Sees tg cam (tf C r) := fun h => by have := h2.mpr h; cases this
    rw [← h1] at this
    congr 1
    symm
    rw [decide_eq_false_iff_not]
    intro h
    exact this (by rw [decide_eq_true h])

/-! ### The target's size and centre -/

/-- C56: the centre used is the centre of symmetry of the corners, and the outer corners lie at
distance `width` and `height` from the first one. -/
theorem C56_centre (tg : Target) :
    (∀ t c, t < tg.rows * tg.cols → c < 4 → ∃ t' c', t' < tg.rows * tg.cols ∧ c' < 4 ∧
      corner tg t c + corner tg t' c' = (2 : ℝ) • centre tg) ∧
    (0 < tg.rows → 0 < tg.cols → corner tg 0 0 = ![0, 0, 0] ∧
      corner tg (tg.cols - 1) 1 = ![tg.width, 0, 0] ∧
      corner tg (tg.rows * tg.cols - 1) 2 = ![tg.width, tg.height, 0] ∧
      corner tg ((tg.rows - 1) * tg.cols) 3 = ![0, tg.height, 0]) := by
  obtain ⟨rows, cols, size, spacing⟩ := tg
  constructor
  · intro t c ht hc
    simp only at ht
    have hcols : 0 < cols := Nat.pos_of_ne_zero (by rintro rfl; simp at ht)
    have hd : t / cols < rows := Nat.div_lt_of_lt_mul (by rw [mul_comm]; exact ht)
    have hm : t % cols < cols := Nat.mod_lt _ hcols
    have ex : ∃ t', t' < rows * cols ∧ t' / cols = rows - 1 - t / cols ∧ t' % cols = cols - 1 - t % cols := by
      generalize t / cols = a at hd
      generalize t % cols = b at hm
      refine ⟨(rows - 1 - a) * cols + (cols - 1 - b), ?_, ?_, ?_⟩
      · calc (rows - 1 - a) * cols + (cols - 1 - b)
            < (rows - 1 - a) * cols + cols := by omega
          _ = (rows - 1 - a + 1) * cols := by ring
          _ ≤ rows * cols := Nat.mul_le_mul_right _ (by omega)
      · rw [mul_comm, Nat.mul_add_div hcols, Nat.div_eq_of_lt (a := cols - 1 - b) (by omega), add_zero]
      · rw [mul_comm, Nat.mul_add_mod, Nat.mod_eq_of_lt (a := cols - 1 - b) (by omega)]
    obtain ⟨t', ht', e1, e2⟩ := ex
    refine ⟨t', (c + 2) % 4, ht', Nat.mod_lt _ (by norm_num), ?_⟩
    have c1 : ((t' / cols : Nat) : ℝ) = rows - 1 - (t / cols : Nat) := by
      rw [e1]
      generalize t / cols = a at hd
      rw [Nat.cast_sub (by omega), Nat.cast_sub (by omega)]; simp
    have c2 : ((t' % cols : Nat) : ℝ) = cols - 1 - (t % cols : Nat) := by
      rw [e2]
      generalize t % cols = b at hm
      rw [Nat.cast_sub (by omega), Nat.cast_sub (by omega)]; simp
    simp only [corner, vec, boardPoint, c1, c2, centre, Target.width, Target.height]
    obtain rfl | rfl | rfl | rfl : c = 0 ∨ c = 1 ∨ c = 2 ∨ c = 3 := by omega
    all_goals
      ext i
      fin_cases i <;> simp <;> ring
  · intro hr hc
    simp only at hr hc
    have a1 : (cols - 1) % cols = cols - 1 := Nat.mod_eq_of_lt (by omega)
    have a2 : (cols - 1) / cols = 0 := Nat.div_eq_of_lt (by omega)
    have e : rows * cols - 1 = (rows - 1) * cols + (cols - 1) := by
      obtain ⟨n, rfl⟩ := Nat.exists_eq_add_of_lt hr
      simp only [Nat.zero_add, Nat.add_sub_cancel]
      rw [Nat.add_mul]
      omega
    have a3 : (rows * cols - 1) % cols = cols - 1 := by
      rw [e, mul_comm, Nat.mul_add_mod, a1]
    have a4 : (rows * cols - 1) / cols = rows - 1 := by
      rw [e, mul_comm, Nat.mul_add_div hc, a2, add_zero]
    have a5 : (rows - 1) * cols % cols = 0 := Nat.mul_mod_left _ _
    have a6 : (rows - 1) * cols / cols = rows - 1 := Nat.mul_div_cancel _ hc
    have c1 : ((rows - 1 : Nat) : ℝ) = rows - 1 := by rw [Nat.cast_sub (by omega)]; simp
    have c2 : ((cols - 1 : Nat) : ℝ) = cols - 1 := by rw [Nat.cast_sub (by omega)]; simp
    refine ⟨?_, ?_, ?_, ?_⟩
    all_goals
      simp only [corner, vec, boardPoint, a1, a2, a3, a4, a5, a6, c1, c2, Target.width, Target.height]
      ext i
      fin_cases i <;> simp <;> ring

/-! ### The origin in front of the target -/

theorem flip_eq : euler321 (Num.deg2rad (-180)) (Num.deg2rad 0) (Num.deg2rad 0) =
    (!![1, 0, 0; 0, -1, 0; 0, 0, -1] : Mat3 ℝ) := by
  have h : Num.deg2rad (-180) = -Real.pi := by unfold Num.deg2rad; ring
  have h0 : Num.deg2rad 0 = 0 := by unfold Num.deg2rad; ring
  rw [h, h0]
  unfold euler321
  ext i j
  fin_cases i <;> fin_cases j <;> simp

theorem tryScale_eq (tg : Target) (cam : Camera) (scale : ℝ) (hw : cam.res 0 ≠ 0) (hs : scale ≠ 0) :
    ∃ b, tryScale tg cam scale = .ok (tf 1 (vantage tg cam scale), b) ∧
      (b = true ↔ Sees tg cam (facing (vantage tg cam scale))) := by
  have hw' : (cam.res 0 : ℝ) ≠ 0 := by exact_mod_cast hw
  have hden : ((cam.res 0 : ℝ) / 2) * scale ≠ 0 := mul_ne_zero (div_ne_zero hw' two_ne_zero) hs
  have hr : (![tg.width / 2, tg.height / 2, cam.params 0 * (tg.width / 2) / (((cam.res 0 : ℝ) / 2) * scale)] : Vec3 ℝ)
      = vantage tg cam scale := by
    unfold vantage
    have : cam.params 0 * (tg.width / 2) / (((cam.res 0 : ℝ) / 2) * scale) =
        cam.params 0 * tg.width / (cam.res 0 * scale) := by
      field_simp
    rw [this]
  obtain ⟨b, hb, hi⟩ := C56_observable tg cam _ (vantage tg cam scale) flip_rot
  refine ⟨b, ?_, hi⟩
  rw [tryScale]
  simp only
  rw [if_neg hden, hr, flip_eq, hb, AprilGrid.ok_bind]

theorem originLoop_eq (tg : Target) (cam : Camera) (hw : cam.res 0 ≠ 0) (n : Nat) :
    ∀ scale : ℝ, (∀ k : Nat, k ≤ n → scale ≠ k / 10) →
    (∀ k : Nat, k ≤ n → Sees tg cam (facing (vantage tg cam (scale - k / 10))) →
      (∀ j : Nat, j < k → ¬ Sees tg cam (facing (vantage tg cam (scale - j / 10)))) →
      originLoop tg cam (n + 1) scale = .ok (0, tf 1 (vantage tg cam (scale - k / 10)))) ∧
    ((∀ k : Nat, k ≤ n → ¬ Sees tg cam (facing (vantage tg cam (scale - k / 10)))) →
      ∃ T, originLoop tg cam (n + 1) scale = .ok (-1, T)) := by
  induction n with
  | zero =>
    intro scale hs
    have h0 : scale ≠ 0 := by simpa using hs 0 le_rfl
    obtain ⟨b, hb, hi⟩ := tryScale_eq tg cam scale hw h0
    constructor
    · intro k hk hsee _
      obtain rfl : k = 0 := by omega
      rw [Nat.cast_zero, zero_div, sub_zero] at hsee ⊢
      rw [originLoop, hb, AprilGrid.ok_bind, hi.mpr hsee]
      rfl
    · intro hno
      have hn := hno 0 le_rfl
      rw [Nat.cast_zero, zero_div, sub_zero, ← hi, Bool.not_eq_true] at hn
      rw [originLoop, hb, AprilGrid.ok_bind, hn]
      exact ⟨_, rfl⟩
  | succ n ih =>
    intro scale hs
    have h0 : scale ≠ 0 := by simpa using hs 0 (by omega)
    obtain ⟨b, hb, hi⟩ := tryScale_eq tg cam scale hw h0
    have shift : ∀ k : Nat, scale - 1 / 10 - (k : ℝ) / 10 = scale - ((k + 1 : Nat) : ℝ) / 10 := by
      intro k; push_cast; ring
    obtain ⟨i1, i2⟩ := ih (scale - 1 / 10) (fun k hk h => hs (k + 1) (by omega) (by
      have := shift k
      have e : scale = 1 / 10 + (k : ℝ) / 10 := by linarith
      rw [e]; push_cast; ring))
    have rec_ : b = false → originLoop tg cam (n + 1 + 1) scale = originLoop tg cam (n + 1) (scale - 1 / 10) := by
      intro hbf
      rw [originLoop, hb, AprilGrid.ok_bind, hbf]
      simp only [if_true]
      rw [if_neg (by omega)]
    constructor
    · intro k hk hsee hmin
      cases k with
      | zero =>
        rw [Nat.cast_zero, zero_div, sub_zero] at hsee ⊢
        rw [originLoop, hb, AprilGrid.ok_bind, hi.mpr hsee]
        rfl
      | succ k =>
        have hn := hmin 0 (by omega)
        rw [Nat.cast_zero, zero_div, sub_zero, ← hi, Bool.not_eq_true] at hn
        rw [rec_ hn, ← shift]
        refine i1 k (by omega) (by rw [shift]; exact hsee) (fun j hj => ?_)
        rw [shift]
        exact hmin (j + 1) (by omega)
    · intro hno
      have hn := hno 0 (by omega)
      rw [Nat.cast_zero, zero_div, sub_zero, ← hi, Bool.not_eq_true] at hn
      rw [rec_ hn]
      refine i2 (fun k hk => ?_)
      rw [shift]
      exact hno (k + 1) (by omega)

/-- C56: `calib_target_origin` tries the given fraction of the image width and then up to four
smaller ones, a tenth at a time; it succeeds with the first vantage point from which the camera
facing the target sees all of it, and fails exactly when none of the five does. -/
theorem C56_origin (tg : Target) (cam : Camera) (scale : ℝ) (hw : cam.res 0 ≠ 0)
    (hs : ∀ k : Nat, k < 5 → scale ≠ k / 10) :
    (∀ k : Nat, k < 5 → Sees tg cam (facing (vantage tg cam (scale - k / 10))) →
      (∀ j : Nat, j < k → ¬ Sees tg cam (facing (vantage tg cam (scale - j / 10)))) →
      targetOrigin tg cam scale = .ok (0, tf 1 (vantage tg cam (scale - k / 10)))) ∧
    ((∀ k : Nat, k < 5 → ¬ Sees tg cam (facing (vantage tg cam (scale - k / 10)))) →
      ∃ T, targetOrigin tg cam scale = .ok (-1, T)) := by
  obtain ⟨h1, h2⟩ := originLoop_eq tg cam hw 4 scale (fun k hk => hs k (by omega))
  exact ⟨fun k hk => h1 k (by omega), fun h => h2 (fun k hk => h k (by omega))⟩

/-- C56: success means that the whole target is seen from the pose returned. -/
theorem C56_origin_sees (tg : Target) (cam : Camera) (scale : ℝ) (hw : cam.res 0 ≠ 0)
    (hs : ∀ k : Nat, k < 5 → scale ≠ k / 10) (T : Mat4 ℝ) (h : targetOrigin tg cam scale = .ok (0, T)) :
    ∃ k : Nat, k < 5 ∧ T = tf 1 (vantage tg cam (scale - k / 10)) ∧
      Sees tg cam (facing (vantage tg cam (scale - k / 10))) := by
  obtain ⟨h1, h2⟩ := C56_origin tg cam scale hw hs
  by_cases hex : ∃ k : Nat, k < 5 ∧ Sees tg cam (facing (vantage tg cam (scale - k / 10)))
  · classical
    obtain ⟨hk, hsee⟩ := Nat.find_spec hex
    have hmin : ∀ j : Nat, j < Nat.find hex → ¬ Sees tg cam (facing (vantage tg cam (scale - j / 10))) :=
      fun j hj hj' => Nat.find_min hex hj ⟨by omega, hj'⟩
    have := h1 _ hk hsee hmin
    rw [h] at this
    injection this with this
    injection this with _ this
    exact ⟨_, hk, this, hsee⟩
  · push Not at hex
    obtain ⟨T', hT'⟩ := h2 hex
    rw [h] at hT'
    injection hT' with hT'
    injection hT' with hT' _
    exact absurd hT' (by norm_num)

/-- C56: from the vantage point for `scale`, a camera without distortion images the width of the
target as `scale` times the width of the image, and its centre at the principal point. -/
theorem C56_coverage (tg : Target) (cam : Camera) (scale : ℝ) (hr : 0 < tg.rows) (hc : 0 < tg.cols)
    (hl : cam.lens = .radtan) (hd : ∀ i : Fin 8, 4 ≤ i.val → cam.params i = 0)
    (hw : cam.res 0 ≠ 0) (hs : scale ≠ 0) (hf : cam.params 0 ≠ 0) (hwid : tg.width ≠ 0) (q0 q1 qc : Vec3 ℝ)
    (h0 : tfPoint (facing (vantage tg cam scale)) q0 = corner tg 0 0)
    (h1 : tfPoint (facing (vantage tg cam scale)) q1 = corner tg (tg.cols - 1) 1)
    (h2 : tfPoint (facing (vantage tg cam scale)) qc = centre tg) :
    ∃ z0 z1 zc, (cam.project q0).zhat = some z0 ∧ (cam.project q1).zhat = some z1 ∧
      (cam.project qc).zhat = some zc ∧ z1 0 - z0 0 = scale * cam.res 0 ∧ z1 1 = z0 1 ∧
      zc = ![cam.params 2, cam.params 3] := by
  obtain ⟨lens, res, k⟩ := cam
  simp only at hl hd hw hf h0 h1 h2 ⊢
  subst hl
  obtain ⟨-, hcorner⟩ := C56_centre tg
  obtain ⟨e0, e1, -, -⟩ := hcorner hr hc
  rw [e0] at h0
  rw [e1] at h1
  have hw' : (res 0 : ℝ) ≠ 0 := by exact_mod_cast hw
  have hflip : ∀ q p : Vec3 ℝ, tfPoint (facing (vantage tg ⟨.radtan, res, k⟩ scale)) q = p →
      q 0 = p 0 - tg.width / 2 ∧ q 1 = tg.height / 2 - p 1 ∧
      q 2 = k 0 * tg.width / (res 0 * scale) - p 2 := by
    intro q p h
    rw [facing, Residual.tfPoint_tf] at h
    have a := congrFun h 0
    have b := congrFun h 1
    have c := congrFun h 2
    simp [Matrix.mulVec, dotProduct, Fin.sum_univ_three, vantage] at a b c
    exact ⟨by linarith, by linarith, by linarith⟩
  obtain ⟨a0, b0, c0⟩ := hflip q0 _ h0
  obtain ⟨a1, b1, c1⟩ := hflip q1 _ h1
  obtain ⟨a2, b2, c2⟩ := hflip qc _ h2
  simp [centre] at a0 b0 c0 a1 b1 c1 a2 b2 c2
  have hz : k 0 * tg.width / (res 0 * scale) ≠ 0 :=
    div_ne_zero (mul_ne_zero hf hwid) (mul_ne_zero hw' hs)
  obtain ⟨z0, hz0, x0, y0⟩ := (C38_radtan res k q0).1 (by rw [c0]; exact hz)
  obtain ⟨z1, hz1, x1, y1⟩ := (C38_radtan res k q1).1 (by rw [c1]; exact hz)
  obtain ⟨zc, hzc, xc, yc⟩ := (C38_radtan res k qc).1 (by rw [c2]; exact hz)
  have d4 : k 4 = 0 := hd 4 (by decide)
  have d5 : k 5 = 0 := hd 5 (by decide)
  have d6 : k 6 = 0 := hd 6 (by decide)
  have d7 : k 7 = 0 := hd 7 (by decide)
  have rx : ∀ x y, Cam.Spec.radtanX 0 0 0 0 x y = x := by intro x y; unfold Cam.Spec.radtanX; ring
  have ry : ∀ x y, Cam.Spec.radtanY 0 0 0 0 x y = y := by intro x y; unfold Cam.Spec.radtanY; exact rx y x
  simp only [d4, d5, d6, d7, rx, ry] at x0 y0 x1 y1 xc yc
  refine ⟨z0, z1, zc, hz0, hz1, hzc, ?_, ?_, ?_⟩
  · rw [x0, x1, c0, c1, a0, a1]
    field_simp
    ring
  · rw [y0, y1, c0, c1, b0, b1]
  · ext i
    fin_cases i
    · simp [xc, a2]
    · simp [yc, b2]

/-! ### Generated poses -/

theorem look_at {pos target : Vec3 ℝ} (h : target 2 - pos 2 ≠ 0) :
    ∃ T, look pos target = .ok T ∧ LooksAt target T pos := by
  have hne : target - pos ≠ 0 := by
    intro h0
    have := congrFun h0 2
    simp only [Pi.sub_apply, Pi.zero_apply] at this
    exact h this
  have hup : cross3 (![0, -1, 0] : Vec3 ℝ) (target - pos) ≠ 0 := by
    intro h0
    have := congrFun h0 0
    simp [cross3] at this
    exact h (by linarith)
  obtain ⟨T, hT, C, hC, rfl, h1, h2, -⟩ := Misc.C69_lookat pos target ![0, -1, 0] hne hup
  refine ⟨tf C pos, by rw [look, hT], C, norm3 (target - pos), hC, rfl, ?_, h1, ?_⟩
  · exact (normalized_unit _ hne).2.2
  · simp [dot3] at h2
    exact h2

theorem look_all (target : Vec3 ℝ) (l : List (Vec3 ℝ)) (h : ∀ p ∈ l, target 2 - p 2 ≠ 0) :
    ∃ ps, l.mapM (fun p => look p target) = Except.ok ps ∧ List.Forall₂ (LooksAt target) ps l := by
  induction l with
  | nil => exact ⟨[], rfl, .nil⟩
  | cons p l ih =>
    obtain ⟨ps, h1, h2⟩ := ih (fun x hx => h x (List.mem_cons_of_mem _ hx))
    obtain ⟨T, hT, hl⟩ := look_at (h p (by simp))
    refine ⟨T :: ps, ?_, .cons hl h2⟩
    rw [List.mapM_cons, hT, AprilGrid.ok_bind, h1]
    rfl

theorem forall₂_mem {α β : Type} {R : α → β → Prop} {l : List α} {m : List β} (h : List.Forall₂ R l m)
    {a : α} (ha : a ∈ l) : ∃ b ∈ m, R a b := by
  induction h with
  | nil => cases ha
  | cons hr _ ih =>
    rcases List.mem_cons.mp ha with rfl | ha
    · exact ⟨_, by simp, hr⟩
    · obtain ⟨b, hb, h⟩ := ih ha
      exact ⟨b, by simp [hb], h⟩

theorem tfTrans_one (r : Vec3 ℝ) : tfTrans (tf 1 r) = r := by
  ext i; fin_cases i <;> simp [tfTrans, tf]

theorem lookCentre_vantage (tg : Target) (cam : Camera) (s : ℝ) :
    lookCentre (vantage tg cam s) = centre tg := by
  unfold lookCentre vantage centre
  simp

/-- C56: `calib_init_poses` fails, leaving the caller's poses, when no origin is found; otherwise
it returns four poses, level and looking at the centre of the target, at the distance of the
origin and 1.2 half-widths and half-heights away from the centre. -/
theorem C56_init_poses (tg : Target) (cam : Camera) (poses : List (Mat4 ℝ)) :
    (∀ T, targetOrigin tg cam (5 / 10) = .ok (-1, T) → initPoses tg cam poses = .ok (-1, poses)) ∧
    (∀ s, targetOrigin tg cam (5 / 10) = .ok (0, tf 1 (vantage tg cam s)) → vantage tg cam s 2 ≠ 0 →
      ∃ ps, initPoses tg cam poses = .ok (0, ps) ∧
        List.Forall₂ (fun T (ab : ℝ × ℝ) => LooksAt (centre tg) T
          ![tg.width / 2 + ab.1 * (1.2 * (tg.width / 2)), tg.height / 2 + ab.2 * (1.2 * (tg.height / 2)),
            vantage tg cam s 2]) ps [(-1, 1), (-1, -1), (1, -1), (1, 1)]) := by
  constructor
  · intro T h
    rw [initPoses, h, AprilGrid.ok_bind]
    rfl
  · intro s h hz
    rw [initPoses, h, AprilGrid.ok_bind]
    simp only [ne_eq, not_true_eq_false, if_false, tfTrans_one, lookCentre_vantage]
    have hc2 : centre tg 2 = 0 := by simp [centre]
    obtain ⟨T0, hT0, -⟩ := look_at (pos := ![centre tg 0, centre tg 1, vantage tg cam s 2]) (target := centre tg)
      (by rw [hc2]; simpa using hz)
    rw [hT0, AprilGrid.ok_bind]
    have hpos : initPositions (vantage tg cam s) =
        [((-1 : ℝ), (1 : ℝ)), (-1, -1), (1, -1), (1, 1)].map (fun ab =>
          ![tg.width / 2 + ab.1 * (1.2 * (tg.width / 2)), tg.height / 2 + ab.2 * (1.2 * (tg.height / 2)),
            vantage tg cam s 2]) := by
      unfold initPositions
      have v0 : vantage tg cam s 0 = tg.width / 2 := by simp [vantage]
      have v1 : vantage tg cam s 1 = tg.height / 2 := by simp [vantage]
      simp only [v0, v1, List.map_cons, List.map_nil]
      generalize vantage tg cam s 2 = z
      congr 1
      · ext i; fin_cases i <;> simp <;> ring
      · congr 1
        · ext i; fin_cases i <;> simp <;> ring
        · congr 1
          · ext i; fin_cases i <;> simp <;> ring
          · congr 1
            · ext i; fin_cases i <;> simp <;> ring
    obtain ⟨ps, hps, hall⟩ := look_all (centre tg) (initPositions (vantage tg cam s)) (by
      rw [hpos]
      intro p hp
      rw [List.mem_map] at hp
      obtain ⟨ab, -, rfl⟩ := hp
      rw [hc2]
      simpa using hz)
    rw [hps, AprilGrid.ok_bind]
    refine ⟨ps, rfl, ?_⟩
    rw [hpos, List.forall₂_map_right_iff] at hall
    exact hall

/-- C56, refuted: the initial poses do not include the pose in front of the target's centre that
the code builds first ("Push first pose to be infront of target center"): it is cleared. -/
theorem C56_front_refuted (tg : Target) (cam : Camera) (poses : List (Mat4 ℝ)) (s : ℝ)
    (h : targetOrigin tg cam (5 / 10) = .ok (0, tf 1 (vantage tg cam s))) (hz : vantage tg cam s 2 ≠ 0)
    (hw : tg.width ≠ 0) :
    ∃ ps, initPoses tg cam poses = .ok (0, ps) ∧ ∀ T ∈ ps, tfTrans T 0 ≠ centre tg 0 := by
  obtain ⟨ps, hps, hall⟩ := (C56_init_poses tg cam poses).2 s h hz
  refine ⟨ps, hps, fun T hT => ?_⟩
  obtain ⟨ab, hab, C, d, -, rfl, -⟩ := forall₂_mem hall hT
  have : ab.1 = 1 ∨ ab.1 = -1 := by
    simp only [List.mem_cons, List.not_mem_nil, or_false] at hab
    rcases hab with rfl | rfl | rfl | rfl <;> simp
  simp only [tfTrans, tf, centre]
  rcases this with e | e
  · simp [e, hw]; norm_num
  · simp [e, hw]; norm_num

/-! ### Views to try -/

/-- The `i`-th of `n` evenly spaced numbers from `a` to `b`. -/
noncomputable def spaced (a b : ℝ) (n i : Nat) : ℝ := if n = 1 then a else a + (b - a) * (i / (n - 1))

theorem linspace_spaced (a b : ℝ) (n : Nat) :
    Num.linspace a b n = (List.range n).map (spaced a b n) := by
  obtain ⟨h1, h2, h3⟩ := Num.C28_linspace a b n
  apply List.ext_getElem
  · rw [h1]; simp
  · intro i hi hj
    rw [List.getElem_map, List.getElem_range]
    by_cases hn : n = 1
    · subst hn
      simp only [h2 rfl, spaced, if_true]
      rw [h1] at hi
      obtain rfl : i = 0 := by omega
      rfl
    · rw [(h3 (by rw [h1] at hi; omega)).1 i hi, spaced, if_neg hn]

/-- C56: `calib_nbv_poses` fails when no origin is found; otherwise it returns one pose for every
point of a grid of `nx` by `ny` by `nz` evenly spaced positions, in this order: 1.6 half-widths and
half-heights to each side of the centre, and from the distance of the origin to 1.5 times it.  All
are level and look at the centre of the target. -/
theorem C56_nbv_poses (tg : Target) (cam : Camera) (poses : List (Mat4 ℝ)) (nx ny nz : Nat) :
    (∀ T, targetOrigin tg cam (8 / 10) = .ok (-1, T) → nbvPoses tg cam poses nx ny nz = .ok (-1, poses)) ∧
    (∀ s, targetOrigin tg cam (8 / 10) = .ok (0, tf 1 (vantage tg cam s)) → vantage tg cam s 2 ≠ 0 →
      ∃ ps, nbvPoses tg cam poses nx ny nz = .ok (0, ps) ∧ ps.length = nx * ny * nz ∧
        List.Forall₂ (fun T (ijk : Nat × Nat × Nat) => LooksAt (centre tg) T
          ![tg.width / 2 + spaced (-(1.6 * (tg.width / 2))) (1.6 * (tg.width / 2)) nx ijk.1,
            tg.height / 2 + spaced (-(1.6 * (tg.height / 2))) (1.6 * (tg.height / 2)) ny ijk.2.1,
            spaced (vantage tg cam s 2) (1.5 * vantage tg cam s 2) nz ijk.2.2]) ps
          ((List.range nx).flatMap fun i => (List.range ny).flatMap fun j => (List.range nz).map fun k =>
            (i, j, k))) := by
  constructor
  · intro T h
    rw [nbvPoses, h, AprilGrid.ok_bind]
    rfl
  · intro s h hz
    rw [nbvPoses, h, AprilGrid.ok_bind]
    simp only [ne_eq, not_true_eq_false, if_false, tfTrans_one, lookCentre_vantage]
    have hc2 : centre tg 2 = 0 := by simp [centre]
    have v0 : vantage tg cam s 0 = tg.width / 2 := by simp [vantage]
    have v1 : vantage tg cam s 1 = tg.height / 2 := by simp [vantage]
    have hpos : nbvPositions (vantage tg cam s) nx ny nz =
        ((List.range nx).flatMap fun i => (List.range ny).flatMap fun j => (List.range nz).map fun k =>
            (i, j, k)).map (fun ijk =>
          ![tg.width / 2 + spaced (-(1.6 * (tg.width / 2))) (1.6 * (tg.width / 2)) nx ijk.1,
            tg.height / 2 + spaced (-(1.6 * (tg.height / 2))) (1.6 * (tg.height / 2)) ny ijk.2.1,
            spaced (vantage tg cam s 2) (1.5 * vantage tg cam s 2) nz ijk.2.2]) := by
      unfold nbvPositions
      simp only [linspace_spaced, v0, v1, List.flatMap_map, List.map_flatMap, List.map_map, lookCentre_vantage]
      generalize vantage tg cam s 2 = z
      have e1 : -(tg.width / 2 * 2 / 2) * (16 / 10) = -(1.6 * (tg.width / 2)) := by ring
      have e2 : tg.width / 2 * 2 / 2 * (16 / 10) = 1.6 * (tg.width / 2) := by ring
      have e3 : -(tg.height / 2 * 2 / 2) * (16 / 10) = -(1.6 * (tg.height / 2)) := by ring
      have e4 : tg.height / 2 * 2 / 2 * (16 / 10) = 1.6 * (tg.height / 2) := by ring
      have e5 : z * (15 / 10) = 1.5 * z := by ring
      rw [e1, e2, e3, e4, e5]
      congr 1; funext i
      congr 1; funext j
      congr 1; funext k
      simp only [Function.comp]
      ext l
      fin_cases l <;> simp [centre, add_comm]
    have hnz : ∀ (z : ℝ) (i : Nat), i < nz → z ≠ 0 → spaced z (1.5 * z) nz i ≠ 0 := by
      intro z i hi hz
      unfold spaced
      by_cases h1 : nz = 1
      · rw [if_pos h1]; exact hz
      · rw [if_neg h1]
        have hn : (0 : ℝ) < (nz : ℝ) - 1 := by
          have : (2 : ℝ) ≤ nz := by exact_mod_cast (by omega : 2 ≤ nz)
          linarith
        have hfr : 0 ≤ (i : ℝ) / ((nz : ℝ) - 1) := div_nonneg (Nat.cast_nonneg _) hn.le
        have : z + (1.5 * z - z) * ((i : ℝ) / ((nz : ℝ) - 1)) = z * (1 + (1 / 2) * ((i : ℝ) / ((nz : ℝ) - 1))) := by
          ring
        rw [this]
        refine mul_ne_zero hz ?_
        positivity
    obtain ⟨ps, hps, hall⟩ := look_all (centre tg) (nbvPositions (vantage tg cam s) nx ny nz) (by
      rw [hpos]
      intro p hp
      rw [List.mem_map] at hp
      obtain ⟨⟨i, j, k⟩, hm, rfl⟩ := hp
      simp only [List.mem_flatMap, List.mem_map, List.mem_range, Prod.mk.injEq] at hm
      obtain ⟨i', hi', j', hj', k', hk', rfl, rfl, rfl⟩ := hm
      rw [hc2]
      simpa using hnz (vantage tg cam s 2) k' hk' hz)
    rw [hps, AprilGrid.ok_bind]
    rw [hpos] at hall
    refine ⟨ps, rfl, ?_, ?_⟩
    · rw [hall.length_eq]
      simp [List.length_flatMap, mul_assoc]
    · rw [List.forall₂_map_right_iff] at hall
      exact hall

/-! ### Several cameras -/

theorem inverse_mul {C : Mat3 ℝ} (h : IsRot C) (r : Vec3 ℝ) (P : Mat4 ℝ) : P * (tf C r)⁻¹ * tf C r = P := by
  rw [Matrix.mul_assoc, nonsing_inv_mul _ (isUnit_iff_ne_zero.mpr (tf_det_ne h r)), Matrix.mul_one]

theorem nbvPosesAll_ok (tg : Target) (exts : List (ℤ × Mat4 ℝ)) (nx ny nz : ℤ) (cams : List (ℤ × Camera)) :
    ∀ out, (cams.map Prod.fst).Nodup →
    (∀ e ∈ cams, ∃ C r, IsRot C ∧ SMap.find e.1 exts = some (tf C r)) →
    (∀ e ∈ cams, ∃ ps, nbvPoses tg e.2 [] nx ny nz = .ok (0, ps) ∧ ps ≠ []) →
    ∃ out', nbvPosesAll tg exts nx ny nz cams out = .ok (0, out') ∧
      (∀ e ∈ cams, ∀ C r, SMap.find e.1 exts = some (tf C r) → IsRot C →
        ∀ ps, nbvPoses tg e.2 [] nx ny nz = .ok (0, ps) →
          ∃ qs, SMap.find e.1 out' = some qs ∧ List.Forall₂ (fun Q P => Q * tf C r = P) qs ps) ∧
      (∀ i, i ∉ cams.map Prod.fst → SMap.find i out' = SMap.find i out) := by
  induction cams with
  | nil => exact fun out _ _ _ => ⟨out, rfl, ⟨fun e he => (by cases he), fun i _ => rfl⟩⟩
  | cons e cams ih =>
    obtain ⟨i, cam⟩ := e
    intro out hn hext hok
    rw [List.map_cons, List.nodup_cons] at hn
    obtain ⟨C, r, hC, hf⟩ := hext (i, cam) (by simp)
    obtain ⟨ps, hps, hne⟩ := hok (i, cam) (by simp)
    simp only at hf hps hn
    obtain ⟨out', h1, h2, h3⟩ := ih (SMap.set i (ps.map fun T => T * (tf C r)⁻¹) out) hn.2
      (fun e he => hext e (List.mem_cons_of_mem _ he)) (fun e he => hok e (List.mem_cons_of_mem _ he))
    refine ⟨out', ?_, ?_, ?_⟩
    · rw [nbvPosesAll, hf]
      simp only
      rw [inverse_tf hC, AprilGrid.ok_bind, hps, AprilGrid.ok_bind]
      simp only [ne_eq, not_true_eq_false, if_false]
      rw [if_neg (by simpa using hne), h1]
    · intro e he C' r' hf' hC' ps' hps'
      rcases List.mem_cons.mp he with rfl | he
      · simp only at hf' hps' ⊢
        rw [hf] at hf'
        injection hf' with hf'
        rw [hps] at hps'
        injection hps' with hps'
        injection hps' with _ hps'
        subst hps'
        refine ⟨_, by rw [h3 i hn.1, SMap.find_set, if_pos rfl], ?_⟩
        rw [← hf']
        rw [List.forall₂_map_left_iff, List.forall₂_same]
        exact fun P _ => inverse_mul hC r P
      · exact h2 e he C' r' hf' hC' ps' hps'
    · intro j hj
      rw [List.map_cons, List.mem_cons, not_or] at hj
      rw [h3 j hj.2, SMap.find_set, if_neg hj.1]

/-- C56: for several cameras the poses are those of camera 0: placing camera 0 at the pose stored
for camera `i` puts camera `i` (at its extrinsic pose) exactly at the view wanted for it. -/
theorem C56_multi (tg : Target) (exts : List (ℤ × Mat4 ℝ)) (nx ny nz : ℤ) (cams : List (ℤ × Camera))
    (hn : (cams.map Prod.fst).Nodup)
    (hext : ∀ e ∈ cams, ∃ C r, IsRot C ∧ SMap.find e.1 exts = some (tf C r))
    (hok : ∀ e ∈ cams, ∃ ps, nbvPoses tg e.2 [] nx ny nz = .ok (0, ps) ∧ ps ≠ []) :
    ∃ out, nbvPosesAll tg exts nx ny nz cams [] = .ok (0, out) ∧
      (∀ e ∈ cams, ∀ C r, SMap.find e.1 exts = some (tf C r) → IsRot C →
        ∀ ps, nbvPoses tg e.2 [] nx ny nz = .ok (0, ps) →
          ∃ qs, SMap.find e.1 out = some qs ∧ List.Forall₂ (fun Q P => Q * tf C r = P) qs ps) ∧
      (∀ i, i ∉ cams.map Prod.fst → SMap.find i out = none) := by
  obtain ⟨out, h1, h2, h3⟩ := nbvPosesAll_ok tg exts nx ny nz cams [] hn hext hok
  exact ⟨out, h1, h2, fun i hi => by rw [h3 i hi]; rfl⟩

/-- C56: if the views of one camera cannot be made, the call fails. -/
theorem C56_multi_fail (tg : Target) (exts : List (ℤ × Mat4 ℝ)) (nx ny nz : ℤ) (cams : List (ℤ × Camera))
    (hext : ∀ e ∈ cams, ∃ C r, IsRot C ∧ SMap.find e.1 exts = some (tf C r))
    (hok : ∀ e ∈ cams, ∃ rv ps, nbvPoses tg e.2 [] nx ny nz = .ok (rv, ps))
    (hbad : ∃ e ∈ cams, ∃ ps, nbvPoses tg e.2 [] nx ny nz = .ok (-1, ps)) (out : List (ℤ × List (Mat4 ℝ))) :
    ∃ out', nbvPosesAll tg exts nx ny nz cams out = .ok (-1, out') := by
  induction cams generalizing out with
  | nil => obtain ⟨e, he, -⟩ := hbad; cases he
  | cons e cams ih =>
    obtain ⟨i, cam⟩ := e
    obtain ⟨C, r, hC, hf⟩ := hext (i, cam) (by simp)
    obtain ⟨rv, ps, hps⟩ := hok (i, cam) (by simp)
    simp only at hf hps
    rw [nbvPosesAll, hf]
    simp only
    rw [inverse_tf hC, AprilGrid.ok_bind, hps, AprilGrid.ok_bind]
    by_cases hrv : rv = 0
    · subst hrv
      simp only [ne_eq, not_true_eq_false, if_false]
      refine ih (fun e he => hext e (List.mem_cons_of_mem _ he)) (fun e he => hok e (List.mem_cons_of_mem _ he)) ?_ _
      obtain ⟨e, he, ps', hps'⟩ := hbad
      rcases List.mem_cons.mp he with rfl | he
      · simp only at hps'
        rw [hps] at hps'
        injection hps' with hps'
        injection hps' with h _
        exact absurd h (by norm_num)
      · exact ⟨e, he, ps', hps'⟩
    · simp only [ne_eq, hrv, not_false_eq_true, if_true]
      exact ⟨_, rfl⟩

/-! ### Reaching a view -/

/-- Distance of two pixels. -/
noncomputable def pixDist (a b : ℝ × ℝ) : ℝ := Real.sqrt ((a.1 - b.1) ^ 2 + (a.2 - b.2) ^ 2)

/-- Distances between the keypoints of the corners that both maps hold. -/
noncomputable def sharedDists (rows cols : Nat) (target grid : CMap ℝ) : List ℝ :=
  (held rows cols grid).filterMap fun e => (target e.1.1 e.1.2).map fun z => pixDist z e.2

theorem viewErrors_eq (rows cols : Nat) (m : CMap ℝ) (gt : Grid ℝ)
    (hm : ∀ t c, Valid rows cols t c → AprilGrid.has gt t c = .ok (m t c).isSome ∧
      ∀ kp, m t c = some kp → AprilGrid.keypoint gt t c = .ok kp) (l : List ((Int × Int) × (ℝ × ℝ)))
    (hl : ∀ e ∈ l, Valid rows cols e.1.1 e.1.2) :
    viewErrors gt (l.map fun e => (e.1.1, e.1.2, e.2)) =
      .ok (l.filterMap fun e => (m e.1.1 e.1.2).map fun z => pixDist z e.2) := by
  induction l using List.reverseRecOn with
  | nil => rfl
  | append_singleton l e ih =>
    have ih := ih (fun x hx => hl x (List.mem_append_left _ hx))
    obtain ⟨a, b⟩ := hm _ _ (hl e (by simp))
    unfold viewErrors at ih ⊢
    rw [List.map_append, List.map_singleton, AprilGrid.foldlM_concat, ih, AprilGrid.ok_bind]
    simp only
    rw [a, AprilGrid.ok_bind, List.filterMap_append]
    cases h : m e.1.1 e.1.2 with
    | none => simp [h]
    | some z => rw [b z h]; simp [h, pixDist]

/-- C56: a view is reached when the measured grid is detected and the mean distance between its
keypoints and those of the target view, over the corners that both hold, is at most the threshold
(or they hold no common corner).  The distances are written to the caller's vector. -/
theorem C56_reached (ts ts' : ℤ) (rows cols : Nat) (size spacing size' spacing' : ℝ)
    (opsT ops : List (Op ℝ)) (hvT : ∀ op ∈ opsT, OpValid rows cols op) (hv : ∀ op ∈ ops, OpValid rows cols op)
    (gt g : Grid ℝ) (hgt : AprilGrid.run (AprilGrid.new ts rows cols size spacing) opsT = .ok gt)
    (hg : AprilGrid.run (AprilGrid.new ts' rows cols size' spacing') ops = .ok g)
    (threshold : ℝ) (errs0 : List ℝ) :
    let ds := sharedDists rows cols (AprilGrid.Spec.run opsT) (AprilGrid.Spec.run ops)
    (g.detected = false → reached gt g threshold errs0 = .ok (false, errs0)) ∧
    (g.detected = true → ∃ b, reached gt g threshold errs0 = .ok (b, ds) ∧
      (b = true ↔ ds = [] ∨ ds.sum / ds.length ≤ threshold)) := by
  intro ds
  constructor
  · intro hd
    rw [reached, if_pos hd]
  · intro hd
    obtain ⟨gt', hgt', hm⟩ := AprilGrid.C01_map_refinement ts rows cols size spacing opsT hvT
    rw [hgt] at hgt'
    injection hgt' with hgt'
    subst hgt'
    obtain ⟨hmeas, -⟩ := AprilGrid.C03_measurements ts' rows cols size' spacing' ops hv g hg AprilGrid.Meas.empty
    rw [reached, if_neg (by rw [hd]; simp), hmeas, AprilGrid.ok_bind]
    have hz : ∀ l : List ((Int × Int) × (ℝ × ℝ)),
        (l.map (fun e => e.1.1)).zip ((l.map (fun e => e.1.2)).zip (l.map (fun e => e.2))) =
          l.map fun e => (e.1.1, e.1.2, e.2) := by
      intro l
      rw [List.zip_map', List.zip_map']
    simp only [AprilGrid.Meas.empty, List.nil_append]
    rw [hz, viewErrors_eq rows cols (AprilGrid.Spec.run opsT) gt (fun t c hvv =>
      ⟨(hm t c hvv).1, fun kp hk => by rw [(hm t c hvv).2, hk]⟩) _ (fun e he =>
      ((AprilGrid.mem_held rows cols (AprilGrid.Spec.run ops) e.1.1 e.1.2 e.2).mp he).1), AprilGrid.ok_bind]
    have hds : List.filterMap (fun e : (Int × Int) × (ℝ × ℝ) => Option.map (fun z => pixDist z e.2)
        (AprilGrid.Spec.run opsT e.1.1 e.1.2)) (held rows cols (AprilGrid.Spec.run ops)) = ds := rfl
    rw [hds]
    clear_value ds
    by_cases h0 : ds = []
    · have : Num.mean ds = none := by rw [h0]; rfl
      rw [this]
      exact ⟨true, rfl, by simp [h0]⟩
    · have hlen : ds.length ≠ 0 := by simpa using h0
      have : Num.mean ds = some (ds.sum / ds.length) := by
        rw [Num.mean, if_neg hlen, Num.sum_eq]
      rw [this]
      simp only
      by_cases hgtr : ds.sum / ds.length > threshold
      · rw [if_pos hgtr]
        refine ⟨false, rfl, ?_⟩
        simp only [Bool.false_eq_true, false_iff, not_or, not_le]
        exact ⟨h0, hgtr⟩
      · rw [if_neg hgtr]
        exact ⟨true, rfl, by simp only [true_iff]; exact Or.inr (not_lt.mp hgtr)⟩

/-- C56, refuted: a grid that shares no corner with the target view counts as having reached it,
whatever the threshold (the mean of no distances is NaN): here the view shows tag 0 only and the
camera sees tag 1 only. -/
theorem C56_reached_refuted (threshold : ℝ) :
    ∃ gt g, AprilGrid.run (AprilGrid.new 0 1 2 (1 : ℝ) 0) [.add 0 0 (10, 10)] = .ok gt ∧
      AprilGrid.run (AprilGrid.new 0 1 2 (1 : ℝ) 0) [.add 1 0 (500, 400)] = .ok g ∧
      reached gt g threshold [] = .ok (true, []) := by
  have hv : ∀ (t : Int) (kp : ℝ × ℝ), (t = 0 ∨ t = 1) → ∀ op ∈ [Op.add t 0 kp], OpValid 1 2 op := by
    intro t kp ht op hop
    rw [List.mem_singleton] at hop
    subst hop
    refine ⟨by omega, by push_cast; omega, by omega, by omega⟩
  obtain ⟨gt, hgt, -⟩ := AprilGrid.C01_map_refinement 0 1 2 (1 : ℝ) 0 _ (hv 0 (10, 10) (Or.inl rfl))
  obtain ⟨g, hg, -⟩ := AprilGrid.C01_map_refinement 0 1 2 (1 : ℝ) 0 _ (hv 1 (500, 400) (Or.inr rfl))
  refine ⟨gt, g, hgt, hg, ?_⟩
  obtain ⟨-, h2⟩ := C56_reached 0 0 1 2 1 0 1 0 _ _ (hv 0 (10, 10) (Or.inl rfl)) (hv 1 (500, 400) (Or.inr rfl))
    gt g hgt hg threshold []
  have hds : sharedDists 1 2 (AprilGrid.Spec.run [Op.add 0 0 ((10 : ℝ), (10 : ℝ))])
      (AprilGrid.Spec.run [Op.add 1 0 ((500 : ℝ), (400 : ℝ))]) = [] := by
    rw [sharedDists, List.filterMap_eq_nil_iff]
    rintro ⟨⟨t, c⟩, kp⟩ he
    obtain ⟨-, h⟩ := (AprilGrid.mem_held _ _ _ _ _ _).mp he
    simp only [AprilGrid.Spec.run, List.foldl_cons, List.foldl_nil, AprilGrid.Spec.step, none_] at h ⊢
    by_cases h1 : t = 1 ∧ c = 0
    · rw [if_neg (by omega)]; rfl
    · rw [if_neg h1] at h; cases h
  have hdet : g.detected = true := by
    obtain ⟨-, hd, -⟩ := AprilGrid.C02_counter_exact 0 1 2 (1 : ℝ) 0 _ (hv 1 (500, 400) (Or.inr rfl)) g hg
    obtain ⟨hnb, -, -⟩ := AprilGrid.C02_counter_exact 0 1 2 (1 : ℝ) 0 _ (hv 1 (500, 400) (Or.inr rfl)) g hg
    rw [hd, decide_eq_true_eq, hnb]
    have : 0 < AprilGrid.Spec.size 1 2 (AprilGrid.Spec.run [Op.add 1 0 ((500 : ℝ), (400 : ℝ))]) := by
      rw [AprilGrid.Spec.size, List.length_pos_iff_exists_mem]
      refine ⟨((1, 0), (500, 400)), (AprilGrid.mem_held _ _ _ _ _ _).mpr ⟨⟨by omega, by norm_num, by omega, by omega⟩, ?_⟩⟩
      simp [AprilGrid.Spec.run, AprilGrid.Spec.step]
    omega
  obtain ⟨b, hb, hi⟩ := h2 hdet
  rw [hds] at hb hi
  rw [hb, hi.mpr (Or.inl rfl)]

/-! ### Entropy and drawing -/

/-- C56: the entropy of a covariance with positive determinant is half its log determinant plus
`n/2 * (1 + log 2 pi)`, so of two covariances of the same size the one with the smaller
determinant has the smaller entropy. -/
theorem C56_entropy {n : Nat} (A B : Matrix (Fin n) (Fin n) ℝ) (hA : 0 < A.det) (hB : 0 < B.det) :
    shannonEntropy A = Real.log A.det / 2 + n / 2 * (1 + Real.log (2 * Real.pi)) ∧
    (shannonEntropy A < shannonEntropy B ↔ A.det < B.det) := by
  have e : ∀ M : Matrix (Fin n) (Fin n) ℝ, 0 < M.det →
      shannonEntropy M = Real.log M.det / 2 + n / 2 * (1 + Real.log (2 * Real.pi)) := by
    intro M hM
    have hk : 0 < 2 * Real.pi * Real.exp 1 := by positivity
    rw [shannonEntropy, Real.log_mul (pow_pos hk n).ne' hM.ne', Real.log_pow,
      Real.log_mul (by positivity) (Real.exp_pos 1).ne', Real.log_exp]
    ring
  refine ⟨e A hA, ?_⟩
  rw [e A hA, e B hB]
  constructor
  · intro h
    exact (Real.log_lt_log_iff hA hB).mp (by linarith)
  · intro h
    have := (Real.log_lt_log_iff hA hB).mpr h
    linarith

/-- C56: `nbv_draw` returns what `project` writes for the four outer corners of the target: lower
left, lower right, upper right and upper left. -/
theorem C56_draw (tg : Target) (cam : Camera) (C : Mat3 ℝ) (r : Vec3 ℝ) (hC : IsRot C)
    (hr : 0 < tg.rows) (hc : 0 < tg.cols) (q0 q1 q2 q3 : Vec3 ℝ)
    (h0 : tfPoint (tf C r) q0 = corner tg 0 0)
    (h1 : tfPoint (tf C r) q1 = corner tg (tg.cols - 1) 1)
    (h2 : tfPoint (tf C r) q2 = corner tg (tg.rows * tg.cols - 1) 2)
    (h3 : tfPoint (tf C r) q3 = corner tg ((tg.rows - 1) * tg.cols) 3) :
    draw tg cam (tf C r) = .ok [(cam.project q0).zhat, (cam.project q1).zhat, (cam.project q2).zhat,
      (cam.project q3).zhat] := by
  obtain ⟨e0, e1, e2, e3⟩ := (C56_centre tg).2 hr hc
  rw [e0] at h0
  rw [e1] at h1
  rw [e2] at h2
  rw [e3] at h3
  rw [draw, inverse_tf hC, AprilGrid.ok_bind]
  simp only [List.map_cons, List.map_nil]
  rw [(inv_point hC r _ _).mpr h0, (inv_point hC r _ _).mpr h1, (inv_point hC r _ _).mpr h2,
    (inv_point hC r _ _).mpr h3]

/-! ### A concrete camera and target -/

/-- One tag of side 1. -/
noncomputable def oneTag : Target := ⟨1, 1, 1, 0⟩

/-- 640 by 480 pixels, focal length 400, no distortion. -/
noncomputable def plainCam : Camera := ⟨.radtan, ![640, 480], ![400, 400, 320, 240, 0, 0, 0, 0]⟩

theorem oneTag_width : oneTag.width = 1 ∧ oneTag.height = 1 := by
  simp [Target.width, Target.height, oneTag]

theorem vantage_sample (s : ℝ) : vantage oneTag plainCam s = ![1 / 2, 1 / 2, 400 / (640 * s)] := by
  obtain ⟨a, b⟩ := oneTag_width
  unfold vantage
  rw [a, b]
  simp [plainCam]

theorem sample_project (q : Vec3 ℝ) : (plainCam.project q).code = 0 ↔
    0 < q 2 ∧ 0 ≤ 400 * (q 0 / q 2) + 320 ∧ 400 * (q 0 / q 2) + 320 < 640 ∧
      0 ≤ 400 * (q 1 / q 2) + 240 ∧ 400 * (q 1 / q 2) + 240 < 480 := by
  have h := (C38_radtan ![640, 480] ![400, 400, 320, 240, 0, 0, 0, 0] q).2.1
  have rx : ∀ x y, Cam.Spec.radtanX 0 0 0 0 x y = x := by intro x y; unfold Cam.Spec.radtanX; ring
  have ry : ∀ x y, Cam.Spec.radtanY 0 0 0 0 x y = y := by intro x y; unfold Cam.Spec.radtanY; exact rx y x
  have e4 : (![400, 400, 320, 240, 0, 0, 0, 0] : Params) 4 = 0 := rfl
  have e5 : (![400, 400, 320, 240, 0, 0, 0, 0] : Params) 5 = 0 := rfl
  have e6 : (![400, 400, 320, 240, 0, 0, 0, 0] : Params) 6 = 0 := rfl
  have e7 : (![400, 400, 320, 240, 0, 0, 0, 0] : Params) 7 = 0 := rfl
  have e0 : (![400, 400, 320, 240, 0, 0, 0, 0] : Params) 0 = 400 := rfl
  have e1 : (![400, 400, 320, 240, 0, 0, 0, 0] : Params) 1 = 400 := rfl
  have e2 : (![400, 400, 320, 240, 0, 0, 0, 0] : Params) 2 = 320 := rfl
  have e3 : (![400, 400, 320, 240, 0, 0, 0, 0] : Params) 3 = 240 := rfl
  rw [e4, e5, e6, e7, rx, ry, e0, e1, e2, e3] at h
  simp only [Cam.Spec.Inside] at h
  refine Iff.trans h ?_
  norm_num

theorem sample_sees (s : ℝ) (hs : 0 < s) :
    Sees oneTag plainCam (facing (vantage oneTag plainCam s)) ↔ s < 3 / 4 := by
  have hz : (0 : ℝ) < 400 / (640 * s) := by positivity
  have hq : ∀ q p : Vec3 ℝ, tfPoint (facing (vantage oneTag plainCam s)) q = p →
      q 0 = p 0 - 1 / 2 ∧ q 1 = 1 / 2 - p 1 ∧ q 2 = 400 / (640 * s) - p 2 := by
    intro q p h
    rw [vantage_sample, facing, Residual.tfPoint_tf] at h
    have a := congrFun h 0
    have b := congrFun h 1
    have c := congrFun h 2
    simp [Matrix.mulVec, dotProduct, Fin.sum_univ_three] at a b c
    refine ⟨by linarith, by linarith, ?_⟩
    simp only [← c]
    ring
  have hd : ∀ x : ℝ, 400 * (x / (400 / (640 * s))) = 640 * s * x := by
    intro x; field_simp
  constructor
  · intro h
    have hc : tfPoint (facing (vantage oneTag plainCam s)) ![-(1 / 2), 1 / 2, 400 / (640 * s)] = corner oneTag 0 0 := by
      rw [vantage_sample, facing, Residual.tfPoint_tf]
      ext i
      fin_cases i <;> simp [Matrix.mulVec, dotProduct, Fin.sum_univ_three, corner, vec, boardPoint]
    have := h 0 0 (by simp [oneTag]) (by norm_num) _ hc
    rw [sample_project] at this
    obtain ⟨-, -, -, -, h5⟩ := this
    simp only [Matrix.cons_val] at h5
    rw [hd] at h5
    linarith
  · intro h t c ht hc q hqq
    obtain ⟨a, b, d⟩ := hq q _ hqq
    have ht0 : t = 0 := by simp [oneTag] at ht; exact ht
    subst ht0
    rw [sample_project, a, b, d]
    have e2 : corner oneTag 0 c 2 = 0 := by simp [corner, vec, boardPoint]
    have e0 : corner oneTag 0 c 0 = 0 ∨ corner oneTag 0 c 0 = 1 := by
      simp only [corner, vec, boardPoint, oneTag]
      by_cases h1 : c = 1 ∨ c = 2 <;> simp [h1]
    have e1 : corner oneTag 0 c 1 = 0 ∨ corner oneTag 0 c 1 = 1 := by
      simp only [corner, vec, boardPoint, oneTag]
      by_cases h1 : c = 2 ∨ c = 3 <;> simp [h1]
    rw [e2, sub_zero, hd, hd]
    refine ⟨hz, ?_⟩
    rcases e0 with e0 | e0 <;> rcases e1 with e1 | e1 <;> rw [e0, e1] <;>
      refine ⟨by linarith, by linarith, by linarith, by linarith⟩

/-- Witness of `C56_origin` and of the pose generators: the first fraction tried succeeds for the
initial poses; for the views, 0.8 fails (the target does not fit vertically) and 0.7 succeeds. -/
theorem sample_origin :
    targetOrigin oneTag plainCam (5 / 10) = .ok (0, tf 1 (vantage oneTag plainCam (5 / 10))) ∧
    targetOrigin oneTag plainCam (8 / 10) = .ok (0, tf 1 (vantage oneTag plainCam (7 / 10))) := by
  have hw : plainCam.res 0 ≠ 0 := by simp [plainCam]
  constructor
  · have h := (C56_origin oneTag plainCam (5 / 10) hw (by
      intro k hk h
      have : (k : ℝ) = 5 := by linarith
      have : k = 5 := by exact_mod_cast this
      omega)).1 0 (by norm_num)
    simp only [Nat.cast_zero, zero_div, sub_zero] at h
    exact h ((sample_sees _ (by norm_num)).mpr (by norm_num)) (fun j hj => by omega)
  · have h := (C56_origin oneTag plainCam (8 / 10) hw (by
      intro k hk h
      have : (k : ℝ) = 8 := by linarith
      have : k = 8 := by exact_mod_cast this
      omega)).1 1 (by norm_num)
    have e : (8 : ℝ) / 10 - ((1 : Nat) : ℝ) / 10 = 7 / 10 := by norm_num
    rw [e] at h
    refine h ((sample_sees _ (by norm_num)).mpr (by norm_num)) (fun j hj => ?_)
    obtain rfl : j = 0 := by omega
    rw [Nat.cast_zero, zero_div, sub_zero, sample_sees _ (by norm_num)]
    norm_num

/-- Witness: the four initial poses and a 3 by 2 by 2 set of views exist for this camera. -/
example : (∃ ps, initPoses oneTag plainCam [] = .ok (0, ps) ∧ ps.length = 4) ∧
    (∃ ps, nbvPoses oneTag plainCam [] 3 2 2 = .ok (0, ps) ∧ ps.length = 12) := by
  obtain ⟨h1, h2⟩ := sample_origin
  constructor
  · obtain ⟨ps, hps, hall⟩ := (C56_init_poses oneTag plainCam []).2 _ h1 (by rw [vantage_sample]; simp)
    exact ⟨ps, hps, hall.length_eq⟩
  · obtain ⟨ps, hps, hl, -⟩ := (C56_nbv_poses oneTag plainCam [] 3 2 2).2 _ h2 (by rw [vantage_sample]; simp)
    exact ⟨ps, by exact_mod_cast hps, hl⟩

/-- Witness of `C56_grid`: from the vantage point for half the image width all four corners are
in the simulated grid; from the one for 0.8 they are not. -/
example : (∃ g, targetGrid oneTag plainCam 7 (facing (vantage oneTag plainCam (1 / 2))) = .ok g ∧
      AprilGrid.fullyObservable g = .ok true) ∧
    (∃ g, targetGrid oneTag plainCam 7 (facing (vantage oneTag plainCam (8 / 10))) = .ok g ∧
      AprilGrid.fullyObservable g ≠ .ok true) := by
  constructor
  · obtain ⟨g, hg, -, -, -, -, -, -, h, -⟩ := C56_grid oneTag plainCam 7 _ (vantage oneTag plainCam (1 / 2)) flip_rot
    exact ⟨g, hg, h.mpr ((sample_sees _ (by norm_num)).mpr (by norm_num))⟩
  · obtain ⟨g, hg, -, -, -, -, -, -, h, -⟩ := C56_grid oneTag plainCam 7 _ (vantage oneTag plainCam (8 / 10)) flip_rot
    refine ⟨g, hg, fun h' => ?_⟩
    have := (sample_sees _ (by norm_num)).mp (h.mp h')
    norm_num at this

/-- Witness of `C56_multi`: two identical cameras, the second one unit to the right. -/
example : ∃ out, nbvPosesAll oneTag [(0, tf 1 0), (1, tf 1 ![1, 0, 0])] 3 2 2
    [(0, plainCam), (1, plainCam)] [] = .ok (0, out) := by
  obtain ⟨-, h2⟩ := sample_origin
  obtain ⟨ps, hps, hl, -⟩ := (C56_nbv_poses oneTag plainCam [] 3 2 2).2 _ h2 (by rw [vantage_sample]; simp)
  obtain ⟨out, h, -⟩ := C56_multi oneTag [(0, tf 1 0), (1, tf 1 ![1, 0, 0])] 3 2 2
    [(0, plainCam), (1, plainCam)] (by simp) (by
      intro e he
      simp only [List.mem_cons, List.not_mem_nil, or_false] at he
      rcases he with rfl | rfl
      · exact ⟨1, 0, one_rot, rfl⟩
      · exact ⟨1, ![1, 0, 0], one_rot, rfl⟩) (by
      intro e he
      simp only [List.mem_cons, List.not_mem_nil, or_false] at he
      refine ⟨ps, ?_, by rintro rfl; simp at hl⟩
      rcases he with rfl | rfl <;> exact_mod_cast hps)
  exact ⟨out, h⟩

end Yac.Nbv
