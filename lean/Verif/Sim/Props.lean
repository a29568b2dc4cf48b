import Verif.Sim.Lemmas

/-!
# C102: the simulated data sets are exact records of a motion on a circle
-/

namespace Yac.Sim
open Matrix Yac.Geom Yac.Nbt Yac.Residual

/-- The indices of the features seen at time `t`, ascending. -/
noncomputable def seen (r t : ℝ) (features : List (Vec3 ℝ)) : List ℕ :=
  (features.zipIdx.filter (fun pi => (image r t pi.1).code = 0)).map Prod.snd

/-- Their images. -/
noncomputable def seenAt (r t : ℝ) (features : List (Vec3 ℝ)) : List Cam.Vec2 :=
  (features.zipIdx.filter (fun pi => (image r t pi.1).code = 0)).map (fun pi => (image r t pi.1).zhat.getD ![0, 0])

/-- The camera frame `k`. -/
noncomputable def frameAt (r : ℝ) (u : ℕ → ℝ) (features : List (Vec3 ℝ)) (k : ℕ) : CamFrame :=
  let t := (k : ℝ) * (1 / 30)
  ⟨secToTs t, place r t, rotToQuat (camRot r t), tf (camRot r t) (place r t),
    noisyPose u (300 + 6 * k) (tf (camRot r t) (place r t)) (1 / 10) 1, seen r t features, seenAt r t features⟩

/-- The IMU sample `k`. -/
noncomputable def sampleAt (r : ℝ) (k : ℕ) : ImuSample :=
  let t := (k : ℝ) * (1 / 400)
  ⟨secToTs t, ![0, -(3 / 10 * speed r), 9.81], ![0, 0, -speed r], place r t, tf (bodyRot r t) (place r t),
    rotToQuat (bodyRot r t), (3 / 10 : ℝ) • heading r t⟩

/-- The event of a camera frame. -/
def camEvent (f : CamFrame) : ℤ × SimEvent := (f.ts, .cam f.ts f.kps f.obs)

/-- The event of an IMU sample. -/
def imuEvent (f : ImuSample) : ℤ × SimEvent := (f.ts, .imu f.ts f.acc f.gyr)

theorem run_data {E : Type} (adds : List (ℤ × E)) :
    (Timeline.run adds).data = adds.foldl (fun l a => Timeline.mmInsert a.1 a.2 l) [] := by
  unfold Timeline.run
  have h : ∀ (t : Timeline.T E), (adds.foldl (fun t a => Timeline.add t a.1 a.2) t).data =
      adds.foldl (fun l a => Timeline.mmInsert a.1 a.2 l) t.data := by
    induction adds with
    | nil => intro t; rfl
    | cons a l ih => intro t; rw [List.foldl_cons, List.foldl_cons, ih]; rfl
  exact h _

theorem cam_loop {r : ℝ} (u : ℕ → ℝ) (F : List (Vec3 ℝ)) (m : ℕ) :
    (List.range m).foldlM (fun s (k : ℕ) => camStep r u ((k : ℝ) * (1 / 30))
        (Num.deg2rad 180 + -speed r * ((k : ℝ) * (1 / 30))) (0 + -speed r * ((k : ℝ) * (1 / 30))) s)
      (300, ⟨F, [], [], []⟩) =
    .ok (300 + 6 * m, ⟨F, (List.range m).map (frameAt r u F), [],
      ((List.range m).map (fun k => camEvent (frameAt r u F k))).foldl (fun l a => Timeline.mmInsert a.1 a.2 l) []⟩) := by
  have := foldlM_range (fun s (k : ℕ) => camStep r u ((k : ℝ) * (1 / 30))
        (Num.deg2rad 180 + -speed r * ((k : ℝ) * (1 / 30))) (0 + -speed r * ((k : ℝ) * (1 / 30))) s)
    (fun m => (300 + 6 * m, (⟨F, (List.range m).map (frameAt r u F), [],
      ((List.range m).map (fun k => camEvent (frameAt r u F k))).foldl (fun l a => Timeline.mmInsert a.1 a.2 l) []⟩ : World)))
    m ?_
  · exact this
  · intro k _
    unfold camStep
    simp only
    rw [place_eq, camRot_eq, Nbv.inverse_tf (camRot_rot r _), AprilGrid.ok_bind, see_fold]
    simp only [inv_point, List.nil_append]
    rw [List.range_succ, List.map_append, List.map_append, List.foldl_append]
    rfl

/-- The state of the simulated IMU after some samples. -/
structure Running (s : SimImu) (m : ℕ) : Prop where
  rate : s.rate = 400
  g : s.g = 9.81
  start : s.started = true ∨ (m = 0 ∧ s.ts_prev = 0)

theorem body_acc {r : ℝ} (hr : 0 < r) (t : ℝ) :
    (bodyRot r t)ᵀ *ᵥ (![-r * (-speed r * -speed r) * Real.cos (Num.deg2rad 180 + -speed r * t),
      -r * (-speed r * -speed r) * Real.sin (Num.deg2rad 180 + -speed r * t), 0] + ![0, 0, 9.81]) =
    ![0, -(3 / 10 * speed r), 9.81] := by
  have e : Num.deg2rad 180 + -speed r * t = Real.pi - speed r * t := by rw [deg180]; ring
  have hw : r * speed r = 3 / 10 := by unfold speed; field_simp
  have hs := Real.sin_sq_add_cos_sq (speed r * t)
  rw [e, Real.cos_pi_sub, Real.sin_pi_sub]
  apply vec3_ext
  · simp [bodyRot, columns, heading, left, mulVec, dotProduct, Fin.sum_univ_three]
    ring
  · simp [bodyRot, columns, heading, left, mulVec, dotProduct, Fin.sum_univ_three]
    linear_combination (-(r * speed r ^ 2)) * hs - speed r * hw
  · simp [bodyRot, columns, heading, left, mulVec, dotProduct, Fin.sum_univ_three]

theorem body_gyr (r t : ℝ) : (bodyRot r t)ᵀ *ᵥ ![0, 0, -speed r] = ![0, 0, -speed r] := by
  apply vec3_ext <;> simp [bodyRot, columns, heading, left, mulVec, dotProduct, Fin.sum_univ_three]

theorem body_vel {r : ℝ} (hr : 0 < r) (t : ℝ) :
    ![-r * -speed r * Real.sin (Num.deg2rad 180 + -speed r * t), r * -speed r * Real.cos (Num.deg2rad 180 + -speed r * t), 0]
    = (3 / 10 : ℝ) • heading r t := by
  have e : Num.deg2rad 180 + -speed r * t = Real.pi - speed r * t := by rw [deg180]; ring
  have hw : r * speed r = 3 / 10 := by unfold speed; field_simp
  rw [e, Real.cos_pi_sub, Real.sin_pi_sub]
  apply vec3_ext
  · show -r * -speed r * Real.sin (speed r * t) = 3 / 10 * Real.sin (speed r * t)
    linear_combination Real.sin (speed r * t) * hw
  · show r * -speed r * -Real.cos (speed r * t) = 3 / 10 * Real.cos (speed r * t)
    linear_combination Real.cos (speed r * t) * hw
  · simp [heading]

theorem secToTs_zero' : secToTs 0 = 0 := by unfold secToTs; simp

theorem imu_step {r : ℝ} (hr : 0 < r) (noise : ℕ → Vec3 ℝ) (k : ℕ) (s : SimImu) (n : ℕ) (W : World) (hs : Running s k) :
    ∃ s' n', imuStep r (-speed r) noise ((k : ℝ) * (1 / 400)) (Num.deg2rad 180 + -speed r * ((k : ℝ) * (1 / 400)))
      (Num.deg2rad 90 + -speed r * ((k : ℝ) * (1 / 400))) (s, n, W) =
      .ok (s', n', ⟨W.features, W.cam, W.imu ++ [sampleAt r k],
        Timeline.mmInsert (imuEvent (sampleAt r k)).1 (imuEvent (sampleAt r k)).2 W.timeline⟩) ∧
      Running s' (k + 1) := by
  unfold imuStep
  simp only
  rw [place_eq, bodyRot_eq]
  unfold SimImu.measure
  have h1 : ¬ s.rate = 0 := by rw [hs.rate]; norm_num
  have h2 : ¬ (s.started = false ∧ |sec (secToTs ((k : ℝ) * (1 / 400)) - s.ts_prev) - 1 / s.rate| < 1 / s.rate / 2) := by
    rintro ⟨a, b⟩
    rcases hs.start with h | ⟨h, h'⟩
    · rw [h] at a; cases a
    · subst h
      rw [h', hs.rate] at b
      simp only [Nat.cast_zero, zero_mul, secToTs_zero', sub_self] at b
      unfold sec at b
      norm_num [abs_of_pos] at b
  rw [if_neg h1, if_neg h2]
  simp only [AprilGrid.ok_bind, hs.g, tfRot_tf, tfTrans_tf, body_acc hr, body_gyr, body_vel hr]
  refine ⟨_, _, rfl, ⟨hs.rate, rfl, Or.inl rfl⟩⟩

theorem imu_loop {r : ℝ} (hr : 0 < r) (noise : ℕ → Vec3 ℝ) (W : World) (h0 : W.imu = []) (m : ℕ) :
    ∃ s n, (List.range m).foldlM (fun s (k : ℕ) => imuStep r (-speed r) noise ((k : ℝ) * (1 / 400))
        (Num.deg2rad 180 + -speed r * ((k : ℝ) * (1 / 400))) (Num.deg2rad 90 + -speed r * ((k : ℝ) * (1 / 400))) s)
      (simImu, 0, W) =
    .ok (s, n, ⟨W.features, W.cam, (List.range m).map (sampleAt r),
      ((List.range m).map (fun k => imuEvent (sampleAt r k))).foldl (fun l a => Timeline.mmInsert a.1 a.2 l) W.timeline⟩) ∧
    Running s m := by
  induction m with
  | zero => exact ⟨simImu, 0, by cases W; simp only at h0; subst h0; rfl, rfl, rfl, Or.inr ⟨rfl, rfl⟩⟩
  | succ m ih =>
    obtain ⟨s, n, e, hs⟩ := ih
    obtain ⟨s', n', e', hs'⟩ := imu_step hr noise m s n ⟨W.features, W.cam, (List.range m).map (sampleAt r),
      ((List.range m).map (fun k => imuEvent (sampleAt r k))).foldl (fun l a => Timeline.mmInsert a.1 a.2 l) W.timeline⟩ hs
    refine ⟨s', n', ?_, hs'⟩
    rw [List.range_succ, List.foldlM_append, e, AprilGrid.ok_bind, List.foldlM_cons, e', AprilGrid.ok_bind,
      List.map_append, List.map_append, List.foldl_append]
    rfl

/-- **C102, the data set.**  For every radius, every random numbers: the simulation ends; its camera frames are
those at `0, 1/30, 2/30, …` seconds up to the time of a round, its IMU samples those at `0, 1/400, …`; the
timeline has exactly their events, ordered by time, camera frames before IMU samples of the same time. -/
theorem C102_data (r : ℝ) (hr : 0 < r) (u : ℕ → ℝ) (noise : ℕ → Vec3 ℝ) (fuel : ℕ) (hf : samples r 400 < fuel)
    (hf' : samples r 30 < fuel) :
    ∃ W, simulate fuel r u noise = .ok W ∧ W.features = perimeter u 0 ![5, 5, 5] 100 ∧
      W.cam = (List.range (samples r 30)).map (frameAt r u W.features) ∧
      W.imu = (List.range (samples r 400)).map (sampleAt r) ∧
      W.timeline.Pairwise (fun a b => a.1 ≤ b.1) ∧
      ∀ ts, W.timeline.filter (fun e => e.1 = ts) =
        (W.cam.map camEvent ++ W.imu.map imuEvent).filter (fun e => e.1 = ts) := by
  have hT : 0 < roundTime r := by
    have := Real.pi_pos
    unfold roundTime; positivity
  have hne : 2 * Real.pi * r / (3 / 10) ≠ 0 := hT.ne'
  unfold simulate
  simp only
  rw [if_neg hne, angle_eq hr, show 2 * Real.pi * r / (3 / 10) = roundTime r from rfl]
  rw [circleLoop_eq _ 30 _ _ _ (by norm_num) hT.le _ _ _ hf', cam_loop, AprilGrid.ok_bind]
  rw [circleLoop_eq _ 400 _ _ _ (by norm_num) hT.le _ _ _ hf]
  obtain ⟨s, n, e, -⟩ := imu_loop hr noise (m := ⌊roundTime r * 400⌋₊ + 1) (h0 := rfl) (W := ⟨perimeter u 0 ![5, 5, 5] 100,
    (List.range (⌊roundTime r * 30⌋₊ + 1)).map (frameAt r u (perimeter u 0 ![5, 5, 5] 100)), [],
    ((List.range (⌊roundTime r * 30⌋₊ + 1)).map (fun k => camEvent (frameAt r u (perimeter u 0 ![5, 5, 5] 100) k))).foldl
      (fun l a => Timeline.mmInsert a.1 a.2 l) []⟩)
  refine ⟨_, by
    rw [e, AprilGrid.ok_bind], rfl, rfl, rfl, ?_⟩
  simp only
  rw [← List.foldl_append, ← run_data, List.map_map, List.map_map]
  exact Timeline.C11_timeline_iteration _

/-- **C102, kinematics.**  The recorded velocity is the derivative of the recorded position, its size is
0.3; the recorded accelerometer and gyroscope values are those that an ideal IMU measures on the recorded poses:
`Ċ = C [ω]×`, `v̇ = C a - g`; position and attitude start at `(-r, 0, 0)` and come back after a round. -/
theorem C102_kinematics (r : ℝ) (hr : 0 < r) (t : ℝ) (k : ℕ) :
    VDeriv (place r) ((3 / 10 : ℝ) • heading r t) t ∧
    VDeriv (fun t => (3 / 10 : ℝ) • heading r t) (bodyRot r t *ᵥ (sampleAt r k).acc - ![0, 0, 9.81]) t ∧
    MDeriv (bodyRot r) (bodyRot r t * skew (sampleAt r k).gyr) t ∧
    norm3 ((3 / 10 : ℝ) • heading r t) = 3 / 10 ∧ norm3 (place r t) = r ∧ IsRot (bodyRot r t) ∧
    place r 0 = ![-r, 0, 0] ∧ place r (t + roundTime r) = place r t ∧ bodyRot r (t + roundTime r) = bodyRot r t := by
  have hw : r * speed r = 3 / 10 := by unfold speed; field_simp
  have hlin : HasDerivAt (fun x => speed r * x) (speed r) t := by
    simpa using (hasDerivAt_id t).const_mul (speed r)
  have hsin : HasDerivAt (fun x => Real.sin (speed r * x)) (Real.cos (speed r * t) * speed r) t := hlin.sin
  have hcos : HasDerivAt (fun x => Real.cos (speed r * x)) (-Real.sin (speed r * t) * speed r) t := hlin.cos
  have hs := Real.sin_sq_add_cos_sq (speed r * t)
  have hper : speed r * (t + roundTime r) = speed r * t + 2 * Real.pi := by
    unfold speed roundTime; field_simp
  refine ⟨?_, ?_, ?_, ?_, ?_, bodyRot_rot r t, ?_, ?_, ?_⟩
  · intro i
    fin_cases i
    · refine (hcos.const_mul (-r)).congr_deriv ?_
      simp [heading]; linear_combination Real.sin (speed r * t) * hw
    · refine (hsin.const_mul r).congr_deriv ?_
      simp [heading]; linear_combination Real.cos (speed r * t) * hw
    · simpa [heading, place] using hasDerivAt_const t (0 : ℝ)
  · intro i
    fin_cases i
    · refine (hsin.const_mul (3 / 10)).congr_deriv ?_
      simp [sampleAt, bodyRot, columns, heading, left, mulVec, dotProduct, Fin.sum_univ_three]; ring
    · refine (hcos.const_mul (3 / 10)).congr_deriv ?_
      simp [sampleAt, bodyRot, columns, heading, left, mulVec, dotProduct, Fin.sum_univ_three]; ring
    · simpa [sampleAt, bodyRot, columns, heading, left, mulVec, dotProduct, Fin.sum_univ_three] using
        hasDerivAt_const t (0 : ℝ)
  · intro i j
    fin_cases i <;> fin_cases j
    · refine hsin.congr_deriv ?_
      simp [sampleAt, bodyRot, columns, heading, left, Matrix.mul_apply, Fin.sum_univ_three, skew]
    · refine hcos.fun_neg.congr_deriv ?_
      simp [sampleAt, bodyRot, columns, heading, left, Matrix.mul_apply, Fin.sum_univ_three, skew]
    · refine (hasDerivAt_const t (0 : ℝ)).congr_deriv ?_
      simp [sampleAt, bodyRot, columns, heading, left, Matrix.mul_apply, Fin.sum_univ_three, skew]
    · refine hcos.congr_deriv ?_
      simp [sampleAt, bodyRot, columns, heading, left, Matrix.mul_apply, Fin.sum_univ_three, skew]
    · refine hsin.congr_deriv ?_
      simp [sampleAt, bodyRot, columns, heading, left, Matrix.mul_apply, Fin.sum_univ_three, skew]
    · refine (hasDerivAt_const t (0 : ℝ)).congr_deriv ?_
      simp [sampleAt, bodyRot, columns, heading, left, Matrix.mul_apply, Fin.sum_univ_three, skew]
    · refine (hasDerivAt_const t (0 : ℝ)).congr_deriv ?_
      simp [sampleAt, bodyRot, columns, heading, left, Matrix.mul_apply, Fin.sum_univ_three, skew]
    · refine (hasDerivAt_const t (0 : ℝ)).congr_deriv ?_
      simp [sampleAt, bodyRot, columns, heading, left, Matrix.mul_apply, Fin.sum_univ_three, skew]
    · refine (hasDerivAt_const t (1 : ℝ)).congr_deriv ?_
      simp [sampleAt, bodyRot, columns, heading, left, Matrix.mul_apply, Fin.sum_univ_three, skew]
  · unfold norm3 dot3 heading
    rw [show ∀ x : ℝ, Real.sqrt x = 3 / 10 ↔ Real.sqrt x = 3 / 10 from fun _ => Iff.rfl]
    rw [Real.sqrt_eq_iff_mul_self_eq (by simp; nlinarith [sq_nonneg (Real.sin (speed r * t)), sq_nonneg (Real.cos (speed r * t))]) (by norm_num)]
    simp
    linear_combination (9 / 100) * hs
  · unfold norm3 dot3 place
    rw [Real.sqrt_eq_iff_mul_self_eq (by simp; nlinarith [sq_nonneg (r * Real.sin (speed r * t)), sq_nonneg (r * Real.cos (speed r * t))]) hr.le]
    simp
    linear_combination (r ^ 2) * hs
  · unfold place
    apply vec3_ext <;> simp
  · unfold place
    rw [hper, Real.cos_add_two_pi, Real.sin_add_two_pi]
  · unfold bodyRot heading left
    rw [hper, Real.cos_add_two_pi, Real.sin_add_two_pi]

/-- **C102, rigid rig.**  Camera and IMU are rigidly mounted: their relative pose is the same at all
times; the camera looks along the motion, its image is upright. -/
theorem C102_rig (r t : ℝ) :
    tfInv (tf (bodyRot r t) (place r t)) * tf (camRot r t) (place r t) = tf !![0, 0, 1; -1, 0, 0; 0, -1, 0] 0 ∧
    camRot r t *ᵥ ![0, 0, 1] = heading r t ∧ camRot r t *ᵥ ![0, 1, 0] = ![0, 0, -1] ∧ IsRot (camRot r t) := by
  have hs := Real.sin_sq_add_cos_sq (speed r * t)
  refine ⟨?_, ?_, ?_, camRot_rot r t⟩
  · rw [tfInv_tf, tf_mul, add_neg_cancel]
    congr 1
    apply mat3_eq <;>
      simp [bodyRot, camRot, columns, heading, left, Matrix.mul_apply, Fin.sum_univ_three] <;> nlinarith
  · apply vec3_ext <;> simp [camRot, columns, heading, left, mulVec, dotProduct, Fin.sum_univ_three]
  · apply vec3_ext <;> simp [camRot, columns, heading, left, mulVec, dotProduct, Fin.sum_univ_three]

/-- **C102, observations.**  A frame lists, in ascending order, exactly the features in front of the camera whose
image lies inside, each with its image. -/
theorem C102_seen (r : ℝ) (u : ℕ → ℝ) (F : List (Vec3 ℝ)) (k : ℕ) :
    let t := (k : ℝ) * (1 / 30)
    (frameAt r u F k).obs.Pairwise (· < ·) ∧
    (∀ i, i ∈ (frameAt r u F k).obs ↔ ∃ p, F[i]? = some p ∧ (image r t p).code = 0) ∧
    (frameAt r u F k).kps.length = (frameAt r u F k).obs.length ∧
    ∀ (j i : ℕ) p, (frameAt r u F k).obs[j]? = some i → F[i]? = some p →
      (frameAt r u F k).kps[j]? = some ((image r t p).zhat.getD ![0, 0]) := by
  intro t
  have hobs : (frameAt r u F k).obs = (F.zipIdx.filter (fun pi => (image r t pi.1).code = 0)).map Prod.snd := rfl
  have hkps : (frameAt r u F k).kps = (F.zipIdx.filter (fun pi => (image r t pi.1).code = 0)).map
    (fun pi => (image r t pi.1).zhat.getD ![0, 0]) := rfl
  rw [hobs, hkps]
  refine ⟨?_, ?_, by simp, ?_⟩
  · have h1 : (F.zipIdx.map Prod.snd).Pairwise (· < ·) := by
      rw [List.zipIdx_map_snd]; exact List.pairwise_lt_range'
    exact h1.sublist (List.Sublist.map _ List.filter_sublist)
  · intro i
    simp only [List.mem_map, List.mem_filter, decide_eq_true_eq]
    constructor
    · rintro ⟨⟨p, j⟩, ⟨h1, h2⟩, rfl⟩
      exact ⟨p, List.mem_zipIdx_iff_getElem?.mp h1, h2⟩
    · rintro ⟨p, h1, h2⟩
      exact ⟨(p, i), ⟨List.mem_zipIdx_iff_getElem?.mpr h1, h2⟩, rfl⟩
  · intro j i p hj hp
    rw [List.getElem?_map, Option.map_eq_some_iff] at hj
    obtain ⟨⟨q, i'⟩, h1, rfl⟩ := hj
    have hm : (q, i') ∈ F.zipIdx := (List.mem_filter.mp (List.mem_of_getElem? h1)).1
    have := List.mem_zipIdx_iff_getElem?.mp hm
    simp only at this hp
    rw [hp] at this
    cases this
    rw [List.getElem?_map, h1]
    rfl

/-- **C102, the camera.**  90 degrees in both directions on 640 by 480 pixels: focal lengths 320 and 240, centre
`(320, 240)`; a feature straight ahead is seen in the centre, whatever the distance, one straight behind is not. -/
theorem C102_camera (r t s : ℝ) :
    camParams = ![320, 240, 320, 240, 1 / 100, 1 / 1000, 1 / 10000, 1 / 10000] ∧
    (0 < s → image r t (place r t + s • heading r t) = ⟨0, some ![320, 240]⟩) ∧
    (s < 0 → (image r t (place r t + s • heading r t)).code = -1) := by
  have h45 : ∀ n : ℤ, Cam.pinholeFocal n 90 = (n : ℝ) / 2 := by
    intro n
    unfold Cam.pinholeFocal
    rw [show (90 : ℝ) * (Real.pi / 180) / 2 = Real.pi / 4 by ring, Real.tan_pi_div_four, div_one]
  have hp : camParams = ![320, 240, 320, 240, 1 / 100, 1 / 1000, 1 / 10000, 1 / 10000] := by
    unfold camParams
    rw [h45, h45]
    norm_num
  have hc : (camRot r t)ᵀ *ᵥ (place r t + s • heading r t - place r t) = ![0, 0, s] := by
    have hs := Real.sin_sq_add_cos_sq (speed r * t)
    rw [add_sub_cancel_left]
    apply vec3_ext
    · simp [camRot, columns, heading, left, mulVec, dotProduct, Fin.sum_univ_three]; ring
    · simp [camRot, columns, heading, left, mulVec, dotProduct, Fin.sum_univ_three]
    · simp [camRot, columns, heading, left, mulVec, dotProduct, Fin.sum_univ_three]
      linear_combination s * hs
  refine ⟨hp, fun h => ?_, fun h => ?_⟩
  · unfold image
    rw [hc, hp]
    have h0 : s ≠ 0 := h.ne'
    simp [Cam.radtanProject, Cam.projectPoint, h0, h, Cam.pixel, Cam.radtan4Distort, Cam.proj, Cam.dist, res]
    norm_num
  · unfold image
    rw [hc, hp]
    have h0 : s ≠ 0 := h.ne
    simp [Cam.radtanProject, Cam.projectPoint, h0, Cam.pixel, Cam.radtan4Distort, Cam.proj, Cam.dist, res, not_lt.mpr h.le]

/-- **C102, the scene.**  The features lie on the walls of the box around the origin: a quarter each on
its east, north, west and south wall. -/
theorem C102_features (u : ℕ → ℝ) (hu : ∀ i, 0 ≤ u i ∧ u i ≤ 1) (o d : Vec3 ℝ) (hd : ∀ i, 0 ≤ d i) (nb : ℕ) :
    (perimeter u o d nb).length = 4 * (nb / 4) ∧
    ∀ (i : ℕ) p, (perimeter u o d nb)[i]? = some p →
      (∀ j, |p j - o j| ≤ d j) ∧
      (i / (nb / 4) = 0 → p 1 = o 1 + d 1) ∧ (i / (nb / 4) = 1 → p 0 = o 0 + d 0) ∧
      (i / (nb / 4) = 2 → p 1 = o 1 - d 1) ∧ (i / (nb / 4) = 3 → p 0 = o 0 - d 0) := by
  have hlen : ∀ k xb yb zb n, (features3d u k xb yb zb n).length = n := by
    intro k xb yb zb n; simp [features3d]
  have hin : ∀ i (a b : ℝ), 0 ≤ b → |randf (u i) (a - b) (a + b) - a| ≤ b := by
    intro i a b hb
    obtain ⟨h1, h2⟩ := hu i
    unfold randf
    rw [abs_le]
    constructor <;> nlinarith
  have heq : ∀ i (a : ℝ), randf (u i) a a = a := by intro i a; unfold randf; ring
  have h0 := hd 0
  have h1 := hd 1
  have h2 := hd 2
  have hab : ∀ x y : ℝ, 0 ≤ y → |x + y - x| ≤ y := by intro x y hy; rw [add_sub_cancel_left, abs_of_nonneg hy]
  have hab' : ∀ x y : ℝ, 0 ≤ y → |x - y - x| ≤ y := by
    intro x y hy; rw [show x - y - x = -y by ring, abs_neg, abs_of_nonneg hy]
  constructor
  · simp only [perimeter, List.length_append, hlen]; ring
  · intro i p hp
    generalize hn : nb / 4 = n at *
    have hn0 : 0 < n := by
      rcases Nat.eq_zero_or_pos n with h | h
      · subst h
        simp [perimeter, hn, features3d] at hp
      · exact h
    have hget : ∀ k xb yb zb j, (features3d u k xb yb zb n)[j]? = some p →
        p 0 = randf (u (k + 3 * j)) xb.1 xb.2 ∧ p 1 = randf (u (k + 3 * j + 1)) yb.1 yb.2 ∧
        p 2 = randf (u (k + 3 * j + 2)) zb.1 zb.2 ∧ j < n := by
      intro k xb yb zb j h
      unfold features3d at h
      rw [List.getElem?_map, Option.map_eq_some_iff] at h
      obtain ⟨j', h1, rfl⟩ := h
      obtain ⟨hj, rfl⟩ := List.getElem?_eq_some_iff.mp h1
      rw [List.length_range] at hj
      simp [hj]
    simp only [perimeter, hn] at hp
    rcases Nat.lt_or_ge i n with hi | hi
    · have hq : i / n = 0 := Nat.div_eq_of_lt hi
      rw [List.append_assoc, List.append_assoc, List.getElem?_append_left (by rw [hlen]; exact hi)] at hp
      obtain ⟨e0, e1, e2, -⟩ := hget _ _ _ _ _ hp
      simp only [heq] at e1
      refine ⟨?_, fun _ => e1, fun h => ?_, fun h => ?_, fun h => ?_⟩
      · intro j; fin_cases j
        · rw [show p ⟨0, by omega⟩ = _ from e0]; exact hin _ _ _ h0
        · rw [show p ⟨1, by omega⟩ = _ from e1]; exact hab _ _ h1
        · rw [show p ⟨2, by omega⟩ = _ from e2]; exact hin _ _ _ h2
      all_goals omega
    rw [List.append_assoc, List.append_assoc, List.getElem?_append_right (by rw [hlen]; exact hi), hlen] at hp
    rcases Nat.lt_or_ge (i - n) n with hi2 | hi2
    · have hq : i / n = 1 := by
        rw [Nat.div_eq_iff hn0]; omega
      rw [List.getElem?_append_left (by rw [hlen]; exact hi2)] at hp
      obtain ⟨e0, e1, e2, -⟩ := hget _ _ _ _ _ hp
      simp only [heq] at e0
      refine ⟨?_, fun h => ?_, fun _ => e0, fun h => ?_, fun h => ?_⟩
      · intro j; fin_cases j
        · rw [show p ⟨0, by omega⟩ = _ from e0]; exact hab _ _ h0
        · rw [show p ⟨1, by omega⟩ = _ from e1]; exact hin _ _ _ h1
        · rw [show p ⟨2, by omega⟩ = _ from e2]; exact hin _ _ _ h2
      all_goals omega
    rw [List.getElem?_append_right (by rw [hlen]; exact hi2), hlen] at hp
    rcases Nat.lt_or_ge (i - n - n) n with hi3 | hi3
    · have hq : i / n = 2 := by
        rw [Nat.div_eq_iff hn0]; omega
      rw [List.getElem?_append_left (by rw [hlen]; exact hi3)] at hp
      obtain ⟨e0, e1, e2, -⟩ := hget _ _ _ _ _ hp
      simp only [heq] at e1
      refine ⟨?_, fun h => ?_, fun h => ?_, fun _ => e1, fun h => ?_⟩
      · intro j; fin_cases j
        · rw [show p ⟨0, by omega⟩ = _ from e0]; exact hin _ _ _ h0
        · rw [show p ⟨1, by omega⟩ = _ from e1]; exact hab' _ _ h1
        · rw [show p ⟨2, by omega⟩ = _ from e2]; exact hin _ _ _ h2
      all_goals omega
    rw [List.getElem?_append_right (by rw [hlen]; exact hi3), hlen] at hp
    obtain ⟨e0, e1, e2, hi4⟩ := hget _ _ _ _ _ hp
    have hq : i / n = 3 := by
      rw [Nat.div_eq_iff hn0]; omega
    simp only [heq] at e0
    refine ⟨?_, fun h => ?_, fun h => ?_, fun h => ?_, fun _ => e0⟩
    · intro j; fin_cases j
      · rw [show p ⟨0, by omega⟩ = _ from e0]; exact hab' _ _ h0
      · rw [show p ⟨1, by omega⟩ = _ from e1]; exact hin _ _ _ h1
      · rw [show p ⟨2, by omega⟩ = _ from e2]; exact hin _ _ _ h2
    all_goals omega

/-- **C102, the noisy poses.**  They differ from the true ones by at most 0.1 along each axis and by at most one
degree in each of roll, pitch and yaw. -/
theorem C102_noise (r : ℝ) (u : ℕ → ℝ) (hu : ∀ i, 0 ≤ u i ∧ u i ≤ 1) (F : List (Vec3 ℝ)) (k : ℕ) :
    (∀ j, |tfTrans (frameAt r u F k).noisy j - (frameAt r u F k).pos j| ≤ 1 / 10) ∧
    ∃ a b c yaw : ℝ, |a| ≤ Real.pi / 180 ∧ |b| ≤ Real.pi / 180 ∧ |c| ≤ Real.pi / 180 ∧
      tfRot (frameAt r u F k).pose = euler321 (-(Real.pi / 2)) 0 yaw ∧
      tfRot (frameAt r u F k).noisy = euler321 (-(Real.pi / 2) + a) b (yaw + c) := by
  have hpi := Real.pi_pos
  have hin : ∀ i (n : ℝ), 0 ≤ n → |randf (u i) (-n) n| ≤ n := by
    intro i n hn
    obtain ⟨h1, h2⟩ := hu i
    unfold randf
    rw [abs_le]
    constructor <;> nlinarith
  have hdeg : ∀ i, |Num.deg2rad (randf (u i) (-1) 1)| ≤ Real.pi / 180 := by
    intro i
    unfold Num.deg2rad
    rw [abs_mul, abs_of_pos (by positivity : 0 < Real.pi / 180)]
    have := hin i 1 (by norm_num)
    nlinarith
  set t : ℝ := (k : ℝ) * (1 / 30) with ht
  have hpose : (frameAt r u F k).pose = tf (camRot r t) (place r t) := rfl
  have hpos : (frameAt r u F k).pos = place r t := rfl
  have hno : (frameAt r u F k).noisy = noisyPose u (300 + 6 * k) (tf (camRot r t) (place r t)) (1 / 10) 1 := rfl
  rw [hpose, hpos, hno]
  constructor
  · intro j
    unfold noisyPose
    rw [tfTrans_tf, tfTrans_tf, Pi.add_apply, add_sub_cancel_left]
    unfold noise3
    fin_cases j
    · exact hin _ _ (by norm_num)
    · exact hin _ _ (by norm_num)
    · exact hin _ _ (by norm_num)
  · refine ⟨Num.deg2rad (randf (u (300 + 6 * k + 3)) (-1) 1), Num.deg2rad (randf (u (300 + 6 * k + 3 + 1)) (-1) 1),
      Num.deg2rad (randf (u (300 + 6 * k + 3 + 2)) (-1) 1),
      -(speed r * t), hdeg _, hdeg _, hdeg _, ?_, ?_⟩
    · rw [tfRot_tf, ← camRot_eq, degm90]
      congr 1; ring
    · unfold noisyPose noisyRot
      simp only [tfRot_tf]
      obtain ⟨hn, hq⟩ := (rotToQuat_spec (camRot_rot r t)).spec
      have hrot : quat2rot (rotToQuat (camRot r t)) = camRot r t := by
        rw [← (C33_sandwich _).2 hn, hq]
      have he : quat2euler (rotToQuat (camRot r t)) = ![-(Real.pi / 2), 0, atan2 (-Real.sin (speed r * t)) (Real.cos (speed r * t))] := by
        rw [quat2euler_rot, hrot]
        apply vec3_ext
        · have := atan2_polar 1 (-(Real.pi / 2)) one_pos (by linarith) (by linarith)
          simpa [camRot, columns, heading, left] using this
        · simp [camRot, columns, heading, left]
        · simp [camRot, columns, heading, left]
      rw [he]
      have hz : (⟨Real.cos (speed r * t), -Real.sin (speed r * t)⟩ : ℂ) = Complex.exp (((-(speed r * t) : ℝ) : ℂ) * Complex.I) := by
        apply Complex.ext
        · rw [Complex.exp_ofReal_mul_I_re, Real.cos_neg]
        · rw [Complex.exp_ofReal_mul_I_im, Real.sin_neg]
      have hnorm : ‖(⟨Real.cos (speed r * t), -Real.sin (speed r * t)⟩ : ℂ)‖ = 1 := by
        rw [hz, Complex.norm_exp_ofReal_mul_I]
      have hne : (⟨Real.cos (speed r * t), -Real.sin (speed r * t)⟩ : ℂ) ≠ 0 := by
        intro h; rw [h, norm_zero] at hnorm; norm_num at hnorm
      have hc : Real.cos (atan2 (-Real.sin (speed r * t)) (Real.cos (speed r * t))) = Real.cos (-(speed r * t)) := by
        unfold atan2
        rw [Complex.cos_arg hne, hnorm, div_one, Real.cos_neg]
      have hsn : Real.sin (atan2 (-Real.sin (speed r * t)) (Real.cos (speed r * t))) = Real.sin (-(speed r * t)) := by
        unfold atan2
        rw [Complex.sin_arg, hnorm, div_one, Real.sin_neg]
      have hcc : ∀ c, Real.cos (atan2 (-Real.sin (speed r * t)) (Real.cos (speed r * t)) + c) = Real.cos (-(speed r * t) + c) := by
        intro c; rw [Real.cos_add, Real.cos_add, hc, hsn]
      have hss : ∀ c, Real.sin (atan2 (-Real.sin (speed r * t)) (Real.cos (speed r * t)) + c) = Real.sin (-(speed r * t) + c) := by
        intro c; rw [Real.sin_add, Real.sin_add, hc, hsn]
      unfold noise3 euler321
      simp only [Matrix.cons_val_zero, Matrix.cons_val_one, Matrix.cons_val, zero_add, hcc, hss]

/-- A circle of radius 0 is a division by zero. -/
theorem C102_zero (u : ℕ → ℝ) (noise : ℕ → Vec3 ℝ) (fuel : ℕ) : simulate fuel 0 u noise = .error .divZero := by
  unfold simulate
  simp

end Yac.Sim
