import Verif.Nbt.EvalRates

/-!
# C133: limits and witnesses
-/

namespace Yac.Nbt

open Yac.AprilGrid (Grid)
open Yac.Geom (Mat4 Vec3 tf)
open Yac.VI (St VEnv Ev Par feed frame tg GridsOk WF EqLen seenIn CamFlags)

/-- Two entries of different times can be exchanged. -/
theorem filter_swap {α : Type} (pre post : List (ℤ × α)) (a b : ℤ × α) (h : a.1 ≠ b.1) (k : ℤ) :
    (pre ++ a :: b :: post).filter (fun p => decide (p.1 = k)) =
      (pre ++ b :: a :: post).filter (fun p => decide (p.1 = k)) := by
  rw [List.filter_append, List.filter_append]
  congr 1
  by_cases ha : a.1 = k
  · have hb : ¬ b.1 = k := fun e => h (ha.trans e.symm)
    simp [ha, hb]
  · by_cases hb : b.1 = k <;> simp [ha, hb]

/-- Replaying measurements whose order of time is known. -/
theorem replay_sorted (env : VEnv ℝ (Vec3 ℝ)) (d : CamData) (imu : List (ℤ × Vec3 ℝ × Vec3 ℝ)) (s : St ℝ (Vec3 ℝ))
    (L : List (ℤ × Event)) (hL : L.Pairwise (fun a b => a.1 ≤ b.1))
    (hk : ∀ k, L.filter (fun a => decide (a.1 = k)) = (events d imu).filter (fun a => decide (a.1 = k))) :
    ∃ tl, createTimeline d (imu.map (·.1)) (imu.map (·.2.1)) (imu.map (·.2.2)) Timeline.empty = .ok tl ∧
      replay env tl s = (L.map fun p => asEv p.1 p.2).foldlM (feed env) s := by
  obtain ⟨tl, l, h1, -, h3, h4, h5⟩ := C133_replay env d imu s
  refine ⟨tl, h1, ?_⟩
  rw [h5, sorted_unique l L h3 hL (fun k => (h4 k).trans (hk k).symm)]

/-- C133 (limit): a frame from which the pose of the camera cannot be told ends the program; the
candidate is not given up with -1. -/
theorem C133_localise_refuted (env : VEnv ℝ (Vec3 ℝ)) (fl : CamFlags) (s : St ℝ (Vec3 ℝ)) (hs : Fresh [(0, fl)] s)
    (t0 t1 t2 : ℤ) (a0 w0 a1 w1 a2 w2 : Vec3 ℝ) (g : Grid ℝ) (hd : g.detected = true) (he : env.estimate g = false)
    (h01 : t0 < t1) (h1 : t1 ≤ g.timestamp) (h2 : g.timestamp < t2) :
    ∃ tl, createTimeline [(g.timestamp, [(0, g)])] [t0, t1, t2] [a0, a1, a2] [w0, w1, w2] Timeline.empty = .ok tl ∧
      replay env tl s = .error .fatal := by
  obtain ⟨tl, e1, e2⟩ := replay_sorted env [(g.timestamp, [(0, g)])] [(t0, a0, w0), (t1, a1, w1), (t2, a2, w2)] s
    [(t0, .imu a0 w0), (t1, .imu a1 w1), (g.timestamp, .grid 0 g), (t2, .imu a2 w2)]
    (by simp; omega) (by
      intro k
      have hev : events [(g.timestamp, [(0, g)])] [(t0, a0, w0), (t1, a1, w1), (t2, a2, w2)] =
          [(t0, .imu a0 w0), (t1, .imu a1 w1), (t2, .imu a2 w2), (g.timestamp, .grid 0 g)] := by
        simp [events, hd]
      rw [hev]
      exact filter_swap [(t0, Event.imu a0 w0), (t1, .imu a1 w1)] [] _ _ (by simp; omega) k)
  refine ⟨tl, e1, ?_⟩
  rw [e2]
  have hc := hs.cams
  have hb := hs.grids
  have hi := hs.init
  have hm := hs.imu
  simp only [List.map_cons, List.map_nil, asEv, List.foldlM_cons, feed, VI.addImu, hb, hc, List.length_nil,
    List.length_cons, VI.addGrid]
  rw [if_pos (by decide)]
  simp only [AprilGrid.ok_bind, hb, hc, List.length_nil, List.length_cons]
  rw [if_pos (by decide)]
  simp only [AprilGrid.ok_bind, hb, hc, SMap.set, List.length_cons, List.length_nil, Bool.true_eq_false, if_false]
  rw [if_neg (by decide)]
  unfold VI.process
  rw [if_pos ⟨hi, by simp [hm, Stream.Imu.add, Stream.Imu.size], by simp [VI.firstDetected, hd]⟩]
  unfold VI.initVI
  simp [SMap.find, hd, he]

/-- C133 (limit): a camera that does not see the target in a frame leaves the frame incomplete, and the
next frame completes it: here the view of time `k1` holds the grid which the second camera saw at the
later time `k2`. -/
theorem C133_mixed_refuted (env : VEnv ℝ (Vec3 ℝ)) (f0 f1 : CamFlags) (s : St ℝ (Vec3 ℝ))
    (hs : Fresh [(0, f0), (1, f1)] s) (t0 t1 t2 t3 : ℤ) (a0 w0 a1 w1 a2 w2 a3 w3 : Vec3 ℝ) (g0 g1 u0 u1 : Grid ℝ)
    (hg0 : g0.detected = true) (hg1 : g1.detected = true) (hu0 : u0.detected = false) (hu1 : u1.detected = false)
    (hm0 : ∃ ms, env.meas false g0 = .ok ms) (hm1 : ∃ ms, env.meas false g1 = .ok ms) (he0 : env.estimate g0 = true)
    (he1 : env.estimate g1 = true)
    (h01 : t0 < t1) (h1 : t1 ≤ g0.timestamp) (h2 : g0.timestamp < t2) (h3 : t2 ≤ g1.timestamp)
    (h4 : g1.timestamp < t3) :
    ∃ tl t, createTimeline [(g0.timestamp, [(0, g0), (1, u1)]), (g1.timestamp, [(0, u0), (1, g1)])]
        [t0, t1, t2, t3] [a0, a1, a2, a3] [w0, w1, w2, w3] Timeline.empty = .ok tl ∧
      replay env tl s = .ok t ∧ t.views.map tg = [(g0.timestamp, [(0, g0), (1, g1)])] ∧
      g1.timestamp ≠ g0.timestamp := by
  obtain ⟨tl, e1, e2⟩ := replay_sorted env
    [(g0.timestamp, [(0, g0), (1, u1)]), (g1.timestamp, [(0, u0), (1, g1)])]
    [(t0, a0, w0), (t1, a1, w1), (t2, a2, w2), (t3, a3, w3)] s
    [(t0, .imu a0 w0), (t1, .imu a1 w1), (g0.timestamp, .grid 0 g0), (t2, .imu a2 w2), (g1.timestamp, .grid 1 g1),
      (t3, .imu a3 w3)]
    (by simp; omega) (by
      intro k
      have hev : events [(g0.timestamp, [(0, g0), (1, u1)]), (g1.timestamp, [(0, u0), (1, g1)])]
          [(t0, a0, w0), (t1, a1, w1), (t2, a2, w2), (t3, a3, w3)] =
          [(t0, .imu a0 w0), (t1, .imu a1 w1), (t2, .imu a2 w2), (t3, .imu a3 w3), (g0.timestamp, .grid 0 g0),
            (g1.timestamp, .grid 1 g1)] := by
        simp [events, hg0, hg1, hu0, hu1]
      rw [hev]
      refine (filter_swap [(t0, Event.imu a0 w0), (t1, .imu a1 w1)] [(g1.timestamp, .grid 1 g1), (t3, .imu a3 w3)]
        (g0.timestamp, .grid 0 g0) (t2, .imu a2 w2) (by simp; omega) k).trans ?_
      refine (filter_swap [(t0, Event.imu a0 w0), (t1, .imu a1 w1), (t2, .imu a2 w2), (g0.timestamp, .grid 0 g0)] []
        (g1.timestamp, .grid 1 g1) (t3, .imu a3 w3) (by simp; omega) k).trans ?_
      exact filter_swap [(t0, Event.imu a0 w0), (t1, .imu a1 w1), (t2, .imu a2 w2)] [(g1.timestamp, .grid 1 g1)]
        (g0.timestamp, .grid 0 g0) (t3, .imu a3 w3) (by simp; omega) k)
  have hc := hs.cams
  have hb := hs.grids
  have hi := hs.init
  have hm := hs.imu
  have hv := hs.views
  have hma := hs.marg
  have key : ∃ t, replay env tl s = .ok t ∧ t.views.map tg = [(g0.timestamp, [(0, g0), (1, g1)])] := by
    rw [e2]
    simp only [List.map_cons, List.map_nil, asEv, List.foldlM_cons, List.foldlM_nil, feed, VI.addImu, hb, hc,
      List.length_nil, List.length_cons, VI.addGrid]
    rw [if_pos (by decide)]
    simp only [AprilGrid.ok_bind, hb, hc, List.length_nil, List.length_cons]
    rw [if_pos (by decide)]
    simp only [AprilGrid.ok_bind, hb, hc, SMap.set, List.length_cons, List.length_nil, Bool.true_eq_false, if_false]
    rw [if_pos (by decide)]
    simp only [AprilGrid.ok_bind, hc, SMap.set, List.length_cons, List.length_nil, Bool.true_eq_false, if_false,
      show ¬ ((1 : ℤ) < 0) by decide, show (0 : ℤ) < 1 by decide, if_true]
    rw [if_neg (by decide)]
    unfold VI.process
    rw [if_pos ⟨hi, by simp [hm, Stream.Imu.add, Stream.Imu.size], by simp [VI.firstDetected, hg0]⟩]
    unfold VI.initVI
    simp only [SMap.find, if_true, hg0, hc, he0, Bool.true_eq_false, if_false, Option.isNone_some, Bool.false_eq_true]
    obtain ⟨t, ht⟩ := VI.newView_ok (env := env) (s := { s with
        imuStarted := true, visionStarted := true, gridBuf := [],
        imu := (((s.imu.add t0 a0 w0).add t1 a1 w1).add t2 a2 w2).add t3 a3 w3
        prob := if s.fiducial then s.prob else VI.addParam s.prob .fiducial
        fiducial := true }) g0.timestamp (grids := [(0, g0), (1, g1)]) (by
      intro cg hcg
      simp only [List.mem_cons, List.not_mem_nil, or_false] at hcg
      rcases hcg with rfl | rfl
      · exact ⟨by rw [hma]; exact hm0, by rw [hc]; rfl, fun _ => he0⟩
      · exact ⟨by rw [hma]; exact hm1, by rw [hc]; rfl, fun _ => he1⟩)
    obtain ⟨fids, n, p, -, -, e⟩ := VI.newView_eq ht
    refine ⟨{ t with initialized := true }, ?_, ?_⟩
    · rw [hc] at ht
      rw [ht]
      rfl
    · rw [e, hv]
      rfl
  obtain ⟨t, h5, h6⟩ := key
  exact ⟨tl, t, e1, h5, h6, by omega⟩

/-! ### Witness

Two cameras at rest before a target of one tag, the IMU at 200 Hz, for one second. -/

/-- Where the cameras are. -/
noncomputable def spotM : Mat4 ℝ := Nbv.facing (Nbv.vantage Nbv.oneTag Nbv.plainCam (1 / 2))

theorem spotM_rigid : Rigid spotM := ⟨_, _, Nbv.flip_rot, rfl⟩

/-- The pose of a trajectory at rest in its own frame. -/
noncomputable def restM : Mat4 ℝ := tf (Geom.euler321 Real.pi 0 0) ![0, 0, 1]

theorem restM_rigid : Rigid restM := ⟨_, _, (Geom.C34_rotations _ _ _ 0).2.2.2.2, rfl⟩

/-- A trajectory of amplitude zero. -/
noncomputable def restTraj : Traj := ⟨0, 1, spotM * restM⁻¹, 1, 0, 0, 0, 0, 0, 1, 0, 0, 0, 0⟩

/-- The data, with the rate of the cameras. -/
noncomputable def restData (rate : ℝ) : Data where
  imu := ⟨200, 0, 0, 0, 0, 9.81⟩
  imuExtFixed := false
  delayFixed := false
  rig := ⟨[(0, .radtan), (1, .radtan)], [(0, Nbv.plainCam.res, Nbv.plainCam.params),
    (1, Nbv.plainCam.res, Nbv.plainCam.params)], [(0, tf 1 0), (1, tf 1 0)]⟩
  fixPar := fun _ => true
  fixExt := fun _ => true
  rate := rate
  target := Nbv.oneTag
  T_WF := 1

theorem one_rigid : Rigid (1 : Mat4 ℝ) := ⟨1, 0, Nbv.one_rot, by
  ext i j
  fin_cases i <;> fin_cases j <;> simp [tf, Matrix.one_apply]⟩

theorem rest_pose (t : ℝ) : poseAt restTraj t = spotM := by
  have h : tf (rotation restTraj t) ![posX restTraj t, posY restTraj t, Real.sqrt (under restTraj t)] = restM := by
    simp [rotation, posX, posY, under, restTraj, restM]
  unfold poseAt
  rw [h]
  show 1 * (spotM * restM⁻¹) * restM = spotM
  rw [one_mul, Matrix.mul_assoc, Matrix.nonsing_inv_mul _ restM_rigid.unit, Matrix.mul_one]

theorem rest_period : secToTs (1 / 200) = 5000000 ∧ secToTs (1 / 20) = 50000000 ∧ secToTs 1 = 1000000000 := by
  refine ⟨?_, ?_, ?_⟩ <;>
  · unfold secToTs
    rw [if_pos (by norm_num)]
    norm_num

theorem rest_sound (rate : ℝ) (h0 : 0 < rate) (h1 : rate ≤ 1000000000) : Sound restTraj (restData rate) where
  traj := by
    refine ⟨by simp [restTraj], fun t => by simp [under, posX, posY, restTraj], le_refl _, ?_⟩
    show sec (0 + secToTs 1) - sec 0 ≤ 1
    rw [rest_period.2.2]
    simp [sec]
  rigid := by
    show Rigid (1 * (spotM * restM⁻¹))
    exact one_rigid.mul (spotM_rigid.mul restM_rigid.inv)
  frame := one_rigid
  rig := by
    refine ⟨?_, ?_, ?_⟩
    · simp [SMap.Sorted, restData]
    · intro ci hci
      simp only [restData, List.mem_cons, List.not_mem_nil, or_false] at hci
      rcases hci with rfl | rfl <;> exact ⟨_, rfl⟩
    · intro ci hci
      simp only [restData, List.mem_cons, List.not_mem_nil, or_false] at hci
      rcases hci with rfl | rfl <;> exact ⟨_, rfl, 1, 0, Nbv.one_rot, rfl⟩
  keys := rfl
  zero := by simp [restData]
  imuRate := by simp only [restData]; norm_num
  camRate := ⟨h0, h1⟩
  start := by
    show ¬ |sec 0 - 1 / 200| < 1 / 200 / 2
    rw [not_lt, sec]
    norm_num

theorem rest_sight (env : VEnv ℝ (Vec3 ℝ)) (hm : ∀ g, ∃ ms, env.meas false g = .ok ms)
    (he : ∀ g, env.estimate g = true) (rate : ℝ) : InSight env restTraj (restData rate) := by
  intro k hk ci hci g hg
  refine ⟨hm g, ?_, he g⟩
  obtain ⟨pr, e, h1, h2, h3⟩ := hg
  have hpe : e = tf 1 0 ∧ (⟨ci.2, pr.1, pr.2⟩ : Nbv.Camera) = Nbv.plainCam := by
    simp only [restData, List.mem_cons, List.not_mem_nil, or_false] at hci
    rcases hci with rfl | rfl
    · simp [restData, SMap.find] at h1 h2
      subst h1
      exact ⟨h2.symm, rfl⟩
    · simp [restData, SMap.find] at h1 h2
      subst h1
      exact ⟨h2.symm, rfl⟩
  rw [hpe.1, hpe.2, rest_pose] at h3
  have hT : (restData rate).T_WF⁻¹ * spotM * tf 1 0 = spotM := by
    have h1 : (tf 1 0 : Mat4 ℝ) = 1 := by
      ext i j
      fin_cases i <;> fin_cases j <;> simp [tf, Matrix.one_apply]
    rw [h1, Matrix.mul_one]
    show (1 : Mat4 ℝ)⁻¹ * spotM = spotM
    rw [inv_one, one_mul]
  rw [hT] at h3
  obtain ⟨g', e1, -, -, -, -, -, -, -, hdet⟩ := Nbv.C56_grid Nbv.oneTag Nbv.plainCam k _
    (Nbv.vantage Nbv.oneTag Nbv.plainCam (1 / 2)) Nbv.flip_rot
  have h3' : Nbv.targetGrid Nbv.oneTag Nbv.plainCam k (tf !![1, 0, 0; 0, -1, 0; 0, 0, -1]
    (Nbv.vantage Nbv.oneTag Nbv.plainCam (1 / 2))) = .ok g := h3
  rw [e1] at h3'
  injection h3' with h3'
  rw [← h3']
  refine hdet.2 ⟨0, 0, by simp [Nbv.oneTag], by norm_num, ?_⟩
  have hs := (Nbv.sample_sees (1 / 2) (by norm_num)).2 (by norm_num)
  obtain ⟨q, hq⟩ : ∃ q, Geom.tfPoint (tf !![1, 0, 0; 0, -1, 0; 0, 0, -1]
      (Nbv.vantage Nbv.oneTag Nbv.plainCam (1 / 2))) q = Nbv.corner Nbv.oneTag 0 0 := by
    obtain ⟨p, hp⟩ : ∃ p, p = Nbv.corner Nbv.oneTag 0 0 := ⟨_, rfl⟩
    refine ⟨_, (Nbv.inv_point Nbv.flip_rot _ _ _).mp rfl⟩
  exact ⟨q, hq, hs 0 0 (by simp [Nbv.oneTag]) (by norm_num) q hq⟩

/-- At 20 Hz the evaluation runs; at 200 Hz it ends the program. -/
example (env : VEnv ℝ (Vec3 ℝ)) (hm : ∀ g, ∃ ms, env.meas false g = .ok ms) (he : ∀ g, env.estimate g = true)
    (cov : St ℝ (Vec3 ℝ) → (Par → Bool) → VI.Recover.Cov) (res : VI.Fid ℝ → ℝ × ℝ) (noise : ℕ → Vec3 ℝ)
    (H : Matrix (Fin 6) (Fin 6) ℝ) :
    (∃ fuel r, nbtEval fuel noise env cov res restTraj (restData 20) H = .ok r) ∧
    ∃ fuel, nbtEval fuel noise env cov res restTraj (restData 200) H = .error .fatal := by
  constructor
  · obtain ⟨r, -, h, -⟩ := C133_rates_ok env cov res noise H (rest_sound 20 (by norm_num) (by norm_num))
      (rest_sight env hm he 20) ((imuTimes restTraj (restData 20)).length + (camTimes restTraj (restData 20)).length + 1)
      (by omega) (by omega) (by
        show 3 * secToTs (1 / 200) ≤ 2 * secToTs (1 / 20)
        rw [rest_period.1, rest_period.2.1]; norm_num)
    exact ⟨_, r, h⟩
  · refine ⟨(imuTimes restTraj (restData 200)).length + (camTimes restTraj (restData 200)).length + 1,
      C133_rates_refuted env cov res noise H (rest_sound 200 (by norm_num) (by norm_num)) (rest_sight env hm he 200) _
        (by omega) (by omega) (le_refl _) ?_ ?_⟩
    · show 2 * secToTs (1 / 200) < 3 * secToTs (1 / 200)
      rw [rest_period.1]; norm_num
    · refine ⟨15000000, ?_, ?_⟩
      · show (15000000 : ℤ) ∈ sampleTimes 0 (0 + secToTs 1) (secToTs (1 / 200))
        rw [rest_period.1, rest_period.2.2, mem_sampleTimes (by norm_num)]
        exact ⟨⟨3, by norm_num⟩, by norm_num⟩
      · show (0 : ℤ) + 2 * secToTs (1 / 200) < 15000000
        rw [rest_period.1]; norm_num

end Yac.Nbt
