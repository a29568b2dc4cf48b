import Verif.Gimbal.InitProps

namespace Yac.Gimbal
open Yac.Geom Matrix

/-- All extrinsics at the origin. -/
def still : Ext :=
  ⟨![0, 0, 0, 1, 0, 0, 0], ![0, 0, 0, 1, 0, 0, 0], ![0, 0, 0, 1, 0, 0, 0], ![0, 0, 0, 1, 0, 0, 0],
    ![0, 0, 0, 1, 0, 0, 0], ![0, 0, 0, 1, 0, 0, 0]⟩

theorem still_ok : still.Ok := ⟨body_unit, body_unit, body_unit, body_unit, body_unit⟩

theorem transform_origin : transform ![0, 0, 0, 1, 0, 0, 0] = 1 := by
  unfold transform
  rw [← tf_one]
  congr 1
  · apply mat3_eq <;> simp [rotOf]
  · apply vec3_ext <;> rfl

theorem joint_zero : jointTf 0 = 1 := by
  unfold jointTf
  rw [← tf_one]
  congr 1
  apply mat3_eq <;> simp [rotZ]

/-- A view with 20 corners at joint angles zero. -/
def seen (T : Mat4 ℝ) : View := ⟨0, 0, 0, 20, some T⟩

theorem seen_target (T : Mat4 ℝ) : viewTarget still (seen T) = some T := by
  unfold viewTarget
  simp only [seen, still, bodyPose, transform_origin, joint_zero, Matrix.one_mul]
  rfl

theorem euler_yaw (a : ℝ) (h1 : -Real.pi < a) (h2 : a ≤ Real.pi) :
    quat2euler (tfQuatOf (jointTf a)) = ![0, 0, a] := by
  have hR := rotZ_rot a
  obtain ⟨n1, n2⟩ := (rotToQuat_spec hR).spec
  have e : tfQuatOf (jointTf a) = rotToQuat (rotZ a) := by rw [tfQuatOf, jointTf, tfRot_tf]
  rw [e, quat2euler_rot, ← (C33_sandwich _).2 n1, n2]
  have p0 := atan2_polar 1 0 one_pos (by linarith [Real.pi_pos]) Real.pi_pos.le
  have pa := atan2_polar 1 a one_pos h1 h2
  simp only [one_mul, Real.sin_zero, Real.cos_zero] at p0 pa
  apply vec3_ext <;> simp [rotZ]
  · exact p0
  · exact pa

theorem median_pair (a : ℝ) (h : 0 < a) : Num.median [a, -a] = .ok 0 := by
  unfold Num.median
  have : [a, -a].insertionSort (· ≤ ·) = [-a, a] := by
    simp [List.insertionSort, List.orderedInsert, show ¬ a ≤ -a by linarith]
  rw [this]
  simp

/-- The median of Euler angles is not a median of orientations: for every small `d` two exact-looking estimates
that turn the target by half a turn plus and minus `d` (so they differ by `2 d`) give an initial pose that is not
turned at all. -/
theorem C123_median_refuted (d : ℝ) (h0 : 0 < d) (h1 : d < Real.pi) :
    ∃ v w : View, v.Used ∧ w.Used ∧ v.pnp = some (jointTf (Real.pi - d)) ∧ w.pnp = some (jointTf (Real.pi + d)) ∧
      ∃ p, initTarget still [v, w] = .ok p ∧ ∀ x, place p x = x := by
  have hw : jointTf (Real.pi + d) = jointTf (-(Real.pi - d)) := by
    unfold jointTf rotZ
    rw [show Real.pi + d = -(Real.pi - d) + 2 * Real.pi by ring, Real.cos_add_two_pi, Real.sin_add_two_pi]
  refine ⟨seen (jointTf (Real.pi - d)), seen (jointTf (Real.pi + d)), ⟨le_rfl, by simp [seen]⟩, ⟨le_rfl, by simp [seen]⟩,
    rfl, rfl, ?_⟩
  have hl : [seen (jointTf (Real.pi - d)), seen (jointTf (Real.pi + d))].filterMap (viewTarget still) =
      [jointTf (Real.pi - d), jointTf (-(Real.pi - d))] := by
    simp only [List.filterMap_cons, seen_target, List.filterMap_nil, hw]
  have ht : ∀ a, tfTrans (jointTf a) = 0 := fun a => by unfold jointTf; rw [tfTrans_tf]
  have z2 : Num.median [(0 : ℝ), 0] = .ok 0 := median_const (by simp) 0 (by simp)
  refine ⟨transformVector (tfQuat (rotToQuat (euler321 0 0 0)) ![0, 0, 0]), ?_, ?_⟩
  · unfold initTarget
    simp only
    rw [hl]
    simp only [List.map_cons, List.map_nil, ht, euler_yaw (Real.pi - d) (by linarith) (by linarith),
      euler_yaw (-(Real.pi - d)) (by linarith) (by linarith), Pi.zero_apply, cons_val_zero, cons_val_one, cons_val,
      z2, median_pair (Real.pi - d) (by linarith), okb]
    rfl
  · intro x
    have he : euler321 0 0 0 = 1 := by apply mat3_eq <;> simp [euler321]
    have hr : IsRot (1 : Mat3 ℝ) := ⟨by simp, by simp⟩
    obtain ⟨-, n2⟩ := (rotToQuat_spec hr).spec
    have hT : tfQuat (rotToQuat (euler321 0 0 0)) ![0, 0, 0] = 1 := by
      unfold tfQuat
      rw [he, n2, ← tf_one]
      congr 1
      apply vec3_ext <;> rfl
    have hrig : Rigid (1 : Mat4 ℝ) := ⟨1, 0, by simp, by simp, tf_one.symm⟩
    rw [hT]
    apply hom_inj
    rw [← transform_hom, (transform_vector_spec hrig).2, one_mulVec]

/-! ## Report -/

/-- The report compares with the values held when it was set up: distance in metres, and the chord of the rotation
between the two poses, in degrees (a lower bound of the angle). -/
theorem C123_report_partial (before after : Ext) :
    (compare (snapshot before) after).map Prod.fst = ["gimbal", "link0", "link1", "cam0", "cam1"] ∧
    ∀ label est gnd, (label, est, gnd) ∈ [("gimbal", after.gimbal, before.gimbal), ("link0", after.link0, before.link0),
        ("link1", after.link1, before.link1)] → ∃ dr drot, (label, dr, drot) ∈ compare (snapshot before) after ∧
      dr = Real.sqrt ((est 0 - gnd 0) ^ 2 + (est 1 - gnd 1) ^ 2 + (est 2 - gnd 2) ^ 2) ∧
      (est = gnd → drot = 0) ∧
      drot = (Geom.poseDiff est gnd).2 * (180 / Real.pi) := by
  refine ⟨rfl, ?_⟩
  intro label est gnd h
  have hz : ∀ p, (poseDiff p p).2 = 0 := fun p => by rw [(C36_pose_diff_partial p p).1]
  simp only [List.mem_cons, Prod.mk.injEq, List.not_mem_nil, or_false] at h
  rcases h with ⟨rfl, rfl, rfl⟩ | ⟨rfl, rfl, rfl⟩ | ⟨rfl, rfl, rfl⟩
  · refine ⟨_, _, List.mem_cons_self, (C36_pose_diff_partial _ _).2.1, fun h => ?_, rfl⟩
    show Num.rad2deg (poseDiff after.gimbal before.gimbal).2 = 0
    rw [h, hz]; simp [Num.rad2deg]
  · refine ⟨_, _, List.mem_cons_of_mem _ List.mem_cons_self, (C36_pose_diff_partial _ _).2.1, fun h => ?_, rfl⟩
    show Num.rad2deg (poseDiff after.link0 before.link0).2 = 0
    rw [h, hz]; simp [Num.rad2deg]
  · refine ⟨_, _, List.mem_cons_of_mem _ (List.mem_cons_of_mem _ List.mem_cons_self), (C36_pose_diff_partial _ _).2.1,
      fun h => ?_, rfl⟩
    show Num.rad2deg (poseDiff after.link1 before.link1).2 = 0
    rw [h, hz]; simp [Num.rad2deg]

/-- The lines about the cameras are not about the cameras: "cam0" shows the change of the end effector and "cam1"
that of camera 0, the change of camera 1 is not shown at all. -/
theorem C123_report_refuted :
    (∀ before after : Ext, ("cam0", reportRow after.effector before.effector) ∈ compare (snapshot before) after ∧
      ("cam1", reportRow after.cam0 before.cam0) ∈ compare (snapshot before) after ∧
      ∀ c, compare (snapshot before) { after with cam1 := c } = compare (snapshot before) after) ∧
    ∃ before after : Ext, before.cam0 = ![0, 0, 0, 1, 0, 0, 0] ∧ after.cam0 = ![1, 0, 0, 1, 0, 0, 0] ∧
      ("cam0", ((0 : ℝ), (0 : ℝ))) ∈ compare (snapshot before) after := by
  refine ⟨fun before after => ⟨?_, ?_, fun c => rfl⟩, still, { still with cam0 := ![1, 0, 0, 1, 0, 0, 0] }, rfl, rfl, ?_⟩
  · exact List.mem_cons_of_mem _ (List.mem_cons_of_mem _ (List.mem_cons_of_mem _ List.mem_cons_self))
  · exact List.mem_cons_of_mem _ (List.mem_cons_of_mem _ (List.mem_cons_of_mem _ (List.mem_cons_of_mem _
      List.mem_cons_self)))
  · have : reportRow still.effector still.effector = (0, 0) := by
      unfold reportRow
      rw [(C36_pose_diff_partial still.effector still.effector).1]
      simp [Num.rad2deg]
    have h : ("cam0", reportRow still.effector still.effector) ∈
      compare (snapshot still) { still with cam0 := ![1, 0, 0, 1, 0, 0, 0] } :=
      List.mem_cons_of_mem _ (List.mem_cons_of_mem _ (List.mem_cons_of_mem _ List.mem_cons_self))
    rwa [this] at h

/-! ## Witnesses -/

/-- A chain with no pose at the origin. -/
noncomputable def bent : Params :=
  ⟨![1, 2, 3, 3 / 5, 0, 4 / 5, 0], ![1, 0, 0, 0, 1, 0, 0], ![0, 1, 0, 1 / 2, 1 / 2, 1 / 2, 1 / 2],
    ![0, 0, 1, 1 / 2, -1 / 2, 1 / 2, 1 / 2], 1, 2, 3, ![0, 0, 1, 4 / 5, 0, 0, 3 / 5], ![1, 1, 1, 1, 0, 0, 0],
    ![5, 5, 5, 3 / 5, 4 / 5, 0, 0]⟩

theorem bent_ok : bent.Ok := by
  constructor <;> simp [bent, IsUnit7] <;> norm_num

/-- Hypotheses of `C123_residual`, `C123_zero`, `C123_world`, `C123_offset`, `C123_slide`. -/
example : bent.Ok ∧ IsUnit7 ![7, 8, 9, 0, 3 / 5, 0, 4 / 5] ∧ bent.body ≠ ![0, 0, 0, 1, 0, 0, 0] :=
  ⟨bent_ok, by simp [IsUnit7]; norm_num, fun h => by have := congrFun h 0; simp [bent] at this⟩

/-- Hypotheses of `C123_initial`: a target away from the origin, turned by 2 atan (1/3), seen exactly. -/
example : still.Ok ∧ IsUnit7 ![1, 2, 3, 4 / 5, 3 / 5, 0, 0] ∧
    |2 * ((![1, 2, 3, 4 / 5, 3 / 5, 0, 0] : Fin 7 → ℝ) 5 * (![1, 2, 3, 4 / 5, 3 / 5, 0, 0] : Fin 7 → ℝ) 3 -
      (![1, 2, 3, 4 / 5, 3 / 5, 0, 0] : Fin 7 → ℝ) 4 * (![1, 2, 3, 4 / 5, 3 / 5, 0, 0] : Fin 7 → ℝ) 6)| < 1 ∧
    (seen (transform ![1, 2, 3, 4 / 5, 3 / 5, 0, 0])).Used ∧
    (seen (transform ![1, 2, 3, 4 / 5, 3 / 5, 0, 0])).Exact still ![1, 2, 3, 4 / 5, 3 / 5, 0, 0] := by
  have hu : IsUnit7 ![1, 2, 3, 4 / 5, 3 / 5, 0, 0] := by simp [IsUnit7]; norm_num
  refine ⟨still_ok, hu, by simp, ⟨le_rfl, by simp [seen]⟩, ?_⟩
  intro T hT
  obtain rfl := Option.some.inj hT
  refine ⟨transform_rigid hu, fun x => ?_⟩
  have hp : ∀ y, place ![0, 0, 0, 1, 0, 0, 0] y = y := fun y => hom_inj (by
    rw [← transform_hom, transform_origin, one_mulVec])
  have : ∀ y, inWorld (viewParams still (seen (transform ![1, 2, 3, 4 / 5, 3 / 5, 0, 0])) ![1, 2, 3, 4 / 5, 3 / 5, 0, 0]) y = y := by
    intro y
    simp only [inWorld, viewParams, still, seen, hp, turn_zero]
  rw [this]
  apply hom_inj
  rw [← transform_hom]
  obtain ⟨C, r, -, -, e⟩ := transform_rigid hu
  rw [e, tf_hom, (C32_point C r x 1).1]

/-- Hypotheses of `C123_none`: a view with 19 corners, and one where the pose could not be estimated. -/
example : ∀ v ∈ [(⟨0, 0, 0, 19, some 1⟩ : View), ⟨1, 2, 3, 100, none⟩], ¬ v.Used := by
  intro v hv
  simp only [List.mem_cons, List.not_mem_nil, or_false] at hv
  rcases hv with rfl | rfl
  · rintro ⟨h, -⟩; exact absurd h (by decide)
  · rintro ⟨-, h⟩; exact h rfl

end Yac.Gimbal
