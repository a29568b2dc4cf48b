import Verif.Gimbal.Spec
import Verif.Geom.RotProps
import Verif.Geom.QuatOfRot
import Verif.Rand.Props
import Verif.Num.Props

namespace Yac.Gimbal
open Yac.Geom Matrix

/-- Homogeneous coordinates. -/
def hom (x : Vec3 ℝ) : Fin 4 → ℝ := ![x 0, x 1, x 2, 1]

theorem hom_inj {x y : Vec3 ℝ} (h : hom x = hom y) : x = y :=
  vec3_ext (congrFun h 0) (congrFun h 1) (congrFun h 2)

theorem tf_hom (C : Mat3 ℝ) (r x : Vec3 ℝ) : tf C r *ᵥ hom x = hom (C *ᵥ x + r) := by
  funext i
  fin_cases i <;> simp [tf, hom, mulVec, dotProduct, Fin.sum_univ_three, Fin.sum_univ_four]

theorem spin_eq (w x y z : ℝ) (v : Vec3 ℝ) : spin w x y z v = rotOf w x y z *ᵥ v := by
  have e : spin w x y z v = ![(toH ⟨w, x, y, z⟩ * vecH v * star (toH ⟨w, x, y, z⟩)).imI,
    (toH ⟨w, x, y, z⟩ * vecH v * star (toH ⟨w, x, y, z⟩)).imJ,
    (toH ⟨w, x, y, z⟩ * vecH v * star (toH ⟨w, x, y, z⟩)).imK] := rfl
  rw [e]
  apply vec3_ext <;> simp [rotOf, mulVec, dotProduct, Fin.sum_univ_three] <;> ring

theorem transform_hom (p : Fin 7 → ℝ) (x : Vec3 ℝ) : transform p *ᵥ hom x = hom (place p x) := by
  unfold transform
  rw [tf_hom]
  congr 1
  rw [← spin_eq]
  apply vec3_ext <;> rfl

theorem joint_hom (a : ℝ) (x : Vec3 ℝ) : jointTf a *ᵥ hom x = hom (turn a x) := by
  unfold jointTf
  rw [tf_hom]
  congr 1
  apply vec3_ext <;> simp [turn, rotZ, mulVec, dotProduct, Fin.sum_univ_three] <;> ring

theorem cam_hom (P : Params) (x : Vec3 ℝ) : camPose P *ᵥ hom x = hom (inWorld P x) := by
  unfold camPose inWorld
  simp only [← mulVec_mulVec, transform_hom, joint_hom]

theorem Rigid.mul {A B : Mat4 ℝ} (ha : Rigid A) (hb : Rigid B) : Rigid (A * B) := by
  obtain ⟨C, r, hC, hC', rfl⟩ := ha
  obtain ⟨D, s, hD, hD', rfl⟩ := hb
  have h := IsRot.mul ⟨hC, hC'⟩ ⟨hD, hD'⟩
  exact ⟨_, _, h.1, h.2, tf_mul C D r s⟩

theorem rotOf_rot {p : Fin 7 → ℝ} (h : IsUnit7 p) : IsRot (rotOf (p 3) (p 4) (p 5) (p 6)) := by
  have e : rotOf (p 3) (p 4) (p 5) (p 6) = Geom.quat2rot ⟨p 3, p 4, p 5, p 6⟩ := rfl
  have hn : (⟨p 3, p 4, p 5, p 6⟩ : Quat ℝ).normSq = 1 := by
    unfold IsUnit7 at h; simp only [Quat.normSq]; linarith
  rw [e, ← (C33_sandwich _).2 hn]
  exact ⟨toRot_mul_transpose _ hn, toRot_det _ hn⟩

theorem transform_rigid {p : Fin 7 → ℝ} (h : IsUnit7 p) : Rigid (transform p) := ⟨_, _, (rotOf_rot h).1, (rotOf_rot h).2, rfl⟩

theorem rotZ_rot (a : ℝ) : IsRot (rotZ a) := by
  have e : rotZ a = rotz (-a) := by apply mat3_eq <;> simp [rotZ, rotz]
  rw [e]; exact rotz_rot _

theorem joint_rigid (a : ℝ) : Rigid (jointTf a) := ⟨_, _, (rotZ_rot a).1, (rotZ_rot a).2, rfl⟩

theorem cam_rigid {P : Params} (h : P.Ok) : Rigid (camPose P) :=
  ((((((((transform_rigid h.body).mul (transform_rigid h.gimbal)).mul (joint_rigid _)).mul
    (transform_rigid h.link0)).mul (joint_rigid _)).mul (transform_rigid h.link1)).mul (joint_rigid _)).mul
    (transform_rigid h.effector)).mul (transform_rigid h.cam)

theorem Rigid.inv {T : Mat4 ℝ} (h : Rigid T) : Rigid T⁻¹ ∧ T⁻¹ * T = 1 ∧ T * T⁻¹ = 1 := by
  obtain ⟨C, r, h1, hd, rfl⟩ := h
  have hC : IsRot C := ⟨h1, hd⟩
  have h2 := C32_inverse C r hC.1
  have e : (tf C r)⁻¹ = tfInv (tf C r) := Matrix.inv_eq_right_inv h2.1
  rw [e]
  refine ⟨⟨_, _, ?_, ?_, rfl⟩, ?_, ?_⟩
  · rw [tfRot_tf]; exact hC.transpose.1
  · rw [tfRot_tf]; exact hC.transpose.2
  · exact h2.2
  · exact h2.1

/-- The chain is injective for unit quaternions. -/
theorem world_inj {P : Params} (h : P.Ok) {x y : Vec3 ℝ} (e : inWorld P x = inWorld P y) : x = y := by
  have h1 := (cam_rigid h).inv.2.1
  apply hom_inj
  have : camPose P *ᵥ hom x = camPose P *ᵥ hom y := by rw [cam_hom, cam_hom, e]
  have := congrArg ((camPose P)⁻¹ *ᵥ ·) this
  simpa only [mulVec_mulVec, h1, one_mulVec] using this

theorem point_hom {P : Params} (h : P.Ok) (p : Vec3 ℝ) :
    hom (pointInCam P p) = ((camPose P)⁻¹ * transform P.target) *ᵥ hom p := by
  obtain ⟨C, r, -, -, e⟩ := (cam_rigid h).inv.1.mul (transform_rigid h.target)
  unfold pointInCam
  show hom ![(((camPose P)⁻¹ * transform P.target) *ᵥ hom p) 0, (((camPose P)⁻¹ * transform P.target) *ᵥ hom p) 1,
    (((camPose P)⁻¹ * transform P.target) *ᵥ hom p) 2] = _
  rw [e, tf_hom]
  rfl

theorem point_world {P : Params} (h : P.Ok) (p : Vec3 ℝ) : inWorld P (pointInCam P p) = place P.target p := by
  apply hom_inj
  rw [← cam_hom, point_hom h, mulVec_mulVec, ← Matrix.mul_assoc, (cam_rigid h).inv.2.2, Matrix.one_mul, transform_hom]


/-- The residual of a reprojection error is the difference between the measured corner and the image of the corner
of the target: the point `x` of the camera frame that the kinematic chain puts where the target pose puts the
corner is unique, and the residual is finite exactly if it does not lie in the plane of the camera centre. -/
theorem C123_residual (P : Params) (h : P.Ok) (proj : Fin 4 → ℝ) (z : ℝ × ℝ) (p : Vec3 ℝ) :
    ∃ x, inWorld P x = place P.target p ∧ (∀ y, inWorld P y = place P.target p → y = x) ∧
      (x 2 = 0 → reprojError proj z p P = none) ∧
      (x 2 ≠ 0 → reprojError proj z p P = some (z - pinhole proj x)) := by
  refine ⟨pointInCam P p, point_world h p, fun y hy => world_inj h (by rw [hy, point_world h p]), ?_, ?_⟩
  · intro h0
    unfold reprojError
    exact if_pos h0
  · intro h0
    unfold reprojError
    simp only
    rw [if_neg h0]
    simp only [pinhole, Prod.mk_sub_mk, mul_div_assoc]
    rfl

/-- The residual is zero exactly if the measured corner is the image of the corner. -/
theorem C123_zero (P : Params) (h : P.Ok) (proj : Fin 4 → ℝ) (z : ℝ × ℝ) (p : Vec3 ℝ) :
    reprojError proj z p P = some (0, 0) ↔
      ∃ x, inWorld P x = place P.target p ∧ x 2 ≠ 0 ∧ z = pinhole proj x := by
  obtain ⟨x, h1, h2, h3, h4⟩ := C123_residual P h proj z p
  constructor
  · intro he
    by_cases hx : x 2 = 0
    · rw [h3 hx] at he; cases he
    · rw [h4 hx] at he
      refine ⟨x, h1, hx, ?_⟩
      have := Option.some.inj he
      exact sub_eq_zero.mp this
  · rintro ⟨y, hy, hy0, hz⟩
    obtain rfl := h2 y hy
    rw [h4 hy0, hz, sub_self]
    rfl

/-- Residuals depend on the parameters only through where the chain puts points and where the target is. -/
theorem depends {P Q : Params} (hP : P.Ok) (hQ : Q.Ok) (g : Vec3 ℝ → Vec3 ℝ) (hg : Function.Injective g)
    (hw : ∀ x, inWorld Q x = g (inWorld P x)) (ht : ∀ x, place Q.target x = g (place P.target x))
    (proj : Fin 4 → ℝ) (z : ℝ × ℝ) (p : Vec3 ℝ) : reprojError proj z p Q = reprojError proj z p P := by
  obtain ⟨x, h1, h2, h3, h4⟩ := C123_residual P hP proj z p
  obtain ⟨y, k1, k2, k3, k4⟩ := C123_residual Q hQ proj z p
  have : y = x := by
    apply h2
    apply hg
    rw [← hw, k1, ht]
  subst this
  by_cases hy : y 2 = 0
  · rw [h3 hy, k3 hy]
  · rw [h4 hy, k4 hy]

theorem transform_vector_spec {T : Mat4 ℝ} (h : Rigid T) :
    IsUnit7 (transformVector T) ∧ transform (transformVector T) = T := by
  obtain ⟨C, r, h1, hd, rfl⟩ := h
  obtain ⟨a, b, c, -⟩ := C32_vec C r h1 hd
  have e : tfQuatOf (tf C r) = rotToQuat C := by rw [tfQuatOf, tfRot_tf]
  constructor
  · unfold IsUnit7 transformVector
    rw [e]
    simp only [Quat.normSq] at a
    show (rotToQuat C).w ^ 2 + (rotToQuat C).x ^ 2 + (rotToQuat C).y ^ 2 + (rotToQuat C).z ^ 2 = 1
    linarith
  · unfold transformVector transform
    rw [e, tfTrans_tf]
    show tf (Geom.quat2rot (rotToQuat C)) ![r 0, r 1, r 2] = tf C r
    rw [← (C33_sandwich _).2 a, b]
    congr 1
    apply vec3_ext <;> rfl

/-- Every rigid transform is the place of a unit pose. -/
theorem pose_of {T : Mat4 ℝ} (h : Rigid T) : ∃ p, IsUnit7 p ∧ transform p = T ∧ ∀ x, hom (place p x) = T *ᵥ hom x :=
  ⟨transformVector T, (transform_vector_spec h).1, (transform_vector_spec h).2, fun x => by
    rw [← transform_hom, (transform_vector_spec h).2]⟩

theorem place_inj {p : Fin 7 → ℝ} (h : IsUnit7 p) : Function.Injective (place p) := by
  intro x y e
  apply hom_inj
  have h1 := (transform_rigid h).inv.2.1
  have : transform p *ᵥ hom x = transform p *ᵥ hom y := by rw [transform_hom, transform_hom, e]
  have := congrArg ((transform p)⁻¹ *ᵥ ·) this
  simpa only [mulVec_mulVec, h1, one_mulVec] using this

/-- The world frame cannot be seen: moving body and target together by any pose `g` changes no residual. -/
theorem C123_world (P : Params) (h : P.Ok) (g : Fin 7 → ℝ) (hg : IsUnit7 g) :
    ∃ b t, IsUnit7 b ∧ IsUnit7 t ∧ (∀ x, place b x = place g (place P.body x)) ∧
      (∀ x, place t x = place g (place P.target x)) ∧
      ∀ proj z p, reprojError proj z p { P with body := b, target := t } = reprojError proj z p P := by
  obtain ⟨b, hb, -, eb⟩ := pose_of ((transform_rigid hg).mul (transform_rigid h.body))
  obtain ⟨t, ht, -, et⟩ := pose_of ((transform_rigid hg).mul (transform_rigid h.target))
  have kb : ∀ x, place b x = place g (place P.body x) := fun x => hom_inj (by
    rw [eb, ← mulVec_mulVec, transform_hom, transform_hom])
  have kt : ∀ x, place t x = place g (place P.target x) := fun x => hom_inj (by
    rw [et, ← mulVec_mulVec, transform_hom, transform_hom])
  refine ⟨b, t, hb, ht, kb, kt, fun proj z p => ?_⟩
  exact depends (Q := { P with body := b, target := t }) h
    ⟨hb, h.gimbal, h.link0, h.link1, h.effector, h.cam, ht⟩ (place g) (place_inj hg)
    (fun x => kb _) kt proj z p

theorem turn_add (a b : ℝ) (x : Vec3 ℝ) : turn a (turn b x) = turn (a + b) x := by
  apply vec3_ext <;> simp [turn, Real.cos_add, Real.sin_add] <;> ring

theorem turn_zero (x : Vec3 ℝ) : turn 0 x = x := by
  apply vec3_ext <;> simp [turn]

/-- `p` after a turn by `a` in its own frame. -/
theorem pose_turn {p : Fin 7 → ℝ} (h : IsUnit7 p) (a : ℝ) :
    ∃ p', IsUnit7 p' ∧ ∀ x, place p' x = place p (turn a x) := by
  obtain ⟨p', hp, -, e⟩ := pose_of ((transform_rigid h).mul (joint_rigid a))
  exact ⟨p', hp, fun x => hom_inj (by rw [e, ← mulVec_mulVec, joint_hom, transform_hom])⟩

/-- `p` before a turn by `a` in the parent frame. -/
theorem turn_pose {p : Fin 7 → ℝ} (h : IsUnit7 p) (a : ℝ) :
    ∃ p', IsUnit7 p' ∧ ∀ x, place p' x = turn a (place p x) := by
  obtain ⟨p', hp, -, e⟩ := pose_of ((joint_rigid a).mul (transform_rigid h))
  exact ⟨p', hp, fun x => hom_inj (by rw [e, ← mulVec_mulVec, transform_hom, joint_hom])⟩

/-- The zero of a joint cannot be seen: adding `a` to every angle of a joint and turning the frame it is mounted on
by `-a` changes no residual, and neither does turning the frame it carries. -/
theorem C123_offset (P : Params) (h : P.Ok) (a : ℝ) :
    (∃ m, IsUnit7 m ∧ (∀ x, place m x = place P.gimbal (turn (-a) x)) ∧ ∀ j proj z p,
      reprojError proj z p { P with gimbal := m, joint0 := j + a } = reprojError proj z p { P with joint0 := j }) ∧
    (∃ m, IsUnit7 m ∧ (∀ x, place m x = place P.link0 (turn (-a) x)) ∧ ∀ j proj z p,
      reprojError proj z p { P with link0 := m, joint1 := j + a } = reprojError proj z p { P with joint1 := j }) ∧
    (∃ m, IsUnit7 m ∧ (∀ x, place m x = place P.link1 (turn (-a) x)) ∧ ∀ j proj z p,
      reprojError proj z p { P with link1 := m, joint2 := j + a } = reprojError proj z p { P with joint2 := j }) ∧
    (∃ m, IsUnit7 m ∧ (∀ x, place m x = turn (-a) (place P.link0 x)) ∧ ∀ j proj z p,
      reprojError proj z p { P with link0 := m, joint0 := j + a } = reprojError proj z p { P with joint0 := j }) ∧
    (∃ m, IsUnit7 m ∧ (∀ x, place m x = turn (-a) (place P.link1 x)) ∧ ∀ j proj z p,
      reprojError proj z p { P with link1 := m, joint1 := j + a } = reprojError proj z p { P with joint1 := j }) ∧
    (∃ m, IsUnit7 m ∧ (∀ x, place m x = turn (-a) (place P.effector x)) ∧ ∀ j proj z p,
      reprojError proj z p { P with effector := m, joint2 := j + a } = reprojError proj z p { P with joint2 := j }) := by
  have e1 : ∀ j x, turn (-a) (turn (j + a) x) = turn j x := fun j x => by rw [turn_add]; congr 1; ring
  have e2 : ∀ j x, turn (j + a) (turn (-a) x) = turn j x := fun j x => by rw [turn_add]; congr 1; ring
  refine ⟨?_, ?_, ?_, ?_, ?_, ?_⟩
  · obtain ⟨m, hm, e⟩ := pose_turn h.gimbal (-a)
    refine ⟨m, hm, e, fun j proj z p => ?_⟩
    refine depends (P := { P with joint0 := j }) (Q := { P with gimbal := m, joint0 := j + a })
      ⟨h.body, h.gimbal, h.link0, h.link1, h.effector, h.cam, h.target⟩
      ⟨h.body, hm, h.link0, h.link1, h.effector, h.cam, h.target⟩ id Function.injective_id (fun x => ?_) (fun x => rfl)
      proj z p
    simp only [inWorld, e, e1, id]
  · obtain ⟨m, hm, e⟩ := pose_turn h.link0 (-a)
    refine ⟨m, hm, e, fun j proj z p => ?_⟩
    refine depends (P := { P with joint1 := j }) (Q := { P with link0 := m, joint1 := j + a })
      ⟨h.body, h.gimbal, h.link0, h.link1, h.effector, h.cam, h.target⟩
      ⟨h.body, h.gimbal, hm, h.link1, h.effector, h.cam, h.target⟩ id Function.injective_id (fun x => ?_) (fun x => rfl)
      proj z p
    simp only [inWorld, e, e1, id]
  · obtain ⟨m, hm, e⟩ := pose_turn h.link1 (-a)
    refine ⟨m, hm, e, fun j proj z p => ?_⟩
    refine depends (P := { P with joint2 := j }) (Q := { P with link1 := m, joint2 := j + a })
      ⟨h.body, h.gimbal, h.link0, h.link1, h.effector, h.cam, h.target⟩
      ⟨h.body, h.gimbal, h.link0, hm, h.effector, h.cam, h.target⟩ id Function.injective_id (fun x => ?_) (fun x => rfl)
      proj z p
    simp only [inWorld, e, e1, id]
  · obtain ⟨m, hm, e⟩ := turn_pose h.link0 (-a)
    refine ⟨m, hm, e, fun j proj z p => ?_⟩
    refine depends (P := { P with joint0 := j }) (Q := { P with link0 := m, joint0 := j + a })
      ⟨h.body, h.gimbal, h.link0, h.link1, h.effector, h.cam, h.target⟩
      ⟨h.body, h.gimbal, hm, h.link1, h.effector, h.cam, h.target⟩ id Function.injective_id (fun x => ?_) (fun x => rfl)
      proj z p
    simp only [inWorld, e, e2, id]
  · obtain ⟨m, hm, e⟩ := turn_pose h.link1 (-a)
    refine ⟨m, hm, e, fun j proj z p => ?_⟩
    refine depends (P := { P with joint1 := j }) (Q := { P with link1 := m, joint1 := j + a })
      ⟨h.body, h.gimbal, h.link0, h.link1, h.effector, h.cam, h.target⟩
      ⟨h.body, h.gimbal, h.link0, hm, h.effector, h.cam, h.target⟩ id Function.injective_id (fun x => ?_) (fun x => rfl)
      proj z p
    simp only [inWorld, e, e2, id]
  · obtain ⟨m, hm, e⟩ := turn_pose h.effector (-a)
    refine ⟨m, hm, e, fun j proj z p => ?_⟩
    refine depends (P := { P with joint2 := j }) (Q := { P with effector := m, joint2 := j + a })
      ⟨h.body, h.gimbal, h.link0, h.link1, h.effector, h.cam, h.target⟩
      ⟨h.body, h.gimbal, h.link0, h.link1, hm, h.cam, h.target⟩ id Function.injective_id (fun x => ?_) (fun x => rfl)
      proj z p
    simp only [inWorld, e, e2, id]

end Yac.Gimbal
