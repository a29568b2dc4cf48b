import Verif.Gimbal.Props

namespace Yac.Gimbal
open Yac.Geom Matrix

/-- Shift along the third axis. -/
def lift (d : ℝ) (x : Vec3 ℝ) : Vec3 ℝ := ![x 0, x 1, x 2 + d]

theorem turn_lift (a d : ℝ) (x : Vec3 ℝ) : turn a (lift d x) = lift d (turn a x) := by
  apply vec3_ext <;> simp [turn, lift]

theorem lift_lift (a b : ℝ) (x : Vec3 ℝ) : lift a (lift b x) = lift (b + a) x := by
  apply vec3_ext <;> simp [lift, add_assoc]

theorem lift_zero (x : Vec3 ℝ) : lift 0 x = x := by
  apply vec3_ext <;> simp [lift]

theorem lift_hom (d : ℝ) (x : Vec3 ℝ) : tf 1 ![0, 0, d] *ᵥ hom x = hom (lift d x) := by
  rw [tf_hom]
  congr 1
  apply vec3_ext <;> simp [lift]

theorem lift_rigid (d : ℝ) : Rigid (tf 1 ![0, 0, d]) := ⟨_, _, by simp, by simp, rfl⟩

theorem pose_lift {p : Fin 7 → ℝ} (h : IsUnit7 p) (d : ℝ) :
    ∃ p', IsUnit7 p' ∧ ∀ x, place p' x = place p (lift d x) := by
  obtain ⟨p', hp, -, e⟩ := pose_of ((transform_rigid h).mul (lift_rigid d))
  exact ⟨p', hp, fun x => hom_inj (by rw [e, ← mulVec_mulVec, lift_hom, transform_hom])⟩

theorem lift_pose {p : Fin 7 → ℝ} (h : IsUnit7 p) (d : ℝ) :
    ∃ p', IsUnit7 p' ∧ ∀ x, place p' x = lift d (place p x) := by
  obtain ⟨p', hp, -, e⟩ := pose_of ((lift_rigid d).mul (transform_rigid h))
  exact ⟨p', hp, fun x => hom_inj (by rw [e, ← mulVec_mulVec, transform_hom, lift_hom])⟩

/-- Where a joint sits along its axis cannot be seen: shifting the frame it is mounted on by `d` along the axis and
the frame it carries by `-d` changes no residual, at any joint angle. -/
theorem C123_slide (P : Params) (h : P.Ok) (d : ℝ) :
    (∃ m n, IsUnit7 m ∧ IsUnit7 n ∧ (∀ x, place m x = place P.gimbal (lift d x)) ∧
      (∀ x, place n x = lift (-d) (place P.link0 x)) ∧ ∀ j proj z p,
      reprojError proj z p { P with gimbal := m, link0 := n, joint0 := j } = reprojError proj z p { P with joint0 := j }) ∧
    (∃ m n, IsUnit7 m ∧ IsUnit7 n ∧ (∀ x, place m x = place P.link0 (lift d x)) ∧
      (∀ x, place n x = lift (-d) (place P.link1 x)) ∧ ∀ j proj z p,
      reprojError proj z p { P with link0 := m, link1 := n, joint1 := j } = reprojError proj z p { P with joint1 := j }) ∧
    (∃ m n, IsUnit7 m ∧ IsUnit7 n ∧ (∀ x, place m x = place P.link1 (lift d x)) ∧
      (∀ x, place n x = lift (-d) (place P.effector x)) ∧ ∀ j proj z p,
      reprojError proj z p { P with link1 := m, effector := n, joint2 := j } =
        reprojError proj z p { P with joint2 := j }) := by
  have key : ∀ j x, lift d (turn j (lift (-d) x)) = turn j x := fun j x => by
    rw [turn_lift, lift_lift, neg_add_cancel, lift_zero]
  refine ⟨?_, ?_, ?_⟩
  · obtain ⟨m, hm, e⟩ := pose_lift h.gimbal d
    obtain ⟨n, hn, e'⟩ := lift_pose h.link0 (-d)
    refine ⟨m, n, hm, hn, e, e', fun j proj z p => ?_⟩
    refine depends (P := { P with joint0 := j }) (Q := { P with gimbal := m, link0 := n, joint0 := j })
      ⟨h.body, h.gimbal, h.link0, h.link1, h.effector, h.cam, h.target⟩
      ⟨h.body, hm, hn, h.link1, h.effector, h.cam, h.target⟩ id Function.injective_id (fun x => ?_) (fun x => rfl)
      proj z p
    simp only [inWorld, e, e', key, id]
  · obtain ⟨m, hm, e⟩ := pose_lift h.link0 d
    obtain ⟨n, hn, e'⟩ := lift_pose h.link1 (-d)
    refine ⟨m, n, hm, hn, e, e', fun j proj z p => ?_⟩
    refine depends (P := { P with joint1 := j }) (Q := { P with link0 := m, link1 := n, joint1 := j })
      ⟨h.body, h.gimbal, h.link0, h.link1, h.effector, h.cam, h.target⟩
      ⟨h.body, h.gimbal, hm, hn, h.effector, h.cam, h.target⟩ id Function.injective_id (fun x => ?_) (fun x => rfl)
      proj z p
    simp only [inWorld, e, e', key, id]
  · obtain ⟨m, hm, e⟩ := pose_lift h.link1 d
    obtain ⟨n, hn, e'⟩ := lift_pose h.effector (-d)
    refine ⟨m, n, hm, hn, e, e', fun j proj z p => ?_⟩
    refine depends (P := { P with joint2 := j }) (Q := { P with link1 := m, effector := n, joint2 := j })
      ⟨h.body, h.gimbal, h.link0, h.link1, h.effector, h.cam, h.target⟩
      ⟨h.body, h.gimbal, h.link0, hm, hn, h.cam, h.target⟩ id Function.injective_id (fun x => ?_) (fun x => rfl)
      proj z p
    simp only [inWorld, e, e', key, id]

/-- The cost of a joint error is half the squared deviation over the variance; it vanishes exactly at the measured
angle. -/
theorem C123_joint_error (m c e : ℝ) (hc : 0 < c) :
    jointError m c e ^ 2 = (m - e) ^ 2 / c ∧ (jointError m c e = 0 ↔ e = m) ∧
      (e < m → 0 < jointError m c e) ∧ (m < e → jointError m c e < 0) := by
  have hs : 0 < Real.sqrt (1 / c) := Real.sqrt_pos.mpr (by positivity)
  unfold jointError
  refine ⟨?_, ?_, ?_, ?_⟩
  · rw [mul_pow, Real.sq_sqrt (by positivity)]
    ring
  · rw [mul_eq_zero, sub_eq_zero]
    constructor
    · rintro (h | h)
      · exact absurd h hs.ne'
      · exact h.symm
    · intro h; exact Or.inr h.symm
  · intro h
    exact mul_pos hs (by linarith)
  · intro h
    exact mul_neg_of_pos_of_neg hs (by linarith)

/-- Writing a pose as seven numbers and back: the result is a unit pose of the same rigid transform, and the
numbers of a unit pose come back up to the sign of the quaternion. -/
theorem C123_vector :
    (∀ T, Rigid T → IsUnit7 (transformVector T) ∧ transform (transformVector T) = T) ∧
    (∀ p, IsUnit7 p → transformVector (transform p) = p ∨
      transformVector (transform p) = ![p 0, p 1, p 2, -p 3, -p 4, -p 5, -p 6]) := by
  refine ⟨fun T h => transform_vector_spec h, fun p h => ?_⟩
  have hn : (⟨p 3, p 4, p 5, p 6⟩ : Quat ℝ).normSq = 1 := by
    unfold IsUnit7 at h; simp only [Quat.normSq]; linarith
  have er : rotOf (p 3) (p 4) (p 5) (p 6) = (⟨p 3, p 4, p 5, p 6⟩ : Quat ℝ).toRot := by
    rw [(C33_sandwich _).2 hn]; rfl
  have hR : IsRot (⟨p 3, p 4, p 5, p 6⟩ : Quat ℝ).toRot := ⟨toRot_mul_transpose _ hn, toRot_det _ hn⟩
  have pm := (rotToQuat_spec hR).pm (QuatOf.of_toRot _ hn)
  have ev : transformVector (transform p) = ![p 0, p 1, p 2, (rotToQuat (⟨p 3, p 4, p 5, p 6⟩ : Quat ℝ).toRot).w,
      (rotToQuat (⟨p 3, p 4, p 5, p 6⟩ : Quat ℝ).toRot).x, (rotToQuat (⟨p 3, p 4, p 5, p 6⟩ : Quat ℝ).toRot).y,
      (rotToQuat (⟨p 3, p 4, p 5, p 6⟩ : Quat ℝ).toRot).z] := by
    simp only [transformVector, transform, tfTrans_tf, tfQuatOf, tfRot_tf, er]
    rfl
  rw [ev]
  rcases pm with e | e
  · left
    rw [e]
    funext i; fin_cases i <;> rfl
  · right
    rw [e]

/-- `pose_perturb` of a unit pose moves each coordinate by at most `|dr|`, and where no random angle is below 1e-8
and not zero, the result is a unit pose that has been turned about the fixed x, y and z axes by at most `|drot|`
each. -/
theorem C123_perturb_partial (randMax : Nat) (hm : 0 < randMax) (r : Fin 6 → Nat) (hr : ∀ i, r i ≤ randMax)
    (pose : Fin 7 → ℝ) (h : IsUnit7 pose) (dr drot : ℝ) :
    ∃ d a : Vec3 ℝ, (∀ i, |d i| ≤ |dr|) ∧ (∀ i, |a i| ≤ |drot|) ∧
      (∀ i : Fin 3, posePerturb randMax r pose dr drot (i.castLE (by decide)) = pose (i.castLE (by decide)) + d i) ∧
      ((∀ i, a i = 0 ∨ 1 / 100000000 ≤ |a i|) → IsUnit7 (posePerturb randMax r pose dr drot) ∧
        ∀ x, place (posePerturb randMax r pose dr drot) x =
          rvec2rot ![0, 0, a 2] (1 / 100000000) *ᵥ (rvec2rot ![0, a 1, 0] (1 / 100000000) *ᵥ
            (rvec2rot ![a 0, 0, 0] (1 / 100000000) *ᵥ spin (pose 3) (pose 4) (pose 5) (pose 6) x)) +
          (fun i => pose (i.castLE (by decide)) + d i)) := by
  obtain ⟨d, a, hd, ha, e, hrot⟩ := Rand.C111_perturb_partial randMax hm r hr (transform pose) dr drot
  refine ⟨d, a, hd, ha, ?_, ?_⟩
  · intro i
    unfold posePerturb
    rw [e]
    simp only [transformVector, tfTrans_tf, transform]
    fin_cases i <;> rfl
  · intro h0
    have hp : IsRot (tfRot (transform pose)) := by
      unfold transform; rw [tfRot_tf]; exact rotOf_rot h
    have hR := hrot h0 hp
    rw [e, tfRot_tf] at hR
    have hrig : Rigid (Rand.tfPerturb randMax r (transform pose) dr drot) := ⟨_, _, hR.1, hR.2, e⟩
    obtain ⟨hu, ht⟩ := transform_vector_spec hrig
    refine ⟨hu, fun x => hom_inj ?_⟩
    have : transform (posePerturb randMax r pose dr drot) = Rand.tfPerturb randMax r (transform pose) dr drot := ht
    rw [← transform_hom, this, e, tf_hom, spin_eq]
    simp only [mulVec_mulVec]
    congr 2
    unfold transform
    rw [tfTrans_tf]
    apply vec3_ext <;> rfl

/-! ## Initial target pose -/

theorem median_const {v : List ℝ} (hv : v ≠ []) (a : ℝ) (h : ∀ x ∈ v, x = a) : Num.median v = .ok a := by
  obtain ⟨m, hm, h1, h2⟩ := Num.C29_median v hv
  rw [hm]
  congr 1
  rcases Nat.mod_two_eq_zero_or_one v.length with h0 | h0
  · obtain ⟨lo, hi, hl, hh, rfl⟩ := h2 h0
    rw [h lo hl.1, h hi hh.1]; ring
  · exact h m (h1 h0).1

theorem view_chain (e : Ext) (v : View) (t : Fin 7 → ℝ) :
    transform bodyPose * transform e.gimbal * jointTf v.joint0 * transform e.link0 * jointTf v.joint1 *
    transform e.link1 * jointTf v.joint2 * transform e.effector * transform e.cam0 = camPose (viewParams e v t) := rfl

theorem okb {α β : Type} (a : α) (f : α → Except Fault β) : (Except.ok a >>= f) = f a := rfl

theorem hom_ext {A B : Mat4 ℝ} (ha : Rigid A) (hb : Rigid B) (h : ∀ x, A *ᵥ hom x = B *ᵥ hom x) : A = B := by
  obtain ⟨C, r, -, -, rfl⟩ := ha
  obtain ⟨D, s, -, -, rfl⟩ := hb
  have h' : ∀ x, C *ᵥ x + r = D *ᵥ x + s := fun x => hom_inj (by rw [← tf_hom, ← tf_hom, h])
  have hrs : r = s := by simpa using h' 0
  subst hrs
  have hCD : C = D := by
    apply Matrix.ext
    intro i j
    have := congrFun (add_right_cancel (h' (Pi.single j 1))) i
    simpa using this
  rw [hCD]

theorem body_unit : IsUnit7 ![0, 0, 0, 1, 0, 0, 0] := by simp [IsUnit7]

theorem view_ok {e : Ext} (he : e.Ok) {t : Fin 7 → ℝ} (ht : IsUnit7 t) (v : View) : (viewParams e v t).Ok :=
  ⟨body_unit, he.gimbal, he.link0, he.link1, he.effector, he.cam0, ht⟩

theorem view_exact {e : Ext} (he : e.Ok) {t : Fin 7 → ℝ} (ht : IsUnit7 t) {v : View} (hx : v.Exact e t)
    {T : Mat4 ℝ} (h : viewTarget e v = some T) : T = transform t := by
  unfold viewTarget at h
  simp only at h
  split_ifs at h with hc
  cases hp : v.pnp with
  | none => rw [hp] at h; cases h
  | some S =>
    rw [hp] at h
    obtain rfl := Option.some.inj h
    obtain ⟨hS, hw⟩ := hx S hp
    rw [view_chain e v t]
    refine hom_ext ((cam_rigid (view_ok he ht v)).mul hS) (transform_rigid ht) (fun x => ?_)
    rw [transform_hom, ← hw x, ← cam_hom, ← mulVec_mulVec]
    congr 1
    obtain ⟨C, r, -, -, rfl⟩ := hS
    rw [tf_hom, (C32_point C r x 1).1]

/-- If the pose estimated from every view is exact and at least one view is used, the initial target pose is the
true one (away from the gimbal lock of its Euler angles). -/
theorem C123_initial (e : Ext) (he : e.Ok) (t : Fin 7 → ℝ) (ht : IsUnit7 t)
    (hg : |2 * (t 5 * t 3 - t 4 * t 6)| < 1) (views : List View) (hx : ∀ v ∈ views, v.Exact e t)
    (hu : ∃ v ∈ views, v.Used) :
    ∃ p, initTarget e views = .ok p ∧ IsUnit7 p ∧ ∀ x, place p x = place t x := by
  have hall : ∀ T ∈ views.filterMap (viewTarget e), T = transform t := by
    intro T hT
    obtain ⟨v, hv, hvT⟩ := List.mem_filterMap.mp hT
    exact view_exact he ht (hx v hv) hvT
  have hne : views.filterMap (viewTarget e) ≠ [] := by
    obtain ⟨v, hv, hc, hp⟩ := hu
    obtain ⟨S, hS⟩ := Option.ne_none_iff_exists'.mp hp
    intro h0
    have : viewTarget e v = none := by
      by_contra hh
      obtain ⟨T, hT⟩ := Option.ne_none_iff_exists'.mp hh
      have := List.mem_filterMap.mpr ⟨v, hv, hT⟩
      rw [h0] at this
      exact List.not_mem_nil this
    unfold viewTarget at this
    simp only [hS] at this
    rw [if_neg (by omega)] at this
    cases this
  unfold initTarget
  simp only
  generalize views.filterMap (viewTarget e) = Ts at hall hne
  have med : ∀ f : Mat4 ℝ → ℝ, Num.median (Ts.map f) = .ok (f (transform t)) := by
    intro f
    apply median_const (by simpa using hne)
    intro x hx
    obtain ⟨T, hT, rfl⟩ := List.mem_map.mp hx
    rw [hall T hT]
  simp only [List.map_map]
  have m1 : ∀ i : Fin 3, Num.median (List.map ((fun r : Vec3 ℝ => r i) ∘ tfTrans) Ts) = .ok (tfTrans (transform t) i) :=
    fun i => med (fun T => tfTrans T i)
  have m2 : ∀ i : Fin 3, Num.median (List.map ((fun a : Vec3 ℝ => a i) ∘ fun T => quat2euler (tfQuatOf T)) Ts) =
      .ok (quat2euler (tfQuatOf (transform t)) i) := fun i => med (fun T => quat2euler (tfQuatOf T) i)
  rw [m1, m1, m1, m2, m2, m2, okb, okb, okb, okb, okb, okb]
  set q := tfQuatOf (transform t) with hq
  have hqr : q = rotToQuat (rotOf (t 3) (t 4) (t 5) (t 6)) := by rw [hq, tfQuatOf, transform, tfRot_tf]
  obtain ⟨n1, n2⟩ := (rotToQuat_spec (rotOf_rot ht)).spec
  rw [← hqr] at n1 n2
  have hlock : |2 * (q.y * q.w - q.x * q.z)| < 1 := by
    have e1 : 2 * (q.y * q.w - q.x * q.z) = -(q.toRot 2 0) := by simp [Quat.toRot]; ring
    rw [e1, n2]
    have e2 : -(rotOf (t 3) (t 4) (t 5) (t 6) 2 0) = 2 * (t 5 * t 3 - t 4 * t 6) := by simp [rotOf]; ring
    rw [e2]; exact hg
  have heu := C34_euler_of_quat q n1 hlock
  simp only at heu
  rw [heu, n2]
  obtain ⟨k1, k2⟩ := (rotToQuat_spec (rotOf_rot ht)).spec
  have hT : tfQuat (rotToQuat (rotOf (t 3) (t 4) (t 5) (t 6))) ![tfTrans (transform t) 0, tfTrans (transform t) 1,
      tfTrans (transform t) 2] = transform t := by
    unfold tfQuat
    rw [k2]
    unfold transform
    congr 1
  rw [hT]
  obtain ⟨a, b⟩ := transform_vector_spec (transform_rigid ht)
  refine ⟨_, rfl, a, fun x => hom_inj ?_⟩
  rw [← transform_hom, b, transform_hom]

/-- Without a usable view the program reads outside an empty vector. -/
theorem C123_none (e : Ext) (views : List View) (h : ∀ v ∈ views, ¬ v.Used) : initTarget e views = .error .oob := by
  have : views.filterMap (viewTarget e) = [] := by
    rw [List.filterMap_eq_nil_iff]
    intro v hv
    unfold viewTarget
    simp only
    split_ifs with hc
    · rfl
    · cases hp : v.pnp with
      | none => rfl
      | some S => exact absurd ⟨by omega, by rw [hp]; simp⟩ (h v hv)
  unfold initTarget
  rw [this]
  rfl

end Yac.Gimbal
