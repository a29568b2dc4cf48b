import Verif.Stream.InterpModel
import Verif.Geom.RotProps
import Verif.Geom.PoseProps

/-!
# C25: interpolation between poses
-/

namespace Yac.Stream
open Matrix Yac.Geom

theorem quat_ext {p q : Quat ℝ} (hw : p.w = q.w) (hx : p.x = q.x) (hy : p.y = q.y) (hz : p.z = q.z) :
    p = q := by cases p; cases q; simp_all

theorem negc_rot (q : Quat ℝ) : (Quat.negc q).toRot = q.toRot := by
  apply mat3_eq <;> simp [Quat.toRot, Quat.negc]

theorem comb_normSq (s t : ℝ) (p q : Quat ℝ) (hp : p.normSq = 1) (hq : q.normSq = 1) :
    (Quat.comb s p t q).normSq = s ^ 2 + 2 * s * t * Quat.dot p q + t ^ 2 := by
  unfold Quat.normSq at *
  simp only [Quat.comb, Quat.dot]
  linear_combination s ^ 2 * hp + t ^ 2 * hq

theorem dot_self (p : Quat ℝ) (hp : p.normSq = 1) : Quat.dot p p = 1 := by
  unfold Quat.normSq at hp; unfold Quat.dot; linear_combination hp

theorem dot_le_one (p q : Quat ℝ) (hp : p.normSq = 1) (hq : q.normSq = 1) : |Quat.dot p q| ≤ 1 := by
  have h1 := comb_normSq 1 1 p q hp hq
  have h2 := comb_normSq 1 (-1) p q hp hq
  have p1 : 0 ≤ (Quat.comb 1 p 1 q).normSq := by unfold Quat.normSq; nlinarith
  have p2 : 0 ≤ (Quat.comb 1 p (-1) q).normSq := by unfold Quat.normSq; nlinarith
  rw [abs_le]; constructor <;> linarith

/-! ## The function `slerp` -/

/-- The quaternion on the same half sphere as `p`. -/
noncomputable def nearer (p q : Quat ℝ) : Quat ℝ := if Quat.dot p q < 0 then Quat.negc q else q

theorem nearer_spec (p q : Quat ℝ) (hq : q.normSq = 1) :
    (nearer p q).normSq = 1 ∧ Quat.dot p (nearer p q) = |Quat.dot p q| ∧ (nearer p q).toRot = q.toRot := by
  unfold nearer
  split_ifs with h
  · refine ⟨?_, ?_, negc_rot q⟩
    · unfold Quat.normSq at *; simp only [Quat.negc]; linarith
    · rw [abs_of_neg h]; simp only [Quat.dot, Quat.negc]; ring
  · exact ⟨hq, (abs_of_nonneg (not_lt.mp h)).symm, rfl⟩

theorem sin_arccos_pos {d : ℝ} (h0 : 0 ≤ d) (h1 : d < 1) : 0 < Real.sin (Real.arccos d) := by
  rw [Real.sin_arccos]
  exact Real.sqrt_pos.mpr (by nlinarith)

theorem slerp_eq (p q : Quat ℝ) (hp : p.normSq = 1) (hq : q.normSq = 1) (a : ℝ) :
    slerp p q a = if |Quat.dot p q| > 9995 / 10000 then
        Quat.normalize (Quat.comb (1 - a) p a (nearer p q))
      else Quat.comb (Real.cos (Real.arccos |Quat.dot p q| * a) - |Quat.dot p q| *
          Real.sin (Real.arccos |Quat.dot p q| * a) / Real.sin (Real.arccos |Quat.dot p q|)) p
        (Real.sin (Real.arccos |Quat.dot p q| * a) / Real.sin (Real.arccos |Quat.dot p q|))
        (nearer p q) := by
  have habs : (if Quat.dot p q < 0 then -Quat.dot p q else Quat.dot p q) = |Quat.dot p q| := by
    split_ifs with h
    · rw [abs_of_neg h]
    · rw [abs_of_nonneg (not_lt.mp h)]
  unfold slerp
  simp only [normalize_unit p hp, normalize_unit q hq, habs]
  have hc : Quat.comb 1 p a (Quat.comb 1 (if Quat.dot p q < 0 then Quat.negc q else q) (-1) p) =
      Quat.comb (1 - a) p a (nearer p q) := by
    show Quat.comb 1 p a (Quat.comb 1 (nearer p q) (-1) p) = _
    apply quat_ext <;> simp only [Quat.comb] <;> ring
  rw [hc]
  rfl

theorem comb_pos (p q : Quat ℝ) (hp : p.normSq = 1) (hq : q.normSq = 1) (a : ℝ)
    (hd : |Quat.dot p q| > 9995 / 10000) : 0 < (Quat.comb (1 - a) p a (nearer p q)).normSq := by
  obtain ⟨n1, n2, -⟩ := nearer_spec p q hq
  rw [comb_normSq _ _ _ _ hp n1, n2]
  have h1 := dot_le_one p q hp hq
  nlinarith [sq_nonneg (2 * a - 1)]

/-- **C25 (`slerp`).**  For unit quaternions: at 0 it returns the first, at 1 the second (up to
the sign that does not change the rotation), for every parameter the result is a unit
quaternion. -/
theorem C25_slerp (p q : Quat ℝ) (hp : p.normSq = 1) (hq : q.normSq = 1) :
    slerp p q 0 = p ∧ (slerp p q 1 = q ∨ slerp p q 1 = Quat.negc q) ∧
    (slerp p q 1).toRot = q.toRot ∧ ∀ a, (slerp p q a).normSq = 1 := by
  obtain ⟨n1, n2, n3⟩ := nearer_spec p q hq
  have hle := dot_le_one p q hp hq
  have hd0 := abs_nonneg (Quat.dot p q)
  have hone : slerp p q 1 = nearer p q := by
    rw [slerp_eq p q hp hq]
    split_ifs with hd
    · have : Quat.comb (1 - 1) p 1 (nearer p q) = nearer p q := by
        apply quat_ext <;> simp only [Quat.comb] <;> ring
      rw [this, normalize_unit _ n1]
    · have hs := sin_arccos_pos hd0 (by linarith : |Quat.dot p q| < 1)
      rw [mul_one, Real.cos_arccos (by linarith) hle]
      apply quat_ext <;> simp only [Quat.comb] <;> field_simp <;> ring
  refine ⟨?_, ?_, by rw [hone, n3], fun a => ?_⟩
  · rw [slerp_eq p q hp hq]
    split_ifs with hd
    · have : Quat.comb (1 - 0) p 0 (nearer p q) = p := by
        apply quat_ext <;> simp only [Quat.comb] <;> ring
      rw [this, normalize_unit _ hp]
    · apply quat_ext <;> simp [Quat.comb]
  · rw [hone]; unfold nearer; split_ifs
    · right; rfl
    · left; rfl
  · rw [slerp_eq p q hp hq]
    split_ifs with hd
    · have hpos := comb_pos p q hp hq a hd
      unfold Quat.normalize
      rw [if_pos hpos]
      set c := Quat.comb (1 - a) p a (nearer p q) with hc
      have hsq : Real.sqrt c.normSq * Real.sqrt c.normSq = c.normSq := Real.mul_self_sqrt hpos.le
      have hs0 : Real.sqrt c.normSq ≠ 0 := (Real.sqrt_pos.mpr hpos).ne'
      have e : ∀ n : ℝ, n ≠ 0 → Quat.normSq (⟨c.w / n, c.x / n, c.y / n, c.z / n⟩ : Quat ℝ) =
          c.normSq / (n * n) := by
        intro n hn
        simp only [Quat.normSq]; field_simp
      refine (e _ hs0).trans ?_
      rw [hsq, div_self hpos.ne']
    · have hs := sin_arccos_pos hd0 (by linarith : |Quat.dot p q| < 1)
      rw [comb_normSq _ _ _ _ hp n1, n2]
      have hsq := Real.sin_sq_add_cos_sq (Real.arccos |Quat.dot p q|)
      rw [Real.cos_arccos (by linarith) hle] at hsq
      have h2 := Real.sin_sq_add_cos_sq (Real.arccos |Quat.dot p q| * a)
      set S := Real.sin (Real.arccos |Quat.dot p q|)
      set s := Real.sin (Real.arccos |Quat.dot p q| * a)
      set c := Real.cos (Real.arccos |Quat.dot p q| * a)
      set d := |Quat.dot p q|
      field_simp
      linear_combination (S ^ 2) * h2 - s ^ 2 * hsq

/-- **C25 (`slerp`).**  Away from the nearly parallel case the interpolated rotation lies at the
fraction `a` of the angle between the two quaternions. -/
theorem C25_slerp_angle (p q : Quat ℝ) (hp : p.normSq = 1) (hq : q.normSq = 1)
    (hd : |Quat.dot p q| ≤ 9995 / 10000) (a : ℝ) :
    Quat.dot p (slerp p q a) = Real.cos (a * Real.arccos |Quat.dot p q|) := by
  obtain ⟨n1, n2, n3⟩ := nearer_spec p q hq
  have hs := sin_arccos_pos (abs_nonneg (Quat.dot p q)) (by linarith : |Quat.dot p q| < 1)
  rw [slerp_eq p q hp hq, if_neg (by linarith)]
  have lin : ∀ s t r, Quat.dot p (Quat.comb s p t r) = s + t * Quat.dot p r := by
    intro s t r
    have h := hp
    unfold Quat.normSq at h
    simp only [Quat.dot, Quat.comb]
    linear_combination s * h
  rw [lin, n2, mul_comm a]
  field_simp
  ring

/-- Witness: two quaternions a quarter turn apart. -/
example : ∃ p q : Quat ℝ, p.normSq = 1 ∧ q.normSq = 1 ∧ |Quat.dot p q| ≤ 9995 / 10000 :=
  ⟨⟨1, 0, 0, 0⟩, ⟨0, 1, 0, 0⟩, by norm_num [Quat.normSq], by norm_num [Quat.normSq],
    by norm_num [Quat.dot]⟩

/-! ## `interp_pose` -/

theorem slerpOne_lt : slerpOne < 1 := by unfold slerpOne; norm_num

theorem eigen_ends (a b : Quat ℝ) :
    eigenSlerp a b 0 = a ∧ (eigenSlerp a b 1).toRot = b.toRot := by
  have hs : ¬ |Quat.dot a b| ≥ slerpOne → Real.sin (Real.arccos |Quat.dot a b|) ≠ 0 := fun h =>
    (sin_arccos_pos (abs_nonneg _) (by have := slerpOne_lt; linarith [not_le.mp h])).ne'
  constructor
  · unfold eigenSlerp
    by_cases h : |Quat.dot a b| ≥ slerpOne
    · simp only [if_pos h]
      apply quat_ext <;> simp [Quat.comb]
    · simp only [if_neg h]
      have := hs h
      apply quat_ext <;> simp [Quat.comb, this]
  · have e : eigenSlerp a b 1 = if Quat.dot a b < 0 then Quat.negc b else b := by
      unfold eigenSlerp
      by_cases h : |Quat.dot a b| ≥ slerpOne
      · simp only [if_pos h]
        split_ifs <;> apply quat_ext <;> simp [Quat.comb, Quat.negc]
      · simp only [if_neg h]
        have := hs h
        split_ifs <;> apply quat_ext <;> simp [Quat.comb, Quat.negc, this]
    rw [e]
    split_ifs
    · exact negc_rot b
    · rfl

theorem eigen_unit (a b : Quat ℝ) (ha : a.normSq = 1) (hb : b.normSq = 1) (t : ℝ)
    (h : |Quat.dot a b| < slerpOne) : (eigenSlerp a b t).normSq = 1 := by
  have hlt : |Quat.dot a b| < 1 := lt_trans h slerpOne_lt
  have hs := sin_arccos_pos (abs_nonneg _) hlt
  unfold eigenSlerp
  simp only [if_neg (not_le.mpr h)]
  rw [comb_normSq _ _ _ _ ha hb]
  have hcos : Real.cos (Real.arccos |Quat.dot a b|) = |Quat.dot a b| :=
    Real.cos_arccos (by have := abs_nonneg (Quat.dot a b); linarith) hlt.le
  set th := Real.arccos |Quat.dot a b| with hth
  have e1 : Real.sin ((1 - t) * th) = Real.sin th * Real.cos (t * th) - Real.cos th * Real.sin (t * th) := by
    rw [← Real.sin_sub]; congr 1; ring
  have h1 := Real.sin_sq_add_cos_sq th
  have h2 := Real.sin_sq_add_cos_sq (t * th)
  have hsgn : (if Quat.dot a b < 0 then -(Real.sin (t * th) / Real.sin th)
      else Real.sin (t * th) / Real.sin th) * Quat.dot a b =
      Real.sin (t * th) / Real.sin th * Real.cos th ∧
      (if Quat.dot a b < 0 then -(Real.sin (t * th) / Real.sin th)
      else Real.sin (t * th) / Real.sin th) ^ 2 = (Real.sin (t * th) / Real.sin th) ^ 2 := by
    rw [hcos]
    split_ifs with hd
    · rw [abs_of_neg hd]; constructor <;> ring
    · rw [abs_of_nonneg (not_lt.mp hd)]; exact ⟨rfl, rfl⟩
  rw [mul_assoc, hsgn.1, hsgn.2, e1]
  field_simp
  linear_combination Real.sin th ^ 2 * h2 - Real.sin (t * th) ^ 2 * h1

/-- **C25 (translation).**  The interpolated translation is the affine combination of the two
translations; in particular it passes through both ends. -/
theorem C25_translation (C0 C1 : Mat3 ℝ) (r0 r1 : Vec3 ℝ) (a : ℝ) :
    tfTrans (interpPose (tf C0 r0) (tf C1 r1) a) = (1 - a) • r0 + a • r1 ∧
    tfTrans (interpPose (tf C0 r0) (tf C1 r1) 0) = r0 ∧
    tfTrans (interpPose (tf C0 r0) (tf C1 r1) 1) = r1 := by
  have e : ∀ a, tfTrans (interpPose (tf C0 r0) (tf C1 r1) a) = (1 - a) • r0 + a • r1 := by
    intro a
    simp only [interpPose, tfQuat, tfTrans_tf]
    ext i; simp [lerp3]; ring
  exact ⟨e a, by rw [e]; simp, by rw [e]; simp⟩

/-- **C25 (partial).**  If the two poses have the same rotation, the interpolated pose keeps it,
and the interpolation passes through both poses. -/
theorem C25_interp_partial (C : Mat3 ℝ) (hC : IsRot C) (r0 r1 : Vec3 ℝ) (a : ℝ) :
    interpPose (tf C r0) (tf C r1) a = tf C ((1 - a) • r0 + a • r1) ∧
    interpPose (tf C r0) (tf C r1) 0 = tf C r0 ∧ interpPose (tf C r0) (tf C r1) 1 = tf C r1 := by
  obtain ⟨hn, hr⟩ := (rotToQuat_spec hC).spec
  have e : ∀ a, interpPose (tf C r0) (tf C r1) a = tf C ((1 - a) • r0 + a • r1) := by
    intro a
    simp only [interpPose, tfTrans_tf, tfRot_tf, tfQuat]
    have hs : eigenSlerp (rotToQuat C) (rotToQuat C) a = rotToQuat C := by
      unfold eigenSlerp
      have hd := dot_self _ hn
      have h1 : |Quat.dot (rotToQuat C) (rotToQuat C)| ≥ slerpOne := by
        rw [hd, abs_one]; exact slerpOne_lt.le
      have h2 : ¬ Quat.dot (rotToQuat C) (rotToQuat C) < 0 := by rw [hd]; norm_num
      simp only [if_pos h1, if_neg h2]
      apply quat_ext <;> simp only [Quat.comb] <;> ring
    rw [hs, hr]
    congr 1
    ext i; simp [lerp3]; ring
  exact ⟨e a, by rw [e]; simp, by rw [e]; simp⟩

/-- **C25 refuted.**  The rotation is interpolated backwards: at 0 the result has the rotation of
the *second* pose and at 1 that of the *first*, so whenever the two rotations differ neither end
point is reached. -/
theorem C25_rotation_refuted (C0 C1 : Mat3 ℝ) (h0 : IsRot C0) (h1 : IsRot C1) (r0 r1 : Vec3 ℝ) :
    interpPose (tf C0 r0) (tf C1 r1) 0 = tf C1 r0 ∧
    interpPose (tf C0 r0) (tf C1 r1) 1 = tf C0 r1 ∧
    (C0 ≠ C1 → interpPose (tf C0 r0) (tf C1 r1) 0 ≠ tf C0 r0 ∧
      interpPose (tf C0 r0) (tf C1 r1) 1 ≠ tf C1 r1) := by
  have e0 : interpPose (tf C0 r0) (tf C1 r1) 0 = tf C1 r0 := by
    simp only [interpPose, tfTrans_tf, tfRot_tf, tfQuat]
    rw [(eigen_ends _ _).1, ((rotToQuat_spec h1).spec).2]
    congr 1; ext i; simp [lerp3]
  have e1 : interpPose (tf C0 r0) (tf C1 r1) 1 = tf C0 r1 := by
    simp only [interpPose, tfTrans_tf, tfRot_tf, tfQuat]
    rw [(eigen_ends _ _).2, ((rotToQuat_spec h0).spec).2]
    congr 1; ext i; simp [lerp3]
  refine ⟨e0, e1, fun hne => ⟨?_, ?_⟩⟩
  · rw [e0]; intro h
    have := congrArg tfRot h
    rw [tfRot_tf, tfRot_tf] at this
    exact hne this.symm
  · rw [e1]; intro h
    have := congrArg tfRot h
    rw [tfRot_tf, tfRot_tf] at this
    exact hne this

/-- **C25.**  Unless the two rotations agree to within 1 - 2^-52, the interpolated pose is a
rigid transform for every parameter. -/
theorem C25_rigid (C0 C1 : Mat3 ℝ) (h0 : IsRot C0) (h1 : IsRot C1) (r0 r1 : Vec3 ℝ) (a : ℝ)
    (hd : |Quat.dot (rotToQuat C1) (rotToQuat C0)| < 1 - 1 / 2 ^ 52) :
    IsRot (tfRot (interpPose (tf C0 r0) (tf C1 r1) a)) := by
  simp only [interpPose, tfRot_tf, tfQuat]
  have hu := eigen_unit _ _ ((rotToQuat_spec h1).spec).1 ((rotToQuat_spec h0).spec).1 a hd
  exact ⟨toRot_mul_transpose _ hu, toRot_det _ hu⟩

/-- **C25 (`lerp_pose`).**  It is `interp_pose` at the fraction of the time interval that has
passed; equal times divide by zero. -/
theorem C25_lerp_pose (t0 t1 t : ℤ) (p0 p1 : Mat4 ℝ) :
    lerpPose t0 p0 t1 p1 t = if t0 = t1 then none
      else some (interpPose p0 p1 (((t : ℝ) - t0) / ((t1 : ℝ) - t0))) := by
  unfold lerpPose
  by_cases h : t0 = t1
  · subst h; simp
  · have h' : ((t1 : ℝ) - t0) ≠ 0 := by
      intro e
      apply h
      have : (t1 : ℝ) = t0 := by linarith
      exact_mod_cast this.symm
    have hden : ((t1 - t0 : ℤ) : ℝ) * (1 / 10 ^ 9) ≠ 0 := by push_cast; positivity
    rw [if_neg h]
    simp only [if_neg hden]
    have : ((t - t0 : ℤ) : ℝ) * (1 / 10 ^ 9) / (((t1 - t0 : ℤ) : ℝ) * (1 / 10 ^ 9)) =
        ((t : ℝ) - t0) / ((t1 : ℝ) - t0) := by push_cast; field_simp
    rw [this]
    rfl

/-- Two different rotations for `C25_rotation_refuted` and `C25_rigid`. -/
example : IsRot (rotx 1) ∧ IsRot (1 : Mat3 ℝ) ∧ rotx 1 ≠ 1 := by
  refine ⟨rotx_rot 1, ⟨by simp, by simp⟩, fun h => ?_⟩
  have := congrFun (congrFun h 1) 2
  simp [rotx] at this
  have h1 : 0 < Real.sin 1 := Real.sin_pos_of_pos_of_lt_pi one_pos (by linarith [Real.pi_gt_three])
  linarith

end Yac.Stream
