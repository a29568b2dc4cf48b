import Verif.Cam.Spec
import Verif.Cam.Deriv
import Mathlib.Analysis.Real.Pi.Bounds

/-!
# C37-C40: projection, its Jacobians, back-projection, robust losses
-/

namespace Yac.Cam
open Matrix Yac.Geom Yac.Cam.Spec

/-! ## C38: what project returns -/

theorem radtan4_spec (d : Vec4) (x : Vec2) : radtan4Distort d x =
    ![radtanX (d 0) (d 1) (d 2) (d 3) (x 0) (x 1), radtanY (d 0) (d 1) (d 2) (d 3) (x 0) (x 1)] := by
  unfold radtan4Distort radtanY radtanX
  ext i; fin_cases i <;> simp <;> ring

theorem thetaD_spec (d : Vec4) (th : ℝ) : thetaD d th = kannala (d 0) (d 1) (d 2) (d 3) th := by
  unfold thetaD kannala; ring

theorem equi4_spec (d : Vec4) (x : Vec2)
    (hr : 1 / 10 ^ 8 ≤ Real.sqrt (x 0 ^ 2 + x 1 ^ 2)) : equi4Distort d x =
    fun i => equiScale (d 0) (d 1) (d 2) (d 3) (Real.sqrt (x 0 ^ 2 + x 1 ^ 2)) * x i := by
  have e : norm2 x = Real.sqrt (x 0 ^ 2 + x 1 ^ 2) := by unfold norm2; congr 1; ring
  unfold equi4Distort
  simp only [e, if_neg (not_lt.mpr hr), thetaD_spec]
  ext i; fin_cases i <;> rfl

theorem code_iff (P : Prop) [Decidable P] (c : ℤ) (hc : c ≠ 0) :
    (if P then (0 : ℤ) else c) = 0 ↔ P := by
  split_ifs with h
  · simp [h]
  · simp [h, hc]

theorem code_ne (P : Prop) [Decidable P] (c : ℤ) (h : (if P then (0 : ℤ) else c) ≠ 0) :
    (if P then (0 : ℤ) else c) = c := by
  split_ifs with h'
  · simp [h'] at h
  · rfl

/-- C38 (radtan): for a point off the plane `z = 0` the image point written is the pinhole image
of the distorted normalised point, and the call succeeds exactly for points in front of the
camera whose image is inside the frame. -/
theorem C38_radtan (res : Fin 2 → ℤ) (k : Params) (p : Vec3 ℝ) :
    (p 2 ≠ 0 → ∃ z, (radtanProject res k p).zhat = some z ∧
      z 0 = k 0 * radtanX (k 4) (k 5) (k 6) (k 7) (p 0 / p 2) (p 1 / p 2) + k 2 ∧
      z 1 = k 1 * radtanY (k 4) (k 5) (k 6) (k 7) (p 0 / p 2) (p 1 / p 2) + k 3) ∧
    ((radtanProject res k p).code = 0 ↔ 0 < p 2 ∧
      Inside (res 0) (res 1)
        (k 0 * radtanX (k 4) (k 5) (k 6) (k 7) (p 0 / p 2) (p 1 / p 2) + k 2)
        (k 1 * radtanY (k 4) (k 5) (k 6) (k 7) (p 0 / p 2) (p 1 / p 2) + k 3)) ∧
    ((radtanProject res k p).code ≠ 0 → (radtanProject res k p).code = -1) := by
  by_cases hz : p 2 = 0
  · have : radtanProject res k p = ⟨-1, none⟩ := by simp [radtanProject, projectPoint, hz]
    rw [this]
    refine ⟨fun h => absurd hz h, ?_, fun _ => rfl⟩
    simp [hz]
  · simp only [radtanProject, projectPoint, if_neg hz, radtan4_spec, pixel, proj, dist, Inside]
    refine ⟨fun _ => ⟨_, rfl, rfl, rfl⟩, ?_, ?_⟩
    · split_ifs with h
      · simp only [true_iff]
        exact ⟨h.2.2, h.1.1, h.1.2, h.2.1.1, h.2.1.2⟩
      · constructor
        · intro h'; exact absurd h' (by norm_num)
        · rintro ⟨a, b, c, d, e⟩
          exact absurd ⟨⟨b, c⟩, ⟨d, e⟩, a⟩ h
    · split_ifs <;> simp

/-- C38 (pinhole without distortion): the same with the closed rectangle. -/
theorem C38_pinhole_partial (res : Fin 2 → ℤ) (f : Vec4) (p : Vec3 ℝ) :
    (p 2 ≠ 0 → (pinholeProject res f p).zhat =
      some ![f 0 * (p 0 / p 2) + f 2, f 1 * (p 1 / p 2) + f 3]) ∧
    ((pinholeProject res f p).code = 0 ↔ 0 < p 2 ∧
      InsideClosed (res 0) (res 1) (f 0 * (p 0 / p 2) + f 2) (f 1 * (p 1 / p 2) + f 3)) ∧
    ((pinholeProject res f p).code ≠ 0 → (pinholeProject res f p).code = -1) := by
  by_cases hz : p 2 = 0
  · have : pinholeProject res f p = ⟨-1, none⟩ := by simp [pinholeProject, projectPoint, hz]
    rw [this]
    refine ⟨fun h => absurd hz h, ?_, fun _ => rfl⟩
    simp [hz]
  · simp only [pinholeProject, projectPoint, if_neg hz, InsideClosed]
    refine ⟨fun _ => rfl, ?_, ?_⟩
    · refine (code_iff _ (-1) (by norm_num)).trans ?_
      exact ⟨fun h => ⟨h.2.2, h.1.1, h.1.2, h.2.1.1, h.2.1.2⟩,
        fun ⟨a, b, c, d, e⟩ => ⟨⟨b, c⟩, ⟨d, e⟩, a⟩⟩
    · exact code_ne _ _

/-- C38 (equidistant): for normalised points at least 1e-8 away from the axis. The error codes
distinguish points behind the camera (-1, nothing is written) from points in the plane of the
camera or outside the (closed) frame (-2). -/
theorem C38_equi_partial (res : Fin 2 → ℤ) (k : Params) (p : Vec3 ℝ) :
    (p 2 < 0 → equiProject res k p = ⟨-1, none⟩) ∧
    (p 2 = 0 → equiProject res k p = ⟨-2, none⟩) ∧
    (0 < p 2 →
      ∀ r, r = Real.sqrt ((p 0 / p 2) ^ 2 + (p 1 / p 2) ^ 2) → 1 / 10 ^ 8 ≤ r →
      ∀ s, s = equiScale (k 4) (k 5) (k 6) (k 7) r →
      (equiProject res k p).zhat = some ![k 0 * (s * (p 0 / p 2)) + k 2, k 1 * (s * (p 1 / p 2)) + k 3] ∧
      ((equiProject res k p).code = 0 ↔ InsideClosed (res 0) (res 1)
        (k 0 * (s * (p 0 / p 2)) + k 2) (k 1 * (s * (p 1 / p 2)) + k 3)) ∧
      ((equiProject res k p).code ≠ 0 → (equiProject res k p).code = -2)) := by
  refine ⟨fun h => if_pos h, fun h => ?_, ?_⟩
  · simp [equiProject, h, projectPoint]
  · rintro hz r rfl hr s rfl
    have hz' : ¬ p 2 < 0 := not_lt.mpr hz.le
    have e := equi4_spec (dist k) ![p 0 / p 2, p 1 / p 2] (by simpa using hr)
    simp only [equiProject, if_neg hz', projectPoint, if_neg hz.ne']
    rw [e]
    simp only [InsideClosed]
    refine ⟨rfl, ?_, ?_⟩
    · refine (code_iff _ (-2) (by norm_num)).trans ?_
      exact ⟨fun h => ⟨h.1.1, h.1.2, h.2.1, h.2.2⟩,
        fun ⟨b, c, d, e⟩ => ⟨⟨b, c⟩, ⟨d, e⟩⟩⟩
    · exact code_ne _ _

/-- C38: on the optical axis the equidistant camera projects to the principal point. -/
theorem C38_equi_axis (res : Fin 2 → ℤ) (k : Params) (z : ℝ) (hz : 0 < z) :
    (equiProject res k ![0, 0, z]).zhat = some ![k 2, k 3] := by
  simp only [equiProject, if_neg (show ¬ (![0, 0, z] : Vec3 ℝ) 2 < 0 from not_lt.mpr hz.le),
      projectPoint, if_neg (show ¬ (![0, 0, z] : Vec3 ℝ) 2 = 0 from hz.ne')]
  simp [equi4Distort, norm2, pixel, proj]

/-- C38 refuted at the border: the radtan camera rejects an image point on the right border,
the equidistant and the plain pinhole camera accept it. With a 640 x 480 image, `u = 640` is
not a pixel of the image. -/
theorem C38_border_refuted :
    let res : Fin 2 → ℤ := ![640, 480]
    (pinholeProject res ![320, 320, 320, 240] ![1, 0, 1]).code = 0 ∧
    (pinholeProject res ![320, 320, 320, 240] ![1, 0, 1]).zhat = some ![640, 240] ∧
    (radtanProject res ![320, 320, 320, 240, 0, 0, 0, 0] ![1, 0, 1]).code = -1 ∧
    (∃ k, (equiProject res k ![1, 0, 1]).code = 0 ∧
      ∃ z, (equiProject res k ![1, 0, 1]).zhat = some z ∧ z 0 = 640) := by
  intro res
  refine ⟨?_, ?_, ?_, ?_⟩
  · refine (C38_pinhole_partial res _ _).2.1.mpr ?_
    simp [InsideClosed, res]; norm_num
  · rw [(C38_pinhole_partial res _ _).1 (by simp)]
    congr 1; ext i; fin_cases i <;> simp; norm_num
  · refine (C38_radtan res _ _).2.2 ?_
    rw [Ne, (C38_radtan res _ _).2.1]
    simp [Inside, res, radtanX]; norm_num
  · have h2 : (1 : ℝ) ≤ Real.sqrt 1 := by simp
    set s := equiScale 0 0 0 0 1 with hs
    have hs' : s = Real.pi / 4 := by simp [hs, equiScale, kannala]
    have hs0 : s ≠ 0 := by rw [hs']; positivity
    have key := (C38_equi_partial res ![320 / s, 320, 320, 240, 0, 0, 0, 0] ![1, 0, 1]).2.2
      (by simp) 1 (by simp) (by norm_num) s (by simp [hs])
    refine ⟨![320 / s, 320, 320, 240, 0, 0, 0, 0], key.2.1.mpr ?_, _, key.1, ?_⟩
    · simp [InsideClosed, res, hs0]; norm_num
    · simp [hs0]; norm_num

/-! ## C37: the projection Jacobians -/

/-- C37 (radtan): along every differentiable motion of point and parameters, at a point off the
plane `z = 0`, the image point moves with the velocity the two reported Jacobians predict. -/
theorem C37_radtan (res : Fin 2 → ℤ) (k : ℝ → Params) (k' : Params) (p : ℝ → Vec3 ℝ)
    (p' : Vec3 ℝ) (t0 : ℝ) (hk : ∀ i, HasDerivAt (fun t => k t i) (k' i) t0)
    (hp : ∀ i, HasDerivAt (fun t => p t i) (p' i) t0) (hz : p t0 2 ≠ 0) :
    ∃ Jp Jk, radtanProjectJac (k t0) (p t0) = some Jp ∧ radtanParamsJac (k t0) (p t0) = some Jk ∧
      ∃ z : ℝ → Vec2, (∀ᶠ t in nhds t0, (radtanProject res (k t) (p t)).zhat = some (z t)) ∧
        ∀ j, HasDerivAt (fun t => z t j) ((Jp *ᵥ p' + Jk *ᵥ k') j) t0 := by
  obtain ⟨J, hJ, hev, h0, h1⟩ := projectPoint_deriv p p' t0 hp hz
  have hpp : projectPoint (p t0) = some ![p t0 0 / p t0 2, p t0 1 / p t0 2] := if_neg hz
  set x : ℝ → Vec2 := fun t => ![p t 0 / p t 2, p t 1 / p t 2] with hx
  have hX : ∀ i, HasDerivAt (fun t => x t i) ((J *ᵥ p') i) t0 := by
    intro i; fin_cases i
    · exact h0
    · exact h1
  have hd : ∀ i, HasDerivAt (fun t => dist (k t) i) (dist k' i) t0 := by
    intro i; fin_cases i
    exacts [hk 4, hk 5, hk 6, hk 7]
  have hf : ∀ i, HasDerivAt (fun t => proj (k t) i) (proj k' i) t0 := by
    intro i; fin_cases i
    exacts [hk 0, hk 1, hk 2, hk 3]
  have hD := radtan4_deriv _ _ x _ t0 hd hX
  have hP := pixel_deriv _ _ _ _ t0 hf hD
  refine ⟨pinholePointJac (proj (k t0)) * radtan4PointJac (dist (k t0)) (x t0) * J, _,
    by simp only [radtanProjectJac, hpp, hJ]; rfl,
    by simp only [radtanParamsJac, hpp]; rfl,
    fun t => pixel (proj (k t)) (radtan4Distort (dist (k t)) (x t)), ?_, fun j => ?_⟩
  · filter_upwards [hev] with t ht
    simp only [radtanProject, ht]
    rfl
  · refine (hP j).congr_deriv ?_
    rw [mulVec_add, mulVec_mulVec, mulVec_mulVec, mulVec_mulVec, add_assoc]
    simp only [Pi.add_apply]
    congr 1
    fin_cases j <;>
      simp [mulVec, dotProduct, Fin.sum_univ_succ, dist, proj, pinholeParamsJac] <;> ring

/-- C37 (equidistant), for points in front of the camera whose normalised image point is more
than 1e-8 away from the optical axis. Missing: the neighbourhood of the axis, where the claim is
false (`C37_equi_axis_refuted`). -/
theorem C37_equi_partial (res : Fin 2 → ℤ) (k : ℝ → Params) (k' : Params) (p : ℝ → Vec3 ℝ)
    (p' : Vec3 ℝ) (t0 : ℝ) (hk : ∀ i, HasDerivAt (fun t => k t i) (k' i) t0)
    (hp : ∀ i, HasDerivAt (fun t => p t i) (p' i) t0) (hz : 0 < p t0 2)
    (hr : 1 / 10 ^ 8 < Real.sqrt ((p t0 0 / p t0 2) ^ 2 + (p t0 1 / p t0 2) ^ 2)) :
    ∃ Jp Jk, equiProjectJac (k t0) (p t0) = some Jp ∧ equiParamsJac (k t0) (p t0) = some Jk ∧
      ∃ z : ℝ → Vec2, (∀ᶠ t in nhds t0, (equiProject res (k t) (p t)).zhat = some (z t)) ∧
        ∀ j, HasDerivAt (fun t => z t j) ((Jp *ᵥ p' + Jk *ᵥ k') j) t0 := by
  obtain ⟨J, hJ, hev, h0, h1⟩ := projectPoint_deriv p p' t0 hp hz.ne'
  have hpp : projectPoint (p t0) = some ![p t0 0 / p t0 2, p t0 1 / p t0 2] := if_neg hz.ne'
  set x : ℝ → Vec2 := fun t => ![p t 0 / p t 2, p t 1 / p t 2] with hx
  have hX : ∀ i, HasDerivAt (fun t => x t i) ((J *ᵥ p') i) t0 := by
    intro i; fin_cases i
    · exact h0
    · exact h1
  have hd : ∀ i, HasDerivAt (fun t => dist (k t) i) (dist k' i) t0 := by
    intro i; fin_cases i
    exacts [hk 4, hk 5, hk 6, hk 7]
  have hf : ∀ i, HasDerivAt (fun t => proj (k t) i) (proj k' i) t0 := by
    intro i; fin_cases i
    exacts [hk 0, hk 1, hk 2, hk 3]
  have hr' : 1 / 10 ^ 8 < norm2 (x t0) := by
    have : norm2 (x t0) = Real.sqrt ((p t0 0 / p t0 2) ^ 2 + (p t0 1 / p t0 2) ^ 2) := by
      unfold norm2; congr 1; simp [hx]; ring
    rw [this]; exact hr
  obtain ⟨Jx, Jd, hJx, hJd, hD⟩ := equi4_deriv _ _ x _ t0 hd hX hr'
  have hP := pixel_deriv _ _ _ _ t0 hf hD
  refine ⟨pinholePointJac (proj (k t0)) * Jx * J, _,
    by simp only [equiProjectJac, hpp, hJ]
       show (equi4PointJac (dist (k t0)) (x t0)).bind _ = _
       rw [hJx]; rfl,
    by simp only [equiParamsJac, hpp]
       show (equi4ParamsJac (x t0)).bind _ = _
       rw [hJd]; rfl,
    fun t => pixel (proj (k t)) (equi4Distort (dist (k t)) (x t)), ?_, fun j => ?_⟩
  · filter_upwards [hev, (hp 2).continuousAt.eventually (lt_mem_nhds hz)] with t ht htz
    rw [equiProject, if_neg (not_lt.mpr htz.le), ht]
  · refine (hP j).congr_deriv ?_
    rw [mulVec_add, mulVec_mulVec, mulVec_mulVec, mulVec_mulVec, add_assoc]
    simp only [Pi.add_apply]
    congr 1
    fin_cases j <;>
      simp [mulVec, dotProduct, Fin.sum_univ_succ, dist, proj, pinholeParamsJac] <;> ring

/-- The hypotheses of `C37_equi_partial` and `C37_radtan` are met by a moving point at (3, 4, 1). -/
example : (0 : ℝ) < (fun t : ℝ => (![3 + t, 4, 1 + t] : Vec3 ℝ)) 0 2 ∧
    (1 : ℝ) / 10 ^ 8 < Real.sqrt (((![3, 4, 1] : Vec3 ℝ) 0 / (![3, 4, 1] : Vec3 ℝ) 2) ^ 2 +
      ((![3, 4, 1] : Vec3 ℝ) 1 / (![3, 4, 1] : Vec3 ℝ) 2) ^ 2) := by
  constructor
  · simp
  · have : Real.sqrt (((![3, 4, 1] : Vec3 ℝ) 0 / (![3, 4, 1] : Vec3 ℝ) 2) ^ 2 +
      ((![3, 4, 1] : Vec3 ℝ) 1 / (![3, 4, 1] : Vec3 ℝ) 2) ^ 2) = 5 := by
      rw [show ((![3, 4, 1] : Vec3 ℝ) 0 / (![3, 4, 1] : Vec3 ℝ) 2) ^ 2 +
        ((![3, 4, 1] : Vec3 ℝ) 1 / (![3, 4, 1] : Vec3 ℝ) 2) ^ 2 = 5 ^ 2 by simp; norm_num]
      exact Real.sqrt_sq (by norm_num)
    rw [this]; norm_num

/-- C37 refuted on the optical axis: the equidistant camera projects the point (0,0,z) but both
Jacobians are quotients zero by zero there. -/
theorem C37_equi_axis_refuted (res : Fin 2 → ℤ) (k : Params) (z : ℝ) (hz : 0 < z) :
    (equiProject res k ![0, 0, z]).zhat.isSome ∧ equiProjectJac k ![0, 0, z] = none ∧
      equiParamsJac k ![0, 0, z] = none := by
  refine ⟨by rw [C38_equi_axis res k z hz]; rfl, ?_, ?_⟩
  · simp [equiProjectJac, projectPoint, hz.ne', equi4PointJac, norm2]
  · simp [equiParamsJac, projectPoint, hz.ne', equi4ParamsJac, norm2]

/-! ## C39: back-projection -/

theorem radtan4_zero (x : Vec2) : radtan4Distort ![0, 0, 0, 0] x = x := by
  ext i; fin_cases i <;> simp [radtan4Distort]

theorem radtan4_undistort_zero (x : Vec2) : radtan4Undistort ![0, 0, 0, 0] x = some x := by
  have hJ : radtan4PointJac ![0, 0, 0, 0] x = 1 := by
    ext i j; fin_cases i <;> fin_cases j <;> simp [radtan4PointJac]
  have hi : inv2 (1 : Matrix (Fin 2) (Fin 2) ℝ) = some 1 := by
    simp only [inv2]
    rw [if_neg (by simp)]
    congr 1
    ext i j; fin_cases i <;> fin_cases j <;> simp
  unfold radtan4Undistort undistortLoop
  simp only [hJ, transpose_one, Matrix.mul_one, hi, radtan4_zero, sub_self, mul_zero, add_zero]
  rw [if_pos (by norm_num)]
  congr 1
  ext i
  simp

theorem unpixel_pixel (k : Params) (h0 : k 0 ≠ 0) (h1 : k 1 ≠ 0) (x : Vec2) :
    unpixel k (pixel (proj k) x) = some x := by
  unfold unpixel
  rw [if_neg (by simp [h0, h1])]
  congr 1
  ext i; fin_cases i <;> simp [pixel, proj, h0, h1]

/-- C39 (radtan): with zero distortion the back-projection of the image of a point off the
plane `z = 0` is that point divided by its depth, whatever the frame check says. -/
theorem C39_radtan (res : Fin 2 → ℤ) (k : Params) (p : Vec3 ℝ) (h0 : k 0 ≠ 0) (h1 : k 1 ≠ 0)
    (hd : ∀ i, dist k i = 0) (hz : p 2 ≠ 0) :
    ∃ z, (radtanProject res k p).zhat = some z ∧
      radtanBackProject k z = some ![p 0 / p 2, p 1 / p 2, 1] := by
  have hd' : dist k = ![0, 0, 0, 0] := by
    ext i; rw [hd]; fin_cases i <;> rfl
  refine ⟨pixel (proj k) ![p 0 / p 2, p 1 / p 2], ?_, ?_⟩
  · simp only [radtanProject, projectPoint, if_neg hz, hd', radtan4_zero]
  · simp only [radtanBackProject, unpixel_pixel k h0 h1, hd']
    show (radtan4Undistort ![0, 0, 0, 0] ![p 0 / p 2, p 1 / p 2]).bind _ = _
    rw [radtan4_undistort_zero]
    rfl

theorem equiLoop_fix (d : Vec4) (thd th : ℝ) (h : equiStep d thd th = some th) (n : Nat) :
    equiLoop d thd n th = some th := by
  induction n with
  | zero => rfl
  | succ n ih => simp [equiLoop, h, ih]

theorem equi4_undistort_zero (x : Vec2) (h : Real.sqrt (x 0 ^ 2 + x 1 ^ 2) ≠ 0) :
    equi4Undistort ![0, 0, 0, 0] x =
      some fun i => x i * (Real.tan (Real.sqrt (x 0 ^ 2 + x 1 ^ 2)) / Real.sqrt (x 0 ^ 2 + x 1 ^ 2)) := by
  have e : x 0 * x 0 + x 1 * x 1 = x 0 ^ 2 + x 1 ^ 2 := by ring
  unfold equi4Undistort
  simp only [e]
  rw [equiLoop_fix _ _ _ (by simp [equiStep])]
  simp only [if_neg h]
  congr 1
  ext i; fin_cases i <;> rfl

theorem norm_smul2 (s : ℝ) (hs : 0 ≤ s) (a b : ℝ) :
    Real.sqrt ((s * a) ^ 2 + (s * b) ^ 2) = s * Real.sqrt (a ^ 2 + b ^ 2) := by
  rw [show (s * a) ^ 2 + (s * b) ^ 2 = s ^ 2 * (a ^ 2 + b ^ 2) by ring,
    Real.sqrt_mul (sq_nonneg s), Real.sqrt_sq hs]

/-- C39 (equidistant), at least 1e-8 off the axis. -/
theorem C39_equi_partial (res : Fin 2 → ℤ) (k : Params) (p : Vec3 ℝ) (h0 : k 0 ≠ 0) (h1 : k 1 ≠ 0)
    (hd : ∀ i, dist k i = 0) (hz : 0 < p 2)
    (hr : 1 / 10 ^ 8 ≤ Real.sqrt ((p 0 / p 2) ^ 2 + (p 1 / p 2) ^ 2)) :
    ∃ z, (equiProject res k p).zhat = some z ∧
      equiBackProject k z = some ![p 0 / p 2, p 1 / p 2, 1] := by
  have hd' : dist k = ![0, 0, 0, 0] := by
    ext i; rw [hd]; fin_cases i <;> rfl
  set r := Real.sqrt ((p 0 / p 2) ^ 2 + (p 1 / p 2) ^ 2) with hrdef
  have hr0 : 0 < r := lt_of_lt_of_le (by norm_num) hr
  have e := equi4_spec (dist k) ![p 0 / p 2, p 1 / p 2] (by simpa using hr)
  have hs : equiScale (dist k 0) (dist k 1) (dist k 2) (dist k 3)
      (Real.sqrt (![p 0 / p 2, p 1 / p 2] 0 ^ 2 + ![p 0 / p 2, p 1 / p 2] 1 ^ 2)) =
      Real.arctan r / r := by
    rw [hd']; simp [equiScale, kannala, hrdef]
  rw [hs] at e
  set s := Real.arctan r / r with hsdef
  have hat : 0 < Real.arctan r := Real.arctan_pos.mpr hr0
  have hs0 : 0 < s := div_pos hat hr0
  have hsr : s * r = Real.arctan r := by rw [hsdef]; field_simp
  refine ⟨pixel (proj k) (fun i => s * ![p 0 / p 2, p 1 / p 2] i), ?_, ?_⟩
  · rw [equiProject, if_neg (not_lt.mpr hz.le), projectPoint, if_neg hz.ne']
    simp only [e]
  · simp only [equiBackProject, unpixel_pixel k h0 h1]
    show (equi4Undistort (dist k) _).bind _ = _
    have hn : Real.sqrt ((s * ![p 0 / p 2, p 1 / p 2] 0) ^ 2 + (s * ![p 0 / p 2, p 1 / p 2] 1) ^ 2)
        = Real.arctan r := by
      rw [norm_smul2 s hs0.le, ← hsr]; rfl
    rw [hd', equi4_undistort_zero _ (by rw [hn]; exact hat.ne'), hn, Real.tan_arctan]
    simp only [Option.bind_some]
    congr 1
    have hk : ∀ a, s * a * (r / Real.arctan r) = a := by
      intro a; rw [← hsr]; field_simp
    ext i; fin_cases i
    · exact hk _
    · exact hk _
    · rfl

/-- Hypotheses of `C39_equi_partial` are met. -/
example : ∃ (k : Params) (p : Vec3 ℝ), k 0 ≠ 0 ∧ k 1 ≠ 0 ∧ (∀ i, dist k i = 0) ∧ 0 < p 2 ∧
    1 / 10 ^ 8 ≤ Real.sqrt ((p 0 / p 2) ^ 2 + (p 1 / p 2) ^ 2) := by
  refine ⟨![320, 320, 320, 240, 0, 0, 0, 0], ![2, 0, 2], by simp, by simp, ?_, by simp, ?_⟩
  · intro i; fin_cases i <;> simp [dist]
  · simp; norm_num

/-- C39 refuted on the axis: the principal point of an equidistant camera has no back-projection
(the code divides zero by zero), although the points of the optical axis project to it. -/
theorem C39_equi_axis_refuted (res : Fin 2 → ℤ) (k : Params) (z : ℝ) (hz : 0 < z) :
    ∃ m, (equiProject res k ![0, 0, z]).zhat = some m ∧ equiBackProject k m = none := by
  refine ⟨_, C38_equi_axis res k z hz, ?_⟩
  unfold equiBackProject unpixel
  by_cases h : k 0 = 0 ∨ k 1 = 0
  · simp [h]
  · simp only [h, if_false]
    have : equi4Undistort (dist k) ![(![k 2, k 3] 0 - k 2) / k 0, (![k 2, k 3] 1 - k 3) / k 1] = none := by
      simp only [equi4Undistort]
      rcases equiLoop _ _ _ _ with _ | th
      · rfl
      · simp
    show (equi4Undistort _ _).bind _ = _
    rw [this]; rfl

/-- C39, general: the first two coordinates of the back-projected ray, taken back to pixels, are
the undistortion of the pixel, and the ray is normalised to depth one. -/
theorem C39_undistort (k : Params) (z : Vec2) (h0 : k 0 ≠ 0) (h1 : k 1 ≠ 0) :
    (∀ b, radtanBackProject k z = some b → b 2 = 1 ∧
      radtanUndistort k z = some ![k 0 * b 0 + k 2, k 1 * b 1 + k 3] ∧
      radtan4Undistort (dist k) ![(z 0 - k 2) / k 0, (z 1 - k 3) / k 1] = some ![b 0, b 1]) ∧
    (∀ b, equiBackProject k z = some b → b 2 = 1 ∧
      equiUndistort k z = some ![k 0 * b 0 + k 2, k 1 * b 1 + k 3] ∧
      equi4Undistort (dist k) ![(z 0 - k 2) / k 0, (z 1 - k 3) / k 1] = some ![b 0, b 1]) := by
  have hu : unpixel k z = some ![(z 0 - k 2) / k 0, (z 1 - k 3) / k 1] := if_neg (by simp [h0, h1])
  constructor
  · intro b hb
    simp only [radtanBackProject, radtanUndistort, hu] at hb ⊢
    change (radtan4Undistort _ _).bind _ = _ at hb
    show _ ∧ (radtan4Undistort _ _).bind _ = _ ∧ _
    rcases hm : radtan4Undistort (dist k) ![(z 0 - k 2) / k 0, (z 1 - k 3) / k 1] with _ | u
    · rw [hm] at hb; cases hb
    · rw [hm] at hb
      cases hb
      refine ⟨rfl, ?_, ?_⟩
      · simp [mul_comm]
      · congr 1; ext i; fin_cases i <;> rfl
  · intro b hb
    simp only [equiBackProject, equiUndistort, hu] at hb ⊢
    change (equi4Undistort _ _).bind _ = _ at hb
    show _ ∧ (equi4Undistort _ _).bind _ = _ ∧ _
    rcases hm : equi4Undistort (dist k) ![(z 0 - k 2) / k 0, (z 1 - k 3) / k 1] with _ | u
    · rw [hm] at hb; cases hb
    · rw [hm] at hb
      cases hb
      refine ⟨rfl, ?_, ?_⟩
      · simp [mul_comm]
      · congr 1; ext i; fin_cases i <;> rfl

/-- C39, equidistant model with any coefficients: where the fixed-point iteration has reached a
solution `θ` of the Kannala-Brandt equation, undistortion is inverted by distortion. -/
theorem C39_equi_solution (d : Vec4) (p : Vec2) (th : ℝ)
    (hloop : equiLoop d (Real.sqrt (p 0 * p 0 + p 1 * p 1)) 20 (Real.sqrt (p 0 * p 0 + p 1 * p 1)) = some th)
    (hsol : kannala (d 0) (d 1) (d 2) (d 3) th = Real.sqrt (p 0 ^ 2 + p 1 ^ 2))
    (h1 : th < Real.pi / 2) (h0 : 0 < th) (htan : 1 / 10 ^ 8 ≤ Real.tan th)
    (hp : Real.sqrt (p 0 ^ 2 + p 1 ^ 2) ≠ 0) :
    ∃ u, equi4Undistort d p = some u ∧ equi4Distort d u = p := by
  have e : p 0 * p 0 + p 1 * p 1 = p 0 ^ 2 + p 1 ^ 2 := by ring
  rw [e] at hloop
  set r := Real.sqrt (p 0 ^ 2 + p 1 ^ 2) with hrdef
  have hr0 : 0 < r := lt_of_le_of_ne (Real.sqrt_nonneg _) (Ne.symm hp)
  have ht0 : 0 < Real.tan th := Real.tan_pos_of_pos_of_lt_pi_div_two h0 h1
  set s := Real.tan th / r with hs
  have hs0 : 0 < s := div_pos ht0 hr0
  have hsr : s * r = Real.tan th := by rw [hs]; field_simp
  refine ⟨![p 0 * s, p 1 * s], ?_, ?_⟩
  · simp only [equi4Undistort, e, ← hrdef, hloop, if_neg hp]
    rfl
  · have hn : Real.sqrt ((![p 0 * s, p 1 * s] : Vec2) 0 ^ 2 + (![p 0 * s, p 1 * s] : Vec2) 1 ^ 2)
        = Real.tan th := by
      rw [← hsr, ← norm_smul2 s hs0.le]
      congr 1; simp; ring
    rw [equi4_spec d _ (by rw [hn]; exact htan), hn]
    simp only [equiScale, Real.arctan_tan (by linarith [Real.pi_pos]) h1, hsol]
    have hk : ∀ a, r / Real.tan th * (a * s) = a := by
      intro a; rw [← hsr]; field_simp
    ext i; fin_cases i
    · exact hk _
    · exact hk _

/-! ### What the iterative undistortion computes -/

/-- One Newton step for `distort(x) = p0` from `x` to `y`: the linearised equation holds
exactly at `y`. -/
def NewtonStep (d : Vec4) (p0 x y : Vec2) : Prop :=
  (radtan4PointJac d x).det ≠ 0 ∧
    radtan4PointJac d x *ᵥ (y - x) = p0 - radtan4Distort d x

/-- The squared error of an approximate solution. -/
noncomputable def sqErr (d : Vec4) (p0 x : Vec2) : ℝ :=
  (p0 0 - radtan4Distort d x 0) ^ 2 + (p0 1 - radtan4Distort d x 1) ^ 2

/-- `Iterates d p0 n x y`: Newton's method from `x`, stopped after a step taken where the
squared error is below 1e-15 or after `n` steps, ends in `y`. -/
inductive Iterates (d : Vec4) (p0 : Vec2) : Nat → Vec2 → Vec2 → Prop
  | limit (x : Vec2) : Iterates d p0 0 x x
  | stop {n : Nat} {x y : Vec2} : NewtonStep d p0 x y → sqErr d p0 x < 1 / 10 ^ 15 →
      Iterates d p0 (n + 1) x y
  | step {n : Nat} {x y z : Vec2} : NewtonStep d p0 x y → 1 / 10 ^ 15 ≤ sqErr d p0 x →
      Iterates d p0 n y z → Iterates d p0 (n + 1) x z

theorem inv2_spec (A : Matrix (Fin 2) (Fin 2) ℝ) :
    (∀ B, inv2 A = some B → A * B = 1 ∧ B * A = 1) ∧ (inv2 A = none ↔ A.det = 0) := by
  have hd : A 0 0 * A 1 1 - A 0 1 * A 1 0 = A.det := by rw [Matrix.det_fin_two]
  unfold inv2
  simp only [hd]
  by_cases h : A.det = 0
  · simp [h]
  · rw [if_neg h]
    refine ⟨fun B hB => ?_, by simp [h]⟩
    obtain rfl := Option.some.inj hB
    have h1 : A * !![A 1 1 / A.det, -(A 0 1) / A.det; -(A 1 0) / A.det, A 0 0 / A.det] = 1 := by
      ext i j
      fin_cases i <;> fin_cases j <;>
        simp [Matrix.mul_apply, Fin.sum_univ_two] <;> field_simp <;> rw [← hd] <;> ring
    exact ⟨h1, mul_eq_one_comm.mp h1⟩

theorem newton_of_normal (d : Vec4) (p0 x : Vec2) (B : Matrix (Fin 2) (Fin 2) ℝ)
    (hB : inv2 ((radtan4PointJac d x)ᵀ * radtan4PointJac d x) = some B) :
    NewtonStep d p0 x (fun i => x i + ((B * (radtan4PointJac d x)ᵀ) *ᵥ
      (fun i => p0 i - radtan4Distort d x i)) i) := by
  set J := radtan4PointJac d x with hJ
  obtain ⟨h1, h2⟩ := (inv2_spec (Jᵀ * J)).1 B hB
  have hJt : J * (B * Jᵀ) = 1 := by
    rw [← mul_eq_one_comm, Matrix.mul_assoc]
    exact h2
  refine ⟨fun h0 => ?_, ?_⟩
  · have := congrArg Matrix.det hJt
    rw [Matrix.det_mul, hJ, h0] at this
    simp at this
  · have e : ((fun i => x i + ((B * Jᵀ) *ᵥ (fun i => p0 i - radtan4Distort d x i)) i) - x : Vec2) =
        (B * Jᵀ) *ᵥ (fun i => p0 i - radtan4Distort d x i) := by
      ext i; simp
    rw [e, Matrix.mulVec_mulVec, hJt, Matrix.one_mulVec]
    rfl

theorem undistortLoop_iterates (d : Vec4) (p0 : Vec2) (n : Nat) (x y : Vec2)
    (h : undistortLoop d p0 n x = some y) : Iterates d p0 n x y := by
  induction n generalizing x with
  | zero =>
    obtain rfl := Option.some.inj h
    exact .limit _
  | succ n ih =>
    simp only [undistortLoop] at h
    have he : (p0 0 - radtan4Distort d x 0) * (p0 0 - radtan4Distort d x 0) +
        (p0 1 - radtan4Distort d x 1) * (p0 1 - radtan4Distort d x 1) = sqErr d p0 x := by
      unfold sqErr; ring
    rw [he] at h
    split at h
    · cases h
    · rename_i B hB
      have hN := newton_of_normal d p0 x B hB
      split_ifs at h with hs
      · obtain rfl := Option.some.inj h
        exact .stop hN hs
      · exact .step hN (not_lt.mp hs) (ih _ h)

/-- **C39 (radial-tangential model, any coefficients).**  The undistorted point is the result
of Newton's method for `distort(x) = p0` started at the distorted point, with at most five
steps, and ending early only after a step from a point whose squared error is below 1e-15;
it is undefined only if the Jacobian of the distortion is singular at some iterate.  A point
whose squared error is exactly zero is kept: a preimage that Newton's method starts from is
returned. -/
theorem C39_radtan_newton (d : Vec4) (p0 : Vec2) :
    (∀ y, radtan4Undistort d p0 = some y → Iterates d p0 5 p0 y) ∧
    (radtan4Distort d p0 = p0 → (radtan4PointJac d p0).det ≠ 0 →
      radtan4Undistort d p0 = some p0) := by
  refine ⟨fun y h => undistortLoop_iterates d p0 5 p0 y h, fun hfix hdet => ?_⟩
  unfold radtan4Undistort undistortLoop
  have e : (fun i => p0 i - radtan4Distort d p0 i) = (0 : Vec2) := by
    rw [hfix]; ext i; simp
  have e0 : p0 0 - radtan4Distort d p0 0 = 0 := congrFun e 0
  have e1 : p0 1 - radtan4Distort d p0 1 = 0 := congrFun e 1
  cases hB : inv2 ((radtan4PointJac d p0)ᵀ * radtan4PointJac d p0) with
  | none =>
    have := ((inv2_spec _).2).mp hB
    rw [Matrix.det_mul, Matrix.det_transpose] at this
    exact absurd this (mul_ne_zero hdet hdet)
  | some B =>
    simp only [e0, e1, e, hB]
    rw [if_pos (by norm_num)]
    congr 1
    ext i; simp

/-- The fixed-point iteration `θ ↦ r / (1 + k1 θ² + k2 θ⁴ + k3 θ⁶ + k4 θ⁸)`, `n` times. -/
inductive FixedPoint (d : Vec4) (r : ℝ) : Nat → ℝ → ℝ → Prop
  | limit (t : ℝ) : FixedPoint d r 0 t t
  | step {n : Nat} {t u : ℝ} : 1 + d 0 * t ^ 2 + d 1 * t ^ 4 + d 2 * t ^ 6 + d 3 * t ^ 8 ≠ 0 →
      FixedPoint d r n (r / (1 + d 0 * t ^ 2 + d 1 * t ^ 4 + d 2 * t ^ 6 + d 3 * t ^ 8)) u →
      FixedPoint d r (n + 1) t u

/-- **C39 (equidistant model, any coefficients).**  The undistorted point is the distorted one
scaled by `tan θ / r`, where `r` is its distance from the axis and `θ` the twentieth iterate of
the fixed-point iteration started at `r`. -/
theorem C39_equi_iterates (d : Vec4) (p y : Vec2) :
    equi4Undistort d p = some y ↔ Real.sqrt (p 0 ^ 2 + p 1 ^ 2) ≠ 0 ∧
      ∃ t, FixedPoint d (Real.sqrt (p 0 ^ 2 + p 1 ^ 2)) 20 (Real.sqrt (p 0 ^ 2 + p 1 ^ 2)) t ∧
        y = fun i => p i * (Real.tan t / Real.sqrt (p 0 ^ 2 + p 1 ^ 2)) := by
  have e : p 0 * p 0 + p 1 * p 1 = p 0 ^ 2 + p 1 ^ 2 := by ring
  have loop : ∀ (r : ℝ) (n : Nat) (t u : ℝ), equiLoop d r n t = some u ↔ FixedPoint d r n t u := by
    intro r n
    induction n with
    | zero =>
      intro t u
      refine ⟨fun h => ?_, fun h => ?_⟩
      · obtain rfl := Option.some.inj h; exact .limit _
      · cases h; rfl
    | succ n ih =>
      intro t u
      have es : 1 + d 0 * (t * t) + d 1 * (t * t * (t * t)) + d 2 * (t * t * (t * t) * (t * t)) +
          d 3 * (t * t * (t * t) * (t * t * (t * t))) =
          1 + d 0 * t ^ 2 + d 1 * t ^ 4 + d 2 * t ^ 6 + d 3 * t ^ 8 := by ring
      simp only [equiLoop, equiStep, es]
      by_cases h0 : 1 + d 0 * t ^ 2 + d 1 * t ^ 4 + d 2 * t ^ 6 + d 3 * t ^ 8 = 0
      · rw [if_pos h0]
        refine ⟨fun h => by simp at h, fun h => ?_⟩
        cases h with
        | step h1 _ => exact absurd h0 h1
      · rw [if_neg h0, Option.bind_some, ih]
        refine ⟨fun h => .step h0 h, fun h => ?_⟩
        cases h with
        | step _ h2 => exact h2
  unfold equi4Undistort
  simp only [e]
  cases hl : equiLoop d (Real.sqrt (p 0 ^ 2 + p 1 ^ 2)) 20 (Real.sqrt (p 0 ^ 2 + p 1 ^ 2)) with
  | none =>
    simp only [reduceCtorEq, false_iff, not_and, not_exists]
    intro _ t ht
    rw [(loop _ _ _ _).mpr ht] at hl
    cases hl
  | some th =>
    by_cases h0 : Real.sqrt (p 0 ^ 2 + p 1 ^ 2) = 0
    · simp [h0]
    · simp only [h0, if_false, ne_eq, not_false_eq_true, true_and, Option.some.injEq]
      refine ⟨fun h => ⟨th, (loop _ _ _ _).mp hl, ?_⟩, fun ⟨t, ht, hy⟩ => ?_⟩
      · rw [← h]; ext i; fin_cases i <;> rfl
      · rw [(loop _ _ _ _).mpr ht] at hl
        obtain rfl := Option.some.inj hl
        rw [hy]; ext i; fin_cases i <;> rfl

/-- Hypotheses of `C39_radtan_newton` are met at the centre. -/
example : radtan4Distort ![1, 2, 3, 4] ![0, 0] = ![0, 0] ∧
    (radtan4PointJac ![1, 2, 3, 4] ![0, 0]).det ≠ 0 := by
  constructor
  · ext i; fin_cases i <;> simp [radtan4Distort]
  · simp [radtan4PointJac, Matrix.det_fin_two]

/-- C39: the intrinsics matrix maps the ray `(x, y, 1)` to the homogeneous pixel. -/
theorem C39_pinholeK (fx fy cx cy : ℝ) (x y : ℝ) :
    pinholeK fx fy cx cy *ᵥ ![x, y, 1] = ![fx * x + cx, fy * y + cy, 1] := by
  ext i; fin_cases i <;> simp [pinholeK, mulVec, dotProduct, Fin.sum_univ_three]

/-- C39: with the focal length `pinhole_focal` returns for a field of view below 180 degrees, the
ray half the field of view off the axis is imaged half the image size off the centre. -/
theorem C39_focal (size : ℤ) (fov : ℝ) (h0 : 0 < fov) (h1 : fov < 180) :
    pinholeFocal size fov * Real.tan (fov / 2 * (Real.pi / 180)) = size / 2 := by
  have hpi := Real.pi_pos
  have ht : 0 < Real.tan (fov * (Real.pi / 180) / 2) := by
    apply Real.tan_pos_of_pos_of_lt_pi_div_two
    · positivity
    · nlinarith
  unfold pinholeFocal
  rw [show fov / 2 * (Real.pi / 180) = fov * (Real.pi / 180) / 2 by ring]
  exact div_mul_cancel₀ _ ht.ne'

/-! ## C40: the losses -/

/-- C40 (Huber): value and first derivative are consistent everywhere, the second derivative off
the joint `s = a²`. The clamp at the smallest positive double is assumed inactive. -/
theorem C40_huber (tiny a s : ℝ) (ha : 0 < a) (ht : tiny ≤ a / Real.sqrt s)
    (hev : ∀ᶠ u in nhds s, tiny ≤ a / Real.sqrt u ∨ u ≤ a * a) :
    HasDerivAt (fun u => (huber tiny a u).r0) (huber tiny a s).r1 s ∧
    (s ≠ a * a → HasDerivAt (fun u => (huber tiny a u).r1) (huber tiny a s).r2 s) := by
  have out : ∀ u, a * a < u → huber tiny a u =
      ⟨2 * a * Real.sqrt u - a * a, max tiny (a / Real.sqrt u), -(max tiny (a / Real.sqrt u)) / (2 * u)⟩ :=
    fun u h => if_pos h
  have inn : ∀ u, u ≤ a * a → huber tiny a u = ⟨u, 1, 0⟩ := fun u h => if_neg (not_lt.mpr h)
  have haa : 0 < a * a := mul_pos ha ha
  have dout : ∀ u, 0 < u → HasDerivAt (fun v => 2 * a * Real.sqrt v - a * a) (a / Real.sqrt u) u := by
    intro u hu
    refine (((Real.hasDerivAt_sqrt hu.ne').const_mul (2 * a)).sub_const (a * a)).congr_deriv ?_
    have := Real.sqrt_pos.mpr hu
    field_simp
  rcases lt_trichotomy s (a * a) with h | h | h
  · have ev : ∀ᶠ u in nhds s, huber tiny a u = ⟨u, 1, 0⟩ := by
      filter_upwards [gt_mem_nhds h] with u hu using inn u hu.le
    rw [inn s h.le]
    refine ⟨(hasDerivAt_id s).congr_of_eventuallyEq ?_, fun _ =>
      (hasDerivAt_const s (1 : ℝ)).congr_of_eventuallyEq ?_⟩
    · filter_upwards [ev] with u hu; rw [hu]; rfl
    · filter_upwards [ev] with u hu; rw [hu]
  · refine ⟨?_, fun h' => absurd h h'⟩
    have hs0 : 0 < s := h ▸ haa
    have hsa : Real.sqrt s = a := by rw [h]; exact Real.sqrt_mul_self ha.le
    rw [inn s h.le]
    have hr : HasDerivWithinAt (fun u => (huber tiny a u).r0) 1 (Set.Ici s) s := by
      have := (dout s hs0).hasDerivWithinAt (s := Set.Ici s)
      rw [hsa, div_self ha.ne'] at this
      refine this.congr ?_ ?_
      · intro u hu
        rcases eq_or_lt_of_le (show s ≤ u from hu) with e | l
        · subst e; rw [inn s h.le]; show s = _; rw [hsa, h]; ring
        · rw [out u (h ▸ l)]
      · rw [inn s h.le]; show s = _; rw [hsa, h]; ring
    have hl : HasDerivWithinAt (fun u => (huber tiny a u).r0) 1 (Set.Iic s) s := by
      refine (hasDerivAt_id s).hasDerivWithinAt.congr ?_ ?_
      · intro u hu; rw [inn u (h ▸ hu)]; rfl
      · rw [inn s h.le]; rfl
    have := hl.union hr
    rwa [Set.Iic_union_Ici, hasDerivWithinAt_univ] at this
  · have hs0 : 0 < s := haa.trans h
    have hq := Real.sqrt_pos.mpr hs0
    rw [out s h, max_eq_right ht]
    refine ⟨(dout s hs0).congr_of_eventuallyEq ?_, fun _ => ?_⟩
    · filter_upwards [lt_mem_nhds h] with u hu; rw [out u hu]
    · have hd : HasDerivAt (fun u => a / Real.sqrt u) (-(a / Real.sqrt s) / (2 * s)) s := by
        refine ((hasDerivAt_const s a).fun_div (Real.hasDerivAt_sqrt hs0.ne') hq.ne').congr_deriv ?_
        have e := Real.sq_sqrt hs0.le
        field_simp
        rw [e]
        ring
      refine hd.congr_of_eventuallyEq ?_
      filter_upwards [lt_mem_nhds h, hev] with u hu hu'
      rw [out u hu]
      exact max_eq_right (hu'.resolve_right (not_le.mpr hu))

/-- C40 (Cauchy): value, first and second derivative are consistent. -/
theorem C40_cauchy (tiny a s : ℝ) (ha : 0 < a) (hs : 0 ≤ s) (ht : tiny < 1 / (1 + s * (1 / (a * a)))) :
    HasDerivAt (fun u => (cauchy tiny a u).r0) (cauchy tiny a s).r1 s ∧
    HasDerivAt (fun u => (cauchy tiny a u).r1) (cauchy tiny a s).r2 s := by
  have haa : 0 < a * a := mul_pos ha ha
  have hsum : 0 < 1 + s * (1 / (a * a)) := by positivity
  have hd : HasDerivAt (fun u : ℝ => 1 + u * (1 / (a * a))) (1 / (a * a)) s := by
    simpa using ((hasDerivAt_id s).mul_const (1 / (a * a))).const_add 1
  constructor
  · show HasDerivAt (fun u => a * a * Real.log (1 + u * (1 / (a * a)))) (max tiny _) s
    rw [max_eq_right ht.le]
    refine ((hd.log hsum.ne').const_mul (a * a)).congr_deriv ?_
    field_simp
  · have h2 : HasDerivAt (fun u : ℝ => 1 / (1 + u * (1 / (a * a))))
        (-(1 / (a * a)) * (1 / (1 + s * (1 / (a * a))) * (1 / (1 + s * (1 / (a * a)))))) s := by
      refine ((hasDerivAt_const s (1 : ℝ)).fun_div hd hsum.ne').congr_deriv ?_
      field_simp
      ring
    refine h2.congr_of_eventuallyEq ?_
    filter_upwards [h2.continuousAt.eventually (lt_mem_nhds ht)] with u hu
    exact max_eq_right hu.le

/-- C40 (Blake-Zisserman), value and first derivative. Missing: the second derivative, which is
wrong (`C40_blake_refuted`). -/
theorem C40_blake_partial (tiny eps s : ℝ) (he : 0 < eps) (ht : tiny ≤ 1 / (eps * Real.exp s + 1)) :
    HasDerivAt (fun u => (blakeZisserman tiny eps u).r0) (blakeZisserman tiny eps s).r1 s := by
  have h0 : 0 < eps + Real.exp (-s) := by positivity
  show HasDerivAt (fun u => -Real.log (eps + Real.exp (-u))) (max tiny _) s
  rw [max_eq_right ht]
  have h1 : HasDerivAt (fun u : ℝ => Real.exp (-u)) (-Real.exp (-s)) s := by
    simpa using (hasDerivAt_neg s).exp
  refine (((h1.const_add eps).log h0.ne').neg).congr_deriv ?_
  have hx : 0 < eps * Real.exp s + 1 := by positivity
  have hm : Real.exp (-s) * Real.exp s = 1 := by rw [← Real.exp_add]; simp
  rw [neg_div, neg_neg, div_eq_div_iff h0.ne' hx.ne']
  linear_combination eps * hm

/-- C40 refuted: the second derivative of the Blake-Zisserman loss is negative for every `s`, the
code reports a positive number. -/
theorem C40_blake_refuted (tiny eps s : ℝ) (h0 : 0 < tiny) (he : 0 < eps) :
    0 < (blakeZisserman tiny eps s).r2 ∧
    ∃ d, d < 0 ∧ HasDerivAt (fun u => 1 / (eps * Real.exp u + 1)) d s ∧
      HasDerivAt (fun u => -Real.log (eps + Real.exp (-u))) (1 / (eps * Real.exp s + 1)) s := by
  have hx : 0 < eps * Real.exp s + 1 := by positivity
  refine ⟨lt_of_lt_of_le h0 (le_max_left _ _), _, ?_,
    (hasDerivAt_const s (1 : ℝ)).fun_div (((Real.hasDerivAt_exp s).const_mul eps).add_const 1) hx.ne', ?_⟩
  · apply div_neg_of_neg_of_pos
    · have : 0 < eps * Real.exp s := by positivity
      linarith
    · positivity
  · have := C40_blake_partial 0 eps s he (by positivity)
    have hm : max (0 : ℝ) (1 / (eps * Real.exp s + 1)) = 1 / (eps * Real.exp s + 1) :=
      max_eq_right (by positivity)
    have h' : HasDerivAt (fun u => -Real.log (eps + Real.exp (-u)))
      (max (0:ℝ) (1 / (eps * Real.exp s + 1))) s := this
    rwa [hm] at h'

/-- The hypotheses of the loss theorems are met at `s = 4`, `a = 1`, with the smallest positive
normal double. -/
example : ∃ tiny : ℝ, 0 < tiny ∧ tiny ≤ 1 / Real.sqrt 4 ∧ tiny < 1 / (1 + 4 * (1 / (1 * 1))) ∧
    (∀ᶠ u in nhds (4 : ℝ), tiny ≤ 1 / Real.sqrt u ∨ u ≤ 1 * 1) := by
  refine ⟨1 / 10, by norm_num, ?_, by norm_num, ?_⟩
  · rw [show (4:ℝ) = 2 ^ 2 by norm_num, Real.sqrt_sq (by norm_num)]; norm_num
  · filter_upwards [gt_mem_nhds (show (4:ℝ) < 9 by norm_num), lt_mem_nhds (show (1:ℝ) < 4 by norm_num)]
      with u hu hl
    left
    have : Real.sqrt u ≤ 3 := by
      rw [show (3:ℝ) = Real.sqrt (3 ^ 2) by rw [Real.sqrt_sq (by norm_num)]]
      exact Real.sqrt_le_sqrt (by linarith)
    have h0 : 0 < Real.sqrt u := Real.sqrt_pos.mpr (by linarith)
    rw [le_div_iff₀ h0]; linarith

end Yac.Cam
