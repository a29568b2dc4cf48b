import Verif.Sim.Witness

/-!
# C102: the image of the simulated camera, written out
-/

namespace Yac.Sim
open Matrix Yac.Geom Yac.Nbt Yac.Residual

/-- The pixel of a point at `(x, y)` in the plane at depth one: focal lengths 320 and 240, centre `(320, 240)`,
radial distortion 0.01 and 0.001, tangential distortion 0.0001 and 0.0001. -/
noncomputable def pixelAt (x y : ℝ) : Cam.Vec2 :=
  let q := x ^ 2 + y ^ 2
  let radial := 1 + 1 / 100 * q + 1 / 1000 * q ^ 2
  ![320 * (x * radial + 2 * (1 / 10000) * x * y + 1 / 10000 * (q + 2 * x ^ 2)) + 320,
    240 * (y * radial + 2 * (1 / 10000) * x * y + 1 / 10000 * (q + 2 * y ^ 2)) + 240]

/-- **C102, the image.**  A feature `s` ahead of the camera, `a` to its right and `b` below it, has the image
`pixelAt (a / s) (b / s)`; it is seen exactly when that lies in the picture of 640 by 480 pixels. -/
theorem C102_image (r t s a b : ℝ) (hs : 0 < s) :
    let z := pixelAt (a / s) (b / s)
    let p := place r t + s • heading r t - a • left r t - b • ![0, 0, 1]
    (image r t p).zhat = some z ∧ ((image r t p).code = 0 ↔ (0 ≤ z 0 ∧ z 0 < 640) ∧ 0 ≤ z 1 ∧ z 1 < 480) := by
  intro z p
  have hc : (camRot r t)ᵀ *ᵥ (p - place r t) = ![a, b, s] := by
    have h1 := Real.sin_sq_add_cos_sq (speed r * t)
    have hd : p - place r t = s • heading r t - a • left r t - b • ![0, 0, 1] := by
      simp only [p]; abel
    rw [hd]
    apply vec3_ext
    · simp [camRot, columns, heading, left, mulVec, dotProduct, Fin.sum_univ_three]; linear_combination a * h1
    · simp [camRot, columns, heading, left, mulVec, dotProduct, Fin.sum_univ_three]
    · simp [camRot, columns, heading, left, mulVec, dotProduct, Fin.sum_univ_three]; linear_combination s * h1
  have h0 : s ≠ 0 := hs.ne'
  have hz : Cam.pixel (Cam.proj camParams) (Cam.radtan4Distort (Cam.dist camParams) ![a / s, b / s]) = z := by
    rw [(C102_camera r t s).1]
    funext i
    fin_cases i
    · simp [Cam.pixel, Cam.radtan4Distort, Cam.proj, Cam.dist, z, pixelAt]; ring
    · simp [Cam.pixel, Cam.radtan4Distort, Cam.proj, Cam.dist, z, pixelAt]; ring
  have hi : image r t p = Cam.radtanProject res camParams ![a, b, s] := by unfold image; rw [hc]
  have hp : Cam.projectPoint ![a, b, s] = some ![a / s, b / s] := by simp [Cam.projectPoint, h0]
  rw [hi]
  unfold Cam.radtanProject
  rw [hp]
  simp only [hz]
  refine ⟨trivial, ?_⟩
  have h2 : (![a, b, s] : Vec3 ℝ) 2 > 0 := hs
  have hr : ((res 0 : ℤ) : ℝ) = 640 ∧ ((res 1 : ℤ) : ℝ) = 480 := by simp [res]
  rw [hr.1, hr.2]
  constructor
  · intro h
    by_contra hn
    rw [if_neg (fun hh => hn ⟨⟨hh.1.1, hh.1.2⟩, hh.2.1.1, hh.2.1.2⟩)] at h
    exact absurd h (by decide)
  · rintro ⟨h3, h4⟩
    rw [if_pos ⟨⟨h3.1, h3.2⟩, ⟨h4.1, h4.2⟩, h2⟩]

/-- A feature one metre ahead and one metre to the right falls outside the picture, one at half a metre inside. -/
example (r t : ℝ) :
    (image r t (place r t + (1 : ℝ) • heading r t - (1 : ℝ) • left r t - (0 : ℝ) • ![0, 0, 1])).code ≠ 0 ∧
    (image r t (place r t + (1 : ℝ) • heading r t - (1 / 2 : ℝ) • left r t - (0 : ℝ) • ![0, 0, 1])).code = 0 := by
  constructor
  · rw [Ne, (C102_image r t 1 1 0 (by norm_num)).2]
    norm_num [pixelAt]
  · rw [(C102_image r t 1 (1 / 2) 0 (by norm_num)).2]
    norm_num [pixelAt]

end Yac.Sim
