import Verif.Sim.Model
import Verif.Nbt.SimProps

/-!
# Lemmas about the simulated data sets
-/

namespace Yac.Sim
open Matrix Yac.Geom Yac.Nbt Yac.Residual

/-! ### The true motion (specification) -/

/-- Angular speed of a motion with speed 0.3 on a circle of radius `r`. -/
noncomputable def speed (r : ℝ) : ℝ := 3 / 10 / r

/-- The position at time `t`: clockwise, from `(-r, 0, 0)`. -/
noncomputable def place (r t : ℝ) : Vec3 ℝ := ![-r * Real.cos (speed r * t), r * Real.sin (speed r * t), 0]

/-- The direction of the motion. -/
noncomputable def heading (r t : ℝ) : Vec3 ℝ := ![Real.sin (speed r * t), Real.cos (speed r * t), 0]

/-- The direction to the left. -/
noncomputable def left (r t : ℝ) : Vec3 ℝ := ![-Real.cos (speed r * t), Real.sin (speed r * t), 0]

/-- The matrix with given columns. -/
def columns (x y z : Vec3 ℝ) : Mat3 ℝ := !![x 0, y 0, z 0; x 1, y 1, z 1; x 2, y 2, z 2]

/-- The attitude of the IMU: x forward, y left, z up. -/
noncomputable def bodyRot (r t : ℝ) : Mat3 ℝ := columns (heading r t) (left r t) ![0, 0, 1]

/-- The attitude of the camera: x right, y down, z forward. -/
noncomputable def camRot (r t : ℝ) : Mat3 ℝ := columns (-left r t) ![0, 0, -1] (heading r t)

/-- The time of a round. -/
noncomputable def roundTime (r : ℝ) : ℝ := 2 * Real.pi * r / (3 / 10)

/-- The number of samples in a round. -/
noncomputable def samples (r rate : ℝ) : ℕ := ⌊roundTime r * rate⌋₊ + 1

/-- A feature seen by a camera at `T`: its image. -/
noncomputable def image (r t : ℝ) (p : Vec3 ℝ) : Cam.ProjRes :=
  Cam.radtanProject res camParams ((camRot r t)ᵀ *ᵥ (p - place r t))

/-! ### Angles -/

theorem angle_eq {r : ℝ} (hr : 0 < r) : -2 * Real.pi * (1 / (2 * Real.pi * r / (3 / 10))) = -speed r := by
  have := Real.pi_pos
  unfold speed
  field_simp

theorem deg180 : Num.deg2rad 180 = Real.pi := by unfold Num.deg2rad; ring
theorem deg90 : Num.deg2rad 90 = Real.pi / 2 := by unfold Num.deg2rad; ring
theorem degm90 : Num.deg2rad (-90) = -(Real.pi / 2) := by unfold Num.deg2rad; ring

theorem place_eq (r t : ℝ) : ![r * Real.cos (Num.deg2rad 180 + -speed r * t), r * Real.sin (Num.deg2rad 180 + -speed r * t), 0]
    = place r t := by
  have e : Num.deg2rad 180 + -speed r * t = Real.pi - speed r * t := by rw [deg180]; ring
  rw [e, Real.cos_pi_sub, Real.sin_pi_sub]
  unfold place
  apply vec3_ext <;> simp

theorem camRot_eq (r t : ℝ) : euler321 (Num.deg2rad (-90)) 0 (0 + -speed r * t) = camRot r t := by
  have e : 0 + -speed r * t = -(speed r * t) := by ring
  rw [e, degm90]
  unfold camRot columns left heading
  apply mat3_eq <;> simp [euler321, Real.sin_neg, Real.cos_neg]

theorem wrapPi_cos (x : ℝ) : Real.cos (Num.wrapPi x) = Real.cos x ∧ Real.sin (Num.wrapPi x) = Real.sin x := by
  obtain ⟨⟨n, hn⟩, -⟩ := Num.C30_wrap_partial (Num.rad2deg x)
  have e : Num.wrapPi x = x + n * (2 * Real.pi) := by
    have := Real.pi_pos
    rw [Num.wrapPi, hn]
    unfold Num.deg2rad Num.rad2deg
    field_simp
    ring
  rw [e]
  exact ⟨Real.cos_add_int_mul_two_pi x n, Real.sin_add_int_mul_two_pi x n⟩

theorem bodyRot_eq (r t : ℝ) : euler321 0 0 (Num.wrapPi (Num.deg2rad 90 + -speed r * t)) = bodyRot r t := by
  obtain ⟨h1, h2⟩ := wrapPi_cos (Num.deg2rad 90 + -speed r * t)
  have e : Num.deg2rad 90 + -speed r * t = Real.pi / 2 - speed r * t := by rw [deg90]; ring
  rw [e, Real.cos_pi_div_two_sub] at h1
  rw [e, Real.sin_pi_div_two_sub] at h2
  rw [e]
  unfold bodyRot columns left heading
  apply mat3_eq <;> simp [euler321, h1, h2]

theorem bodyRot_rot (r t : ℝ) : IsRot (bodyRot r t) := by
  rw [← bodyRot_eq]; exact (C34_rotations _ _ _ 0).2.2.2.2

theorem camRot_rot (r t : ℝ) : IsRot (camRot r t) := by
  rw [← camRot_eq]; exact (C34_rotations _ _ _ 0).2.2.2.2

/-! ### Loops -/

theorem circleLoop_from {S : Type} (te dt w a b : ℝ) (body : ℝ → ℝ → ℝ → S → Except Fault S) (m : ℕ) :
    ∀ (n j : ℕ) (s : S), m < n → (∀ k < m, ((j + k : ℕ) : ℝ) * dt ≤ te) → ¬ ((j + m : ℕ) : ℝ) * dt ≤ te →
    circleLoop te dt w body n ((j : ℝ) * dt) (a + w * ((j : ℝ) * dt)) (b + w * ((j : ℝ) * dt)) s =
    (List.range' j m).foldlM (fun s (k : ℕ) => body ((k : ℝ) * dt) (a + w * ((k : ℝ) * dt)) (b + w * ((k : ℝ) * dt)) s) s := by
  induction m with
  | zero =>
    intro n j s hn _ hstop
    obtain ⟨n, rfl⟩ : ∃ n', n = n' + 1 := ⟨n - 1, by omega⟩
    unfold circleLoop
    rw [if_neg (by simpa using hstop)]
    rfl
  | succ m ih =>
    intro n j s hn hk hstop
    obtain ⟨n, rfl⟩ : ∃ n', n = n' + 1 := ⟨n - 1, by omega⟩
    unfold circleLoop
    rw [if_pos (by simpa using hk 0 (by omega)), List.range'_succ, List.foldlM_cons]
    congr 1
    funext s'
    have e : (j : ℝ) * dt + dt = ((j + 1 : ℕ) : ℝ) * dt := by push_cast; ring
    have := ih n (j + 1) s' (by omega) (fun k hk' => by
      have := hk (k + 1) (by omega)
      rwa [show j + (k + 1) = j + 1 + k by omega] at this)
      (by rwa [show j + 1 + m = j + (m + 1) by omega])
    rw [← this, e]
    congr 1 <;> (push_cast; ring)

theorem circleLoop_eq {S : Type} (te rate w a b : ℝ) (hr : 0 < rate) (hte : 0 ≤ te)
    (body : ℝ → ℝ → ℝ → S → Except Fault S) (n : ℕ) (s : S) (hn : ⌊te * rate⌋₊ + 1 < n) :
    circleLoop te (1 / rate) w body n 0 a b s =
    (List.range (⌊te * rate⌋₊ + 1)).foldlM (fun s (k : ℕ) =>
      body ((k : ℝ) * (1 / rate)) (a + w * ((k : ℝ) * (1 / rate))) (b + w * ((k : ℝ) * (1 / rate))) s) s := by
  have h := circleLoop_from te (1 / rate) w a b body (⌊te * rate⌋₊ + 1) n 0 s hn (fun k hk => by
    have h1 : (k : ℝ) ≤ te * rate := (Nat.le_floor_iff (by positivity)).mp (by omega)
    rw [zero_add, mul_one_div, div_le_iff₀ hr]
    exact h1) (fun h => by
    rw [zero_add, mul_one_div, div_le_iff₀ hr] at h
    have := (Nat.le_floor_iff (by positivity)).mpr h
    omega)
  rw [List.range_eq_range', ← h]
  simp

/-- A loop that always succeeds and appends. -/
theorem foldlM_range {S : Type} (f : S → ℕ → Except Fault S) (g : ℕ → S) (m : ℕ)
    (h : ∀ k < m, f (g k) k = .ok (g (k + 1))) : (List.range m).foldlM f (g 0) = .ok (g m) := by
  induction m with
  | zero => rfl
  | succ m ih =>
    rw [List.range_succ, List.foldlM_append, ih (fun k hk => h k (by omega)), AprilGrid.ok_bind, List.foldlM_cons,
      h m (by omega)]
    rfl

/-! ### Features seen -/

theorem see_fold (T : Mat4 ℝ) (l : List (Vec3 ℝ)) (n : ℕ) (o : List ℕ) (z : List Cam.Vec2) :
    l.foldl (seeStep T) (n, o, z) =
    (n + l.length,
     o ++ ((l.zipIdx n).filter (fun pi => (Cam.radtanProject res camParams (tfPoint T pi.1)).code = 0)).map Prod.snd,
     z ++ ((l.zipIdx n).filter (fun pi => (Cam.radtanProject res camParams (tfPoint T pi.1)).code = 0)).map
       (fun pi => ((Cam.radtanProject res camParams (tfPoint T pi.1)).zhat.getD ![0, 0]))) := by
  induction l generalizing n o z with
  | nil => simp
  | cons p l ih =>
    rw [List.foldl_cons, List.zipIdx_cons]
    by_cases h : (Cam.radtanProject res camParams (tfPoint T p)).code = 0
    · rw [show seeStep T (n, o, z) p = (n + 1, o ++ [n], z ++ [(Cam.radtanProject res camParams (tfPoint T p)).zhat.getD ![0, 0]]) by
        simp [seeStep, h], ih]
      simp only [List.filter_cons, h, decide_true, if_true, List.map_cons, List.length_cons, List.append_assoc,
        List.cons_append, List.nil_append]
      congr 1
      omega
    · rw [show seeStep T (n, o, z) p = (n + 1, o, z) by simp [seeStep, h], ih]
      simp only [List.filter_cons, h, decide_false, Bool.false_eq_true, if_false, List.length_cons]
      congr 1
      omega

theorem inv_point (r t : ℝ) (p : Vec3 ℝ) :
    tfPoint (tf (camRot r t) (place r t))⁻¹ p = (camRot r t)ᵀ *ᵥ (p - place r t) := by
  rw [Residual.tf_inverse _ _ (Nbv.rot_det_ne (camRot_rot r t)), isRot_inv (camRot_rot r t), tfPoint_tf, mulVec_sub]
  abel

end Yac.Sim
