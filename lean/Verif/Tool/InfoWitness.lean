import Verif.Tool.InfoVi
import Verif.Calib.CameraWitness
import Verif.VI.LoadWitness

/-! Concrete data sets that meet the hypotheses of the theorems about C134. -/

namespace Yac.Tool.Witness

open Yac.AprilGrid (Grid)
open Yac.Tool Matrix

/-! Two cameras; the target is seen at 5 and 9, and not at 12. -/

open Yac.Calib.Witness (env s2 grid) in
/-- The data of the two cameras. -/
def d : List (ℤ × List (Grid ℚ)) := [(0, [grid 5 2, grid 9 3, AprilGrid.new 12 1 1 1 0]), (1, [grid 9 5])]

/-- What the tool says about it. -/
def out : Calib.Cal ℚ ℤ × Maps ℚ :=
  Calib.Witness.val (Calib.Witness.s2, ⟨[], []⟩) (camInfo Calib.Witness.env Calib.Witness.s2 d)

/-- The calibrator after the two views. -/
def seen : Calib.Cal ℚ ℤ := Calib.Witness.val Calib.Witness.s2
  (addViews Calib.Witness.env Calib.Witness.s2 (viewsAt (cameraData d) (fun t => decide (t < 12))))

theorem ran : camInfo Calib.Witness.env Calib.Witness.s2 d = .ok out :=
  Calib.Witness.val_eq (d := (Calib.Witness.s2, ⟨[], []⟩)) (by decide +kernel)

/-- C134 witness: the hypotheses of `C134_frames` and `C134_camera`; three lines for two views. -/
example : (d.map Prod.fst).Nodup ∧ (∀ cg ∈ d, (cg.2.map (fun g => g.timestamp)).Nodup) ∧
    camInfo Calib.Witness.env Calib.Witness.s2 d = .ok (out.1, out.2) ∧
    (cameraData d).map (fun tv => (tv.1, tv.2.map Prod.fst)) = [(5, [0]), (9, [0, 1]), (12, [0])] ∧
    out.2.info = [(5, -1), (9, -2), (12, -2)] ∧ out.2.entropy = [(5, 0), (9, 0), (12, 0)] ∧ Calib.nbViews out.1 = 2 := by
  refine ⟨by decide +kernel, by decide +kernel, ran, by decide +kernel, by decide +kernel,
    by decide +kernel, by decide +kernel⟩

/-- C134 witness: the hypotheses of `C134_unseen_refuted`. -/
example : (12, [(0, AprilGrid.new 12 1 1 1 0)]) ∈ cameraData d ∧
    (∀ cg ∈ [((0 : ℤ), (AprilGrid.new 12 1 1 1 0 : Grid ℚ))], cg.2.detected = false) ∧
    addViews Calib.Witness.env Calib.Witness.s2 (viewsAt (cameraData d) (fun t => decide (t < 12))) = .ok seen ∧
    Calib.Witness.env.info seen = some (-2, 0) := by
  have hs := (data_sorted d).1
  refine ⟨(SMap.find_eq_some hs).1 (by rfl), ?_, Calib.Witness.val_eq (by decide +kernel), by decide +kernel⟩
  intro cg h
  rw [List.mem_singleton.1 h]
  rfl

/-- C134 witness: `C134_file` about this report. -/
example : Paired out.2 ∧ saveInfo true out.2 =
    .ok ("view_idx,ts,info,entropy\n0,5,-1.000000,0.000000\n1,9,-2.000000,0.000000\n2,12,-2.000000,0.000000\n".toList) := by
  have h := ((C134_camera Calib.Witness.env Calib.Witness.s2 d).1 out.1 out.2 ran).2.1
  exact ⟨h, by decide +kernel⟩

/-- C134 witness: a mode that does not exist. -/
example : "imu".toList ≠ "camera".toList ∧ "imu".toList ≠ "camera-imu".toList := by decide

/-! The visual-inertial mode: the data set of C118. -/

/-- Number of views and number of cameras instead of a covariance; nothing after two views. -/
def est (s : VI.St ℕ Unit) : Option (ℕ × ℕ) := if s.views.length = 2 then none else some (s.views.length, s.cams.length)

/-- What the tool says about it. -/
def viOut : VI.St ℕ Unit × Maps ℕ :=
  match viInfo VI.Witness.env est VI.Witness.empty2 VI.Witness.din with
  | .ok r => r
  | .error _ => (VI.Witness.empty2, ⟨[], []⟩)

/-- C134 witness: the hypotheses of `C134_vi`; the first two views are made by the sample at 8, for which there is
no estimate, the third one by the sample at 15. -/
example : viInfo VI.Witness.env est VI.Witness.empty2 VI.Witness.din = .ok (viOut.1, viOut.2) ∧
    (VI.Witness.din.imu.map Prod.fst).Nodup ∧ viOut.1.views.length = 3 ∧
    viOut.2.entropy = [(15, 2)] ∧ viOut.2.info = [(15, 3)] := by
  refine ⟨?_, by decide +kernel, by decide +kernel, by decide +kernel, by decide +kernel⟩
  have h : VI.Witness.good (viInfo VI.Witness.env est VI.Witness.empty2 VI.Witness.din) = true := by decide +kernel
  unfold viOut
  cases hx : viInfo VI.Witness.env est VI.Witness.empty2 VI.Witness.din with
  | ok r => rfl
  | error e => rw [hx] at h; cases h

/-- C134 witness: the hypotheses of `C134_values`: seven residuals, each component of the extrinsics measured together with one other
parameter, which is measured by itself too. -/
example : ∃ (cov : VI.St ℕ Unit → VI.Recover.Cov) (E : Matrix (Fin 6 ⊕ Unit) (Fin 6) ℝ) (X : Matrix (Fin 6 ⊕ Unit) Unit ℝ),
    VI.Recover.Free (cov viOut.1) E X ∧ (∀ (u : Fin 6 → ℝ) (v : Unit → ℝ), E *ᵥ u + X *ᵥ v = 0 → u = 0 ∧ v = 0) := by
  obtain ⟨E, hE⟩ : ∃ E : Matrix (Fin 6 ⊕ Unit) (Fin 6) ℝ, E = Matrix.of (Sum.elim (fun i j => if i = j then 1 else 0) (fun _ _ => 0)) :=
    ⟨_, rfl⟩
  obtain ⟨X, hX⟩ : ∃ X : Matrix (Fin 6 ⊕ Unit) Unit ℝ, X = Matrix.of (fun _ _ => 1) := ⟨_, rfl⟩
  have hfull : ∀ (u : Fin 6 → ℝ) (v : Unit → ℝ), E *ᵥ u + X *ᵥ v = 0 → u = 0 ∧ v = 0 := by
    intro u v h
    have h1 := congrFun h (Sum.inr ())
    have hv : v = 0 := by
      funext x
      simpa [hE, hX, mulVec, dotProduct] using h1
    refine ⟨?_, hv⟩
    funext i
    have h2 := congrFun h (Sum.inl i)
    simpa [hE, hX, mulVec, dotProduct, hv] using h2
  exact ⟨fun _ => ⟨true, ((fromBlocks (Eᵀ * E) (Eᵀ * X) (Xᵀ * E) (Xᵀ * X))⁻¹).toBlocks₁₁⟩, E, X,
    ⟨⟨fun _ => hfull, fun _ => rfl⟩, fun _ => rfl⟩, hfull⟩

end Yac.Tool.Witness
