import Verif.Sim.Props

/-!
# Witnesses for C102
-/

namespace Yac.Sim
open Matrix Yac.Geom Yac.Nbt Yac.Residual

/-- Radius 5: the data set, its first camera frame, its first IMU sample. -/
example (fuel : ℕ) (hf : samples 5 400 < fuel) (hf' : samples 5 30 < fuel) :
    ∃ W, simulate fuel 5 (fun _ => 1 / 2) (fun _ => 0) = .ok W ∧ W.features.length = 100 ∧
      (∃ f, W.cam[0]? = some f ∧ f.ts = 0 ∧ f.pos = (![-5, 0, 0] : Vec3 ℝ)) ∧
      ∃ s, W.imu[0]? = some s ∧ s.acc = (![0, -(9 / 500), 9.81] : Vec3 ℝ) := by
  obtain ⟨W, h1, h2, h3, h4, -⟩ := C102_data 5 (by norm_num) (fun _ => 1 / 2) (fun _ => 0) fuel hf hf'
  refine ⟨W, h1, ?_, ⟨frameAt 5 (fun _ => 1 / 2) W.features 0, ?_, ?_, ?_⟩, ⟨sampleAt 5 0, ?_, ?_⟩⟩
  · rw [h2]; rfl
  · rw [h3, List.getElem?_map]
    simp [samples]
  · simp [frameAt, secToTs_zero']
  · have := (C102_kinematics 5 (by norm_num) 0 0).2.2.2.2.2.2.1
    simpa [frameAt] using this
  · rw [h4, List.getElem?_map]
    simp [samples]
  · simp only [sampleAt, speed]
    norm_num

/-- Fuel exists. -/
example : ∃ fuel, samples 5 400 < fuel ∧ samples 5 30 < fuel :=
  ⟨samples 5 400 + samples 5 30 + 1, by omega, by omega⟩

/-- A scene with one feature ahead at the start: the first frame sees it in the centre. -/
example (u : ℕ → ℝ) : (frameAt 5 u [place 5 0 + (5 : ℝ) • heading 5 0] 0).obs = [0] ∧
    (frameAt 5 u [place 5 0 + (5 : ℝ) • heading 5 0] 0).kps = [![320, 240]] := by
  have h := (C102_camera 5 0 5).2.1 (by norm_num)
  constructor
  · simp [frameAt, seen, h]
  · simp [frameAt, seenAt, h]

/-- Random numbers between 0 and 1: the noisy pose of the second frame. -/
example (F : List (Vec3 ℝ)) : ∀ j, |tfTrans (frameAt 5 (fun _ => 1 / 4) F 1).noisy j - (frameAt 5 (fun _ => 1 / 4) F 1).pos j| ≤ 1 / 10 :=
  (C102_noise 5 (fun _ => 1 / 4) (fun _ => by norm_num) F 1).1

/-- A box of size 1, 2, 3 with eight features. -/
example : (perimeter (fun _ => 1 / 3) 0 ![1, 2, 3] 8).length = 8 :=
  (C102_features (fun _ => 1 / 3) (fun _ => by norm_num) 0 ![1, 2, 3] (fun i => by fin_cases i <;> simp) 8).1

end Yac.Sim
