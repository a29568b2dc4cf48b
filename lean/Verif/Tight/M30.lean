import Verif.Tool.ProgProps

/-!
Tightening of C150: a mode that is not known, and what `save_results` answers.
-/

namespace Yac.Tool.Prog

/-- C150: calib_inspect aborts for a mode it does not know, before anything is read. -/
theorem C150_inspect_mode {K V D : Type} [DecidableEq K] (i : Insp K V D)
    (dataset : List Char → Except Fault (List (Int × List (AprilGrid.Grid ℝ)))) (prog mode config data : List Char)
    (h : mode ≠ "camera".toList) (h' : mode ≠ "camera-imu".toList) :
    inspectMain i dataset [prog, mode, config, data] = .error .fatal := by
  unfold inspectMain
  simp only
  rw [if_neg h, if_neg h']

/-- C150: `save_results` answers -1 and touches nothing when the file cannot be opened; it answers 0 exactly when the complete
document is in the file. -/
theorem C150_save {Y : Type} (w : List Char → Bool) (path : List Char) (doc : Except Fault Y) (d : Disk Y) :
    (w path = false → saveResults w path doc d = (d, .ok (-1))) ∧
    ((saveResults w path doc d).2 = .ok 0 ↔ w path = true ∧ ∃ y, doc = .ok y) ∧
    (∀ y, w path = true → doc = .ok y → (saveResults w path doc d).1 path = some (.doc y)) := by
  refine ⟨fun h => ?_, ?_, fun y h e => ?_⟩
  · unfold saveResults
    rw [if_pos h]
  · unfold saveResults
    cases h : w path with
    | false =>
      rw [if_pos rfl]
      constructor
      · intro e
        cases e
      · rintro ⟨e, _⟩
        cases e
    | true =>
      rw [if_neg (by decide)]
      cases doc with
      | ok y => exact ⟨fun _ => ⟨rfl, y, rfl⟩, fun _ => rfl⟩
      | error f =>
        constructor
        · intro e
          cases e
        · rintro ⟨_, y, e⟩
          cases e
  · unfold saveResults
    rw [h, if_neg (by decide), e]
    exact if_pos rfl

example : ∃ mode : List Char, mode ≠ "camera".toList ∧ mode ≠ "camera-imu".toList := ⟨"vi".toList, by decide, by decide⟩

end Yac.Tool.Prog
