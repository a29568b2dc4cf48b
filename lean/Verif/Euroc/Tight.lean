import Verif.Euroc.Witness

/-! # C121, C122: what kind of failure -/

namespace Yac.Ctor
open Yac.Config

/-- A camera with an unknown model ends the program; nothing is added. -/
theorem C121_unknown (cams : List (ℤ × Camera)) (n : ℕ) (res : List ℤ) (proj dist : Str) (k d : List ℝ) (h : ¬ ModelsOk proj dist) :
    addCamera cams n res proj dist k d = .error .fatal ∧ addCameraDefault cams n res proj dist = .error .fatal := by
  unfold ModelsOk at h
  have hs : supported proj dist = false := by
    unfold supported
    rw [Bool.eq_false_iff]
    intro hc
    simp only [Bool.and_eq_true, Bool.or_eq_true, decide_eq_true_eq] at hc
    exact h hc
  unfold addCamera addCameraDefault
  rw [hs]
  refine ⟨rfl, ?_⟩
  by_cases hp : proj = "pinhole".toList
  · rw [if_pos hp, if_neg (fun hd => h ⟨hp, hd⟩)]
  · rw [if_neg hp]

example : ¬ ModelsOk "omni".toList "radtan4".toList := by
  intro h
  exact absurd h.1 (by decide)

end Yac.Ctor

namespace Yac.Euroc
open Yac.Config Yac.Ctor

/-- Without the file of the target the program ends. -/
theorem C122_notarget (D : Dec) (disk : Disk) (file : Str) (h : disk.doc file = none) : target D disk file = .error .fatal := by
  unfold target
  rw [h]

/-- The first and last timestamps of an empty data set are undefined. -/
theorem C122_empty_refuted (c : Camera) (d : Imu) (h : c.timestamps = [] ∨ d.timestamps = []) :
    minTimestamp c d = .error .oob ∧ maxTimestamp c d = .error .oob := by
  unfold minTimestamp maxTimestamp
  rcases h with h | h
  · rw [h]; exact ⟨rfl, rfl⟩
  · rw [h]
    constructor
    · cases c.timestamps <;> rfl
    · cases c.timestamps.getLast? <;> rfl

/-- The loop over the timestamps reads past the end of the set, whatever the set is: if nothing is there, or by chance a
timestamp equal to the last, the behaviour is undefined. -/
theorem C122_past_refuted (past : Option ℤ) (ts : ℤ) (l : List ℤ) (hl : ∀ x ∈ l, x = ts) (h : past = none ∨ past = some ts) :
    advance past ts l = .error .oob := by
  induction l with
  | nil =>
    rcases h with rfl | rfl
    · rfl
    · show (if ts = ts then _ else _) = _
      rw [if_pos rfl]
  | cons x l ih =>
    show (if x = ts then advance past ts l else _) = _
    rw [if_pos (hl x (by simp)), ih (fun y hy => hl y (by simp [hy]))]

example : advance none 5 [] = .error .oob := C122_past_refuted none 5 [] (by simp) (Or.inl rfl)

end Yac.Euroc
