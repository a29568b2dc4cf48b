import Verif.Gimbal2.Props

/-! # C135: a missing configuration, and the origin cameras -/

namespace Yac.Gimbal2
open Yac.Geom Yac.Gimbal Yac.Text Matrix

theorem okOf {α β : Type} {a : Except Fault α} {f : α → Except Fault β} {b : β} (h : (a >>= f) = .ok b) : ∃ x, a = .ok x ∧ f x = .ok b := by
  cases a with
  | error e => cases h
  | ok x => exact ⟨x, rfl, h⟩

/-- **C135, no file.**  A configuration that cannot be opened ends the program with a message. -/
theorem C135_no_file : loadConfig none = .error .fatal := rfl

/-- **C135, origins.**  An initial pose moves no point, and whatever a configuration that can be read says, cameras 0 and 2 have the
initial pose. -/
theorem C135_origin : (∀ x, place initial x = x) ∧
    ∀ (file : Option Str) (c : Config), loadConfig file = .ok c →
      c.cam0.map (fun q : ℚ => (q : ℝ)) = List.ofFn initial ∧ c.cam2.map (fun q : ℚ => (q : ℝ)) = List.ofFn initial := by
  constructor
  · intro x
    exact place_here x
  · intro file c h
    unfold loadConfig at h
    cases file with
    | none => cases h
    | some f =>
      simp only at h
      iterate 9
        obtain ⟨_, -, h⟩ := okOf h
      cases h
      simp [initial, List.ofFn_succ]

end Yac.Gimbal2
