import Verif.Setup.RigProps

/-!
# C98: four images of a board and a camera
-/

namespace Yac.Setup
open Yac.AprilGrid (Grid fullyObservable)
open Yac.Calib Yac.Misc

/-- The board of `eyeGrid` at time `ts`. -/
def eyeAt (ts : Int) : Grid ℝ := { eyeGrid with timestamp := ts }

theorem eyeAt_fish (ts : Int) : Fisheye (eyeAt ts) 0 (8 / Real.pi) :=
  let h := eyeFish
  ⟨h.axis_ok, h.count, h.full, h.two, h.arcs⟩

noncomputable def rig0 : Rig := ⟨Cal.new 2 2 0, []⟩

/-- A board of which nothing was seen. -/
noncomputable def unseen : Grid ℝ := AprilGrid.new 9 2 2 1 0

/-- `C98_fisheye` applies to four images and one in which nothing was detected. -/
example : ∃ grids : List (Grid ℝ), SMap.find 0 rig0.cal.params = none ∧
    (∀ g ∈ grids, g.init = true ∧ (g.nbDetections < (g.tagRows * g.tagCols * 4 : Nat) ∨
      (g.detected = true ∧ Fisheye g 0 (8 / Real.pi)))) ∧
    4 ≤ (grids.filter (fun g => g.nbDetections == ((g.tagRows * g.tagCols * 4 : Nat) : Int))).length := by
  refine ⟨[eyeAt 1, eyeAt 2, unseen, eyeAt 3, eyeAt 4], rfl, ?_, ?_⟩
  · intro g hg
    simp only [List.mem_cons, List.not_mem_nil, or_false] at hg
    rcases hg with rfl | rfl | rfl | rfl | rfl
    · exact ⟨rfl, Or.inr ⟨rfl, eyeAt_fish 1⟩⟩
    · exact ⟨rfl, Or.inr ⟨rfl, eyeAt_fish 2⟩⟩
    · exact ⟨rfl, Or.inl (by decide)⟩
    · exact ⟨rfl, Or.inr ⟨rfl, eyeAt_fish 3⟩⟩
    · exact ⟨rfl, Or.inr ⟨rfl, eyeAt_fish 4⟩⟩
  · exact le_refl 4

/-- The estimates of two images: `C98_focal`, `C98_few`, `C98_fixed_refuted` and `C98_split_refuted`
apply to lists of them. -/
theorem eye_estimates (solve : LinSolver) (hsolve : ∀ rows, IsLeastSquares rows (solve rows)) (l : List Int) :
    Estimates solve (l.map eyeAt) (List.replicate l.length (8 / Real.pi)) := by
  refine ⟨List.replicate l.length (some (8 / Real.pi)), ?_, ?_⟩
  · induction l with
    | nil => exact .nil
    | cons a l ih =>
      refine .cons ?_ ih
      rw [if_pos ⟨rfl, rfl⟩]
      exact C97_focal solve hsolve (eyeAt a) 0 _ (eyeAt_fish a)
  · rw [List.filterMap_replicate_of_some (f := id) rfl]

/-- Three images in each of two calls. -/
example (solve : LinSolver) (hsolve : ∀ rows, IsLeastSquares rows (solve rows)) :
    (∃ s', addData solve rig0 0 ([1, 2, 3].map eyeAt ++ [4, 5, 6].map eyeAt) true = .ok s' ∧
      SMap.find 0 s'.focal = some (8 / Real.pi)) ∧
    ∃ s', (addData solve rig0 0 ([1, 2, 3].map eyeAt) true >>= fun s =>
      addData solve s 0 ([4, 5, 6].map eyeAt) true) = .ok s' ∧ s'.focal = [] := by
  refine C98_split_refuted solve rig0 0 _ _ _ _ (8 / Real.pi) ?_ (eye_estimates solve hsolve [1, 2, 3])
    (eye_estimates solve hsolve [4, 5, 6]) (le_refl 3) (le_refl 3) (by decide) ?_ rfl
  · intro g hg _
    rcases List.mem_append.mp hg with hg | hg <;>
    · obtain ⟨t, _, rfl⟩ := List.mem_map.mp hg
      rfl
  · exact median_replicate 6 (by decide) _

/-- A camera with focal length 500, fixed, before and after. -/
example (solve : LinSolver) (hsolve : ∀ rows, IsLeastSquares rows (solve rows)) (s : Rig)
    (hs : addCam rig0 0 "pinhole" "equi4" [500, 500, 320, 240] [0, 0, 0, 0] [0, 0, 0, 1, 0, 0, 0] true false
      = .ok s) :
    ∃ s', addData solve s 0 ([1, 2, 3, 4].map eyeAt) true = .ok s' ∧
      SMap.find 0 s'.cal.params ≠ SMap.find 0 s.cal.params := by
  have hp : SMap.find 0 s.cal.params = some ⟨[500, 500, 320, 240] ++ [0, 0, 0, 0], true⟩ := by
    unfold addCam Calib.addCamera at hs
    rw [if_pos (by decide)] at hs
    simp only [rig0, Cal.new, SMap.find, Option.isSome_none, Bool.false_eq_true, if_false, AprilGrid.ok_bind,
      Except.ok.injEq] at hs
    subst hs
    rfl
  refine C98_fixed_refuted solve s 0 _ _ (8 / Real.pi) 500 500 _ ?_ (eye_estimates solve hsolve [1, 2, 3, 4])
    (le_refl 4) (median_replicate 4 (by decide) _) ?_ hp
  · intro g hg _
    obtain ⟨t, _, rfl⟩ := List.mem_map.mp hg
    rfl
  · have h3 := Real.pi_gt_three
    rw [Ne, div_eq_iff Real.pi_ne_zero]
    intro e
    linarith

end Yac.Setup
