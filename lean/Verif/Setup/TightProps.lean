import Verif.Setup.RigProps
import Verif.Setup.InspectProps

/-!
# C97, C98, C100: error paths and calls for several cameras
-/

namespace Yac.Setup

open Yac.AprilGrid (Grid)
open Yac.Calib

/-- C97: an axis that is neither 0 nor 1 is fatal for a board that is seen completely. -/
theorem C97_axis (solve : List ((Fin 3 → ℝ) × ℝ) → Fin 3 → ℝ) (g : Grid ℝ) (axis : Int)
    (h : ((g.tagRows * g.tagCols * 4 : Nat) : Int) ≤ g.nbDetections) (h0 : axis ≠ 0) (h1 : axis ≠ 1) :
    focalInit solve g axis = .error .fatal := by
  unfold focalInit lines
  rw [if_neg (by omega), if_neg h0, if_neg h1]
  rfl

/-- C97: a board of a single row gives no focal length along the rows, a board of a single column none along
the columns: the call fails and the board is not used. -/
theorem C97_single (solve : List ((Fin 3 → ℝ) × ℝ) → Fin 3 → ℝ) (g : Grid ℝ) (axis : Int)
    (ha : (axis = 0 ∧ g.tagRows = 1) ∨ (axis = 1 ∧ g.tagCols = 1))
    (full : ∀ tag < g.tagRows * g.tagCols, ∀ c < 4, ∃ p, Seen g (tag : Nat) (c : Nat) p) :
    focalInit solve g axis = .ok none := by
  unfold focalInit
  split_ifs with hn
  · rfl
  · obtain ⟨ls, e, hf⟩ := lines_ok (ha.imp And.left And.left) full
    have hlen : ls.length = 1 := by
      rw [← hf.length_eq, List.length_range]
      unfold lineCount
      rcases ha with ⟨rfl, h⟩ | ⟨rfl, h⟩
      · rw [if_pos rfl]; exact h
      · rw [if_neg (by decide)]; exact h
    obtain ⟨l, rfl⟩ := List.length_eq_one_iff.1 hlen
    rw [e, AprilGrid.ok_bind]
    rfl

/-- C98: data for several cameras without initialisation: the grids of all cameras are added, and nothing
else changes. -/
theorem C98_all_off (solve : LinSolver) (s : Rig) (grids : List (Int × List (Grid ℝ))) :
    addDataAll solve s grids false =
      .ok { s with cal := grids.foldl (fun c cg => addCameraData c cg.1 cg.2) s.cal } := by
  unfold addDataAll
  induction grids generalizing s with
  | nil => rfl
  | cons cg l ih =>
    rw [List.foldlM_cons, (C98_few solve s cg.1 cg.2).1, AprilGrid.ok_bind, ih]
    rfl

/-- C98: data for several cameras with initialisation: as one call for each camera, in the order of the
cameras; the first one that fails ends it. -/
theorem C98_all_on (solve : LinSolver) (s : Rig) (cam : Int) (gs : List (Grid ℝ)) (rest : List (Int × List (Grid ℝ)))
    (init : Bool) :
    addDataAll solve s [] init = .ok s ∧
    (∀ s', addData solve s cam gs init = .ok s' →
      addDataAll solve s ((cam, gs) :: rest) init = addDataAll solve s' rest init) ∧
    (∀ e, addData solve s cam gs init = .error e → addDataAll solve s ((cam, gs) :: rest) init = .error e) := by
  refine ⟨rfl, ?_, ?_⟩
  · intro s' h
    unfold addDataAll
    rw [List.foldlM_cons, h, AprilGrid.ok_bind]
  · intro e h
    unfold addDataAll
    rw [List.foldlM_cons, h]
    rfl

variable {V : Type}

/-- C100: if every camera has extrinsics, a camera without validation data makes the call throw. -/
theorem C100_missing (env : InspEnv V) (s : Cal ℝ V) (valid : List (Int × List (Grid ℝ)))
    (hl : s.exts.length = s.params.length) (he : ∀ j ∈ camIdxs s, (SMap.find j s.exts).isSome) (i : Int)
    (hi : i ∈ camIdxs s) (hm : SMap.find i valid = none) :
    inspect env s valid = .error .exn := by
  have hp : ∀ j ∈ camIdxs s, (SMap.find j s.params).isSome := by
    intro j hj
    rw [SMap.find_isSome]
    exact hj
  have hlen : s.params.length ≠ 0 := by
    intro h
    rw [List.length_eq_zero_iff] at h
    unfold camIdxs at hi
    rw [h] at hi
    cases hi
  have key : ∀ (l : List Int), (∀ j ∈ l, j ∈ camIdxs s) → i ∈ l → ∀ acc : List (Int × Geom.Mat4 ℝ),
      l.foldlM (fun poses cam =>
        inspCam s valid cam >>= fun c => .ok (c.2.2.foldl (inspPose env cam c.1 c.2.1) poses)) acc =
        (.error .exn : Except Fault (List (Int × Geom.Mat4 ℝ))) := by
    intro l
    induction l with
    | nil => intro _ h; cases h
    | cons a l ih =>
      intro hl' hmem acc
      rw [List.foldlM_cons]
      obtain ⟨p, hp'⟩ := Option.isSome_iff_exists.1 (hp a (hl' a (by simp)))
      obtain ⟨e, he'⟩ := Option.isSome_iff_exists.1 (he a (hl' a (by simp)))
      cases hv : SMap.find a valid with
      | none =>
        have : inspCam s valid a = .error .exn := by
          unfold inspCam
          rw [hp', he', hv]
        rw [this]
        rfl
      | some gs =>
        have : inspCam s valid a = .ok (p.val, e.val, gs) := by
          unfold inspCam
          rw [hp', he', hv]
        rw [this]
        have hne : i ∈ l := by
          rcases List.mem_cons.1 hmem with h | h
          · rw [← h, hm] at hv; cases hv
          · exact h
        exact ih (fun j hj => hl' j (by simp [hj])) hne _
  unfold inspect inspPoses
  rw [if_neg hlen, if_neg (by omega), if_neg (by simp [hl]), key _ (fun j h => h) hi []]
  rfl

/-- Witness: two cameras, the second one without data. -/
example (env : InspEnv ℕ) (s : Cal ℝ ℕ) (h1 : s.params = [(0, ⟨1, false⟩), (1, ⟨2, false⟩)])
    (h2 : s.exts = [(0, ⟨3, false⟩), (1, ⟨4, false⟩)]) : inspect env s [(0, [])] = .error .exn :=
  C100_missing env s _ (by rw [h1, h2]; rfl) (by
    intro j hj
    unfold camIdxs at hj
    rw [h1] at hj
    simp only [List.map_cons, List.map_nil, List.mem_cons, List.not_mem_nil, or_false] at hj
    rcases hj with rfl | rfl <;> rw [h2] <;> rfl) 1
    (by unfold camIdxs; rw [h1]; simp) rfl

end Yac.Setup
