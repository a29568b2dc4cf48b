import Verif.Report.ErrProps
import Verif.Mocap.Witness

/-! # C136: examples -/

namespace Yac.Report
open Yac.Text Yac.Fmt Yac.Csv

/-- **C136, refuted.**  A calibration with a frame in which the target could not be located: the table of motion capture poses
does not have the size that it announces. -/
theorem C136_mocap_poses_refuted : ∃ (env : Mocap.Env ℚ) (s s' : Mocap.Cal ℚ), Mocap.Created 1 1 s ∧ Mocap.solve env s = .ok s' ∧
    ¬ TableIs (posesTable s'.views.length (s'.est.poses.map (fun e => (e.1, e.2)))) (s'.est.poses.map (fun e => IntCell e.1 :: poseMeans e.2)) := by
  have hc := Mocap.Witness.created false false false
  obtain ⟨s1, s2, s', h, -⟩ := Mocap.C93_solve_partial Mocap.Witness.env hc
  refine ⟨Mocap.Witness.env, _, s', hc, h, ?_⟩
  rw [C136_mocap_poses Mocap.Witness.env hc h (fun v => v)]
  intro hall
  exact absurd (hall 6 (by decide +kernel)) (by decide +kernel)

/-- Two views with cameras 0 and 1, the second not accepted and without errors. -/
def first : Snap := ⟨100, true, [(0, [500, 501]), (1, [510, 511])], [(0, ![0, 0, 0, 0, 0, 0, 1]), (1, ![1 / 10, 0, 0, 0, 0, 0, 1])], -3, 4, [1 / 2, 1]⟩
def second : Snap := ⟨200, false, [(0, [502, 503]), (1, [512, 513])], [(0, ![0, 0, 0, 0, 0, 0, 1]), (1, ![1 / 5, 0, 0, 0, 0, 0, 1])], -2, 5, []⟩

theorem two_same : SameCameras [0, 1] [first, second] := by
  refine ⟨by decide, ?_⟩
  intro s hs
  simp only [List.mem_cons, List.not_mem_nil, or_false] at hs
  rcases hs with rfl | rfl
  · exact ⟨rfl, rfl⟩
  · exact ⟨rfl, rfl⟩

theorem two_distinct : ([first, second].map Snap.ts).Nodup := by decide

/-- The convergence table of the two. -/
example (stats : List ℚ → Fin 4 → ℚ) : ∃ t, convTable stats (after [first, second]) = .ok (some t) ∧ t.rows = 2 ∧ t.cols = 9 ∧ TableIs t
    [[IntCell 0, IntCell 100, IntCell 1, FixCell (-3), FixCell 4, FixCell (stats [1 / 2, 1] 0), FixCell (stats [1 / 2, 1] 1),
        FixCell (stats [1 / 2, 1] 2), FixCell (stats [1 / 2, 1] 3)],
     [IntCell 1, IntCell 200, IntCell 0, FixCell (-2), FixCell 5, Named "-1.0", Named "-1.0", Named "-1.0", Named "-1.0"]] := by
  obtain ⟨t, h1, h2⟩ := (C136_convergence stats [first, second]).2 (by simp)
  have hd := C136_distinct [first, second] two_distinct
  have e1 := hd first (by simp)
  have e2 := hd second (by simp)
  have h3 : TableIs t [[IntCell 0, IntCell 100, IntCell 1, FixCell (-3), FixCell 4, FixCell (stats [1 / 2, 1] 0), FixCell (stats [1 / 2, 1] 1),
        FixCell (stats [1 / 2, 1] 2), FixCell (stats [1 / 2, 1] 3)],
     [IntCell 1, IntCell 200, IntCell 0, FixCell (-2), FixCell 5, Named "-1.0", Named "-1.0", Named "-1.0", Named "-1.0"]] := by
    simp only [List.zipIdx_cons, List.zipIdx_nil, List.map_cons, List.map_nil, e1, e2] at h2
    simpa [statMeans, first, second, bit, List.ofFn_succ, List.replicate] using h2
  exact ⟨t, h1, h3.1, (h3.2.1 _ (List.mem_cons_self ..)).symm, h3⟩

/-- The extrinsics of camera 1, and the parameters of both. -/
example : (∃ ts, extTables (after [first, second]) [0, 1] = .ok ts ∧ ts.map Prod.fst = [1]) ∧
    ∃ ts, camTables (after [first, second]) [0, 1] = .ok ts ∧ ts.map Prod.fst = [0, 1] := by
  obtain ⟨ts, h1, h2, -⟩ := C136_extrinsics [0, 1] [first, second] two_same
  obtain ⟨ts', h3, h4, -⟩ := C136_cameras_partial [0, 1] [first, second] two_same (by simp) 2 (by norm_num)
    (by
      intro s hs e he
      simp only [List.mem_cons, List.not_mem_nil, or_false] at hs
      rcases hs with rfl | rfl <;> simp only [first, second, List.mem_cons, List.not_mem_nil, or_false] at he <;>
        rcases he with rfl | rfl <;> rfl)
  exact ⟨⟨ts, h1, by rw [h2]; decide⟩, ts', h3, h4⟩

/-- Two corners of one camera. -/
example : ∃ t, errTable (after [first, second]) [(200, [(1, [corner true, corner true])])] = .ok t ∧ t.rows = 2 ∧
    TableIs t ([corner true, corner true].map (cornerMeans 1 200 false)) := by
  obtain ⟨t, h1, h2⟩ := C136_errors_partial [first, second] second (by simp) 1 [corner true, corner true] (by intro c hc; simp at hc; subst hc; rfl)
  rw [C136_distinct [first, second] two_distinct second (by simp)] at h2
  exact ⟨t, h1, h2.1, h2⟩

/-- A calibration without next best views has no history. -/
example : errTable (after []) [(200, [(1, [corner true])])] = .error .exn :=
  C136_errors_untracked [] 200 1 [corner true] (by simp) (by simp) [] []

/-- Two poses for two views. -/
example : TableIs (posesTable 2 [(1, fun _ => 0), (2, fun _ => 1)])
    ([(1, fun _ => 0), (2, fun _ => 1)].map (fun e : ℤ × (Fin 7 → ℚ) => IntCell e.1 :: poseMeans e.2)) :=
  (C136_poses 2 _).2.2.mpr rfl

end Yac.Report
