import Verif.VI.LoadProps

/-!
A data set for C118: two cameras, samples at 0, 1, ..., 17, frames at 3, 8, 9, 15 and 20, returned in
the opposite order, with nothing detected at 9.
-/

namespace Yac.VI.Witness

open Yac.AprilGrid (Grid)
open Yac.VI

def shot (_ t : Int) : Grid ℕ := { g t with detected := decide (t ≠ 9) }
def times : List Int := [3, 8, 9, 15, 20]
def din : LoadIn ℕ Unit :=
  ⟨fun c => (times.map (shot c)).reverse, (List.range 18).map (fun (k : Nat) => ((k : Int), (), ()))⟩
def empty2 : S := val (addCamera (val (addCamera (St.new false 2 false false) 0 false false)) 1 false false)

theorem din_sync (cams : List Int) : Sync cams din times shot where
  asc := by decide
  stamp _ _ := rfl
  grids c _ := (List.reverse_perm _)
  imu := by decide +kernel

/-- C118 witness: the hypotheses of `C118_frames` and `C118_views`; the views are at 3, 8 and 15, and the frame
at 20 waits in the buffer. -/
example : Sync (empty2.cams.map Prod.fst) din times shot ∧ empty2.cams ≠ [] ∧ SMap.Sorted empty2.cams ∧
    empty2.gridBuf = [] ∧ empty2.imuStarted = false ∧ empty2.initialized = false ∧ empty2.views = [] ∧
    empty2.imu.size = 0 ∧ empty2.enableMarg = false ∧
    loadData env din empty2 = .ok (val (loadData env din empty2)) ∧
    (val (loadData env din empty2)).views.map View.ts = [3, 8, 15] ∧
    (val (loadData env din empty2)).gridBuf.map (fun cg => (cg.1, cg.2.timestamp)) = [(0, 20), (1, 20)] := by
  refine ⟨din_sync _, by decide +kernel, by unfold SMap.Sorted; decide +kernel, by decide +kernel, by decide +kernel, by decide +kernel,
    by decide +kernel, by decide +kernel, by decide +kernel, val_eq (by decide +kernel), by decide +kernel,
    by decide +kernel⟩

/-- C118 witness: the hypotheses of `C118_unsynchronised_refuted`. -/
example : empty2.cams = [(0, ⟨false, false⟩), (1, ⟨false, false⟩)] ∧ empty2.gridBuf = [] ∧ (1 : Int) < (g 2).timestamp ∧
    (g 2).timestamp < (g 3).timestamp ∧ (g 3).timestamp < 5 := by
  refine ⟨rfl, rfl, by decide, by decide, by decide⟩

/-- C118 witness: exact arithmetic is `Double`; a table with two rows for a view. -/
example : Double (fun x => x) ∧ |(1403709395 : ℤ)| ≤ 4611686018 ∧
    tsform (fun x => x) 1403709395 937837056 = 1403709395937837056 ∧
    loadTable (fun x => x) (fun r => match r with | [v] => .ok v | _ => .error .oob)
      (some [[1, 5, 7], [1, 6, 8], [1, 5, 9]]) [(1000000005, (0 : ℚ)), (3, 4)] =
      .ok [(1000000005, 9), (3, 4)] := by
  refine ⟨fun _ _ _ => rfl, by norm_num, ?_, ?_⟩
  · rw [C118_tsform _ (fun _ _ _ => rfl) _ _ (by norm_num)]
    norm_num
  · have := (C118_tables (fun x => x) (fun _ _ _ => rfl) (fun r => match r with | [v] => .ok v | _ => .error .oob)
      (fun v => [v]) (fun _ => rfl) [((1, 5), (7 : ℚ)), ((1, 6), 8), ((1, 5), 9)] (by simp) [(1000000005, 0), (3, 4)]).1
    simp [rowOf, lastOf, List.filter] at this
    exact this

end Yac.VI.Witness
