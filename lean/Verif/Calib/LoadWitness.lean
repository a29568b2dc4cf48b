import Verif.Calib.LoadProps
import Verif.Calib.OutlierWitness

/-!
A data set for C117: the cameras of `Witness.s2`; both cameras saw the target at the first
timestamp, camera 1 at the second, and there is a file that is not named after a timestamp.
-/

namespace Yac.Calib.Witness

open Yac.Calib
open Yac.Data (File)
open Yac.Geom Yac.Text

def stamp1' : Nat := 1403709395937837056
def stamp2' : Nat := 1403709395987837056

def gridFile (ts : Nat) (z : ℚ) : File ℚ :=
  .csv [⟨ts, 1, 1, 1, 0, z, -z, 0, 0, 0, 0, 0⟩, ⟨ts, 1, 1, 1, 0, z + 1, 4, 1, 1, 0, 0, 2⟩]

def named (ts : Nat) (z : ℚ) : List Char × File ℚ := (natText ts ++ ".csv".toList, gridFile ts z)

/-- `none` of the poses is in a file. -/
def dset (poses : Option (List Char)) : DataSet ℚ where
  grids cam := if cam = 0 then [named stamp1' 2, ("notes.csv".toList, gridFile 0 1)]
    else [named stamp1' 3, named stamp2' 4]
  poses := poses

theorem dset_record {p : Option (List Char)} {cam ts : Int} {f : File ℚ} (h : record (dset p) cam ts = some f) :
    ∃ n z, f = gridFile n z ∧ (n : Int) = ts := by
  unfold record at h
  rw [Option.map_eq_some_iff] at h
  obtain ⟨nf, h1, h2⟩ := h
  have hm := List.mem_of_getLast? h1
  rw [List.mem_filter, Bool.and_eq_true, decide_eq_true_eq] at hm
  obtain ⟨hm, ht, hts⟩ := hm
  have e1 : Data.tsOf (natText stamp1' ++ ".csv".toList) = (stamp1' : Nat) :=
    (C117_names stamp1' (by decide +kernel) (by decide +kernel) _).2
  have e2 : Data.tsOf (natText stamp2' ++ ".csv".toList) = (stamp2' : Nat) :=
    (C117_names stamp2' (by decide +kernel) (by decide +kernel) _).2
  have hn : Data.isTs "notes.csv".toList = false := by decide +kernel
  have hc : nf = named stamp1' 2 ∨ nf = named stamp1' 3 ∨ nf = named stamp2' 4 := by
    simp only [dset] at hm
    split_ifs at hm
    · rcases List.mem_cons.1 hm with rfl | hm
      · exact Or.inl rfl
      · rw [List.mem_singleton] at hm
        rw [hm, hn] at ht; simp at ht
    · rcases List.mem_cons.1 hm with rfl | hm
      · exact Or.inr (Or.inl rfl)
      · rw [List.mem_singleton] at hm
        exact Or.inr (Or.inr hm)
  rcases hc with rfl | rfl | rfl
  · exact ⟨_, _, h2.symm, by rw [← hts]; exact e1.symm⟩
  · exact ⟨_, _, h2.symm, by rw [← hts]; exact e1.symm⟩
  · exact ⟨_, _, h2.symm, by rw [← hts]; exact e2.symm⟩

theorem dset_proper (p : Option (List Char)) (s : Cal ℚ ℤ) : ProperData false (dset p) s := by
  intro cam ts f g _ hr hg _
  obtain ⟨n, z, rfl, rfl⟩ := dset_record hr
  have : (fileGrid false (gridFile n z)).map (fun g => g.timestamp) = .ok (n : Int) := rfl
  rw [hg] at this
  simpa [Except.map] using this

theorem reach2 (env : Env ℚ ℤ) : Reach env s2 :=
  .addCamera 1 11 21 false false
    (.addCamera 0 10 20 false false (.new 1 1 _) (val_eq (by decide +kernel))) (val_eq (by decide +kernel))

def l1 : Cal ℚ ℤ := val s2 (loadViews env false (dset none) s2)
def l2 : Cal ℚ ℤ := val s2 (solveBatch lenv l1)

/-- C117 witness: the hypotheses of `C117_views_partial`, `C117_problem` and `C117_solve_refuted`; three files give
two views and six residuals; after the solve there are twelve residuals, and each view is listed
twice. -/
example : Reach env s2 ∧ s2.data = [] ∧ s2.views = [] ∧ ProperData false (dset none) s2 ∧
    loadViews env false (dset none) s2 = .ok l1 ∧ lenv.toEnv = env ∧ solveBatch lenv l1 = .ok l2 ∧
    l1.viewTs = [(stamp1' : Int), (stamp2' : Int)] ∧ (problemResiduals l1).length = 6 ∧
    l2.viewTs = [(stamp1' : Int), (stamp2' : Int), (stamp1' : Int), (stamp2' : Int)] ∧
    (problemResiduals l2).length = 12 := by
  refine ⟨reach2 env, by decide +kernel, by decide +kernel, dset_proper _ _, val_eq (by decide +kernel), rfl,
    val_eq (by decide +kernel), ?_⟩
  decide +kernel

/-- C117 witness: a table of one pose sets the pose of the first view, here to the first coordinate. -/
def ptab : List (Int × Vec3 ℚ × Quat ℚ) :=
  [((stamp1' : Int), ![1, 0, 0], ⟨1, 0, 0, 0⟩), (7, ![2, 0, 0], ⟨1, 0, 0, 0⟩),
   ((stamp1' : Int), ![5/2, 0, 0], ⟨0, 1, 0, 0⟩)]

example : (∀ e ∈ ptab, -2 ^ 63 ≤ e.1 ∧ e.1 < 2 ^ 63) ∧ '\n' ∉ "#ts".toList ∧
    (SMap.find (stamp1' : Int) l1.poses).isSome = true ∧ lastRow ptab (stamp1' : Int) = some (![5/2, 0, 0], ⟨0, 1, 0, 0⟩) ∧
    (val l1 (loadCameraPoses (fun r _ => (r 0 * 1000000).floor)
      (dset (some ("#ts".toList ++ '\n' :: ptab.flatMap (fun e => poseText e.1 e.2.1 e.2.2)))) l1)).poses.map
        (fun p => (p.1, p.2.val)) = [((stamp1' : Int), 2500000), ((stamp2' : Int), 28)] := by
  refine ⟨by decide +kernel, by decide, by decide +kernel, rfl, by decide +kernel⟩

/-- C117 witness: the hypothesis of `C117_short_names_refuted`. -/
example : ∀ cam : Int, ∀ nf ∈ (DataSet.mk (fun _ => [named 5 2, named 12 3]) none : DataSet ℚ).grids cam,
    ∃ n, nf.1 = natText n ++ ".csv".toList ∧ (natText n).length < 19 := by
  intro cam nf hnf
  simp only [List.mem_cons, List.not_mem_nil, or_false] at hnf
  rcases hnf with rfl | rfl
  · exact ⟨5, rfl, by decide +kernel⟩
  · exact ⟨12, rfl, by decide +kernel⟩

end Yac.Calib.Witness
