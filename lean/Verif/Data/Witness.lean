import Verif.Data.PreMore
import Verif.Calib.LoopWitness
import Verif.Stream.InterpModel

/-!
Concrete cases for C94 and C95: samples at 0, 2, 4; images `1...` and `3...` and a file that is
no image.
-/

namespace Yac.Data.Witness

open Yac.Data
open Yac.AprilGrid (Grid Op)
open Yac.Calib.Witness (val good val_eq)

/-! ## C94 -/

/-- The "pose" that is interpolated is the list of what it is interpolated from. -/
def tell (t0 : Int) (p0 : Int) (t1 : Int) (p1 : Int) (t : Int) : List Int := [t0, p0, t1, p1, t]

def body : List (Int × Int) := [(0, 10), (2, 12), (4, 14)]

/-- C94 witness (`C94_lerp_partial`, `C94_count_partial`): one grid in each interval, one of them
outside. -/
example : body.head? = some (0, 10) ∧ body.getLast? = some (4, 14) ∧
    kept id [1, 3, 7] 0 4 = [1, 3] ∧ body.Pairwise (fun x y => x.1 < y.1) ∧
    [1, 3, 7].Pairwise (fun g h => ∃ b ∈ body, id g < b.1 ∧ b.1 ≤ id h) ∧
    val ([], []) (lerpBodyPoses tell 0 id [1, 3, 7] body 0) =
      ([1, 3], [[0, 10, 2, 12, 1], [2, 12, 4, 14, 3]]) := by decide +kernel

/-- C94 witness: with an offset of 1 the samples are at 1, 3, 5. -/
example : val ([], []) (lerpBodyPoses tell 0 id [2, 3, 7] body 1) =
      ([2, 3], [[1, 10, 3, 12, 2], [3, 12, 5, 14, 3]]) ∧
    (∀ g ∈ kept id [2, 3, 7] 0 4, (0 : Int) + 1 < id g ∧ id g < 4 + 1) := by decide +kernel

/-- C94 with `lerp_pose`: the interpolated poses are poses. -/
example (f : Int → Geom.Mat4 ℝ) : (f 0 = f 0) ∧
    ∃ poses, lerpBodyPoses Stream.lerpPose (f 0) (id : Int → Int) [1, 3] [(0, f 0), (2, f 2), (4, f 4)] 0 =
      .ok (kept id [1, 3] 0 4, poses) ∧ poses.length = 2 := by
  refine ⟨rfl, ?_⟩
  obtain ⟨poses, h1, h2⟩ := C94_count_partial Stream.lerpPose (f 0) (id : Int → Int) [1, 3]
    [(0, f 0), (2, f 2), (4, f 4)] (0, f 0) (4, f 4) rfl rfl
    (by show kept (id : Int → Int) [1, 3] 0 4 ≠ []; decide)
    (by simp) (by simp)
  exact ⟨poses, h1, by rw [h2]; show (kept (id : Int → Int) [1, 3] 0 4).length = 2; decide⟩

/-- C94 witness (`C94_none_refuted`, `C94_dense_refuted`). -/
example : (∀ g ∈ [(5 : Int)], ¬ ((0 : Int) < id g ∧ id g < 4)) ∧
    good (lerpBodyPoses tell 0 id [5] body 0) = false ∧
    (∀ g ∈ [(1 : Int), 3], (0 : Int) < id g ∧ id g < 4) ∧
    val ([], []) (lerpBodyPoses tell 0 id [1, 3] [(0, 10), (4, 14)] 0) = ([1, 3], [[0, 10, 4, 14, 1]]) := by
  decide +kernel

/-- C94 is false if two grids lie between two samples, even if there is a sample after them: the
second is extrapolated from the next two samples. -/
theorem C94_extrapolated_refuted :
    lerpBodyPoses tell 0 id [1, 2, 6] [(0, 10), (4, 14), (8, 18)] 0 =
      .ok ([1, 2, 6], [[0, 10, 4, 14, 1], [4, 14, 8, 18, 2]]) := by rfl

/-- C94 is false if the grids are not in chronological order: the second of them is never
reached, and its pose is missing. -/
theorem C94_order_refuted :
    lerpBodyPoses tell 0 id [3, 1] body 0 = .ok ([3, 1], [[2, 12, 4, 14, 3]]) := by rfl

/-! ## C95 -/

/-- The grid of an image: one corner, except that images whose name ends in `x` have none. -/
def shot (name : List Char) : Grid ℚ :=
  val AprilGrid.default (AprilGrid.run (AprilGrid.new (tsOf name) 1 1 1 0)
    (if name.getLast? = some 'x' then [] else [.add 0 0 (tsOf name, 2), .add 0 2 (1, 1)]))

def pre (v2 : Bool) : Pre ℚ := ⟨1, 1, 1, 0, v2, shot, id, id⟩

theorem shots (v2 : Bool) : Shots (pre v2) := by
  intro name
  by_cases h : name.getLast? = some 'x'
  · refine ⟨[], by simp, ?_⟩
    simp only [pre, shot, h, if_true]
    rfl
  · refine ⟨[((0, 0), (tsOf name, 2)), ((0, 2), (1, 1))], ?_, ?_⟩
    · simp [pre, AprilGrid.Spec.Valid]
    · simp only [pre, shot, if_neg h]
      rfl

def n1 : List Char := "1".toList
def n3 : List Char := "3".toList
def names : List (List Char) := [n1, n3, "readme".toList]
def noFiles : FileSys ℚ := fun _ => none
def dir : List Char := "/g/cam0".toList

theorem images : Images names := ⟨by decide, by decide⟩

theorem loads (v2 : Bool) : Loads (pre v2) noFiles dir names := by
  intro n _ _ f hf; simp [noFiles] at hf

/-- Image by image. -/
def seq : List Nat := List.replicate 6 0 ++ List.replicate 6 1 ++ List.replicate 6 2
/-- The other way round. -/
def rev : List Nat := List.replicate 6 2 ++ List.replicate 6 1 ++ List.replicate 6 0
/-- In turns. -/
def turns : List Nat := (List.replicate 6 [1, 0, 2]).flatten

def s0 : St ℚ := ⟨noFiles, [], []⟩

/-- C95 witness (`C95_schedule`). -/
example : Shots (pre false) ∧ Loads (pre false) noFiles dir names ∧ Images names ∧
    (∀ k < 3, 6 ≤ turns.count k) ∧ lineCount (pre false) n1 = 2 ∧
    ((val s0 (run (pre false) dir names turns (St.init noFiles names))).out.map Grid.timestamp) = [3, 1] ∧
    ((val s0 (run (pre false) dir names seq (St.init noFiles names))).out.map Grid.timestamp) = [1, 3] ∧
    (val s0 (run (pre false) dir names seq (St.init noFiles names))).pcs.all Pc.done = true ∧
    ((val s0 (run (pre false) dir names seq (St.init noFiles names))).fs (gridPath dir n1)).isSome = true ∧
    ((val s0 (run (pre false) dir names seq (St.init noFiles names))).fs (gridPath dir "readme".toList)).isSome = false :=
  ⟨shots _, loads _, images, by decide +kernel, by decide +kernel, by decide +kernel, by decide +kernel,
    by decide +kernel, by decide +kernel, by decide +kernel⟩

/-- C95 is false for the order of the grids, and C94 depends on it: with one schedule both grids
get their pose, with another one only one of them. -/
theorem C95_order_refuted :
    ∃ s s' : St ℚ, run (pre false) dir names seq (St.init noFiles names) = .ok s ∧
      run (pre false) dir names rev (St.init noFiles names) = .ok s' ∧
      s.pcs.all Pc.done = true ∧ s'.pcs.all Pc.done = true ∧
      s.out.map Grid.timestamp = [1, 3] ∧ s'.out.map Grid.timestamp = [3, 1] ∧
      (val ([], []) (lerpBodyPoses tell 0 Grid.timestamp s.out body 0)).2 =
        [[0, 10, 2, 12, 1], [2, 12, 4, 14, 3]] ∧
      (val ([], []) (lerpBodyPoses tell 0 Grid.timestamp s'.out body 0)).2 = [[2, 12, 4, 14, 3]] :=
  ⟨val s0 (run (pre false) dir names seq (St.init noFiles names)),
    val s0 (run (pre false) dir names rev (St.init noFiles names)), val_eq (by decide +kernel),
    val_eq (by decide +kernel), by decide +kernel, by decide +kernel, by decide +kernel,
    by decide +kernel, by decide +kernel, by decide +kernel⟩

/-- C95 witness (`C95_cameras`): two cameras with different schedules. -/
example : Shots (pre false) ∧ ([(0, names, seq), (1, [n3], [0, 0, 0, 0, 0, 0]), (2, [], [])].map Prod.fst).Nodup ∧
    (∀ c ∈ [(0, names, seq), (1, [n3], [0, 0, 0, 0, 0, 0]), (2, [], [])], Images c.2.1) ∧
    good (preprocess (pre false) "/g".toList noFiles [(0, names, seq), (1, [n3], [0, 0, 0, 0, 0, 0]), (2, [], [])]) = true ∧
    ((val (noFiles, []) (preprocess (pre false) "/g".toList noFiles
      [(0, names, seq), (1, [n3], [0, 0, 0, 0, 0, 0]), (2, [], [])])).2.map
        (fun c => (c.1, c.2.map Grid.timestamp))) = [(0, [1, 3]), (1, [3])] := by
  refine ⟨shots _, by decide, ?_, by decide +kernel, by decide +kernel⟩
  intro c hc
  simp only [List.mem_cons, List.not_mem_nil, or_false] at hc
  rcases hc with rfl | rfl | rfl
  · exact images
  · exact ⟨by decide, by decide⟩
  · exact ⟨by simp, by simp⟩

/-- C95 witness (`C95_resume_partial`): the program stops when one image is done and the other one
has just been looked for; the next run reads the first and detects the second. -/
example : good (run (pre false) dir names [0, 0, 0, 0, 0, 0, 1] (St.init noFiles names)) = true ∧
    ((val s0 (run (pre false) dir names [0, 0, 0, 0, 0, 0, 1] (St.init noFiles names))).pcs.map Pc.done) =
      [true, false, false] ∧
    ((val s0 (run (pre false) dir names seq (St.init
      (val s0 (run (pre false) dir names [0, 0, 0, 0, 0, 0, 1] (St.init noFiles names))).fs names))).out.map
        (fun g => (g.timestamp, g.nbDetections))) = [(1, 2), (3, 2)] := by decide +kernel

/-- C95 witness (`C95_torn_refuted`): one of two lines is written. -/
example : Shots (pre false) ∧ n1 ≠ [] ∧ isTs n1 = true ∧ noFiles (gridPath dir n1) = none ∧
    1 ≤ lineCount (pre false) n1 ∧
    ((val s0 (run (pre false) dir [n1] [0, 0, 0] (St.init
      (val s0 (run (pre false) dir [n1] [0, 0, 0] (St.init noFiles [n1]))).fs [n1]))).out.map
        (fun g => (g.timestamp, g.nbDetections))) = [(1, 1)] :=
  ⟨shots _, by decide, by decide, rfl, by decide +kernel, by decide +kernel⟩

/-- C95 witness (`C95_blank_refuted`). -/
example : Shots (pre false) ∧ ((pre false).shot "5x".toList).detected = false ∧
    AprilGrid.Spec.Valid (pre false).rows (pre false).cols 0 2 :=
  ⟨shots _, by decide +kernel, by simp [pre, AprilGrid.Spec.Valid]⟩

/-- A file in format 2 with one corner. -/
def file2 : File ℚ := .v2 ⟨7, 1, 1, 1, 0, 1, [⟨0, 3, 1, 2, 0, 1, 0⟩]⟩

/-- C95 witness (`C95_v2_refuted`, `C95_formats_refuted`). -/
example : (pre true).v2 = true ∧ good (loadFile true file2) = true ∧
    (val AprilGrid.default (loadFile true file2)).timestamp = 7 ∧
    (val AprilGrid.default (loadFile true file2)).nbDetections = 1 ∧
    good (run (pre true) dir [n1] [0, 0] (St.init
      (val s0 (run (pre true) dir [n1] [0, 0, 0, 0, 0, 0] (St.init noFiles [n1]))).fs [n1])) = false := by
  refine ⟨rfl, by decide +kernel, by decide +kernel, by decide +kernel, by decide +kernel⟩

/-- C95 witness (`C95_order_free`): both orders, into the calibrator with one camera. -/
example : SMap.Sorted Calib.Witness.s1.data ∧ Calib.Witness.s1.timestamps.Pairwise (· < ·) ∧
    ([shot n1, shot n3].map Grid.timestamp).Nodup ∧ [shot n1, shot n3].Perm [shot n3, shot n1] ∧
    ((Calib.addCameraData Calib.Witness.s1 0 [shot n3, shot n1]).data.map Prod.fst) = [1, 3] :=
  ⟨by rw [show Calib.Witness.s1.data = [] from by rfl]; simp [SMap.Sorted], by decide +kernel, by decide +kernel, .swap _ _ _, by decide +kernel⟩

end Yac.Data.Witness
