import Verif.Data.MocapPreMain
import Verif.Data.Witness

/-!
Concrete cases for C132: a directory `/c` of images.
-/

namespace Yac.Data.Witness

open Yac.Data
open Yac.AprilGrid (Grid Op)
open Yac.Calib.Witness (val good val_eq)
open Yac.Disk (Disk Tree Reads Names Path Name)

instance (n : Name) : Decidable (Disk.GoodName n) := by unfold Disk.GoodName; infer_instance

/-- A disk with one directory `/c` that has the files `es`. -/
def camDisk (es : List Name) : Disk where
  node := fun p =>
    if p = [] then some .dir
    else if p = ["c".toList] then some .dir
    else if ∃ n ∈ es, p = ["c".toList, n] then some (.file [])
    else none
  cwd := []
  readable := fun _ => true
  writable := fun _ => true
  free := 100

def camRead (es : List Name) (p : Path) : List Name :=
  if p = [] then [['.'], ['.', '.'], "c".toList]
  else if p = ["c".toList] then ['.'] :: ['.', '.'] :: es else []

theorem camDisk_entry (es : List Name) (n : Name) :
    (camDisk es).node (["c".toList] ++ [n]) ≠ none ↔ n ∈ es := by
  have h1 : (["c".toList] ++ [n] : Path) ≠ [] := by simp
  have h2 : (["c".toList] ++ [n] : Path) ≠ ["c".toList] := by simp
  simp only [camDisk, if_neg h1, if_neg h2]
  by_cases h : n ∈ es
  · rw [if_pos ⟨n, h, rfl⟩]; simp [h]
  · rw [if_neg]
    · simp [h]
    · rintro ⟨m, hm, e⟩
      simp only [List.cons_append, List.nil_append, List.cons.injEq, and_true, true_and] at e
      exact h (e ▸ hm)

theorem camDisk_dir (es : List Name) : (camDisk es).node ["c".toList] = some .dir := by
  simp [camDisk]

theorem camDisk_cases (es : List Name) (p : Path) (h : (camDisk es).node p ≠ none) :
    p = [] ∨ p = ["c".toList] ∨ ∃ n ∈ es, p = ["c".toList, n] := by
  by_contra hc
  push Not at hc
  obtain ⟨h1, h2, h3⟩ := hc
  apply h
  simp only [camDisk, if_neg h1, if_neg h2]
  rw [if_neg]
  rintro ⟨n, hn, e⟩
  exact h3 n hn e

theorem camDisk_tree (es : List Name) (hg : ∀ n ∈ es, Disk.GoodName n) : Tree (camDisk es) := by
  refine ⟨by simp [camDisk], ?_, by simp [camDisk]⟩
  intro p n h
  rcases camDisk_cases es _ h with e | e | ⟨m, hm, e⟩
  · simp at e
  · have : p = [] ∧ n = "c".toList := by
      cases p with
      | nil => simpa using e
      | cons a l => simp at e
    obtain ⟨rfl, rfl⟩ := this
    exact ⟨by simp [camDisk], by decide⟩
  · have e' : p ++ [n] = ["c".toList] ++ [m] := e
    obtain ⟨rfl, h2⟩ := List.append_inj' e' rfl
    have : n = m := by simpa using h2
    subst this
    exact ⟨camDisk_dir es, hg n hm⟩

theorem camDisk_reads (es : List Name) (hg : ∀ n ∈ es, Disk.GoodName n) (hn : es.Nodup) :
    Reads (camRead es) (camDisk es) := by
  intro p hp
  rcases camDisk_cases es p (by rw [hp]; simp) with rfl | rfl | ⟨m, hm, rfl⟩
  · refine ⟨show [['.'], ['.', '.'], "c".toList].Nodup by decide, ?_⟩
    intro n
    have : (camDisk es).node ([] ++ [n]) ≠ none ↔ n = "c".toList := by
      constructor
      · intro h
        rcases camDisk_cases es _ h with e | e | ⟨m, hm, e⟩
        · simp at e
        · simpa using e
        · simp at e
      · rintro rfl
        rw [List.nil_append, camDisk_dir]; simp
    rw [this]
    simp [camRead]
  · have hr : camRead es ["c".toList] = ['.'] :: ['.', '.'] :: es := by simp [camRead]
    rw [hr]
    constructor
    · rw [List.nodup_cons, List.nodup_cons]
      refine ⟨?_, ?_, hn⟩
      · intro h
        rcases List.mem_cons.mp h with e | e
        · exact absurd e (by decide)
        · exact absurd (hg _ e) (by decide)
      · intro h
        exact absurd (hg _ h) (by decide)
    · intro n
      rw [camDisk_entry]
      simp
  · exfalso
    have := (camDisk_entry es m).mpr hm
    have h1 : ([("c").toList, m] : Path) ≠ [] := by simp
    have h2 : ([("c").toList, m] : Path) ≠ ["c".toList] := by simp
    simp only [camDisk, if_neg h1, if_neg h2, if_pos (⟨m, hm, rfl⟩ : ∃ n ∈ es, ["c".toList, m] = ["c".toList, n])] at hp
    cases hp

theorem camDisk_names (es : List Name) : Names (camDisk es) "/c".toList ["c".toList] := by
  show Disk.resolve (camDisk es) "/c".toList = _
  have e : Disk.comps "/c".toList = ["c".toList] := by decide
  unfold Disk.resolve Disk.startOf
  rw [if_neg (by decide), if_pos (by decide), e]
  have hr : (camDisk es).node [] = some .dir := by simp [camDisk]
  simp only [Disk.walk, hr]
  rfl

/-- Two images, at 10 and at 9; the one at 9 has no corners. -/
def mImages : List Name := ["9.png".toList, "10.png".toList]

def mTime (n : Name) : Nat := if n = "9.png".toList then 9 else 10

theorem mImagesAt : ImagesAt (camDisk mImages) ["c".toList] mTime := by
  refine ⟨?_, ?_⟩
  · intro n hn
    rw [camDisk_entry] at hn
    simp only [mImages, List.mem_cons, List.not_mem_nil, or_false] at hn
    rcases hn with rfl | rfl
    · exact ⟨⟨"9".toList, ".png".toList, by decide⟩, by decide, by decide⟩
    · exact ⟨⟨"10".toList, ".png".toList, by decide⟩, by decide, by decide⟩
  · intro a b ha hb
    rw [camDisk_entry] at ha hb
    simp only [mImages, List.mem_cons, List.not_mem_nil, or_false] at ha hb
    rcases ha with rfl | rfl <;> rcases hb with rfl | rfl <;> decide

def mShot (t : Int) (_ : List Char) : Grid ℚ :=
  val AprilGrid.default (AprilGrid.run (AprilGrid.new t 1 1 1 0)
    (if t = 9 then [] else [.add 0 0 (t, 2), .add 0 2 (1, 1)]))

def mPre : MPre ℚ := ⟨1, 1, 1, 0, mShot, id, id⟩
/-- Another target, with the same file format. -/
def mPre' : MPre ℚ := ⟨6, 6, 2, 1, mShot, id, id⟩

theorem mShots : mPre.Shots := by
  intro t path
  by_cases h : t = 9
  · refine ⟨[], by simp, ?_⟩
    subst h
    simp only [mPre, mShot, if_true]
    rfl
  · refine ⟨[((0, 0), (t, 2)), ((0, 2), (1, 1))], ?_, ?_⟩
    · simp [mPre, AprilGrid.Spec.Valid]
    · simp only [mPre, mShot, if_neg h]
      rfl

def mRun (m : MPre ℚ) (fs : FileSys ℚ) : Except Fault (FileSys ℚ × List (Grid ℚ)) :=
  mocapPre m (camRead mImages) (camDisk mImages) "/c".toList "/g".toList fs

def mFiles : FileSys ℚ := (val (noFiles, []) (mRun mPre noFiles)).1

theorem mTree : Tree (camDisk mImages) := camDisk_tree _ (by decide)
theorem mReads : Reads (camRead mImages) (camDisk mImages) := camDisk_reads _ (by decide) (by decide)

/-- C132 witness (`C132_each`, `C132_again`): the hypotheses hold; the grids come out with the
times 10, 9, the second without corners, both times. -/
example : mPre.Shots ∧ Tree (camDisk mImages) ∧ Reads (camRead mImages) (camDisk mImages) ∧
    Names (camDisk mImages) "/c".toList ["c".toList] ∧ (camDisk mImages).node ["c".toList] = some .dir ∧
    (camDisk mImages).readable ["c".toList] = true ∧ ImagesAt (camDisk mImages) ["c".toList] mTime ∧
    good (mRun mPre noFiles) = true ∧
    ((val (noFiles, []) (mRun mPre noFiles)).2.map fun g => (g.timestamp, g.detected)) =
      [(10, true), (9, false)] ∧
    good (mRun mPre mFiles) = true ∧
    ((val (noFiles, []) (mRun mPre mFiles)).2.map fun g => (g.timestamp, g.detected, g.tagRows)) =
      [(10, true, 1), (9, false, 1)] ∧
    (mFiles "/g/10.csv".toList).isSome = true ∧ (mFiles "/g/9.csv".toList).isSome = true ∧
    (mFiles "/g/8.csv".toList).isSome = false :=
  ⟨mShots, mTree, mReads, camDisk_names _, camDisk_dir _, rfl, mImagesAt, by decide +kernel,
    by decide +kernel, by decide +kernel, by decide +kernel, by decide +kernel, by decide +kernel,
    by decide +kernel⟩

/-- C132 witness (`C132_order_partial`). -/
example : ["09.png".toList, "10.png".toList].Pairwise NotAfter ∧
    (∀ n ∈ ["09.png".toList, "10.png".toList], ∃ ds rest, n = ds ++ rest ∧ ds.length = 2 ∧
      (∀ c ∈ ds, Text.isDig c = true) ∧ (if n = "09.png".toList then 9 else 10) = Text.natOf ds) := by
  refine ⟨?_, ?_⟩
  · simp only [List.pairwise_cons, List.mem_singleton, forall_eq, List.not_mem_nil, false_imp_iff,
      implies_true, List.Pairwise.nil, and_true]
    unfold NotAfter
    rw [← Disk.strLt_iff]; decide
  · intro n hn
    simp only [List.mem_cons, List.not_mem_nil, or_false] at hn
    rcases hn with rfl | rfl
    · exact ⟨"09".toList, ".png".toList, by decide⟩
    · exact ⟨"10".toList, ".png".toList, by decide⟩

/-- C132 witness (`C132_stale_refuted`): the saved grid of a 1 by 1 target is returned for a 6 by 6
target. -/
example : mocapPre mPre (camRead ["10.png".toList]) (camDisk ["10.png".toList]) "/c".toList "/g".toList mFiles =
      mocapPre mPre' (camRead ["10.png".toList]) (camDisk ["10.png".toList]) "/c".toList "/g".toList mFiles ∧
    ((val (noFiles, []) (mocapPre mPre' (camRead ["10.png".toList]) (camDisk ["10.png".toList])
      "/c".toList "/g".toList mFiles)).2.map fun g => (g.tagRows, g.tagCols)) = [(1, 1)] := by
  refine ⟨?_, by decide +kernel⟩
  refine C132_stale_refuted mPre mPre' _ _ (camDisk_tree _ (by decide))
    (camDisk_reads _ (by decide) (by decide)) _ _ _ (camDisk_names _) (camDisk_dir _) rfl (fun _ => 10)
    ⟨?_, ?_⟩ mFiles ?_
  · intro n hn
    rw [camDisk_entry, List.mem_singleton] at hn
    subst hn
    exact ⟨⟨"10".toList, ".png".toList, by decide⟩, by decide, by decide⟩
  · intro a b ha hb _
    rw [camDisk_entry, List.mem_singleton] at ha hb
    rw [ha, hb]
  · intro n hn
    refine ⟨(mFiles "/g/10.csv".toList).getD (.csv []),
      val AprilGrid.default (loadFile false ((mFiles "/g/10.csv".toList).getD (.csv []))), ?_, ?_, ?_⟩
    · have : csvPath "/g".toList 10 = "/g/10.csv".toList := by decide +kernel
      rw [this]
      have h : (mFiles "/g/10.csv".toList).isSome = true := by decide +kernel
      cases hx : mFiles "/g/10.csv".toList with
      | none => rw [hx] at h; cases h
      | some f => rfl
    · exact val_eq (by decide +kernel)
    · decide +kernel

/-- C132 witness (`C132_other_refuted`). -/
example : ∀ r, mocapPre mPre (camRead (".DS_Store".toList :: mImages)) (camDisk (".DS_Store".toList :: mImages))
    "/c".toList "/g".toList noFiles ≠ .ok r :=
  C132_other_refuted mPre _ _ (camDisk_tree _ (by decide)) (camDisk_reads _ (by decide) (by decide)) _ _ _
    (camDisk_names _) (camDisk_dir _) rfl _ ".DS_Store".toList ((camDisk_entry _ _).mpr (by simp))
    (by decide) (by decide)

/-- C132 witness (`C132_no_directory`). -/
example : mocapPre mPre (camRead mImages) (camDisk mImages) "/x".toList "/g".toList noFiles = .error .fatal := by
  rfl

/-- **C132 (remnants), refuted.** `load_aprilgrids` loads every file of the directory: the grid of
an image that is not among the recording's images any more is returned with the others. -/
theorem C132_remnant_refuted :
    (val [] (loadGrids false mFiles "/g".toList (some ["9.csv".toList, "10.csv".toList]))).map Grid.timestamp = [10] ∧
    good (loadGrids false mFiles "/g".toList (some ["9.csv".toList, "10.csv".toList])) = true ∧
    ((val (noFiles, []) (mocapPre mPre (camRead ["9.png".toList]) (camDisk ["9.png".toList]) "/c".toList
      "/g".toList mFiles)).2.map Grid.timestamp) = [9] := by decide +kernel

end Yac.Data.Witness
