import Verif.Data.PreProps
import Verif.Data.LerpProps
import Verif.Calib.LoopRan

/-!
# C95: what the callers make of the grids
-/

namespace Yac.Data

open Yac.AprilGrid (Grid Line Op)
open Yac.AprilGrid.Spec (Valid held)
open Yac.Calib (addGrid addCameraData)

variable {K : Type} [Field K]

/-! ## The order of the grids -/

theorem addGrid_swap {V : Type} {s : Calib.Cal K V} (hd : SMap.Sorted s.data) (ht : s.timestamps.Pairwise (· < ·))
    (cam : Int) {a b : Grid K} (hne : a.timestamp ≠ b.timestamp) :
    addGrid cam (addGrid cam s a) b = addGrid cam (addGrid cam s b) a := by
  have e1 : setInsert b.timestamp (setInsert a.timestamp s.timestamps) =
      setInsert a.timestamp (setInsert b.timestamp s.timestamps) := by
    refine List.Perm.eq_of_pairwise' (r := (· < ·)) ?_ ?_ ?_
    · exact Calib.setInsert_sorted (Calib.setInsert_sorted ht)
    · exact Calib.setInsert_sorted (Calib.setInsert_sorted ht)
    · refine (List.perm_ext_iff_of_nodup ?_ ?_).mpr (fun x => ?_)
      · exact (Calib.setInsert_sorted (Calib.setInsert_sorted ht)).imp (fun h => ne_of_lt h)
      · exact (Calib.setInsert_sorted (Calib.setInsert_sorted ht)).imp (fun h => ne_of_lt h)
      · simp only [Calib.setInsert_mem]; tauto
  unfold addGrid
  simp only [Calib.Cal.mk.injEq, true_and, and_true]
  refine ⟨?_, e1⟩
  rw [SMap.find_set, SMap.find_set, if_neg (Ne.symm hne), if_neg hne]
  refine SMap.sorted_ext (SMap.set_sorted _ _ _ (SMap.set_sorted _ _ _ hd)) (SMap.set_sorted _ _ _ (SMap.set_sorted _ _ _ hd)) (fun k => ?_)
  simp only [SMap.find_set]
  by_cases h1 : k = a.timestamp <;> by_cases h2 : k = b.timestamp <;> simp_all

/-- C95: the camera calibration does not notice the order of the grids. -/
theorem C95_order_free {V : Type} (cam : Int) {gs gs' : List (Grid K)} (hp : gs.Perm gs') :
    ∀ s : Calib.Cal K V, SMap.Sorted s.data → s.timestamps.Pairwise (· < ·) →
      (gs.map Grid.timestamp).Nodup → addCameraData s cam gs = addCameraData s cam gs' := by
  have keep : ∀ (s : Calib.Cal K V) (g : Grid K), SMap.Sorted s.data → s.timestamps.Pairwise (· < ·) →
      SMap.Sorted (addGrid cam s g).data ∧ (addGrid cam s g).timestamps.Pairwise (· < ·) :=
    fun s g hd ht => ⟨SMap.set_sorted _ _ _ hd, Calib.setInsert_sorted ht⟩
  induction hp with
  | nil => intros; rfl
  | @cons x l l' _ ih =>
    intro s hd ht hn
    rw [List.map_cons, List.nodup_cons] at hn
    exact ih (addGrid cam s x) (keep s x hd ht).1 (keep s x hd ht).2 hn.2
  | swap x y l =>
    intro s hd ht hn
    rw [List.map_cons, List.map_cons, List.nodup_cons] at hn
    have hne : y.timestamp ≠ x.timestamp := fun h => hn.1 (by rw [h]; simp)
    show l.foldl (addGrid cam) (addGrid cam (addGrid cam s y) x) =
      l.foldl (addGrid cam) (addGrid cam (addGrid cam s x) y)
    rw [addGrid_swap hd ht cam hne]
  | trans h1 _ ih1 ih2 =>
    intro s hd ht hn
    rw [ih1 s hd ht hn, ih2 s hd ht ((h1.map _).nodup_iff.mp hn)]

/-! ## Grids without corners, and format 2 -/

/-- C95 is false for an image without corners: the grid of the first run says of every corner
that it is not there; the grid of the second run reads past the end of an empty table. -/
theorem C95_blank_refuted (e : Pre K) (hv : e.v2 = false) (hS : Shots e) (name : List Char)
    (hd : (e.shot name).detected = false) (t c : Int) (hvv : Valid e.rows e.cols t c) :
    AprilGrid.has (e.shot name) t c = .ok false ∧
    ∃ ls g, AprilGrid.save e.p6 e.p10 (e.shot name) = .ok ls ∧ loadFile e.v2 (.csv ls) = .ok g ∧
      (complete e name g).detected = false ∧ AprilGrid.has (complete e name g) t c = .error .oob := by
  obtain ⟨m, extra, hrel, hdet⟩ := hS.rel name
  have hn : held e.rows e.cols m = [] := by
    by_contra h
    rw [hdet.mpr h] at hd; simp at hd
  constructor
  · rw [hrel.toCore.has_eq hvv, Except.ok.injEq, ← Bool.not_eq_true, Option.isSome_iff_exists]
    rintro ⟨kp, hkp⟩
    have := (AprilGrid.mem_held e.rows e.cols m t c kp).mpr ⟨hvv, hkp⟩
    rw [hn] at this; simp at this
  · refine ⟨[], { AprilGrid.clear (AprilGrid.default : Grid K) with init := true }, ?_, ?_, rfl, ?_⟩
    · rw [AprilGrid.save_eq e.p6 e.p10 hrel, hn]; rfl
    · rw [hv]; rfl
    · have hr : ∀ i, AprilGrid.readRow ([] : List (AprilGrid.Row K)) i = .error .oob := by
        intro i
        unfold AprilGrid.readRow
        simp
      show (AprilGrid.readRow ([] : List (AprilGrid.Row K)) (t * 4 + c) >>= fun r =>
        pure (if r.flag ≤ 0 then false else true)) = .error .oob
      rw [hr, AprilGrid.error_bind]

theorem loadLine2_init {g g' : Grid K} {l : V2Line K} (h : loadLine2 g l = .ok g') : g'.init = g.init := by
  unfold loadLine2 at h
  obtain ⟨d, _, h⟩ := Calib.bind_ok h
  cases h; rfl

theorem foldLine2_init : ∀ (ls : List (V2Line K)) (g g' : Grid K), ls.foldlM loadLine2 g = .ok g' →
    g'.init = g.init
  | [], g, g', h => by cases h; rfl
  | l :: ls, g, g', h => by
    rw [List.foldlM_cons] at h
    obtain ⟨g1, h1, h⟩ := Calib.bind_ok h
    rw [foldLine2_init ls g1 g' h, loadLine2_init h1]

/-- C95 is false for format 2: a grid that was loaded is not marked as initialised, so the first
question about a corner stops the program. -/
theorem C95_v2_refuted (e : Pre K) (hv : e.v2 = true) (name : List Char) (f : File K) (g : Grid K)
    (h : loadFile e.v2 f = .ok g) (t c : Int) : AprilGrid.has (complete e name g) t c = .error .fatal := by
  have hi : g.init = false := by
    rw [hv] at h
    cases f with
    | csv ls => simp [loadFile, loadv2] at h
    | v2 f =>
      simp only [loadFile, if_true, loadv2] at h
      obtain ⟨g1, h1, h⟩ := Calib.bind_ok h
      split_ifs at h
      cases h
      exact (foldLine2_init _ _ _ h1).trans rfl
  have : (complete e name g).init = false := by
    unfold complete withTarget
    split_ifs <;> exact hi
  rw [AprilGrid.has, if_neg (by simp [this])]

/-- C95 is false for format 2: the program cannot read the files it writes; the second run
stops with an error. -/
theorem C95_formats_refuted (e : Pre K) (hv : e.v2 = true) (hS : Shots e) (fs : FileSys K) (dir name : List Char)
    (hne : name ≠ []) (ht : isTs name = true) (hf : fs (gridPath dir name) = none) :
    ∃ s, run e dir [name] (List.replicate (lineCount e name + 4) 0) (St.init fs [name]) = .ok s ∧
      (∀ pc ∈ s.pcs, pc.done = true) ∧
      run e dir [name] [0, 0] (St.init s.fs [name]) = .error .fatal := by
  have hL : Loads e fs dir [name] := by
    intro n hn _ f hff
    rw [List.mem_singleton] at hn
    subst hn
    rw [hf] at hff; simp at hff
  have hI : Images [name] := ⟨by simpa using hne, by
    rw [List.filter_cons, if_pos ht]; simp⟩
  obtain ⟨s, h1, h2, h3, _⟩ := C95_schedule e fs dir [name] (List.replicate (lineCount e name + 4) 0) hS hL hI
  have hd := h2 (by
    intro k n hk
    cases k with
    | zero =>
      simp only [List.getElem?_cons_zero, Option.some.injEq] at hk
      subst hk
      rw [List.count_replicate_self]
    | succ k => simp at hk)
  refine ⟨s, h1, hd, ?_⟩
  obtain ⟨ls, _, hfile⟩ := ((h3 hd).2 name (by simp) ht).2 hf
  have t1 : step e dir [name] (St.init s.fs [name]) 0 = .ok ⟨s.fs, [.reading], []⟩ := by
    simp only [step, St.init, List.map_cons, List.map_nil, List.getElem?_cons_zero, stepPc]
    rw [if_neg (by simp [ht]), if_neg hne]
    simp only [hfile, AprilGrid.ok_bind, List.set_cons_zero, List.append_nil]
  have t2 : step e dir [name] ⟨s.fs, [.reading], []⟩ 0 = .error .fatal := by
    simp only [step, List.getElem?_cons_zero, stepPc, hfile, loadFile, hv, if_true, loadv2, AprilGrid.error_bind]
  unfold run
  rw [List.foldlM_cons, t1, AprilGrid.ok_bind, List.foldlM_cons, t2, AprilGrid.error_bind]

end Yac.Data
