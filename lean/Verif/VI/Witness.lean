import Verif.VI.Total
import Mathlib.Data.List.Induction

/-!
Concrete histories that meet the hypotheses of the theorems about the visual-inertial
calibrator: one camera, a window of two views, three or four views in turn.
-/

namespace Yac.VI.Witness

open Yac.AprilGrid (Grid)
open Yac.VI

abbrev S := St ℕ Unit

/-- The value of a computation that succeeds. -/
def val (x : Except Fault S) : S :=
  match x with
  | .ok s => s
  | .error _ => St.new false 0 false false

def good {α : Type} : Except Fault α → Bool
  | .ok _ => true
  | .error _ => false

theorem val_eq {x : Except Fault S} (h : good x = true) : x = .ok (val x) := by
  cases x with
  | ok a => rfl
  | error e => simp [good] at h

/-- Two corners per grid, the same in every image. -/
def env : VEnv ℕ Unit where
  estimate _ := true
  meas _ _ := .ok [((0, 0), (1, 2)), ((3, 1), (4, 5))]

def g (ts : Int) : Grid ℕ := ⟨true, ts, 1, 1, 0, 0, true, 2, []⟩

def imus (a n : Nat) : List (Call ℕ Unit) :=
  (List.range n).map (fun k => .imu ((a : Int) + (k : Int)) () ())

/-- Five samples, an image, the sample that initialises, then two more images. -/
def cs : List (Call ℕ Unit) :=
  .camera 0 false false :: imus 0 5 ++ [.grid 0 (g 3)] ++ imus 5 5 ++ [.grid 0 (g 8)] ++ imus 10 8 ++
    [.grid 0 (g 15)] ++ imus 18 5

/-- One more image. -/
def cs2 : List (Call ℕ Unit) := cs ++ [.grid 0 (g 20)] ++ imus 23 1

def exec (s : S) (l : List (Call ℕ Unit)) : Except Fault S := l.foldlM (call env) s

theorem exec_concat (s : S) (l : List (Call ℕ Unit)) (c : Call ℕ Unit) :
    exec s (l ++ [c]) = exec s l >>= fun t => call env t c := AprilGrid.foldlM_concat _ _ _ _

theorem run_of_exec {s t : S} {l : List (Call ℕ Unit)} (h : exec s l = .ok t) : Run env s l t := by
  induction l using List.reverseRecOn generalizing t with
  | nil => injection h with h; exact h ▸ .nil
  | append_singleton l c ih =>
    rw [exec_concat] at h
    obtain ⟨a, h1, h2⟩ := bindOk h
    exact .snoc (ih h1) h2

def isReset : Call ℕ Unit → Bool
  | .reset => true
  | _ => false

theorem runR_of_exec {s t : S} {l : List (Call ℕ Unit)} (hl : l.any isReset = false)
    (h : exec s l = .ok t) : RunR env s l t := by
  induction l using List.reverseRecOn generalizing t with
  | nil => injection h with h; exact h ▸ .nil
  | append_singleton l c ih =>
    rw [exec_concat] at h
    obtain ⟨a, h1, h2⟩ := bindOk h
    simp only [List.any_append, Bool.or_eq_false_iff, List.any_cons, List.any_nil,
      Bool.or_false] at hl
    refine .snoc (ih hl.1 h1) ?_ h2
    rintro rfl
    simp [isReset] at hl

def s0 : S := St.new true 2 false false
def s3 : S := val (exec s0 cs)
def s4 : S := val (exec s0 cs2)

theorem e3 : exec s0 cs = .ok s3 := val_eq (by decide +kernel)
theorem e4 : exec s0 cs2 = .ok s4 := val_eq (by decide +kernel)
theorem r3 : RunR env s0 cs s3 := runR_of_exec (by decide) e3
theorem r4 : RunR env s0 cs2 s4 := runR_of_exec (by decide) e4

/-- `C58_window`, `C58_connected`, `C58_problem`: after three images the window is full, one
view has been marginalised, and the two views left are linked. -/
example : s3.views.length = 2 ∧ s3.marg.isSome ∧ s3.views.map View.ts = [8, 15] ∧
    (s3.views.map (fun v => v.imu.isSome)) = [true, false] ∧ s3.prob.rblocks.length = 6 ∧
    s4.views.map View.ts = [15, 20] := by decide +kernel
example : (s4.views.length : Int) ≤ 2 := C58_window env 2 (by decide) (by decide) _ _ _ _ r4.run

/-- `C58_prior`: the state in which the second view could be dropped. -/
example : good (marginalize s3) = true := by decide +kernel

/-- `C58_no_failure`. -/
example : GridsOk env (addGrid s3 0 (g 20)) (addGrid s3 0 (g 20)).gridBuf ∧
    (addGrid s3 0 (g 20)).initialized = true ∧ 4 ≤ (addGrid s3 0 (g 20)).imu.size := by
  refine ⟨?_, by decide +kernel, by decide +kernel⟩
  have hb : (addGrid s3 0 (g 20)).gridBuf = [(0, g 20)] := by decide +kernel
  rw [hb]
  intro cg h
  simp only [List.mem_singleton] at h
  subst h
  exact ⟨⟨_, rfl⟩, by decide +kernel, fun _ => rfl⟩

/-- `RunO`: every image of `cs` is later than the views present. -/
def checkO : Call ℕ Unit → S → Bool
  | .grid _ g, t => t.views.all (fun v => decide (v.ts < g.timestamp))
  | _, _ => true

def execO (s : S) (l : List (Call ℕ Unit)) : Except Fault S :=
  l.foldlM (fun t c => if checkO c t then call env t c else .error .fatal) s

theorem runO_of_exec {s t : S} {l : List (Call ℕ Unit)} (h : execO s l = .ok t) :
    RunO env s l t := by
  induction l using List.reverseRecOn generalizing t with
  | nil => injection h with h; exact h ▸ .nil
  | append_singleton l c ih =>
    unfold execO at h
    rw [AprilGrid.foldlM_concat] at h
    obtain ⟨a, h1, h2⟩ := bindOk h
    split_ifs at h2 with hc
    refine .snoc (ih h1) ?_ h2
    rintro cam g rfl v hv
    simp only [checkO, List.all_eq_true, decide_eq_true_eq] at hc
    exact hc v hv

/-- `C58_order_partial`. -/
example : ∃ t, RunO env s0 cs2 t ∧ t.views.length = 2 :=
  ⟨val (execO s0 cs2), runO_of_exec (val_eq (by decide +kernel)), by decide +kernel⟩

/-- A calibrator that does not marginalise: the third image may be older than the second. -/
def u0 : S := St.new false 2 false false
def csOld : List (Call ℕ Unit) :=
  .camera 0 false false :: imus 0 5 ++ [.grid 0 (g 3)] ++ imus 5 5 ++ [.grid 0 (g 8)] ++ imus 10 8
def uOld : S := val (exec u0 csOld)

/-- `C58_order_refuted`: the views are then at times 3, 8 and 5. -/
example : (val ((process env uOld [(0, g 5)]).map Prod.fst)).views.map View.ts = [3, 8, 5] ∧
    uOld.initialized = true ∧ uOld.views.map View.ts = [3, 8] := by decide +kernel
example : ∃ t b, process env uOld [(0, g 5)] = .ok (t, b) ∧ t.views.length = uOld.views.length + 1 ∧
    firstDetected [((0 : Int), g 5)] = some (0, g 5) ∧ (g 5).timestamp < 8 := by
  cases h : process env uOld [(0, g 5)] with
  | error e =>
    have h1 : good (process env uOld [(0, g 5)]) = true := by decide +kernel
    rw [h] at h1
    cases h1
  | ok p =>
    refine ⟨p.1, p.2, rfl, ?_, rfl, by decide⟩
    have h1 : p.1 = val ((process env uOld [(0, g 5)]).map Prod.fst) := by rw [h]; rfl
    rw [h1]
    decide +kernel

/-- `C58_zero_window_refuted`: an initialised calibrator with a window of size 0. -/
example : ∃ t, Run env (St.new true 0 false false) (cs.take 12) t ∧ t.initialized = true :=
  ⟨val (exec (St.new true 0 false false) (cs.take 12)), run_of_exec (val_eq (by decide +kernel)),
    by decide +kernel⟩

/-- `C58_negative_window_refuted`: six views and a window of `-1`. -/
example : ({ uOld with enableMarg := true, windowSize := -1 } : S).views.length = 2 := by
  decide +kernel

/-- `C58_other_camera_refuted`: two cameras, of which only camera 1 sees the target. -/
def gMiss (ts : Int) : Grid ℕ := ⟨true, ts, 1, 1, 0, 0, false, 0, []⟩
def uMiss : S := val (exec s0 (.camera 0 false false :: .camera 1 false false :: imus 0 3 ++
  [.grid 0 (gMiss 2), .grid 1 (g 2)]))
example : good (addImu env uMiss 3 () ()) = false ∧ uMiss.initialized = false ∧
    uMiss.gridBuf.length = uMiss.cams.length ∧ 2 ≤ uMiss.imu.size ∧
    SMap.find 0 uMiss.gridBuf = some (gMiss 2) := by decide +kernel

/-- `C74_reset_partial`: a reset before anything was marginalised, then a full new run. -/
def uEarly : S := val (exec s0 csOld)
example : uEarly.marg = none ∧ uEarly.views.length = 2 ∧
    good (exec (reset uEarly) (cs2.drop 1)) = true := by decide +kernel

/-- `C74_reset_refuted`: the same after something was marginalised: the new run fails. -/
example : s3.marg.isSome ∧ good (exec (reset s3) ((cs2.drop 1).take 20)) = true ∧
    good (exec (reset s3) (cs2.drop 1)) = false := by decide +kernel

/-- `C75_view`: the residuals of the last view. -/
example : (s3.views.getLast?.map (fun v => v.fids.map Fid.what)) =
    some [(0, (0, 0), (1, 2)), (0, (3, 1), (4, 5))] := by decide +kernel

end Yac.VI.Witness
