import Verif.Mocap.Props
import Verif.Calib.LoopWitness

/-!
Concrete mocap calibrations for C91 to C93: grids 1 to 6; grid 3 has two corners, the others
one, and grid 6 cannot be estimated.
-/

namespace Yac.Mocap.Witness

open Yac.Mocap
open Yac.AprilGrid (Grid Op MadeBy)
open Yac.Calib.Witness (grid grid1 grid_made grid1_made val good val_eq)

/-- Grid 6 cannot be estimated, the extrinsics are the timestamp seven times. -/
def estimate (_ : Fin 8 → ℚ) (_ _ : Fin 7 → ℚ) (g : Grid ℚ) : Option (Fin 7 → ℚ) :=
  if g.timestamp = 6 then none else some (fun _ => g.timestamp)

def gs : List (Grid ℚ) := [grid1 1 1, grid1 2 2, grid 3 3, grid1 4 4, grid1 5 5, grid1 6 6]

def ps : List (Fin 7 → ℚ) := (List.range 7).map (fun i => fun _ => (i : ℚ))

def c0 : Cal ℚ := ⟨false, false, false, 0, 0, 0, [], [], [], Solver.CBook.empty,
  ⟨fun _ => 0, fun _ => 0, fun _ => 0, []⟩, ⟨fun _ => 0, fun _ => 0, fun _ => 0, []⟩, 0⟩

/-- A new calibrator; the flags say what is fixed. -/
def mk (fc fp ff : Bool) : Cal ℚ :=
  val c0 (create fc fp ff (1 / 4) estimate (fun i => i.val) (fun _ => 2) gs ps)

theorem created (fc fp ff : Bool) : Created 1 1 (mk fc fp ff) := by
  refine ⟨fc, fp, ff, 1 / 4, estimate, (fun i => i.val), (fun _ => 2), gs, ps, by decide +kernel,
    by decide +kernel, ?_, ?_⟩
  · intro g hg
    simp only [gs, List.mem_cons, List.not_mem_nil, or_false] at hg
    rcases hg with rfl | rfl | rfl | rfl | rfl | rfl
    · exact ⟨_, grid1_made 1 1⟩
    · exact ⟨_, grid1_made 2 2⟩
    · exact ⟨_, grid_made 3 3⟩
    · exact ⟨_, grid1_made 4 4⟩
    · exact ⟨_, grid1_made 5 5⟩
    · exact ⟨_, grid1_made 6 6⟩
  · refine val_eq ?_
    rcases fc <;> rcases fp <;> rcases ff <;> decide +kernel

/-- The residual of a corner is its image point; the threshold is never
reached; the optimiser adds 1 to everything; the information is minus the number of views. -/
def env : Env ℚ where
  resid _ r := some r.z
  thresh _ := (100, 100)
  few s := ⟨fun i => s.est.cam i + 1, fun i => s.est.fid i + 1, fun i => s.est.ext i + 1,
    s.est.poses.map (fun tp => (tp.1, fun i => tp.2 i + 1))⟩
  full s := ⟨fun i => s.est.cam i + 1, fun i => s.est.fid i + 1, fun i => s.est.ext i + 1,
    s.est.poses.map (fun tp => (tp.1, fun i => tp.2 i + 1))⟩
  info s := some (-(s.views.length : ℚ), 1)

/-- ... the information never changes. -/
def envR : Env ℚ := { env with info := fun _ => some (0, 1) }

/-- ... or cannot be computed. -/
def envU : Env ℚ := { env with info := fun _ => none }

/-- ... and with six corners the threshold is 2. -/
def envT : Env ℚ := { envR with thresh := fun l => if 6 ≤ l.length then (2, 100) else (100, 100) }

/-- C91 witness (`C91_create`): grid 5 is the last one that can be estimated. -/
example : gs.length ≤ ps.length ∧ (gs.map Grid.timestamp).Nodup ∧
    gs.zip ps = gs.zip (ps.take 4) ++ (grid1 5 5, fun _ => ((4 : Nat) : ℚ)) ::
      [(grid1 6 6, fun _ => ((5 : Nat) : ℚ))] ∧
    (estimate (fun i => i.val) (fun _ => 2) (fun _ => 4) (grid1 5 5)).isSome = true ∧
    (estimate (fun i => i.val) (fun _ => 2) (fun _ => 5) (grid1 6 6)).isNone = true ∧
    (mk false false false).grids.map Prod.fst = [1, 2, 3, 4, 5] ∧
    (mk false false false).est.poses.map (fun tp => (tp.1, tp.2 0)) =
      [(1, 0), (2, 1), (3, 2), (4, 3), (5, 4), (6, 5)] ∧
    (mk false false false).est.ext 0 = 5 := by
  refine ⟨by decide +kernel, by decide +kernel, rfl, by decide +kernel, by decide +kernel,
    by decide +kernel, by decide +kernel, by decide +kernel⟩

/-- C91 witness (`C91_create`): no grid can be estimated. -/
example : create false false false (1 / 4) estimate (fun i => i.val) (fun _ => 2) [grid1 6 6] ps =
    .error .uninit :=
  (C91_create false false false (1 / 4) estimate _ _ [grid1 6 6] ps (by decide +kernel)
    (by decide +kernel)).1 (by
      intro gp hgp
      have : gp.1 = grid1 6 6 := by
        have h := (List.of_mem_zip hgp).1
        simpa using h
      rw [this]; rfl)

/-- How many residuals the optimiser has. -/
def problem (s : Cal ℚ) : Nat := s.solver.prob.rblocks.length

/-- The calibrator with four views. -/
def r4 (e : Env ℚ) (s : Cal ℚ) : Cal ℚ := val c0 ([1, 2, 3, 4].foldlM (nbvStep e) s)

theorem ran_fold (e : Env ℚ) {s₀ : Cal ℚ} : ∀ (l : List Int) (s s' : Cal ℚ), Created 1 1 s₀ →
    Ran e s₀ s → l.Nodup →
    (∀ ts ∈ l, (SMap.find ts s.grids).isSome ∧ SMap.find ts s.views = none ∧
      (SMap.find ts s.est.poses).isSome) → l.foldlM (nbvStep e) s = .ok s' → Ran e s₀ s'
  | [], s, s', _, h, _, _, hs => by cases hs; exact h
  | ts :: l, s, s', h0, h, hn, hl, hs => by
    rw [List.nodup_cons] at hn
    rw [List.foldlM_cons] at hs
    have k := hl ts (by simp)
    have w := h.wf h0.fresh.1
    obtain ⟨t, vd, a1, a2, _⟩ := w.step e k.1 k.2.1 k.2.2
    rw [a1, AprilGrid.ok_bind] at hs
    have w' := (Ran.attempt h k.1 k.2.1 k.2.2 a1).wf h0.fresh.1
    obtain ⟨f1, _, _, _, _, f6, f7⟩ := a2.frame
    refine ran_fold e l t s' h0 (.attempt h k.1 k.2.1 k.2.2 a1) hn.2 (fun u hu => ?_) hs
    have k' := hl u (by simp [hu])
    have hne : u ≠ ts := fun e => hn.1 (e ▸ hu)
    refine ⟨by rw [f1]; exact k'.1, ?_, ?_⟩
    · have hu' : u ∉ t.viewTs := by
        rw [f6]
        have : u ∉ s.viewTs := fun hc => by
          have := (w.tsMem u).mp hc
          rw [k'.2.1] at this; simp at this
        split_ifs <;> simp [this, hne]
      rw [← Option.not_isSome_iff_eq_none]
      exact fun hc => hu' ((w'.tsMem u).mpr hc)
    · rw [f7 u hne]; exact k'.2.2

theorem ran4 (e : Env ℚ) {s : Cal ℚ} (h : Created 1 1 s)
    (hl : ∀ ts ∈ [1, 2, 3, 4], (SMap.find ts s.grids).isSome ∧ (SMap.find ts s.est.poses).isSome)
    (hg : good ([1, 2, 3, 4].foldlM (nbvStep e) s) = true) : Ran e s (r4 e s) :=
  ran_fold e [1, 2, 3, 4] s _ h .start (by decide) (fun ts hts =>
    ⟨(hl ts hts).1, by rw [h.fresh.2.1]; rfl, (hl ts hts).2⟩) (val_eq hg)

theorem ran_r4 (e : Env ℚ) (hg : good ([1, 2, 3, 4].foldlM (nbvStep e) (mk false false false)) = true) :
    Ran e (mk false false false) (r4 e (mk false false false)) :=
  ran4 e (created _ _ _) (by decide +kernel) hg

/-- C91, C93 witness (`C91_sound`, `C91_total`, `C93_filter`): four views, then a view is
added, outliers are removed (there are four beyond 2), the view is removed again. -/
example : Created 1 1 (mk false false false) ∧
    Ran envT (mk false false false) (r4 envT (mk false false false)) ∧
    (r4 envT (mk false false false)).viewTs = [1, 2, 3, 4] ∧
    (problem (r4 envT (mk false false false))) = 5 ∧
    good (addView (r4 envT (mk false false false)) (grid1 5 5)) = true ∧
    (val (c0, 0) (filterAllViews envT (val c0 (addView (r4 envT (mk false false false)) (grid1 5 5))))).2 = 4 ∧
    good (removeView (r4 envT (mk false false false)) 2) = true :=
  ⟨created _ _ _, ran_r4 envT (by decide +kernel), by decide +kernel, by decide +kernel,
    by decide +kernel, by decide +kernel, by decide +kernel⟩

/-- C91 witness (`C91_nbv`, `C91_gain`): the views are tried backwards, and the fifth is kept. -/
example : Created 1 1 (mk false false false) ∧
    good (solveNbv env List.reverse (mk false false false)) = true ∧
    (val c0 (solveNbv env List.reverse (mk false false false))).viewTs = [5, 4, 3, 2, 1] ∧
    (val c0 (solveNbv env List.reverse (mk false false false))).infoK = -5 ∧
    (val c0 (solveNbv env List.reverse (mk false false false))).est.ext 3 = 11 ∧
    (val c0 (solveNbv envR List.reverse (mk false false false))).viewTs = [5, 4, 3, 2] ∧
    (val c0 (solveNbv envU List.reverse (mk false false false))).viewTs = [5, 4, 3, 2, 1] ∧
    (val c0 (solveNbv envU List.reverse (mk false false false))).est.ext 3 = 10 :=
  ⟨created _ _ _, by decide +kernel, by decide +kernel, by decide +kernel, by decide +kernel,
    by decide +kernel, by decide +kernel, by decide +kernel⟩

/-- C92 is false for the intrinsics: the fifth view is rejected, and the last intrinsic keeps
the value of the solution with that view. -/
theorem C92_intrinsic_refuted :
    ∃ s₀ s s' : Cal ℚ, Created 1 1 s₀ ∧ Ran envR s₀ s ∧ nbvStep envR s 5 = .ok s' ∧
      (SMap.find 5 s.grids).isSome ∧ s'.viewTs = s.viewTs ∧ SMap.find 5 s'.views = none ∧
      s'.est.cam 7 ≠ s.est.cam 7 :=
  ⟨mk false false false, r4 envR (mk false false false),
    val c0 (nbvStep envR (r4 envR (mk false false false)) 5), created _ _ _,
    ran_r4 envR (by decide +kernel), val_eq (by decide +kernel), by decide +kernel,
    by decide +kernel, by decide +kernel, by decide +kernel⟩

/-- C92 is false for the other views: the fifth view is rejected, and view 3 has lost its
two corners for good, because outliers are removed before anything is remembered. -/
theorem C92_corners_refuted :
    ∃ s₀ s s' : Cal ℚ, Created 1 1 s₀ ∧ Ran envT s₀ s ∧ nbvStep envT s 5 = .ok s' ∧
      s'.viewTs = s.viewTs ∧ SMap.find 5 s'.views = none ∧
      (SMap.find 3 s.views).map (fun v => v.resFns.length) = some 2 ∧
      (SMap.find 3 s'.views).map (fun v => v.resFns.length) = some 0 :=
  ⟨mk false false false, r4 envT (mk false false false),
    val c0 (nbvStep envT (r4 envT (mk false false false)) 5), created _ _ _,
    ran_r4 envT (by decide +kernel), val_eq (by decide +kernel), by decide +kernel,
    by decide +kernel, by decide +kernel, by decide +kernel⟩

/-- C92 witness (`C92_reject_partial`): the fifth view is rejected. -/
example : ∃ s', Tried 1 1 envR (r4 envR (mk false false false)) 5 s' .rejected := by
  have w := (ran_r4 envR (by decide +kernel)).wf (created false false false).fresh.1
  obtain ⟨s', vd, a1, a2, _⟩ := w.step (ts := 5) envR (by decide +kernel) (by decide +kernel) (by decide +kernel)
  have h : s'.viewTs = [1, 2, 3, 4] := by
    have := val_eq (d := c0) (x := nbvStep envR (r4 envR (mk false false false)) 5) (by decide +kernel)
    rw [this] at a1; cases a1; decide +kernel
  have hv : vd = .rejected := by
    by_contra hc
    have := a2.frame.2.2.2.2.2.1
    rw [if_neg hc, h] at this
    exact absurd (congrArg List.length this) (by decide +kernel)
  exact ⟨s', hv ▸ a2⟩

/-- C92 witness (`C92_unknown`): the information of the fifth view is not known. -/
example : good (nbvStep envU (r4 envU (mk false false false)) 5) = true ∧
    (val c0 (nbvStep envU (r4 envU (mk false false false)) 5)).viewTs = [1, 2, 3, 4, 5] ∧
    envU.info (r4 envU (mk false false false)) = none ∧
    (val c0 (nbvStep envU (r4 envU (mk false false false)) 5)).est.cam 7 = 12 ∧
    (val c0 (nbvStep envU (r4 envU (mk false false false)) 5)).est.cam 6 = 10 :=
  ⟨by decide +kernel, by decide +kernel, rfl, by decide +kernel, by decide +kernel⟩

/-- C93 witness (`C93_solve_partial`): four of the six corners are removed. -/
example : Created 1 1 (mk false false false) ∧
    (val c0 (solve envT (mk false false false))).viewTs = [1, 2, 3, 4, 5] ∧
    problem (val c0 (solve envT (mk false false false))) = 2 ∧
    (val c0 (solve envT (mk false false false))).est.ext 0 = 7 :=
  ⟨created _ _ _, by decide +kernel, by decide +kernel, by decide +kernel⟩

/-- C93 witness (`C93_fixed`): with everything fixed only the extrinsics change. -/
example : Created 1 1 (mk true true true) ∧
    (mk true true true).fixCam = true ∧ (mk true true true).fixFid = true ∧
    (mk true true true).fixPoses = true ∧
    Ran env (mk true true true) (r4 env (mk true true true)) ∧
    (r4 env (mk true true true)).est.ext 0 = 9 ∧ (r4 env (mk true true true)).est.cam 1 = 1 :=
  ⟨created _ _ _, by decide +kernel, by decide +kernel, by decide +kernel,
    ran4 env (created _ _ _) (by decide +kernel) (by decide +kernel), by decide +kernel, by decide +kernel⟩

/-- The computation reads or writes freed memory. -/
def faults {α : Type} : Except Fault α → Bool
  | .error .oob => true
  | _ => false

theorem of_faults {α : Type} {x : Except Fault α} (h : faults x = true) : x = .error .oob := by
  cases x with
  | ok a => simp [faults] at h
  | error e => cases e <;> simp_all [faults]

/-- C93 is false for a second calibration: the views of the first one are replaced, their
residuals are freed, and the optimiser evaluates them. -/
theorem C93_twice_refuted :
    ∃ s s' : Cal ℚ, Created 1 1 s ∧ solve env s = .ok s' ∧ solve env s' = .error .oob ∧
      ∃ s'', solveNbv env id s = .ok s'' ∧ solve env s'' = .error .oob :=
  ⟨mk false false false, val c0 (solve env (mk false false false)), created _ _ _,
    val_eq (by decide +kernel), of_faults (by decide +kernel),
    val c0 (solveNbv env id (mk false false false)), val_eq (by decide +kernel),
    of_faults (by decide +kernel)⟩

end Yac.Mocap.Witness
