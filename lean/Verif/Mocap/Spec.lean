import Verif.Mocap.Model
import Verif.AprilGrid.Props

/-!
# What a mocap calibration does, independently of how

`Holds` says which corners a grid holds; `Sound` what a consistent calibrator is; `Staged`,
`Tried` and `Trials` what trying views one after the other means; `Ran` which histories of
calls are legal.
-/

namespace Yac.Mocap

open Yac.AprilGrid (Grid MadeBy)
open Yac.Solver (CBook)

variable {K : Type} [Field K] [LinearOrder K]

/-- The grid was made by valid calls and holds exactly these corners with these image
points, in the order of tags and corners. -/
def Holds (rows cols : Nat) (g : Grid K) (l : List ((Int × Int) × (K × K))) : Prop :=
  ∃ ops, MadeBy rows cols ops g ∧
    AprilGrid.Spec.held rows cols (AprilGrid.Spec.run ops) = l

/-- The corners a view contributes to the problem. -/
def corners (v : View K) : List ((Int × Int) × (K × K)) :=
  v.resFns.map (fun r => ((r.tag, r.corner), r.z))

/-- The residual can be evaluated and exceeds a threshold. -/
def Beyond (resid : Res K → Option (K × K)) (th : K × K) (r : Res K) : Prop :=
  ∃ e, resid r = some e ∧ (th.1 < e.1 ∨ th.2 < e.2)

/-- The calibrator is consistent: views are listed once, belong to loaded grids with a
pose, contribute exactly the corners their grid still holds, all of them corners of the
loaded grid; the optimiser knows exactly the residuals of the views, each once, and exactly
the parameters of the calibrator. -/
structure Sound (rows cols : Nat) (s : Cal K) : Prop where
  once : s.viewTs.Nodup
  listed : ∀ ts, ts ∈ s.viewTs ↔ (SMap.find ts s.views).isSome
  number : s.views.length = s.viewTs.length
  view : ∀ ts v, SMap.find ts s.views = some v →
    v.ts = ts ∧ v.grid.timestamp = ts ∧ Holds rows cols v.grid (corners v) ∧
    (∀ r ∈ v.resFns, r.ts = ts) ∧
    (SMap.find ts s.est.poses).isSome ∧
    ∃ g l, SMap.find ts s.grids = some g ∧ Holds rows cols g l ∧ (corners v).Sublist l
  residuals : (s.solver.prob.rblocks.map Prod.snd).Nodup ∧
    ∀ r, r ∈ s.solver.prob.rblocks.map Prod.snd ↔
      ∃ ts v, SMap.find ts s.views = some v ∧ r ∈ v.resFns
  params : s.solver.prob.pblocks.Nodup ∧
    ∀ p, p ∈ s.solver.prob.pblocks ↔ (p = .cam ∨ p = .fid ∨ p = .ext ∨
      ∃ ts, p = .pose ts ∧ (SMap.find ts s.est.poses).isSome)

/-- The estimates the optimiser leaves when its outcome is `o`: what the user fixed stays. -/
def freed (s : Cal K) (o : Est K) : Est K :=
  ⟨if s.fixCam then s.est.cam else o.cam, if s.fixFid then s.est.fid else o.fid, o.ext,
   s.est.poses.map (fun tp => (tp.1, if s.fixPoses then tp.2 else (SMap.find tp.1 o.poses).getD tp.2))⟩

/-- `v'` is `v` without the residuals beyond the threshold. -/
structure Reduced (rows cols : Nat) (resid : Res K → Option (K × K)) (th : K × K) (v v' : View K) :
    Prop where
  ts : v'.ts = v.ts
  sub : v'.resFns.Sublist v.resFns
  stay : ∀ r ∈ v.resFns, r ∈ v'.resFns ↔ ¬ Beyond resid th r
  grid : Holds rows cols v'.grid (corners v')

/-- All residuals of a set of views that can be evaluated. -/
def evaluated (resid : Res K → Option (K × K)) (views : List (Int × View K)) : List (K × K) :=
  (views.flatMap (fun tv => tv.2.resFns)).filterMap resid

/-- `t` is `s` with a view of `ts` and without outliers: the new view has all corners of the
grid, then all views are reduced by one common threshold. -/
def Staged (rows cols : Nat) (env : Env K) (s : Cal K) (ts : Int) (t : Cal K) : Prop :=
  ∃ g v, SMap.find ts s.grids = some g ∧ Holds rows cols g (corners v) ∧ v.ts = ts ∧
    (∀ r ∈ v.resFns, r.ts = ts) ∧
    t = { s with viewTs := s.viewTs ++ [ts], views := t.views, solver := t.solver, next := t.next } ∧
    t.views.map Prod.fst = (SMap.set ts v s.views).map Prod.fst ∧
    ∀ u w, SMap.find u (SMap.set ts v s.views) = some w →
      ∃ w', SMap.find u t.views = some w' ∧
        Reduced rows cols (env.resid s.est)
          (env.thresh (evaluated (env.resid s.est) (SMap.set ts v s.views))) w w'

/-- What becomes of a view that is tried. -/
inductive Verdict where
  | early
  | unknown
  | rejected
  | kept
  deriving DecidableEq, Repr

/-- The calibrator `t` solved with the new view, the estimates before kept as cache. -/
def solved (env : Env K) (t : Cal K) : Cal K :=
  { t with cache := t.est, est := freed t (env.few { t with cache := t.est }) }

/-- Estimates put back, except the last intrinsic. -/
def putBack (c e : Est K) : Est K :=
  ⟨fun i => if i.val < 7 then c.cam i else e.cam i, c.fid, c.ext, c.poses⟩

/-- One view is tried: up to four views are kept without asking; if the information cannot
be computed the view stays but the estimates are put back; a view that gains too little is
removed with its pose and the estimates are put back; otherwise it is kept. -/
inductive Tried (rows cols : Nat) (env : Env K) (s : Cal K) (ts : Int) : Cal K → Verdict → Prop
  | early (t : Cal K) : Staged rows cols env s ts t → t.views.length < 5 →
      Tried rows cols env s ts (solved env t) .early
  | unknown (t : Cal K) : Staged rows cols env s ts t → 5 ≤ t.views.length →
      env.info (solved env t) = none →
      Tried rows cols env s ts
        { solved env t with est := putBack t.est (solved env t).est } .unknown
  | rejected (t : Cal K) (i : K × K) (b : CBook Par (Res K)) : Staged rows cols env s ts t →
      5 ≤ t.views.length → env.info (solved env t) = some i →
      (s.infoK - i.1) / 2 < s.gainMin →
      Tried rows cols env s ts
        { solved env t with
          est := { putBack t.est (solved env t).est with poses := SMap.erase ts t.est.poses }
          views := SMap.erase ts t.views
          viewTs := s.viewTs
          solver := b } .rejected
  | kept (t : Cal K) (i : K × K) : Staged rows cols env s ts t →
      5 ≤ t.views.length → env.info (solved env t) = some i →
      s.gainMin ≤ (s.infoK - i.1) / 2 →
      Tried rows cols env s ts { solved env t with infoK := i.1, entropyK := i.2 } .kept

/-- Views are tried one after the other. -/
inductive Trials (rows cols : Nat) (env : Env K) : Cal K → List Int → Cal K → List Verdict → Prop
  | nil (s : Cal K) : Trials rows cols env s [] s []
  | cons {s t s' : Cal K} {ts : Int} {l : List Int} {v : Verdict} {vs : List Verdict} :
      Tried rows cols env s ts t v → Trials rows cols env t l s' vs →
      Trials rows cols env s (ts :: l) s' (v :: vs)

/-- A new calibrator over grids made by valid calls, with different timestamps and a pose
for each. -/
def Created (rows cols : Nat) (s : Cal K) : Prop :=
  ∃ fc fp ff gm estimate cam fid grids poses,
    grids.length ≤ poses.length ∧ (grids.map Grid.timestamp).Nodup ∧
    (∀ g ∈ grids, ∃ ops, MadeBy rows cols ops g) ∧
    create fc fp ff gm estimate cam fid grids poses = .ok s

/-- Histories of calls on a calibrator in which a view is only added for a loaded grid that
has a pose and no view. -/
inductive Ran (env : Env K) (s₀ : Cal K) : Cal K → Prop
  | start : Ran env s₀ s₀
  | add {s s' : Cal K} {ts : Int} {g : Grid K} : Ran env s₀ s → SMap.find ts s.grids = some g →
      SMap.find ts s.views = none → (SMap.find ts s.est.poses).isSome →
      addView s g = .ok s' → Ran env s₀ s'
  | attempt {s s' : Cal K} {ts : Int} : Ran env s₀ s → (SMap.find ts s.grids).isSome →
      SMap.find ts s.views = none → (SMap.find ts s.est.poses).isSome →
      nbvStep env s ts = .ok s' → Ran env s₀ s'
  | remove {s s' : Cal K} {ts : Int} : Ran env s₀ s → (SMap.find ts s.views).isSome →
      removeView s ts = .ok s' → Ran env s₀ s'
  | filter {s s' : Cal K} {n : Nat} : Ran env s₀ s → filterAllViews env s = .ok (s', n) →
      Ran env s₀ s'
  | last {s s' : Cal K} {n : Nat} : Ran env s₀ s → filterLastView env s = .ok (s', n) →
      Ran env s₀ s'
  | few {s s' : Cal K} : Ran env s₀ s → solveWith env.few s = .ok s' → Ran env s₀ s'
  | full {s s' : Cal K} : Ran env s₀ s → solveWith env.full s = .ok s' → Ran env s₀ s'

end Yac.Mocap
