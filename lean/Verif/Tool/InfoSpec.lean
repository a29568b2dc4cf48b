import Verif.Tool.InfoModel
import Verif.Csv.Spec

/-! # C134: what the report of `calib_info` is about (specification) -/

namespace Yac.Tool

open Yac.AprilGrid (Grid)

/-- The calibrator after the given views have been added in turn. -/
def addViews {K V : Type} [Field K] [LinearOrder K] (env : Calib.Env K V) (s : Calib.Cal K V) (vs : List (List (ℤ × Grid K))) :
    Except Fault (Calib.Cal K V) :=
  vs.foldlM (fun s v => Calib.addView env s v >>= fun r => .ok r.1) s

/-- The views whose time satisfies `p`. -/
def viewsAt {K : Type} (data : List (ℤ × List (ℤ × Grid K))) (p : ℤ → Bool) : List (List (ℤ × Grid K)) :=
  (data.filter (fun tv => p tv.1)).map Prod.snd

/-- The measurements before the IMU sample at `ts`: grids of the same time come first. -/
def before {K D : Type} (d : VI.LoadIn K D) (ts : ℤ) : VI.LoadIn K D :=
  ⟨fun c => (d.grids c).filter (fun g => decide (g.timestamp ≤ ts)), d.imu.filter (fun r => decide (r.1 < ts))⟩

/-- The two maps speak about the same times, in order. -/
def Paired {R : Type} (m : Maps R) : Prop := SMap.Sorted m.info ∧ m.info.map Prod.fst = m.entropy.map Prod.fst

/-- The report says `i` and `e` about the time `ts`. -/
def Reports {R : Type} (m : Maps R) (ts : ℤ) (i e : R) : Prop := SMap.find ts m.info = some i ∧ SMap.find ts m.entropy = some e

/-- The differential entropy of a normal distribution in `n` dimensions with covariance of determinant `det`. -/
noncomputable def gaussEntropy (n : ℕ) (det : ℝ) : ℝ := n / 2 * (1 + Real.log (2 * Real.pi)) + 1 / 2 * Real.log det

end Yac.Tool
