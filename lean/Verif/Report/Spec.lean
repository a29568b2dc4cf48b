import Verif.Report.Model
import Verif.Csv.Spec
import Verif.Fmt.Props

/-! # C136: what a table says (specification) -/

namespace Yac.Report
open Yac.Text Yac.Fmt Yac.Csv

/-- The table has the size that it announces, and its entries have these meanings. -/
def TableIs (t : Table) (rows : List (List (Str → Prop))) : Prop :=
  t.rows = rows.length ∧ (∀ r ∈ rows, r.length = t.cols) ∧ List.Forall₂ (fun m c => m c) rows.flatten (items t.data)

/-- The last snapshot with the time of `s`; `s` itself when times are not repeated. -/
def shown (snaps : List Snap) (s : Snap) : Snap := ((snaps.filter (fun s' => decide (s'.ts = s.ts))).getLast?).getD s

/-- The history after these calls of `_track_estimates`. -/
def after (snaps : List Snap) : Hist := snaps.foldl track Hist.empty

/-- Every snapshot has the cameras `idxs`. -/
def SameCameras (idxs : List ℤ) (snaps : List Snap) : Prop :=
  idxs.Nodup ∧ ∀ s ∈ snaps, s.cams.map Prod.fst = idxs ∧ s.exts.map Prod.fst = idxs

/-- 1 for yes, 0 for no. -/
def bit (b : Bool) : ℤ := if b then 1 else 0

/-- Entries for a pose: position and quaternion to six decimals. -/
def poseMeans (v : Fin 7 → ℚ) : List (Str → Prop) := List.ofFn (fun i => FixCell (v i))

/-- Entries for the statistics of errors; -1 without errors. -/
def statMeans (stats : List ℚ → Fin 4 → ℚ) (errs : List ℚ) : List (Str → Prop) :=
  if errs = [] then List.replicate 4 (Named "-1.0") else List.ofFn (fun i => FixCell (stats errs i))

/-- The entries of a corner. -/
def cornerMeans (cam ts : ℤ) (a : Bool) (c : Corner) : List (Str → Prop) :=
  [IntCell cam, IntCell ts, IntCell (bit a), IntCell c.tag, IntCell c.corner, FixCell c.z.1, FixCell c.z.2,
    FixCell c.zhat.1, FixCell c.zhat.2, FixCell (c.z.1 - c.zhat.1), FixCell (c.z.2 - c.zhat.2)]

end Yac.Report
