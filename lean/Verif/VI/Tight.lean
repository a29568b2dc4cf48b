import Verif.VI.LoadProps

namespace Yac.VI

/-- **C118.** A row of a table without both parts of the timestamp is read out of bounds. -/
theorem C118_short_row_refuted {V : Type} (fl : ℚ → ℚ) (val : List ℚ → Except Fault V) (cols : List (Int × V)) (row : List ℚ)
    (rows : List (List ℚ)) (h : row.length < 2) : loadTable fl val (some (row :: rows)) cols = .error .oob := by
  have hr : addRow fl val [] row = .error .oob := by
    unfold addRow rowStamp
    match row, h with
    | [], _ => rfl
    | [_], _ => rfl
  show ((row :: rows).foldlM (addRow fl val) [] >>= _) = _
  rw [List.foldlM_cons, hr]
  rfl

example : loadTable id (fun l => .ok l) (some [[5], [1, 2, 3]]) [] = .error .oob :=
  C118_short_row_refuted id (fun l => .ok l) [] [5] [[1, 2, 3]] (by decide)

end Yac.VI
