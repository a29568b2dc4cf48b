import Verif.VI.Total
import Verif.Timeline.Props
import Mathlib.Algebra.Order.Field.Rat
import Mathlib.Data.Rat.Floor

/-!
# Model of `calib_vi_t::load_data`

yac/lib/calib_vi.cpp:1254-1382.  The inputs are the grids `calib_data_preprocess` returns for every
camera (C95; their order depends on the threads), the rows of `imu0/data.csv` and the two
tables of the configuration.
-/

namespace Yac.VI

open Yac.AprilGrid (Grid)

variable {K D : Type} [DecidableEq K]

/-- The two kinds of events of the timeline that `load_data` adds, calib_vi.cpp:1270 and 1279. -/
inductive Ev (K D : Type) where
  | grid (cam : Int) (g : Grid K)
  | imu (ts : Int) (a w : D)

/-- The measurements of a data set. -/
structure LoadIn (K D : Type) where
  /-- `cam_grids[cam_idx]`. -/
  grids : Int → List (Grid K)
  /-- `imu_ts`, `imu_acc`, `imu_gyr`. -/
  imu : List (Int × D × D)

/-- The calls of `timeline.add`, calib_vi.cpp:1268-1280. -/
def entries (cams : List Int) (d : LoadIn K D) : List (Int × Ev K D) :=
  cams.flatMap (fun c => (d.grids c).map (fun g => (g.timestamp, Ev.grid c g))) ++
    d.imu.map (fun r => (r.1, Ev.imu r.1 r.2.1 r.2.2))

/-- One event, calib_vi.cpp:1288-1303. -/
def feed (env : VEnv K D) (s : St K D) : Ev K D → Except Fault (St K D)
  | .grid c g => .ok (addGrid s c g)
  | .imu ts a w => addImu env s ts a w >>= fun r => .ok r.1

/-- The events of one timestamp, calib_vi.cpp:1284-1304. -/
def feedAt (env : VEnv K D) (tl : Timeline.T (Ev K D)) (s : St K D) (ts : Int) : Except Fault (St K D) :=
  (Timeline.getEvents tl ts).foldlM (feed env) s

/-- `load_data` without the tables, calib_vi.cpp:1254-1305. -/
def loadData (env : VEnv K D) (d : LoadIn K D) (s : St K D) : Except Fault (St K D) :=
  (Timeline.run (entries (s.cams.map Prod.fst) d)).timestamps.foldlM
    (feedAt env (Timeline.run (entries (s.cams.map Prod.fst) d))) s

/-! ### The tables -/

/-- Conversion of a `double` to `long int`: towards zero. -/
def toLong (x : ℚ) : Int := if 0 ≤ x then ⌊x⌋ else ⌈x⌉

/-- `tsform`, core.cpp:1539-1541; `fl` is the rounding of the multiplication in `double`. -/
def tsform (fl : ℚ → ℚ) (sec nsec : Int) : Int := toLong (fl (sec * 1000000000)) + nsec

/-- The timestamp of a row of a table, calib_vi.cpp:1320-1322 and 1353-1355. -/
def rowStamp (fl : ℚ → ℚ) (row : List ℚ) : Except Fault Int :=
  match row with
  | sec :: nsec :: _ => .ok (tsform fl (toLong sec) (toLong nsec))
  | _ => .error .oob

/-- One row of `imu_pose_data` or `sb_data`, calib_vi.cpp:1319-1335 and 1352-1370; `val` makes the
value of the columns after the second one and fails if there are too few. -/
def addRow {V : Type} (fl : ℚ → ℚ) (val : List ℚ → Except Fault V) (m : List (Int × V)) (row : List ℚ) :
    Except Fault (List (Int × V)) :=
  rowStamp fl row >>= fun t => val (row.drop 2) >>= fun v => .ok (SMap.set t v m)

/-- The value of a view is replaced if the table has one, calib_vi.cpp:1337-1344 and 1372-1379. -/
def setFrom {V : Type} (m : List (Int × V)) (v : Int × V) : Int × V :=
  (v.1, (SMap.find v.1 m).getD v.2)

/-- One of the two tables, calib_vi.cpp:1314-1345 and 1347-1380; `none`: the configuration has no
such key.  `vals`: the timestamps of the views and their poses, or speeds and biases. -/
def loadTable {V : Type} (fl : ℚ → ℚ) (val : List ℚ → Except Fault V) (table : Option (List (List ℚ)))
    (vals : List (Int × V)) : Except Fault (List (Int × V)) :=
  match table with
  | none => .ok vals
  | some rows => rows.foldlM (addRow fl val) [] >>= fun m => .ok (vals.map (setFrom m))

end Yac.VI
