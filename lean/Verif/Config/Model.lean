import Verif.Text.Model

/-!
# Model of yac/lib/util/config.cpp and config.hpp

yaml-cpp is modelled by its documented behaviour on a loaded document: `operator[]` with a string
key on a non-const node throws `BadSubscript` on a scalar and turns a null or sequence node into a
map in place (`config_t` shares its nodes, so the configuration itself changes); a missing key gives
an undefined node.  Reading and writing of YAML text, anchors and tags are not modelled.
-/

namespace Yac.Config
open Yac.Text

/-- A string. -/
abbrev Str := List Char

/-- A loaded YAML node. -/
inductive Y where
  | null
  | scalar (s : Str)
  | seq (l : List Y)
  | map (l : List (Str × Y))

/-- `detail::node_data::convert_sequence_to_map`: the keys are the indices. -/
def indexed : Nat → List Y → List (Str × Y)
  | _, [] => []
  | i, y :: l => (natText i, y) :: indexed (i + 1) l

/-- The map a node is turned into by `operator[](string)`. -/
def asMap : Y → Except Fault (List (Str × Y))
  | .null => .ok []
  | .scalar _ => .error .exn
  | .seq l => .ok (indexed 0 l)
  | .map m => .ok m

/-- The first pair with the key. -/
def lookup (m : List (Str × Y)) (k : Str) : Option Y := (m.find? (fun e => e.1 = k)).map Prod.snd

/-- The value of the first pair with the key replaced. -/
def update : List (Str × Y) → Str → Y → List (Str × Y)
  | [], _, _ => []
  | e :: m, k, y => if e.1 = k then (k, y) :: m else e :: update m k y

/-- The loop of `yaml_get_node`, config.cpp:45-47 (and of `yaml_has_key`, config.cpp:80-82): the node
reached (`none`: undefined) and the document afterwards. -/
def descend : List Str → Y → Except Fault (Option Y × Y)
  | [], y => .ok (some y, y)
  | k :: ks, y => asMap y >>= fun m =>
    match lookup m k with
    | none => .ok (none, .map m)
    | some c => descend ks c >>= fun r => .ok (r.1, .map (update m k r.2))

/-- `yaml_get_node`, config.cpp:32-68. -/
def getNode (cfg : Y) (key : Str) (optional : Bool) : Except Fault (Option Y × Y) :=
  descend (getAll '.' key) cfg >>= fun r =>
  match r.1 with
  | some n => .ok (some n, r.2)
  | none => if optional then .ok (none, r.2) else .error .fatal

/-- `yaml_has_key`, config.cpp:70-97. -/
def hasKey (cfg : Y) (key : Str) : Except Fault (Bool × Y) :=
  descend (getAll '.' key) cfg >>= fun r => .ok (r.1.isSome, r.2)

/-- The common shape of the `parse` functions: return value, output and the document afterwards;
`old` is the value of the output before the call. -/
def parseWith {V : Type} (read : Y → Except Fault V) (cfg : Y) (key : Str) (optional : Bool) (old : V) :
    Except Fault ((Int × V) × Y) :=
  getNode cfg key optional >>= fun r =>
  match r.1 with
  | none => .ok ((-1, old), r.2)
  | some n => read n >>= fun v => .ok ((0, v), r.2)

/-! ### Values -/

variable {V : Type}

/-- `node.as<T>()`; `dec` is the conversion of scalars. -/
def asT (dec : Str → Option V) : Y → Except Fault V
  | .scalar s => match dec s with
    | some v => .ok v
    | none => .error .exn
  | _ => .error .exn

/-- Exceptions become `FATAL`. -/
def caught {α : Type} : Except Fault α → Except Fault α
  | .error _ => .error .fatal
  | .ok a => .ok a

/-- `parse<T>`, config.hpp:303-322. -/
def parseT (dec : Str → Option V) (cfg : Y) (key : Str) (optional : Bool) (old : V) :
    Except Fault ((Int × V) × Y) :=
  caught (parseWith (asT dec) cfg key optional old)

/-- `node.size()`. -/
def size : Y → Nat
  | .null => 0
  | .scalar _ => 0
  | .seq l => l.length
  | .map m => m.length

/-- `node[i]` with a number: an element of a sequence (undefined past its end), a map is searched for
the key, a scalar throws. -/
def index : Y → Nat → Except Fault (Option Y)
  | .null, _ => .ok none
  | .scalar _, _ => .error .exn
  | .seq l, i => .ok l[i]?
  | .map m, i => .ok (lookup m (natText i))

/-- `node[i].as<T>()`; an undefined node throws. -/
def elem (dec : Str → Option V) (y : Y) (i : Nat) : Except Fault V :=
  index y i >>= fun o => match o with
    | some c => asT dec c
    | none => .error .exn

/-- The elements `i, ..., i + n - 1`. -/
def elems (dec : Str → Option V) (y : Y) : Nat → Nat → Except Fault (List V)
  | _, 0 => .ok []
  | i, n + 1 => elem dec y i >>= fun v => elems dec y (i + 1) n >>= fun vs => .ok (v :: vs)

/-- `parse<std::vector<T>>`, config.hpp:324-347: the elements are appended to the output. -/
def readStd (dec : Str → Option V) (old : List V) : Y → Except Fault (List V)
  | .null => .ok old
  | .scalar _ => .ok old
  | .seq l => l.foldlM (fun acc n => asT dec n >>= fun v => .ok (acc ++ [v])) old
  | .map m => if m = [] then .ok old else .error .exn

/-- `parse<std::vector<T>>`. -/
def parseStd (dec : Str → Option V) (cfg : Y) (key : Str) (optional : Bool) (old : List V) :
    Except Fault ((Int × List V) × Y) :=
  caught (parseWith (readStd dec old) cfg key optional old)

/-- `yaml_check_vector`, config.hpp:204-252, for a vector of fixed size `n`. -/
def checkVector (y : Y) (n : Nat) : Except Fault Unit :=
  if size y = 0 ∧ size y ≠ n then .error .fatal else .ok ()

/-- `parse(vec2_t)` ... `parse(veci4_t)`, config.cpp:121-171 and 191-239. -/
def readVec (dec : Str → Option V) (n : Nat) (y : Y) : Except Fault (List V) :=
  checkVector y n >>= fun _ => elems dec y 0 n

/-- `parse(vecx_t)`, `parse(vecix_t)`, config.cpp:173-189 and 241-257. -/
def readVecX (dec : Str → Option V) (y : Y) : Except Fault (List V) := elems dec y 0 (size y)

/-- `node[key]` on a const node. -/
def field : Y → Str → Except Fault (Option Y)
  | .scalar _, _ => .error .exn
  | .map m, k => .ok (lookup m k)
  | _, _ => .ok none

/-- A field that must be there, `yaml_check_matrix_fields`, config.cpp:104-116. -/
def need (y : Y) (k : Str) : Except Fault Y :=
  field y k >>= fun o => match o with
    | some c => .ok c
    | none => .error .fatal

/-- `yaml_check_matrix_fields` and `yaml_check_matrix`, config.hpp:254-301: rows, columns and data.
`nb` is the number of elements of a fixed-size type, `none` for `matx_t` and `cv::Mat`. -/
def checkMatrix (decI : Str → Option Int) (nb : Option Nat) (y : Y) : Except Fault (Int × Int × Y) :=
  need y "rows".toList >>= fun r => need y "cols".toList >>= fun c => need y "data".toList >>= fun d =>
  asT decI r >>= fun rows => asT decI c >>= fun cols =>
  if size d = nb.getD (size d) then .ok (rows, cols, d) else .error .fatal

/-- `parse(mat2_t)`, `parse(mat3_t)`, `parse(mat4_t)`, config.cpp:259-328: the rows of an `n` by `n`
matrix. -/
def readMat (decI : Str → Option Int) (dec : Str → Option V) (n : Nat) (y : Y) :
    Except Fault (List (List V)) :=
  checkMatrix decI (some (n * n)) y >>= fun m =>
  (List.range n).mapM (fun i => elems dec m.2.2 (i * n) n)

/-- `parse(matx_t)`, `parse(cv::Mat)`, config.cpp:330-381.  A negative size fails in `resize`. -/
def readMatX (decI : Str → Option Int) (dec : Str → Option V) (y : Y) :
    Except Fault (List (List V)) :=
  checkMatrix decI none y >>= fun m =>
  if 0 ≤ m.1 ∧ 0 ≤ m.2.1 then
    (List.range m.1.toNat).mapM (fun i => elems dec m.2.2 (i * m.2.1.toNat) m.2.1.toNat)
  else .error .fatal

end Yac.Config
