import Verif.Basic

/-!
# Model of the string functions of yac/lib/util/fs.cpp

Strings are lists of characters.  Operations the C++ standard leaves undefined, and exceptions,
are errors.
-/

namespace Yac.Fs

/-- `std::string::find_last_of` / `find_last_not_of` / `rfind`: the index of the last character
satisfying `p`; `none` is `npos`. -/
def findLast (p : Char → Bool) : List Char → Option Nat
  | [] => none
  | c :: l => match findLast p l with
    | some i => some (i + 1)
    | none => if p c then some 0 else none

/-- `std::string::find_first_not_of` (with the negated predicate). -/
def findFirst (p : Char → Bool) (l : List Char) : Option Nat := l.findIdx? p

/-- A path separator, `"\\/"`. -/
def isSep (c : Char) : Bool := c = '/' || c = '\\'

/-- `parse_fext`, fs.cpp:79-81: `substr(npos)` throws. -/
def parseFext (path : List Char) : Except Fault (List Char) :=
  match findLast (· = '.') path with
  | some i => .ok (path.drop i)
  | none => .error .exn

/-- `parse_fname`, fs.cpp:83-91. -/
def parseFname (path : List Char) : List Char :=
  match findLast isSep path with
  | some i => path.drop (i + 1)
  | none => path

/-- `dir_name`, fs.cpp:124-127. -/
def dirName (path : List Char) : List Char :=
  match findLast isSep path with
  | some i => path.take i
  | none => path

/-- `strip`, fs.cpp:129-137. -/
def strip (s target : List Char) : List Char :=
  match findFirst (fun c => c ∉ target) s with
  | none => s
  | some first =>
    match findLast (fun c => c ∉ target) s with
    | some last => (s.drop first).take (last - first + 1)
    | none => s.drop first

/-- `strip_end`, fs.cpp:139-142: `npos + 1` is zero. -/
def stripEnd (s target : List Char) : List Char :=
  match findLast (fun c => c ∉ target) s with
  | some last => s.take (last + 1)
  | none => []

/-- `remove_ext`, fs.cpp:176-183. -/
def removeExt (path : List Char) : List Char :=
  match findLast (· = '.') path with
  | some i => path.take i
  | none => path

/-- The loop of `path_split`, fs.cpp:230-237, with the current string `s` and the list so far. -/
def splitLoop : List Char → List Char → List (List Char) → List (List Char)
  | [], s, acc => acc ++ [s]
  | c :: l, s, acc =>
    if s ≠ [] ∧ c = '/' then splitLoop l [] (acc ++ [s])
    else if c ≠ '/' then splitLoop l (s ++ [c]) acc
    else splitLoop l s acc

/-- `path_split`, fs.cpp:225-241. -/
def pathSplit (path : List Char) : List (List Char) := splitLoop path [] []

/-- `pop_back()` `n` times; on an empty vector it is undefined. -/
def popN {α : Type} (l : List α) (n : Nat) : Except Fault (List α) :=
  if n ≤ l.length then .ok (l.take (l.length - n)) else .error .oob

/-- The components, each followed by a slash. -/
def joinSlash (l : List (List Char)) : List Char := l.flatMap (· ++ ['/'])

/-- The removal of trailing slashes, fs.cpp:281-287: the first character is never removed; on an
empty string `length() - 1` wraps around and the access is out of range. -/
def trimEnd : List Char → Except Fault (List Char)
  | [] => .error .oob
  | c :: l => .ok (c :: (l.reverse.dropWhile (· = '/')).reverse)

/-- `paths_join`, fs.cpp:243-290. -/
def pathsJoin (path1 path2 : List Char) : Except Fault (List Char) :=
  let splits2 := pathSplit path2
  let up := (splits2.filter (· = ['.', '.'])).length
  popN (pathSplit path1) up >>= fun splits1 =>
  trimEnd ((if path1.head? = some '/' then ['/'] else []) ++ joinSlash splits1 ++
    joinSlash (splits2.drop up))

end Yac.Fs
