import Verif.Basic
import Verif.Fs.Model
import Mathlib.Data.List.Sort

/-!
# Model of the file operations of yac/lib/util/fs.cpp

The disk is a tree of files and directories, given by what is found at each path (a list of names,
the root being the empty list).  Path strings are resolved component by component the way the
kernel does it.  Symbolic links, and changes of the disk by other processes, are not modelled.
`system("mkdir -p ...")` is modelled for command lines without characters that are special to the
shell (other than the blank).
-/

namespace Yac.Disk

abbrev Name := List Char
abbrev Path := List Name

/-- What is found at a path. -/
inductive Node where
  | file (bytes : List UInt8)
  | dir
  deriving DecidableEq, Repr

/-- The values of `errno` that the code distinguishes, or could. -/
inductive Errno where
  | noent | notdir | isdir | acces
  deriving DecidableEq, Repr

/-- The state of the disk.  `free` is the number of bytes that can still be written. -/
structure Disk where
  node : Path → Option Node
  cwd : Path
  readable : Path → Bool
  writable : Path → Bool
  free : Nat

/-- The maximal runs of characters other than `sep`; `cur` is the run so far. -/
def piecesBy (sep : Char) : List Char → Name → List Name
  | [], cur => if cur = [] then [] else [cur]
  | c :: l, cur =>
    if c = sep then (if cur = [] then piecesBy sep l [] else cur :: piecesBy sep l [])
    else piecesBy sep l (cur ++ [c])

/-- The names in a path string. -/
def pieces (s : List Char) : List Name := piecesBy '/' s []

/-- The components of a path string; a slash at the end asks for a directory, as `/.` does. -/
def comps (s : List Char) : List Name :=
  pieces s ++ (if s.getLast? = some '/' then [['.']] else [])

/-- One step of the resolution of a path. -/
def stepTo (cur : Path) (c : Name) : Path :=
  if c = ['.'] then cur else if c = ['.', '.'] then cur.dropLast else cur ++ [c]

/-- The kernel's resolution of components, from the directory `cur`. -/
def walk (d : Disk) : Path → List Name → Except Errno Path
  | cur, [] => .ok cur
  | cur, c :: cs =>
    match d.node cur with
    | none => .error .noent
    | some (.file _) => .error .notdir
    | some .dir => walk d (stepTo cur c) cs

/-- Where the resolution of a string begins. -/
def startOf (d : Disk) (s : List Char) : Path := if s.head? = some '/' then [] else d.cwd

/-- The resolution of a path string. -/
def resolve (d : Disk) (s : List Char) : Except Errno Path :=
  if s = [] then .error .noent else walk d (startOf d s) (comps s)

/-- Replace what is found at one path. -/
def Disk.set (d : Disk) (p : Path) (n : Option Node) : Disk :=
  { d with node := fun q => if q = p then n else d.node q }

/-- `fopen(path, "r")`; on Linux this succeeds for directories as well. -/
def fopenR (d : Disk) (s : List Char) : Except Errno Path :=
  match resolve d s with
  | .error e => .error e
  | .ok p =>
    match d.node p with
    | none => .error .noent
    | some _ => if d.readable p then .ok p else .error .acces

/-- `fopen(path, "w")`: creates the file, or removes its contents. -/
def fopenW (d : Disk) (s : List Char) : Except Errno (Path × Disk) :=
  match resolve d s with
  | .error e => .error e
  | .ok p =>
    match d.node p with
    | some .dir => .error .isdir
    | some (.file old) =>
      if d.writable p then .ok (p, { d.set p (some (.file [])) with free := d.free + old.length })
      else .error .acces
    | none =>
      if d.writable p.dropLast then .ok (p, d.set p (some (.file []))) else .error .acces

/-- `fread(buf, 1, n, fp)` at the offset `off`; reading from a directory fails. -/
def fread (d : Disk) (p : Path) (off n : Nat) : List UInt8 :=
  match d.node p with
  | some (.file bytes) => (bytes.drop off).take n
  | _ => []

/-- `fwrite(buf, 1, size, fp)` at the end of the file: what does not fit on the disk is lost. -/
def fwrite (d : Disk) (p : Path) (buf : List UInt8) : Disk :=
  match d.node p with
  | some (.file bytes) =>
    { d.set p (some (.file (bytes ++ buf.take d.free))) with
      free := d.free - buf.length }
  | _ => d

/-- The loop of `file_copy`, fs.cpp:67-70, with `bufsiz` bytes in `buf`. -/
def copyLoop (bufsiz : Nat) (src dest : Path) : Nat → Nat → Disk → Except Fault Disk
  | 0, _, _ => .error .diverge
  | fuel + 1, off, d =>
    let buf := fread d src off bufsiz
    if buf = [] then .ok d
    else copyLoop bufsiz src dest fuel (off + buf.length) (fwrite d dest buf)

/-- `file_copy`, fs.cpp:49-77: the value returned and the disk.  If one of the files cannot be
opened, `fclose` is called with a null pointer, which is undefined. -/
def fileCopy (bufsiz fuel : Nat) (d : Disk) (src dest : List Char) : Except Fault (Int × Disk) :=
  match fopenR d src with
  | .error _ => .error .oob
  | .ok p =>
    match fopenW d dest with
    | .error _ => .error .oob
    | .ok (q, d1) =>
      match copyLoop bufsiz p q fuel 0 d1 with
      | .error e => .error e
      | .ok d2 => .ok (0, d2)

/-- `file_exists`, fs.cpp:93-103. -/
def fileExists (d : Disk) (s : List Char) : Bool :=
  match fopenR d s with
  | .ok _ => true
  | .error _ => false

/-- `opendir`. -/
def opendir (d : Disk) (s : List Char) : Except Errno Path :=
  match resolve d s with
  | .error e => .error e
  | .ok p =>
    match d.node p with
    | none => .error .noent
    | some (.file _) => .error .notdir
    | some .dir => if d.readable p then .ok p else .error .acces

/-- `dir_exists`, fs.cpp:105-117; `exit(-1)` ends the program. -/
def dirExists (d : Disk) (s : List Char) : Except Fault Bool :=
  match opendir d s with
  | .ok _ => .ok true
  | .error .noent => .ok false
  | .error _ => .error .fatal

/-- `list_dir`, fs.cpp:185-206: the value returned and the results; `readdir` gives the order in
which the entries of a directory are read. -/
def listDir (readdir : Path → List Name) (d : Disk) (s : List Char) (results : List Name) :
    Int × List Name :=
  match opendir d s with
  | .error _ => (-1, results)
  | .ok p => (0, (readdir p).foldl
      (fun r n => if n ≠ ['.'] ∧ n ≠ ['.', '.'] then r ++ [n] else r) results)

/-- `std::string::operator<`. -/
def strLt : List Char → List Char → Bool
  | [], [] => false
  | [], _ :: _ => true
  | _ :: _, [] => false
  | a :: as, b :: bs => if a.toNat < b.toNat then true else if b.toNat < a.toNat then false
    else strLt as bs

/-- `std::sort` on strings. -/
def sortNames (l : List Name) : List Name := l.insertionSort (fun a b => strLt b a = false)

/-- `list_files`, fs.cpp:208-223. -/
def listFiles (readdir : Path → List Name) (d : Disk) (s : List Char) (files : List Name) :
    Except Fault (Int × List Name) :=
  match dirExists d s with
  | .error e => .error e
  | .ok false => .ok (-1, files)
  | .ok true =>
    if (listDir readdir d s files).1 ≠ 0 then .ok (-1, (listDir readdir d s files).2)
    else .ok (0, sortNames (listDir readdir d s files).2)

/-- Nothing is found below the path, among the names given. -/
def emptyDir (readdir : Path → List Name) (d : Disk) (p : Path) : Bool :=
  (readdir p).all fun n => n = ['.'] || n = ['.', '.'] || d.node (p ++ [n]) = none

/-- `remove(path)`: files are unlinked, directories are removed if they are empty; a path that ends
in `.` or `..` is refused. -/
def removePath (readdir : Path → List Name) (d : Disk) (s : List Char) : Disk :=
  match resolve d s with
  | .error _ => d
  | .ok p =>
    if (comps s).getLast? = some ['.'] ∨ (comps s).getLast? = some ['.', '.'] then
      -- `path/` names the directory itself and is accepted
      (if s.getLast? = some '/' ∧ (pieces s).getLast? ≠ some ['.'] ∧
          (pieces s).getLast? ≠ some ['.', '.'] ∧ p ≠ [] ∧ d.writable p.dropLast ∧
          emptyDir readdir d p then d.set p none else d)
    else
      match d.node p with
      | none => d
      | some (.file _) => if d.writable p.dropLast then d.set p none else d
      | some .dir =>
        if p ≠ [] ∧ d.writable p.dropLast ∧ emptyDir readdir d p then d.set p none else d

/-- `remove_dir`, fs.cpp:155-174: the value returned and the disk. -/
def removeDir (readdir : Path → List Name) (d : Disk) (s : List Char) : Int × Disk :=
  match opendir d s with
  | .error _ => (-1, d)
  | .ok p =>
    (0, removePath readdir
      ((readdir p).foldl (fun d n => removePath readdir d (s ++ '/' :: n)) d) s)

/-- Characters that mean nothing special to the shell. -/
def plain (c : Char) : Bool :=
  c.isAlphanum || c = '_' || c = '-' || c = '.' || c = '/'

/-- The words of a command line; `none` if there is a character that is special to the shell. -/
def shWords (s : List Char) : Option (List (List Char)) :=
  if s.all (fun c => plain c || c = ' ') then
    some (piecesBy ' ' s [])
  else none

/-- What `mkdir -p` does for one argument: whether it succeeded, and the disk. -/
def mkdirs : Disk → Path → List Name → Bool × Disk
  | d, _, [] => (true, d)
  | d, cur, c :: cs =>
    match d.node (stepTo cur c) with
    | some .dir => mkdirs d (stepTo cur c) cs
    | some (.file _) => (false, d)
    | none =>
      if d.writable cur then mkdirs (d.set (stepTo cur c) (some .dir)) (stepTo cur c) cs
      else (false, d)

/-- `mkdir -p` for all its arguments. -/
def mkdirAll : Disk → List (List Char) → Bool × Disk
  | d, [] => (true, d)
  | d, w :: ws =>
    let r := mkdirs d (startOf d w) (pieces w)
    let r' := mkdirAll r.2 ws
    (r.1 && r'.1, r'.2)

/-- `system("mkdir -p " + path)`: -1 if no process can be made, else the exit status times 256.
`none`: not modelled. -/
def system (fork : Bool) (d : Disk) (path : List Char) : Option (Int × Disk) :=
  if fork = false then some (-1, d)
  else
    match shWords path with
    | none => none
    | some [] => some (256, d)
    | some ws =>
      if ws.any (fun w => w.head? = some '-') then none
      else some (if (mkdirAll d ws).1 then 0 else 256, (mkdirAll d ws).2)

/-- `dir_create`, fs.cpp:119-122. -/
def dirCreate (fork : Bool) (d : Disk) (path : List Char) : Option (Int × Disk) :=
  system fork d path

/-- `create_dir`, fs.cpp:144-153. -/
def createDir (fork : Bool) (d : Disk) (path : List Char) : Option (Int × Disk) :=
  (system fork d path).map fun r => (if r.1 = -1 then -1 else 0, r.2)

/-- The beginning of `aprilgrid_t::save`, aprilgrid.cpp:281-293: make the directory and open the
file.  The value returned if that fails, or the path that was opened; and the disk. -/
def saveOpen (fork : Bool) (d : Disk) (path : List Char) : Option (Except Int Path × Disk) :=
  match dirCreate fork d (Fs.dirName path) with
  | none => none
  | some (r, d1) =>
    if r ≠ 0 then some (.error (-1), d1)
    else
      match fopenW d1 path with
      | .error _ => some (.error (-1), d1)
      | .ok (p, d2) => some (.ok p, d2)

end Yac.Disk
