import Verif.Text.Model

/-!
# Model of the C interface of util/data.cpp: 10-304

A file is `none` when it cannot be opened (`fclose(NULL)`, `fgets(.., NULL)` are undefined: `oob`).  Memory is
always granted, except for the negative size of `csv_fields`.  Buffers are lists of characters with NUL bytes.
A conversion of a double that does not fit the integer type is undefined: `oob`.
-/

namespace Yac.Text
open Yac.Num

/-! ### Bytes, data.cpp:9-34 -/

/-- `uint8`, data.cpp:13-15; reading past the end of the buffer is `oob`. -/
def byteAt (d : List UInt8) (i : Nat) : Except Fault Nat :=
  match d[i]? with
  | some b => .ok b.toNat
  | none => .error .oob

/-- Two's complement reading of an unsigned value of `bits` bits. -/
def toSigned (bits : Nat) (n : Nat) : ℤ := if n < 2 ^ (bits - 1) then n else (n : ℤ) - 2 ^ bits

/-- `int8`, data.cpp:9-11. -/
def int8 (d : List UInt8) (o : Nat) : Except Fault ℤ := byteAt d o >>= fun a => .ok (toSigned 8 a)

/-- `uint16`, data.cpp:21-23. -/
def uint16 (d : List UInt8) (o : Nat) : Except Fault Nat :=
  byteAt d (o + 1) >>= fun b => byteAt d o >>= fun a => .ok ((b <<< 8) ||| a)

/-- `int16`, data.cpp:17-19. -/
def int16 (d : List UInt8) (o : Nat) : Except Fault ℤ := uint16 d o >>= fun n => .ok (toSigned 16 n)

/-- `uint32`, data.cpp:30-33.  The shift of a byte by 24 in `int` is taken as the usual wrap-around. -/
def uint32 (d : List UInt8) (o : Nat) : Except Fault Nat :=
  byteAt d (o + 3) >>= fun e => byteAt d (o + 2) >>= fun c => byteAt d (o + 1) >>= fun b => byteAt d o >>= fun a =>
    .ok ((e <<< 24) ||| (c <<< 16) ||| (b <<< 8) ||| a)

/-- `sint32`, data.cpp:25-28. -/
def sint32 (d : List UInt8) (o : Nat) : Except Fault ℤ := uint32 d o >>= fun n => .ok (toSigned 32 n)

/-! ### Lines -/

/-- The NUL byte. -/
def nul : Char := Char.ofNat 0

/-- The C string at the start of a buffer or line. -/
def cstr (l : List Char) : List Char := l.takeWhile (· ≠ nul)

/-- `while (fgets(line, 1024, infile) != NULL)`, data.cpp:59, 85, 117, 180, 248, 296: what is stored, one after the other. -/
def fgetsAll : Nat → List Char → List (List Char)
  | 0, _ => []
  | f + 1, l => match fgets 1023 l with
    | none => []
    | some (a, r) => a :: fgetsAll f r

/-- The pieces of a file. -/
def pieces (l : List Char) : List (List Char) := fgetsAll l.length l

/-- `line[0] == '#'`. -/
def isNote (p : List Char) : Bool := p.head? == some '#'

/-- `line` after `fgets` has stored a piece and its terminating NUL. -/
def store (buf p : List Char) : List Char := p ++ nul :: buf.drop (p.length + 1)

/-- `csv_rows(const char *)`, data.cpp:47-68. -/
def csvRowsC (file : Option (List Char)) : Except Fault Nat :=
  match file with
  | none => .error .oob
  | some f => .ok ((pieces f).filter (fun p => !isNote p)).length

/-- The loop of `csv_cols`, data.cpp:80-84: the contents of `line` at the first piece that is no comment. -/
def firstLine : List (List Char) → List Char → List Char
  | [], buf => buf
  | p :: ps, buf => if isNote p then firstLine ps (store buf p) else store buf p

/-- `csv_cols(const char *)`, data.cpp:70-102: all 1024 bytes of `line` are searched. -/
def csvColsC (file : Option (List Char)) : Except Fault ℤ :=
  match file with
  | none => .error .oob
  | some f =>
    let n := ((firstLine (pieces f) (List.replicate 1024 nul)).take 1024 |>.filter (· = ',')).length
    .ok (if n > 0 then (n : ℤ) + 1 else -1)

/-! ### Entries -/

/-- `entry[strlen(entry)] = c`. -/
def pushEntry (buf : List Char) (c : Char) : Except Fault (List Char) :=
  if nul ∈ buf then .ok (buf.set (cstr buf).length c) else .error .oob

/-- Reading `entry` as a string. -/
def readEntry (buf : List Char) : Except Fault (List Char) :=
  if nul ∈ buf then .ok (cstr buf) else .error .oob

/-- `memset(entry, '\0', 100)`. -/
def clearEntry (buf : List Char) : List Char := List.replicate 100 nul ++ buf.drop 100

/-- The loop over the characters of a line, data.cpp:132-147, 187-199, 218-234, 265-281: blanks are skipped, a separator
hands over the entry. -/
def lineLoop {S : Type} (skip : Char → Bool) (emit : S → List Char → Except Fault S) :
    List Char → List Char → S → Except Fault S
  | [], _, s => .ok s
  | c :: cs, buf, s =>
    if skip c then lineLoop skip emit cs buf s
    else if c = ',' ∨ c = '\n' then
      readEntry buf >>= fun e => emit s e >>= fun s' => lineLoop skip emit cs (clearEntry buf) s'
    else pushEntry buf c >>= fun b => lineLoop skip emit cs b s

/-! ### Fields -/

/-- The loop of `csv_fields` over the lines, data.cpp:117-123: the last comment before the first data. -/
def lastHeader : List (List Char) → List Char → List Char
  | [], h => h
  | p :: ps, h => if isNote p then lastHeader ps (cstr p) else h

/-- `fields[field_idx] = malloc_string(field_name)`: `n` pointers were allocated. -/
def addField (n : ℤ) (s : List (List Char)) (e : List Char) : Except Fault (List (List Char)) :=
  if (s.length : ℤ) < n then .ok (s ++ [e]) else .error .oob

/-- `csv_fields`, data.cpp:104-153: `nb_fields` and the fields written (the pointers after them are uninitialised).
With `nb_fields = -1` no memory is granted. -/
def csvFields (file : Option (List Char)) : Except Fault (ℤ × List (List Char)) :=
  match file with
  | none => .error .oob
  | some f => csvColsC file >>= fun n =>
      lineLoop (fun c => c = '#' || c = ' ') (addField n) (lastHeader (pieces f) []) (List.replicate 100 nul) []
        >>= fun s => .ok (n, s)

/-! ### Data -/

/-- Rows of `data`: `none` is an uninitialised pointer, an inner `none` an uninitialised number. -/
abbrev Cells := List (Option (List (Option ℚ)))

/-- `data[row_idx][col_idx] = strtod(entry, NULL); col_idx++`, data.cpp:193-195. -/
def putCell (row : Nat) (s : Cells × Nat) (e : List Char) : Except Fault (Cells × Nat) :=
  match s.1[row]? with
  | none => .error .oob
  | some none => .error .uninit
  | some (some r) =>
    if s.2 < r.length then .ok (s.1.set row (some (r.set s.2 (some (atof e)))), s.2 + 1) else .error .oob

/-- One turn of the loop over lines, data.cpp:180-204. -/
def dataLine (s : Cells × Nat) (p : List Char) : Except Fault (Cells × Nat) :=
  if isNote p then .ok s
  else lineLoop (fun c => c = ' ') (putCell s.2) (cstr p) (List.replicate 100 nul) (s.1, 0) >>= fun t => .ok (t.1, s.2 + 1)

/-- The allocation, data.cpp:164-167: `cols` rows are allocated in an array of `rows` pointers. -/
def allocData (rows cols : Nat) : Except Fault Cells :=
  if rows < cols then .error .oob
  else .ok (List.replicate cols (some (List.replicate cols none)) ++ List.replicate (rows - cols) none)

/-- `csv_data`, data.cpp:155-211: `none` is the result `NULL`. -/
def csvData (file : Option (List Char)) : Except Fault (Option Cells) :=
  match file with
  | none => .error .oob
  | some f => csvRowsC file >>= fun rows => csvColsC file >>= fun cols =>
      if cols = -1 then .ok none
      else allocData rows cols.toNat >>= fun d =>
        (pieces f).foldlM dataLine (d, 0) >>= fun s => .ok (some s.1)

/-! ### Arrays -/

/-- Conversion of a double to `size_t`. -/
def toSize (x : ℚ) : Except Fault Nat :=
  if 0 ≤ truncQ x ∧ truncQ x < 2 ^ 64 then .ok (truncQ x).toNat else .error .oob

/-- Conversion of a double to `int`. -/
def toInt32 (x : ℚ) : Except Fault ℤ :=
  if -2 ^ 31 ≤ truncQ x ∧ truncQ x < 2 ^ 31 then .ok (truncQ x) else .error .oob

/-- `data[index] = value; index++`. -/
def putAt {α : Type} (s : List α × Nat) (v : α) : Except Fault (Option (List α) × Nat) :=
  if s.2 < s.1.length then .ok (some (s.1.set s.2 v), s.2 + 1) else .error .oob

/-- Body of `parse_iarray_line`, data.cpp:224-231: `extra` more elements than announced are allocated (one for
`parse_iarray_line`, none for `parse_darray_line`, data.cpp:271-278). -/
def putArray {α : Type} (extra : Nat) (zero : α) (conv : ℚ → Except Fault α) (s : Option (List α) × Nat) (e : List Char) :
    Except Fault (Option (List α) × Nat) :=
  match s.1 with
  | none => toSize (atof e) >>= fun n => conv (atof e) >>= fun v => putAt (List.replicate (n + extra) zero, s.2) v
  | some a => conv (atof e) >>= fun v => putAt (a, s.2) v

/-- `parse_iarray_line`, data.cpp:213-238, and `parse_darray_line`, data.cpp:260-285. -/
def arrayLine {α : Type} (extra : Nat) (zero : α) (conv : ℚ → Except Fault α) (p : List Char) :
    Except Fault (Option (List α)) :=
  lineLoop (fun c => c = ' ') (putArray extra zero conv) (cstr p) (List.replicate 1024 nul) (none, 0) >>= fun s => .ok s.1

/-- One turn of the loop over lines, data.cpp:248-255 and 296-303; `array` has `nb_arrays` elements. -/
def arrayStep {α : Type} (line : List Char → Except Fault (Option (List α))) (s : List (Option (List α)) × Nat)
    (p : List Char) : Except Fault (List (Option (List α)) × Nat) :=
  if isNote p then .ok s
  else line p >>= fun a => if s.2 < s.1.length then .ok (s.1.set s.2 a, s.2 + 1) else .error .oob

/-- `load_iarrays` and `load_darrays`, data.cpp:240-258 and 287-305. -/
def loadArrays {α : Type} (line : List Char → Except Fault (Option (List α))) (file : Option (List Char)) :
    Except Fault (List (Option (List α))) :=
  match file with
  | none => .error .oob
  | some f => csvRowsC file >>= fun n =>
      (pieces f).foldlM (arrayStep line) (List.replicate n none, 0) >>= fun s => .ok s.1

/-- `load_iarrays`, data.cpp:240-258. -/
def loadIarrays (file : Option (List Char)) : Except Fault (List (Option (List ℤ))) :=
  loadArrays (arrayLine 1 0 toInt32) file

/-- `load_darrays`, data.cpp:287-305. -/
def loadDarrays (file : Option (List Char)) : Except Fault (List (Option (List ℚ))) :=
  loadArrays (arrayLine 0 0 .ok) file

end Yac.Text
