import Verif.Data.PreModel

/-!
# Model of the files of AprilGrids, character by character (yac/lib/util/aprilgrid.cpp:279-545)

The numbers are rationals (finite doubles).  Files have no NUL characters.
-/

namespace Yac.GridFile
open Yac.Text Yac.Num Yac.AprilGrid
open Yac.Data (V2 V2Line loadLine2 withTarget)

/-- `printf("%.wf")` (C library); `%f` is `w = 6`. -/
def fmtFix (w : ℕ) (x : ℚ) : List Char :=
  let u := (rneInt (|x| * 10 ^ w)).natAbs
  (if x < 0 then ['-'] else []) ++ natText (u / 10 ^ w) ++ '.' :: fixedDigits w (u % 10 ^ w)

/-- The header, aprilgrid.cpp:297-311. -/
def header : List Char := "#ts,tag_rows,tag_cols,tag_size,tag_spacing,kp_x,kp_y,p_x,p_y,p_z,tag_id,corner_idx\n".toList

/-- One line, aprilgrid.cpp:324-336. -/
def lineText (l : Line ℚ) : List Char :=
  fmtLd l.ts ++ ',' :: (fmtLd l.rows ++ ',' :: (fmtLd l.cols ++ ',' :: (fmtFix 6 l.size ++ ',' :: (fmtFix 6 l.spacing ++ ',' ::
    (fmtFix 10 l.kx ++ ',' :: (fmtFix 10 l.ky ++ ',' :: (fmtFix 6 l.px ++ ',' :: (fmtFix 6 l.py ++ ',' :: (fmtFix 6 l.pz ++ ',' ::
      (fmtLd l.tag ++ ',' :: fmtLd l.corner))))))))))

/-- `save`, aprilgrid.cpp:279-343 (the file can be opened): the text that is written. -/
def saveText (g : Grid ℚ) : Except Fault (List Char) :=
  AprilGrid.save id id g >>= fun ls => .ok (header ++ ls.flatMap (fun l => lineText l ++ ['\n']))

/-- A `long` stored in an `int` (`%d` and `atoi`; the GNU C library keeps the low 32 bits). -/
def wrap32 (n : ℤ) : ℤ := (n + 2 ^ 31) % 2 ^ 32 - 2 ^ 31

/-- The format of `load`, aprilgrid.cpp:354-362; `%d` reads a `long` and keeps an `int`. -/
def fmt12 : List Conv :=
  [.ld, .lit ',', .ld, .lit ',', .ld, .lit ',', .lf, .lit ',', .lf, .lit ',', .lf, .lit ',', .lf, .lit ',', .lf, .lit ',', .lf,
    .lit ',', .lf, .lit ',', .ld, .lit ',', .ld]

/-- The values that are members of the grid are assigned as they are read, aprilgrid.cpp:377-385.  A negative number of rows or
columns is kept as zero here. -/
def assign (g : Grid ℚ) : List Val → Grid ℚ
  | .int t :: vs =>
    let g := { g with timestamp := t }
    match vs with
    | .int r :: vs =>
      let g := { g with tagRows := (wrap32 r).toNat }
      match vs with
      | .int c :: vs =>
        let g := { g with tagCols := (wrap32 c).toNat }
        match vs with
        | .real s :: vs =>
          let g := { g with tagSize := s }
          match vs with
          | .real p :: _ => { g with tagSpacing := p }
          | _ => g
        | _ => g
      | _ => g
    | _ => g
  | _ => g

/-- A line all of whose values were read, aprilgrid.cpp:398-418.  A negative number of rows or columns trips Eigen's assertion in
`resize` (unless both are negative: not modelled). -/
def fullLine (g : Grid ℚ) : List Val → Except Fault (Grid ℚ)
  | [.int t, .int r, .int c, .real s, .real p, .real kx, .real ky, .real px, .real py, .real pz, .int i, .int j] =>
    if wrap32 r < 0 ∨ wrap32 c < 0 then .error .fatal
    else loadLine g ⟨t, (wrap32 r).toNat, (wrap32 c).toNat, s, p, kx, ky, px, py, pz, wrap32 i, wrap32 j⟩
  | _ => .error .fatal

/-- The loop of `load`, aprilgrid.cpp:368-419, and what follows it: the value that is returned, and the grid.  After a line that
does not parse the grid is left as it is. -/
def loadLoop : ℕ → Grid ℚ → List Char → Except Fault (ℤ × Grid ℚ)
  | 0, g, _ => .ok (0, { g with init := true })
  | n + 1, g, l =>
    let s := scanf fmt12 l
    if s.1.length ≠ 12 then .ok (-1, assign g s.1)
    else fullLine g s.1 >>= fun g => loadLoop n g s.2

/-- `load`, aprilgrid.cpp:345-426 (the file exists); `file_rows` counts the lines, fs.cpp:32-47. -/
def loadText (g : Grid ℚ) (file : List Char) : Except Fault (ℤ × Grid ℚ) :=
  match (getLines file).length with
  | 0 => loadLoop 0 (clear g) file
  | n + 1 => skipLine file >>= fun l => loadLoop n (clear g) l

/-! ### The second format -/

/-- `strtok` with the delimiter `:` (C library): the token and what is left for the next call. -/
def strtok (l : List Char) : Option (List Char × List Char) :=
  let t := l.dropWhile (fun c => c = ':')
  if t = [] then none else some (t.takeWhile (fun c => c ≠ ':'), (t.dropWhile (fun c => c ≠ ':')).tail)

/-- `aprilgrid_parse_line` up to the conversion, aprilgrid.cpp:428-452: the value as text, and the rest of the file.  A line with
nothing but colons gives a null pointer as key, a line without a value one as value. -/
def parseLine (key : String) (file : List Char) : Except Fault (List Char × List Char) :=
  match fgets 1023 file with
  | none => .error .fatal
  | some (buf, rest) =>
    match strtok buf with
    | none => .error .oob
    | some (k, r) =>
      if k ≠ key.toList then .error .fatal
      else
        match strtok r with
        | none => .error .oob
        | some (v, _) => .ok (v, rest)

/-- `atol`, aprilgrid.cpp:460. -/
def atol (v : List Char) : ℤ :=
  match parseInt v with
  | some (neg, n, _) => toLong neg n
  | none => 0

/-- `atoi`, aprilgrid.cpp:462. -/
def atoi (v : List Char) : ℤ := wrap32 (atol v)

/-- `aprilgrid_parse_skip_line`, aprilgrid.cpp:470-476. -/
def skip (file : List Char) : List Char :=
  match fgets 1023 file with
  | none => file
  | some (_, rest) => rest

/-- The format of a line of corners, aprilgrid.cpp:502-506. -/
def fmt7 : List Conv :=
  [.ld, .lit ',', .ld, .lit ',', .lf, .lit ',', .lf, .lit ',', .lf, .lit ',', .lf, .lit ',', .lf]

/-- A line of corners, aprilgrid.cpp:508-538. -/
def cornerLine (g : Grid ℚ) : List Val → Except Fault (Grid ℚ)
  | [.int i, .int j, .real kx, .real ky, .real px, .real py, .real pz] => loadLine2 g ⟨wrap32 i, wrap32 j, kx, ky, px, py, pz⟩
  | _ => .error .fatal

/-- The loop over the corners, aprilgrid.cpp:507-539. -/
def cornerLoop : ℕ → Grid ℚ → List Char → Except Fault (Grid ℚ)
  | 0, g, _ => .ok g
  | n + 1, g, l => let s := scanf fmt7 l; cornerLine g s.1 >>= fun g => cornerLoop n g s.2

/-- `loadv2`, aprilgrid.cpp:478-545 (the file exists).  A negative number of rows or columns is kept as zero here. -/
def loadv2Text (g : Grid ℚ) (file : List Char) : Except Fault (Grid ℚ) :=
  parseLine "timestamp" file >>= fun a =>
  parseLine "num_rows" a.2 >>= fun b =>
  parseLine "num_cols" b.2 >>= fun c =>
  parseLine "tag_size" c.2 >>= fun d =>
  parseLine "tag_spacing" d.2 >>= fun e =>
  parseLine "corners_detected" (skip e.2) >>= fun f =>
  cornerLoop (atoi f.1).toNat (withTarget g (atol a.1) (atoi b.1).toNat (atoi c.1).toNat (atof d.1) (atof e.1)) (skip f.2)

end Yac.GridFile
