/-
Model of the files that xgo generates for instrumented sources: their names, their first line, and how they are written.

Source: instrument/overlay/overlay.go:118-184 (getPathMapping, MakeGoOverlay), cmd/xgo/main.go:1133-1168 (getPathMappings),
support/fileutil/path.go (RebaseAbsPath), instrument/patch/line.go:7-9 (FmtLineDirective). What Go makes of the first line:
cmd/compile/internal/syntax/parser.go (updateBase, trailingDigits), of a byte order mark: source.go (nextch).

Simplifications: paths are those of systems with forward slashes, absolute and clean (`filepath.Clean` leaves them as they are); a file is
written in two steps, as `os.WriteFile` does (the file is emptied, then written); Go's `/*line*/` comments, and `//line` within other
comments or strings, are not modelled.
-/
import Verif.Instrument.FuncTrap

namespace Verif.Instrument.GenFile

abbrev Str := List Char
open Instrument.FuncTrap (dec)

/-! ### Names -/

/-- `PathMapping` (overlay.go:126-129). -/
structure Mapping where
  src : Str
  dst : Str

/-- `getPathMapping` (overlay.go:131-148). -/
def mapPath : List Mapping → Str → Str
  | [], p => p
  | m :: ms, p =>
    if m.src.isPrefixOf p then
      match p.drop m.src.length with
      | [] => m.dst
      | c :: t => if c = '/' then m.dst ++ c :: t else mapPath ms p
    else mapPath ms p

/-- The name of a directory of GOPATH (main.go:1156-1160). -/
def gopathName (i : Nat) : Str := if 0 < i then "GOPATH_".toList ++ dec i else "GOPATH".toList

/-- The directories of GOPATH (main.go:1147-1166), empty ones left out; `i` were named before. -/
def gopathMappings : Nat → List Str → List Mapping
  | _, [] => []
  | i, g :: gs => if g = [] then gopathMappings i gs else ⟨g, gopathName i⟩ :: gopathMappings (i + 1) gs

/-- `getPathMappings` (main.go:1133-1168); the paths are absolute. -/
def mappings (goroot project : Str) (gopath : List Str) : List Mapping :=
  ⟨goroot, "GOROOT".toList⟩ :: ⟨project, "PROJECT".toList⟩ :: gopathMappings 0 gopath

/-- `RebaseAbsPath` (path.go), `filepath.Join` of clean paths. -/
def rebase (root p : Str) : Str := if p.head? = some '/' then root ++ p else root ++ '/' :: p

/-- The file that is generated for a source (overlay.go:161-162). -/
def genFile (root : Str) (ms : List Mapping) (p : Str) : Str := rebase root (mapPath ms p)

/-! ### The first line -/

/-- `FmtLineDirective` (line.go:7-9). -/
def directive (file : Str) (line : Nat) : Str := "//line ".toList ++ file ++ ':' :: dec line

/-- What is written (overlay.go:167-171). -/
def genText (noLine : Bool) (file content : Str) : Str := if noLine then content else directive file 1 ++ '\n' :: content

/-- `trailingDigits` (parser.go): what is before the last colon, and the number behind it, if it is one. -/
def trailing (t : Str) : Option (Str × Option Nat) :=
  let d := (t.reverse.takeWhile (· != ':')).reverse
  if d.length = t.length then none
  else some (t.take (t.length - d.length - 1), if d ≠ [] ∧ d.all Char.isDigit then some (Nat.ofDigitChars 10 d 0) else none)

/-- `updateBase` (parser.go): the file and line that a directive gives to the line behind it; `cur` is the file so far. `none`: it is no
    directive, or one that is wrong. -/
def updateBase (cur t : Str) : Option (Str × Nat) :=
  match trailing t with
  | some (name, some n) =>
    match trailing name with
    | some (name', some line) => if n = 0 ∨ line = 0 then none else some (if name' = [] then cur else name', line)
    | _ => if n = 0 then none else some (name, n)
  | _ => none

/-- Is the line a directive? -/
def lineDirective (cur l : Str) : Option (Str × Nat) :=
  if "//line ".toList.isPrefixOf l then updateBase cur (l.drop 7) else none

/-- The position that Go reports for what is on the `k`th line behind: `cur` and `n` are file and number of the first of the lines. -/
def walk (cur : Str) (n : Nat) : List Str → Nat → Str × Nat
  | _, 0 => (cur, n)
  | [], k + 1 => (cur, n + (k + 1))
  | l :: ls, k + 1 =>
    match lineDirective cur l with
    | some (f, m) => walk f m ls k
    | none => walk cur (n + 1) ls k

/-- The lines of a text. -/
def lines : Str → List Str
  | [] => [[]]
  | c :: t =>
    if c = '\n' then [] :: lines t
    else match lines t with
      | [] => [[c]]
      | l :: ls => (c :: l) :: ls

/-- The position that Go reports for line `k` (from 0) of a file. -/
def position (file text : Str) (k : Nat) : Str × Nat := walk file 1 (lines text) k

/-- Go takes a byte order mark only as the first character (source.go: "invalid BOM in the middle of the file"). -/
def bomOK (text : Str) : Bool := !(text.drop 1).contains '\uFEFF'

/-! ### Writing and reading -/

/-- A disk: the texts of the files. -/
abbrev Disk := Str → Option Str

def Disk.put (d : Disk) (f t : Str) : Disk := fun g => if g = f then some t else d g

/-- What runs of xgo, and the go commands they start, do with files. -/
inductive Act
  | empty (f : Str)
  | write (f t : Str)
  | reads (f : Str)

def Act.file : Act → Str
  | .empty f => f
  | .write f _ => f
  | .reads f => f

/-- One act: the disk, and what was read. -/
def Act.step (d : Disk) : Act → Disk × Option (Str × Option Str)
  | .empty f => (d.put f [], none)
  | .write f t => (d.put f t, none)
  | .reads f => (d, some (f, d f))

/-- Acts of run `false` and of others (`true`), in the order in which they happen; what run `false` reads. -/
def perform (d : Disk) : List (Bool × Act) → List (Str × Option Str)
  | [] => []
  | (other, a) :: as =>
    match a.step d with
    | (d', r) => (if other then [] else r.toList) ++ perform d' as

/-- What a run generates: for each source its new text. -/
abbrev Sources := List (Str × Str)

/-- `MakeGoOverlay` (overlay.go:150-184), for the files with new text; then the go command reads them. -/
def run (root : Str) (ms : List Mapping) (noLine : Bool) (es : Sources) : List Act :=
  (es.map fun e => [Act.empty (genFile root ms e.1), .write (genFile root ms e.1) (genText noLine e.1 e.2)]).flatten ++
    es.map fun e => .reads (genFile root ms e.1)

end Verif.Instrument.GenFile
