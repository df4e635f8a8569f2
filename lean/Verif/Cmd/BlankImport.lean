import Verif.Text.Cut
/-
Model of the import of runtime/trace that xgo adds to the packages named on the command line.

Models /repo/cmd/xgo/trace.go (addBlankImports, addBlankImportForPackage, addBlankImport, applyBlankImportThroughOverlay) as
called from /repo/cmd/xgo/main.go:732-756.  Texts are lists of characters, so indices count characters where Go counts bytes;
the code only uses them to cut at the same places.  `go list` and the file system are parameters.
-/
namespace Verif.Cmd.BlankImport

open Verif.Text

/-- `constants.RUNTIME_TRACE_PKG` (/repo/instrument/constants/constants.go). -/
def tracePkg : String := "github.com/xhd2015/xgo/runtime/trace"

/-- `strings.Index`. -/
def index (sep s : Str) : Option Nat := (cut sep s).map (fun p => p.1.length)

/-- `fmt.Sprintf("import _ %q", constants.RUNTIME_TRACE_PKG)` (trace.go:709). -/
def importText : Str := "import _ \"github.com/xhd2015/xgo/runtime/trace\"".toList

/-- The part of addBlankImport that skips to the first carriage return (trace.go:692-697): the offset and the rest. -/
def skipCR (idx : Nat) (sub : Str) : Nat × Str :=
  match index ['\r'] sub with
  | some r => if r > 0 then (idx + r, sub.drop (r + 1)) else (idx, sub)
  | none => (idx, sub)

/-- `addBlankImport` (trace.go:685-711); `none` is `"", false`. -/
def addBlankImport (content : Str) : Option Str :=
  match index "package ".toList content with
  | none => none
  | some idx =>
    let p := skipCR idx (content.drop idx)
    match index ['\n'] p.2 with
    | none => some (content ++ (';' :: importText))
    | some n =>
      let base := p.1 + n
      let sep : Str := if base > 0 ∧ content[base - 1]? = some ';' then [] else [';']
      some (content.take base ++ (sep ++ importText) ++ content.drop base)

/-! ### Packages -/

/-- `GoListPkg` (trace.go:667-683), the fields that are read. -/
structure ListPkg where
  dir : String
  standard : Bool := false
  goFiles : List String := []
  testGoFiles : List String := []
  xtestGoFiles : List String := []
  imports : List String := []

/-- `filepath.Join(srcDir, file)` for a clean directory and a file name (trace.go:620). -/
def join (dir file : String) : String := dir ++ "/" ++ file

/-- The loop of addBlankImportForPackage (trace.go:618-642): `none` if a file cannot be copied, `some none` if the text has no
package clause (all files of the package are then left alone), otherwise the replaced files. -/
def addToFiles (read : String → Option Str) (dir : String) : List String → Option (Option (List (String × Str)))
  | [] => some (some [])
  | f :: fs =>
    match read (join dir f) with
    | none => none
    | some c =>
      match addBlankImport c with
      | none => some none
      | some c' =>
        match addToFiles read dir fs with
        | none => none
        | some none => some none
        | some (some m) => some (some ((join dir f, c') :: m))

/-- `addBlankImportForPackage` (trace.go:602-643); `none` is an error. -/
def addForPackage (read : String → Option Str) (dir : String) (imports files : List String) (all : Bool) :
    Option (List (String × Str)) :=
  if files.length = 0 then some []
  else if !all && imports.any (· == tracePkg) then some []
  else (addToFiles read dir (if all then files else files.take 1)).map (fun m => m.getD [])

/-- What is added for one listed package (trace.go:560-598). -/
def addForListed (read : String → Option Str) (p : ListPkg) : Option (List (String × Str)) :=
  if p.standard then some []
  else if p.goFiles.length > 0 then addForPackage read p.dir p.imports p.goFiles false
  else
    match addForPackage read p.dir [] p.testGoFiles true with
    | none => none
    | some a => (addForPackage read p.dir [] p.xtestGoFiles true).map (fun b => a ++ b)

/-- `addBlankImports` after `go list` (trace.go:559-601).  The map is a list of its entries in the order of insertion. -/
def addBlankImports (read : String → Option Str) : List ListPkg → Option (List (String × Str))
  | [] => some []
  | p :: ps =>
    match addForListed read p with
    | none => none
    | some a => (addBlankImports read ps).map (fun b => a ++ b)

/-! ### The overlay -/

/-- What one entry of the map does to the texts that go will compile (trace.go:722-743).  `eff` gives the text of a file as go
would see it (after the overlay of the user), `none` if it cannot be read. -/
def applyOne (eff : String → Option Str) (src : String) (prep : Str) : String → Option Str := fun p =>
  if p = src then
    match eff src with
    | none => some prep
    | some c => if contains c tracePkg.toList then some c else (match addBlankImport c with | none => some c | some c' => some c')
  else eff p

/-- `applyBlankImportThroughOverlay` (trace.go:713-744).  Go iterates a map in any order and each key once; `applyAll` takes
the keys in the order of a list without duplicates. -/
def applyAll (eff : String → Option Str) : List (String × Str) → (String → Option Str)
  | [] => eff
  | (s, c) :: r => applyAll (applyOne eff s c) r

/-- Entries of a Go map built from a list of insertions: the last value of each key. -/
def entries : List (String × Str) → List (String × Str)
  | [] => []
  | (k, v) :: r => if r.any (fun q => q.1 == k) then entries r else (k, v) :: entries r

/-- The texts that go compiles after xgo has added the import (main.go:732-756): `disk` is the file system, `eff` what go would
see.  If the preparation fails the texts stay as they are (main.go:733-745: a warning). -/
def prepare (disk eff : String → Option Str) (pkgs : List ListPkg) : String → Option Str :=
  match addBlankImports disk pkgs with
  | none => eff
  | some m => applyAll eff (entries m)

end Verif.Cmd.BlankImport
