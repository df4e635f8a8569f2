/-
C108: the file in which the test explorer keeps the coverage of a project.
Sources: cmd/xgo/coverage/cov_control/cov_control.go:20-41 (`New`), 71-73, 110-133 (`Clear`, `fileExists`), 139-158 (`mapCovDir`, `getTmpDir`),
cmd/xgo/test-explorer/main.go:379-412 (the flag -coverprofile), run_session.go:257-266 (clearing), support/fileutil/path.go:9-27.

Simplifications: Unix; no profile is configured; the directory of the project and the directory for temporary files are absolute and clean, as
`filepath.Abs` makes them, and given by their elements; the two uses of `filepath.Join` are one. `go test -coverprofile` writes the profile if it
can. Every session begins with `New`; sessions do not overlap.
-/
import Verif.Cmd.GorootDir

namespace Verif.Cmd.CovProfile
open Verif.Cmd.GorootDir (Str Path cleanSpecial)

/-- One element in `filepath.Join` and `filepath.Clean` of an absolute path. -/
def joinStep (st : Path) (x : Str) : Path :=
  if x = [] ∨ x = ".".toList then st else if x = "..".toList then st.dropLast else st ++ [x]

/-- `mapCovDir` (cov_control.go:139-145). -/
def mapCovDir (tmp dir : Path) : Path := (["xgo".toList, "coverage".toList] ++ dir.map cleanSpecial).foldl joinStep tmp

/-- cov_control.go:25-28. -/
def profile (tmp dir : Path) : Path := mapCovDir tmp dir ++ ["coverage.out".toList]

/-- What is at a place of the disk. -/
inductive Entry
  | dir
  | file (content : Str)
  deriving DecidableEq, Repr

abbrev Disk := Path → Option Entry

def isFile : Option Entry → Bool
  | some (.file _) => true
  | _ => false

/-- `os.MkdirAll` (cov_control.go:29): an error if there is a file on the way. -/
def mkdirAll (d : Disk) (p : Path) : Option Disk :=
  if (List.range (p.length + 1)).any (fun n => isFile (d (p.take n))) then none
  else some fun x => if x.isPrefixOf p then some .dir else d x

/-- `go test -coverprofile` (main.go:406-412): a file is written, in a directory. -/
def writeFile (d : Disk) (p : Path) (content : Str) : Option Disk :=
  if d p = some .dir ∨ d p.dropLast ≠ some .dir then none else some fun x => if x = p then some (.file content) else d x

/-- `Clear` (cov_control.go:110-119). -/
def clear (d : Disk) (p : Path) : Option Disk :=
  match d p with
  | none => some d
  | some .dir => none
  | some (.file _) => some fun x => if x = p then none else d x

/-- A session of the explorer for a project: tests are run, with some coverage, or the whole project is about to be run. -/
inductive Op
  | run (dir : Path) (cov : Str)
  | clear (dir : Path)
  deriving DecidableEq, Repr

/-- The disk after it; an error leaves the files as they were. -/
def step (tmp : Path) (d : Disk) : Op → Disk × Bool
  | .run dir cov =>
    match mkdirAll d (mapCovDir tmp dir) with
    | none => (d, false)
    | some d' =>
      match writeFile d' (profile tmp dir) cov with
      | none => (d', false)
      | some d'' => (d'', true)
  | .clear dir =>
    match mkdirAll d (mapCovDir tmp dir) with
    | none => (d, false)
    | some d' =>
      match clear d' (profile tmp dir) with
      | none => (d', false)
      | some d'' => (d'', true)

/-- A history. -/
def runAll (tmp : Path) (d : Disk) : List Op → Disk
  | [] => d
  | o :: ops => runAll tmp (step tmp d o).1 ops

/-- The coverage that is shown for a project. -/
def shown (tmp : Path) (d : Disk) (dir : Path) : Option Str :=
  match d (profile tmp dir) with
  | some (.file c) => some c
  | _ => none

end Verif.Cmd.CovProfile
