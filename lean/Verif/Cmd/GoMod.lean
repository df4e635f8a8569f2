import Verif.Cmd.Vendor
/-
Model of how xgo finds the module of a directory: support/goinfo/mod.go and find.go, the project root in cmd/xgo (main.go:281-290,
trace.go:36-43) and the directory that the test explorer scans (test-explorer/main.go:342, 588-601).

Simplifications: Unix; names are lists of characters, a path is the list of what stands between its slashes (`/a/b` is
`["", "a", "b"]`, `a/` is `["a", ""]`).
-/
namespace Verif.Cmd.GoMod

open Verif.Cmd.Vendor (isSpace trimSpace)

abbrev Str := List Char

/-! ### path/filepath -/

/-- What stands between the slashes. Never empty: the empty path is `[""]`. -/
abbrev Path := List Str

/-- `filepath.IsAbs` -/
def isAbs : Path → Bool
  | a :: _ :: _ => a == []
  | _ => false

/-- One part of a path in `filepath.Clean`, after the parts `st`. -/
def cleanStep (abs : Bool) (st : List Str) (x : Str) : List Str :=
  if x = [] ∨ x = ".".toList then st
  else if x = "..".toList then
    if st.getLast? = none ∨ st.getLast? = some "..".toList then (if abs then st else st ++ [x]) else st.dropLast
  else st ++ [x]

/-- `filepath.Clean` -/
def clean (p : Path) : Path :=
  let l := p.foldl (cleanStep (isAbs p)) []
  if isAbs p then (if l = [] then [[], []] else [] :: l)
  else if l = [] then [".".toList] else l

/-- `filepath.Dir`: the path up to the last slash, cleaned. -/
def dir (p : Path) : Path := clean (p.dropLast ++ [[]])

/-- `filepath.Abs` in the working directory `/cwd…`, as the parts of the absolute path. -/
def abs (cwd : List Str) (p : Path) : List Str :=
  if isAbs p then p.foldl (cleanStep true) [] else (cwd ++ p).foldl (cleanStep true) []

/-! ### go.mod -/

/-- `os.Stat` of the file `go.mod` in a directory. -/
inductive Stat
  | file | dir | absent
  /-- an error other than `ErrNotExist` -/
  | error
deriving DecidableEq

/-- For each directory, given by the parts of its absolute path, its go.mod. -/
abbrev FS := List Str → Stat

inductive Result (α : Type)
  | ok (a : α)
  | notFound
  | error
deriving DecidableEq

/-- The loop of `findGoMod` (mod.go:76-105); the directory is given backwards, so that `Base` and `Dir` are its head and tail.
    `sub` is `subPaths`. -/
def findLoop (fs : FS) : List Str → List Str → Result (List Str × List Str)
  | [], _ => .notFound
  | b :: up, sub => match fs (b :: up).reverse with
    | .file => .ok ((b :: up).reverse, sub.reverse)
    | .error => .error
    | _ => findLoop fs up (sub ++ [b])

/-- `findGoMod` (mod.go:64-106): the directory of the go.mod and `subPaths`. -/
def findGoMod (fs : FS) (cwd : List Str) (p : Path) : Result (List Str × List Str) :=
  findLoop fs (if p = [[]] then cwd else abs cwd p).reverse []

/-- `s[:strings.Index(s, "//")]`, or `s` -/
def uncomment : Str → Str
  | [] => []
  | c :: s => if "//".toList.isPrefixOf (c :: s) then [] else c :: uncomment s

/-- The lines of a text. -/
def lines : Str → List Str
  | [] => [[]]
  | c :: s => if c = '\n' then [] :: lines s else match lines s with
    | [] => [[c]]
    | l :: r => (c :: l) :: r

/-- `parseModPath` (mod.go:117-140), line by line: `TrimLeft` of blanks and tabs stops at the end of a line. -/
def parseLines : List Str → Str
  | [] => []
  | l :: r =>
    let s := l.dropWhile fun c => c = ' ' || c = '\t'
    if "module ".toList.isPrefixOf s then
      let m := trimSpace (s.drop "module ".toList.length)
      if uncomment m = m then m else trimSpace (uncomment m)
    else parseLines r

def parseModPath (content : Str) : Str := parseLines (lines content)

/-- `ResolveMainModule` (mod.go:17-34): `subPaths` and the module path; `content` is the text of each go.mod. A go.mod that names
    no module is an error that the callers take for a directory outside modules (cmd/xgo/main.go:282-286); `subPaths` is returned
    with it. -/
def resolveMainModule (fs : FS) (content : List Str → Str) (cwd : List Str) (p : Path) : Result (List Str × Str) :=
  match findGoMod fs cwd p with
  | .ok (root, sub) => .ok (sub, parseModPath (content root))
  | .notFound => .notFound
  | .error => .error

/-- `strings.Join(list, "/")` -/
def joinSlash : List Str → Str
  | [] => []
  | [a] => a
  | a :: b :: r => a ++ '/' :: joinSlash (b :: r)

/-- `ResolveModulePkgPath` (mod.go:36-45) and `resolveDirPkgPath` (test-explorer/run_session.go:198-207). -/
def pkgPath (fs : FS) (content : List Str → Str) (cwd : List Str) (p : Path) : Result Str :=
  match resolveMainModule fs content cwd p with
  | .ok (sub, m) => if m = [] then .notFound else .ok (if sub = [] then m else m ++ '/' :: joinSlash sub)
  | .notFound => .notFound
  | .error => .error

/-- `getProjectRoot` (trace.go:36-43), and main.go:287-290. -/
def projectRoot (p : Path) : Nat → Path
  | 0 => p
  | n + 1 => projectRoot (dir p) n

/-- The project root of a run: `--project-dir`, or the empty path, and `subPaths`. -/
def rootOf (fs : FS) (cwd : List Str) (p : Path) : Option Path :=
  match findGoMod fs cwd p with
  | .ok (_, sub) => some (projectRoot p sub.length)
  | .notFound => some p
  | .error => none

/-- The loop of `FindGoModDirSubPath` (find.go:30-51), the directory backwards: at level 0 and then after each step up. -/
def findUp (fs : FS) : List Str → List Str → Result (List Str × List Str)
  | [], sub => match fs [] with
    | .file => .ok ([], sub)
    | .error => .error
    | _ => .notFound
  | b :: up, sub => match fs (b :: up).reverse with
    | .file => .ok ((b :: up).reverse, sub)
    | .error => .error
    | _ => findUp fs up (sub ++ [b])

/-- `FindGoModDirSubPath` (find.go:22-52): the directory of the go.mod and `subPath`. -/
def findDirSubPath (fs : FS) (cwd : List Str) (p : Path) : Result (List Str × List Str) :=
  findUp fs (abs cwd p).reverse []

/-- The directory `scanTests` walks (test-explorer/main.go:588-601), and that of the traces (run_session.go:317-325). -/
def scanned (fs : FS) (cwd : List Str) (p : Path) : Result (List Str) :=
  match findDirSubPath fs cwd p with
  | .ok (root, sub) => .ok (root ++ sub)
  | .notFound => .notFound
  | .error => .error

end Verif.Cmd.GoMod
