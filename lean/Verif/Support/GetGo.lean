/-
Model of how a Go installation is fetched: support/downloadgo (archive.go, download.go, list.go, downloadgo.go).

Simplifications: Unix paths, given by what stands between their slashes (as in Cmd/GoMod); no symbolic links (the zip reader makes none) and
no permissions; writing a file succeeds as a whole. Listing, fetching and extracting are parameters of `Download` itself (Options); what
curl, tar and the server do is left open.
-/
import Verif.Cmd.GoMod

namespace Verif.Support.GetGo

abbrev Str := List Char
open Verif.Cmd.GoMod (Path isAbs clean cleanStep abs)
open Verif.Cmd.Vendor (trimSpace split)

/-! ### Paths -/

/-- The parts of a path, cleaned. -/
def elems (p : Path) : List Str := p.foldl (cleanStep (isAbs p)) []

/-- `filepath.Join(t, n)`; `t` is not empty. -/
def join (t n : Path) : Path := clean (t ++ n)

/-- The check of `unzipFile` (archive.go:50-56): `filepath.Rel(targetDir, fullPath)` succeeds and its answer does not begin with `..`. If parts
    of `targetDir` are left behind the common beginning of both, then `Rel` fails or its answer begins with `..`; otherwise the answer is
    the rest of `fullPath`. -/
def accepts (t full : Path) : Bool :=
  isAbs t == isAbs full && (elems t).isPrefixOf (elems full) && ((elems full).drop (elems t).length).head? != some "..".toList

/-! ### Files -/

inductive Node
  | dir
  | file (content : Str)
deriving DecidableEq

/-- Files and directories, by the parts of their absolute paths. -/
abbrev FS := List Str → Option Node

def FS.put (fs : FS) (p : List Str) (n : Node) : FS := fun q => if q = p then some n else fs q

/-- `os.MkdirAll` of the directory `r` in `cur`. -/
def mkdirAll (fs : FS) (cur : List Str) : List Str → Option FS
  | [] => some fs
  | x :: r =>
    match fs (cur ++ [x]) with
    | some (.file _) => none
    | some .dir => mkdirAll fs (cur ++ [x]) r
    | none => mkdirAll (fs.put (cur ++ [x]) .dir) (cur ++ [x]) r

/-- `os.OpenFile` for writing, and `io.Copy` (archive.go:77-92). -/
def writeFile (fs : FS) (p : List Str) (c : Str) : Option FS :=
  match fs p with
  | some .dir => none
  | _ => some (fs.put p (.file c))

/-! ### Unpacking -/

/-- An entry of a zip archive. -/
structure Entry where
  name : Path
  isDir : Bool
  content : Str

/-- Where an entry goes (archive.go:46-47), `cwd` is the working directory. -/
def fullPath (t : Path) (e : Entry) : Path := join t (clean e.name)

/-- `unzipFile` (archive.go:45-94): the disk, and whether it succeeded. `filepath.Dir` of the path takes away its last part (where that is `.` or
    `..`, the path is an existing directory and opening it as a file fails). -/
def unzipFile (cwd : List Str) (t : Path) (fs : FS) (e : Entry) : FS × Bool :=
  if accepts t (fullPath t e) then
    let p := abs cwd (fullPath t e)
    if e.isDir then
      match mkdirAll fs [] p with
      | none => (fs, false)
      | some fs' => (fs', true)
    else
      match mkdirAll fs [] p.dropLast with
      | none => (fs, false)
      | some fs' =>
        match writeFile fs' p e.content with
        | none => (fs', false)
        | some fs'' => (fs'', true)
  else (fs, false)

/-- `unzip` (archive.go:30-43). -/
def unzip (cwd : List Str) (t : Path) : FS → List Entry → FS × Bool
  | fs, [] => (fs, true)
  | fs, e :: es =>
    match unzipFile cwd t fs e with
    | (fs', true) => unzip cwd t fs' es
    | (fs', false) => (fs', false)

/-! ### The list of versions -/

/-- What is behind the first `pat`. -/
def behind (pat : Str) : Str → Option Str
  | [] => if pat.isPrefixOf [] then some [] else none
  | c :: s => if pat.isPrefixOf (c :: s) then some ((c :: s).drop pat.length) else behind pat s

/-- What is before the first quote. -/
def quoted : Str → Option Str
  | [] => none
  | c :: s => if c = '"' then some [] else (quoted s).map (c :: ·)

/-- One line of the page (list.go:49-67). -/
def versionOf (line : Str) : Option Str :=
  let l := trimSpace line
  if "<div ".toList.isPrefixOf l then
    match behind "id=\"go".toList l with
    | none => none
    | some r =>
      match quoted r with
      | some (c :: v) => some (c :: v)
      | _ => none
  else none

/-- `parseDownloadVersions` (list.go:43-71). -/
def versions (page : Str) : List Str := (split '\n' page).filterMap versionOf

/-- `DirName` and `nakedVersion` (downloadgo.go:35-50). -/
def dirName (v : Str) : Str := if "go".toList.isPrefixOf v then v else "go".toList ++ v

def naked (v : Str) : Str := if "go".toList.isPrefixOf v then v.drop 2 else v

/-! ### `Download` -/

/-- Where a run of `Download` is; `τ` are the contents of directories. -/
inductive Pc (τ : Type)
  /-- before the directory is looked for (download.go:21) -/
  | start
  /-- it is not there (download.go:30-82) -/
  | absent
  /-- the archive is being fetched (download.go:84-91) -/
  | fetching
  /-- it is being unpacked into a directory of the run's own (download.go:93-105); `some`: all of it is -/
  | unpacking (all : Option τ)
  | failed
  | done

/-- All runs with the same directory and version. `π` are platforms. -/
structure St (τ : Type) where
  dest : Option τ
  archive : Option Str
  at_ : Nat → Pc τ

def St.go {τ : Type} (s : St τ) (i : Nat) (pc : Pc τ) : St τ := { s with at_ := fun j => if j = i then pc else s.at_ j }

/-- What is fixed: the list of versions (`none`: it cannot be had), the version, the platform that each run asks for, and which contents
    unpacking an archive for a platform can give, if it succeeds. -/
structure World (τ π : Type) where
  list : Option (List Str)
  version : Str
  plat : Nat → π
  made : π → τ → Prop

/-- One step of run `i`; `Step` says nothing of a run that is killed: it makes no further steps. -/
inductive Step {τ π : Type} (w : World τ π) : St τ → Nat → St τ → Prop
  | found (s i t) : s.at_ i = .start → s.dest = some t → Step w s i (s.go i .done)
  | notFound (s i) : s.at_ i = .start → s.dest = none → Step w s i (s.go i .absent)
  | unlisted (s i) : s.at_ i = .absent → (∃ l, w.list = some l ∧ naked w.version ∉ l) → Step w s i (s.go i .failed)
  | listed (s i) : s.at_ i = .absent → (∀ l, w.list = some l → naked w.version ∈ l) → Step w s i (s.go i .fetching)
  /-- the file changes while it is fetched, in whatever way -/
  | fetches (s i a) : s.at_ i = .fetching → Step w s i { s with archive := a }
  | fetched (s i) : s.at_ i = .fetching → Step w s i (s.go i (.unpacking none))
  | unpacked (s i t) : s.at_ i = .unpacking none → w.made (w.plat i) t → Step w s i (s.go i (.unpacking (some t)))
  /-- `os.Rename` (download.go:106); it fails if there is a directory already -/
  | renamed (s i t) : s.at_ i = .unpacking (some t) → s.dest = none → Step w s i { s.go i .done with dest := some t }
  | taken (s i t t') : s.at_ i = .unpacking (some t) → s.dest = some t' → Step w s i (s.go i .failed)
  /-- anything else may fail -/
  | fails (s i) : s.at_ i ≠ .done → Step w s i (s.go i .failed)

/-- Any number of steps. -/
inductive Steps {τ π : Type} (w : World τ π) : St τ → St τ → Prop
  | refl (s) : Steps w s s
  | step (s s' s'' i) : Steps w s s' → Step w s' i s'' → Steps w s s''

end Verif.Support.GetGo
