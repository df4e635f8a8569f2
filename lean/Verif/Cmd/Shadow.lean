import Verif.Cmd.GoMod
/-
Model of the shadow `go` command that `xgo shadow` installs: a program named `go` in a directory that is put on PATH, which
runs xgo for `go build`, `go run` and `go test` and the real go for the rest.

Source: cmd/xgo/shadow/shadow.go, cmd/xgo/shadow/exclude_path.go, cmd/xgo/shadow/prepare_unix.go, cmd/xgo/main.go:1243-1260.

Simplifications: Unix; a directory on PATH is the list of what stands between its slashes (see GoMod) and has no colon in its
name; of the environment, PATH, XGO_SHADOW_BYPASS and XGO_REAL_GO_BINARY are modelled, the rest is one opaque value.
-/
namespace Verif.Cmd.Shadow

open Verif.Cmd.GoMod (Str Path isAbs clean dir abs)

/-- The program that a file named `go` contains. -/
inductive Prog where
  | shadow
  | real (n : Nat)
  deriving DecidableEq

/-- For each directory, by the parts of its absolute path, the executable `go` in it. -/
abbrev FS := List Str → Option Prog

/-- The text `go`. -/
def goName : Str := "go".toList

structure Env where
  path : List Path
  bypass : Str
  /-- XGO_REAL_GO_BINARY -/
  realGo : Option Path
  other : Nat
  deriving DecidableEq

/-- `exec.LookPath("go")`: the first directory of PATH that has it, an empty entry being `.`; if the result is not absolute,
    an error (`ErrDot`). -/
def lookGo (fs : FS) (cwd : List Str) : List Path → Option Path
  | [] => none
  | d :: rest =>
    let d' := if d = [[]] then [".".toList] else d
    if (fs (abs cwd d')).isSome then
      let p := clean (d' ++ [goName])
      if isAbs p then some p else none
    else lookGo fs cwd rest

/-- `excludeInList` (exclude_path.go:7-22). -/
def excludeInList (d : Path) (l : List Path) : Option (List Path) :=
  let r := l.filter (fun x => x != d)
  if r.length = l.length then none else some r

/-- `filepath.SplitList` of the text that `strings.Join` makes of a list: an only entry that is empty is lost
    (prepare_unix.go:22). -/
def rejoin (l : List Path) : List Path := if l = [[[]]] then [] else l

/-- `GetRealGoPathExcludeDir` with `exclude` (shadow.go:77-85, prepare_unix.go:14-26). PATH is restored afterwards, so the
    environment is not part of the result. -/
def getRealGoPathExcludeDir (fs : FS) (cwd : List Str) (path : List Path) (d : Path) : Option Path :=
  match excludeInList d path with
  | none => none
  | some l => lookGo fs cwd (rejoin l)

/-- `GetRealGoPath` (shadow.go:59-75). -/
def getRealGoPath (fs : FS) (cwd : List Str) (path : List Path) (curGo : Path) : Option Path :=
  if curGo = [goName] then
    match lookGo fs cwd path with
    | none => none
    | some absGo => getRealGoPathExcludeDir fs cwd path (dir absGo)
  else if isAbs curGo then getRealGoPathExcludeDir fs cwd path (dir curGo)
  else none

/-- What the shadow runs (shadow.go:50-57): a program by its path or `xgo` by PATH; the arguments, the environment, and
    whether the standard input is that of the shadow. -/
inductive Child where
  | go (exe : Path) (args : List Str) (env : Env) (stdin : Bool)
  | xgo (args : List Str) (env : Env) (stdin : Bool)
  deriving DecidableEq

/-- The subcommands that are given to xgo (shadow.go:34). -/
def instrumented (args : List Str) : Bool :=
  match args with
  | [] => false
  | s :: _ => s == "build".toList || s == "run".toList || s == "test".toList

/-- `main` (shadow.go:21-48), `runCmd` (shadow.go:50-57, which sets no `Stdin`); `none`: an error message and exit code 1. -/
def shadowMain (fs : FS) (cwd : List Str) (argv0 : Path) (args : List Str) (env : Env) : Option Child :=
  match getRealGoPath fs cwd env.path argv0 with
  | none => none
  | some realGo =>
    if env.bypass ≠ "true".toList ∧ instrumented args = true then
      some (.xgo args { env with realGo := some realGo } false)
    else some (.go realGo args env false)

/-- The exit code (shadow.go:40-47): of a command that ended with a code, or that could not be run. -/
def exitCode : Option (Option Nat) → Nat
  | none => 0
  | some (some c) => c
  | some none => 1

/-- A process: the executable, `os.Args[0]`, the arguments and the environment. -/
structure Proc where
  exe : Path
  argv0 : Path
  args : List Str
  env : Env

/-- The program that a path ending in `go` leads to. -/
def progAt (fs : FS) (cwd : List Str) (exe : Path) : Option Prog := fs (abs cwd (dir exe))

/-- The go process that a go process is replaced by: none if it is a real go, or if the shadow ends in an error or runs xgo.
    `exec.Command` of a path makes this path `os.Args[0]`. -/
def next (fs : FS) (cwd : List Str) (p : Proc) : Option Proc :=
  if progAt fs cwd p.exe = some .shadow then
    match shadowMain fs cwd p.argv0 p.args p.env with
    | some (.go exe args env _) => some ⟨exe, exe, args, env⟩
    | _ => none
  else none

/-- The `n`-th process of the chain. -/
def chain (fs : FS) (cwd : List Str) : Nat → Proc → Option Proc
  | 0, p => some p
  | n + 1, p => (next fs cwd p).bind (chain fs cwd n)

/-- The go that xgo runs, `getNakedGo` (main.go:1243-1248, 1260) in `exec.Command`: the executable and `os.Args[0]`. -/
def nakedGo (fs : FS) (cwd : List Str) (env : Env) : Option (Path × Path) :=
  match env.realGo with
  | some p => some (p, p)
  | none => (lookGo fs cwd env.path).map (fun p => (p, [goName]))

end Verif.Cmd.Shadow
