import Verif.Cmd.GoMod
/-
C103: `xgo tool`.
Source: cmd/xgo/tool.go:46-138 (`handleTool`, `tryHandleTool`), support/cmd/cmd.go:14-17, 116-170 (`Run`, which calls `exec.Command`).

Simplifications: Unix, so that only the name itself is tried (tool.go:77-87 adds a second name on Windows); a path is the list of what
stands between its slashes (see GoMod); a file may be executed if a permission bit says so; the texts of help and of errors are left out.
-/
namespace Verif.Cmd.Tool

open Verif.Cmd.GoMod (Str Path isAbs clean dir abs)

/-- What `os.Stat` says of a path. -/
inductive Stat
  | missing
  /-- an error other than `ErrNotExist` -/
  | failed
  | dir
  | file (exec : Bool)
  deriving DecidableEq, Repr

/-- What `xgo tool` depends on: the disk, by the parts of absolute paths; the working directory; `os.Args[0]`; HOME; PATH. -/
structure World where
  stat : List Str → Stat
  cwd : List Str
  argv0 : Path
  home : Option Path
  path : List Path

/-- What becomes of the command. -/
inductive Out
  | help
  | list
  | trace (args : List Str)
  | coverage (args : List Str)
  | explorer (args : List Str)
  /-- `unknown tool` -/
  | unknown
  /-- the program that is run, with its arguments -/
  | run (exe : List Str) (args : List Str)
  /-- an error of `exec.Command` or of starting the program -/
  | noStart
  deriving DecidableEq, Repr

/-- A path without the slashes at its end. -/
def stripEnd (p : Path) : Path := (p.reverse.dropWhile (· = [])).reverse

/-- `filepath.Base`, as a path. -/
def base (p : Path) : Path :=
  match (stripEnd p).getLast? with
  | some x => [x]
  | none => if p = [[]] then [".".toList] else [[], []]

/-- `exec.LookPath`: the first directory of PATH that has the program, an empty entry being `.`; if the result is not absolute, an error
    (`ErrDot`). -/
def lookPath (w : World) (name : Str) : List Path → Option Path
  | [] => none
  | d :: rest =>
    let p := clean ((if d = [[]] then [".".toList] else d) ++ [name])
    if w.stat (abs w.cwd p) = .file true then (if isAbs p then some p else none)
    else lookPath w name rest

/-- `cmd.Run` (cmd.go:14-17, 143-163): `exec.Command` looks for a name without a slash on PATH. -/
def execute (w : World) (p : Path) (args : List Str) : Out :=
  if base p = p then
    match lookPath w (p.getLast?.getD []) w.path with
    | none => .noStart
    | some q => .run (abs w.cwd q) args
  else if w.stat (abs w.cwd p) = .file true then .run (abs w.cwd p) args
  else .noStart

/-- The second place, `~/.xgo/bin` (tool.go:122-135). -/
def tryHome (w : World) (tool : Path) (args : List Str) : Out :=
  match w.home with
  | none => .unknown
  | some h =>
    let p := clean (h ++ [".xgo".toList, "bin".toList] ++ tool)
    match w.stat (abs w.cwd p) with
    | .file _ => execute w p args
    | _ => .unknown

/-- `tryHandleTool` (tool.go:101-138). -/
def tryTool (w : World) (tool : Path) (args : List Str) : Out :=
  if base tool ≠ tool then .unknown
  else if base tool = base w.argv0 then .unknown
  else
    let p := clean (dir w.argv0 ++ tool)
    match w.stat (abs w.cwd p) with
    | .failed => .unknown
    | .missing => tryHome w tool args
    | .dir => tryHome w tool args
    | .file _ => execute w p args

/-- `handleTool` (tool.go:46-99): the arguments after `xgo tool`, of which the first is a path. -/
def handleTool (w : World) : Option (Path × List Str) → Out
  | none => .help
  | some (tool, args) =>
    if tool = ["help".toList] ∨ tool = ["-h".toList] ∨ tool = ["--help".toList] then .help
    else if tool = ["list".toList] then .list
    else if tool = ["trace".toList] then .trace args
    else if tool = ["coverage".toList] then .coverage args
    else if tool = ["test-explorer".toList] then .explorer args
    else tryTool w tool args

end Verif.Cmd.Tool
