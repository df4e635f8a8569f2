/-
Model of the commands that the test explorer runs for an item: `go test` for "run", `go test -c` and `dlv exec` for "debug".

Source: cmd/xgo/test-explorer/run_session.go:40-100 (the request), 342-369 (the goroutine of `Start`), 558-583 (`runTest`), cmd/xgo/test-explorer/debug.go:60-105
(`debugTest`), cmd/xgo/test-explorer/run.go:80-125 (`formatPathArgs`, `formatRunNames`, `joinTestArgs`), support/debug/debug.go:54-67
(`FormatDlvArgs`).

Simplifications: Unix paths; an absolute path is the list of its names; `item.File` is the project's directory and the relative path
of the item (main.go:607, 669, 690 and parse.go:85). Output of the commands is left out here (Cmd/RunOutput).
-/
import Verif.Cmd.TestExplorer
import Verif.Support.ServePort

namespace Verif.Cmd.ExplorerDebug
open Verif.Cmd.Explorer (Item Kind testPaths formatRunNames)
open Verif.Support.ServePort (Outcome)

abbrev Str := List Char
abbrev Path := List Str

/-- What a session has from the configuration and the request (run_session.go:80-100). -/
structure Session where
  goCmd : Str
  /-- the project's directory -/
  dir : Path
  testFlags : List Str
  bypass : Bool
  progArgs : List Str
  env : List Str
  item : Item
  /-- the directory of traces, for a single case that is traced (run_session.go:322-336) -/
  traceDir : Option Str

/-- A command that is started: the program, its arguments, its directory and what is added to the environment. -/
structure Command where
  prog : Str
  args : List Str
  dir : Path
  env : List Str
  deriving DecidableEq

/-- `filepath.Join` of names. -/
def slashes : List Str → Str
  | [] => []
  | [n] => n
  | n :: m :: l => n ++ '/' :: slashes (m :: l)

def absolute (p : Path) : Str := '/' :: slashes p

/-- A relative path; `filepath.Dir` of a name alone is `.`. -/
def relative (p : Path) : Str := if p = [] then ".".toList else slashes p

/-- `formatPathArgs` (run.go:80-89). -/
def pathArgs (ps : List Path) : List Str := ps.map fun p => "./".toList ++ relative p

/-- `formatRunNames` (run.go:90-95), nil included. -/
def runNames : Option (List Str) → Str
  | none => []
  | some ns => formatRunNames ns

def relOf : Item → Path
  | .mk _ _ _ rel _ _ => rel

/-- `item.File` -/
def fileOf (s : Session) : Path := s.dir ++ relOf s.item

/-- `singleCase` (run_session.go:274-276). -/
def single (s : Session) : Bool := decide (s.item.kind = .case)

/-- The flags for a trace (run_session.go:360-362). -/
def traceFlags : Option Str → List Str
  | none => []
  | some d => ["--strace".toList, "--strace-dir".toList, d]

/-- The flags of the session (run_session.go:356-362). -/
def flags (s : Session) (debug : Bool) : List Str :=
  (if !debug && !single s then ["-json".toList] else []) ++ s.testFlags ++ traceFlags s.traceDir

/-- The name of the go command (run_session.go:559-561, debug.go:61-63). -/
def goName (s : Session) : Str := if s.goCmd = [] then "go".toList else s.goCmd

/-- `joinTestArgs` (run.go:118-125). -/
def joinTestArgs (paths : List Str) (names : Str) : List Str := (if names = [] then [] else ["-run".toList, names]) ++ paths

/-- `runTest` (run_session.go:558-583). -/
def runTest (s : Session) : Command where
  prog := goName s
  args := ["test".toList, "-v".toList] ++ flags s false ++ joinTestArgs (pathArgs (testPaths s.item).1) (runNames (testPaths s.item).2) ++
    (if s.progArgs = [] then [] else "-args".toList :: ((if s.bypass then ["--".toList] else []) ++ s.progArgs))
  dir := s.dir
  env := s.env

/-- The binary in the temporary directory (debug.go:69-80): the base name of the file and `-debug.bin`. The base name is never empty. -/
def binPath (s : Session) (tmp : Path) : Path :=
  tmp ++ [((fileOf s).getLast?.getD "/".toList) ++ "-debug.bin".toList]

/-- The build (debug.go:82-85). -/
def build (s : Session) (tmp : Path) : Command where
  prog := goName s
  args := ["test".toList, "-c".toList, "-o".toList, absolute (binPath s tmp), "-gcflags=all=-N -l".toList] ++ flags s true ++
    pathArgs (testPaths s.item).1
  dir := s.dir
  env := []

/-- `FormatDlvArgs` (support/debug/debug.go:54-67); a port is a number that is printed. -/
def dlvArgs (bin : Str) (port : Int) (args : List Str) : List Str :=
  ["exec".toList, "--api-version=2".toList, "--check-go-version=false".toList, "--headless".toList,
    "--listen=localhost:".toList ++ (toString port).toList, bin, "--".toList] ++ args

/-- The debugger (debug.go:93-103). -/
def dlv (s : Session) (tmp : Path) (port : Int) : Command where
  prog := "dlv".toList
  args := dlvArgs (absolute (binPath s tmp)) port
    (["-test.v".toList, "-test.run".toList, runNames (testPaths s.item).2] ++ (if s.bypass then ["--".toList] else []) ++ s.progArgs)
  dir := (fileOf s).dropLast
  env := s.env

/-- What `/session/start` does with a request for a session (run_session.go:49-55): a request without the item's file is refused, and one to
    debug something else than a case. -/
def start (s : Session) (debug : Bool) : Option Session :=
  if fileOf s = [] then none
  else if debug && decide (s.item.kind ≠ .case) then none
  else some s

/-- What is done to the system. -/
inductive Effect
  | mkdir (p : Path)
  | run (c : Command)
  | remove (p : Path)
  deriving DecidableEq

/-- The debugger is started for each port that did not answer the probe; how an attempt ended is in the log of `ServePort`. -/
def attempts (s : Session) (tmp : Path) (log : List (Int × Outcome)) : List Effect :=
  (log.filter fun x => x.2 ≠ .busy).map fun x => .run (dlv s tmp x.1)

/-- `debugTest` (debug.go:60-105): `tmp` is the new temporary directory, if one can be made; `built` says how the build ended; `log` is what
    `ServePort` did. -/
def debugTest (s : Session) (tmp : Option Path) (built : Bool) (log : List (Int × Outcome)) : List Effect :=
  match tmp with
  | none => []
  | some t => [.mkdir t, .run (build s t)] ++ (if built then attempts s t log else []) ++ [.remove t]

end Verif.Cmd.ExplorerDebug
