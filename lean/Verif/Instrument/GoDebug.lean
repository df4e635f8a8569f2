/-
C106: the edits of the go command that let a package be compiled in the debugger, and the order in which the files of the go command are edited.
Sources: instrument/instrument_go/instrument_gc/gc.go:10-122 (`InstrumentGc`), instrument/instrument_go/go_cmd.go:32-70 (`BuildInstrument`).

Simplifications: reading and writing succeed; the files that are written as a whole (xgo_main.go, xgo_work_sum.go), the edits of `go test` (C62)
and the building of the go command that follow are left out; `instrumentPkgLoad` does nothing (pkg.go returns at once).
-/
import Verif.Instrument.GoCmd

namespace Verif.Instrument.GoDebug
open Verif.Text Verif.Instrument.PatchText Verif.Instrument.GoHooks Verif.Instrument.GoCmd

/-- Lines, each with its end. -/
def unlines (l : List String) : Str := l.flatMap fun s => s.toList ++ ['\n']

/-- `interceptCompile` (gc.go:28-57). -/
def interceptCompile : List String :=
  ["var dlvDebug bool",
   "   xgoDebugPkg := os.Getenv(\"XGO_HELPER_DEBUG_PKG\")",
   "\tif xgoDebugPkg!=\"\" {",
   "\t\tvar pkg string",
   "\t\tfor i, arg := range cmdline {",
   "\t\t\tif arg == \"-p\" {",
   "\t\t\t\tif i+1 < len(cmdline) {",
   "\t\t\t\t\tpkg = cmdline[i+1]",
   "\t\t\t\t\tbreak",
   "\t\t\t\t}",
   "\t\t\t}",
   "\t\t}",
   "\t\t// fmt.Printf(\"debug pkg: %s\\n\",os.Getenv(\"XGO_HELPER_DEBUG_PKG\"))",
   "\t\tif pkg == xgoDebugPkg {",
   "\t\t\tdlvDebug = true",
   "\t\t\t// my compile",
   "\t\t\tbase := filepath.Base(cmdline[0])",
   "\t\t\tif base == \"compile\" {",
   "\t\t\t\tcmdline[0] = filepath.Join(filepath.Dir(cmdline[0]), \"compile.debug\")",
   "\t\t\t\toldCmdline := cmdline",
   "\t\t\t\tcmdline = []string{",
   "\t\t\t\t\t\"dlv\",",
   "\t\t\t\t\t\"exec\",",
   "\t\t\t\t\t\"--listen=:2346\",",
   "\t\t\t\t\t\"--api-version=2\",",
   "\t\t\t\t\t\"--check-go-version=false\",",
   "\t\t\t\t\t\"--headless\",",
   "\t\t\t\t\t\"--\",",
   "\t\t\t\t}",
   "\t\t\t\tcmdline = append(cmdline, oldCmdline...)",
   "\t\t\t}",
   "\t\t}",
   "\t}"]

/-- `pipeoutput` (gc.go:12-26, 59-64). -/
def pipeoutput : List String :=
  ["if dlvDebug {",
   "\tcmd.Stdout = io.MultiWriter(cmd.Stdout, os.Stdout)",
   "\tcmd.Stderr = io.MultiWriter(cmd.Stderr, os.Stderr)",
   "\tfmt.Fprintf(os.Stderr, \"VSCode: add the following config to .vscode/launch.json:\\n%s\\nThen set breakpoint at %s\\n\", `{",
   "    \"configurations\": [",
   "        {",
   "            \"name\": \"Debug dlv localhost:2346\",",
   "            \"type\": \"go\",",
   "            \"debugAdapter\": \"dlv-dap\",",
   "            \"request\": \"attach\",",
   "            \"mode\": \"remote\",",
   "            \"port\": 2346,",
   "            \"host\": \"127.0.0.1\",",
   "            \"cwd\": \"./\"",
   "        }",
   "    ]",
   "}`, runtime.GOROOT() + \"/src/cmd/compile/main.go\")",
   "}"]

/-- Where the function that runs the commands is (gc.go:74-80). -/
def fnAnchor (minor : Nat) : String :=
  if minor ≥ 22 then "\nfunc (sh *Shell) runOut(dir string" else "func (b *Builder) runOut(a *Action, dir string,"

/-- gc.go:82-116. -/
def editGc (minor : Nat) (content : Str) : Option Str :=
  (upd "intercept_compile" [fnAnchor minor, "cmdline :=", "\n"] 2 .after (unlines interceptCompile) content).bind
    (upd "pipeoutput" [fnAnchor minor, "start := time.Now()", "\n"] 2 .after (unlines pipeoutput))

/-- The files of the go command: exec.go, main.go, and shell.go. -/
structure Files where
  exec : Str
  main : Str
  shell : Str
  deriving DecidableEq, Repr

/-- `InstrumentGc` (gc.go:66-122): the file depends on the version. -/
def instrumentGc (major minor : Nat) (t : Files) : Files × Bool :=
  if major ≠ 1 then (t, false)
  else if minor ≥ 22 then
    let r := editFile t.shell (editGc minor)
    ({ t with shell := r.1 }, r.2)
  else
    let r := editFile t.exec (editGc minor)
    ({ t with exec := r.1 }, r.2)

/-- `BuildInstrument` (go_cmd.go:32-57): exec.go, main.go, and the edits for the debugger. -/
def buildInstrument (major minor : Nat) (debug : Bool) (t : Files) : Files × Bool :=
  let e := instrumentFile major minor .exec t.exec
  if e.2 = false then ({ t with exec := e.1 }, false)
  else
    let m := instrumentFile major minor .main t.main
    if m.2 = false then ({ t with exec := e.1, main := m.1 }, false)
    else
      let t' := { t with exec := e.1, main := m.1 }
      if debug then instrumentGc major minor t' else (t', true)

end Verif.Instrument.GoDebug
