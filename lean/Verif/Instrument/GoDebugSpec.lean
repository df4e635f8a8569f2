/-
C106: what the go command is to do to compile a package in the debugger, and where. Not the model.
-/
import Verif.Instrument.GoHooksSpec

namespace Verif.Instrument.GoDebug.Spec
open Verif.Text Verif.Instrument.PatchText.Spec
open Verif.Instrument.GoHooks.Spec (Once ins)

/-- Some text on lines of its own. -/
def lines (l : List String) : Str := l.flatMap fun s => s.toList ++ ['\n']

/-- The compiler of the package in `XGO_HELPER_DEBUG_PKG` is run by the debugger. -/
def debugger : Mark := ins "intercept_compile" (lines
  ["var dlvDebug bool", "   xgoDebugPkg := os.Getenv(\"XGO_HELPER_DEBUG_PKG\")", "\tif xgoDebugPkg!=\"\" {", "\t\tvar pkg string",
   "\t\tfor i, arg := range cmdline {", "\t\t\tif arg == \"-p\" {", "\t\t\t\tif i+1 < len(cmdline) {", "\t\t\t\t\tpkg = cmdline[i+1]",
   "\t\t\t\t\tbreak", "\t\t\t\t}", "\t\t\t}", "\t\t}", "\t\t// fmt.Printf(\"debug pkg: %s\\n\",os.Getenv(\"XGO_HELPER_DEBUG_PKG\"))",
   "\t\tif pkg == xgoDebugPkg {", "\t\t\tdlvDebug = true", "\t\t\t// my compile", "\t\t\tbase := filepath.Base(cmdline[0])",
   "\t\t\tif base == \"compile\" {", "\t\t\t\tcmdline[0] = filepath.Join(filepath.Dir(cmdline[0]), \"compile.debug\")",
   "\t\t\t\toldCmdline := cmdline", "\t\t\t\tcmdline = []string{", "\t\t\t\t\t\"dlv\",", "\t\t\t\t\t\"exec\",", "\t\t\t\t\t\"--listen=:2346\",",
   "\t\t\t\t\t\"--api-version=2\",", "\t\t\t\t\t\"--check-go-version=false\",", "\t\t\t\t\t\"--headless\",", "\t\t\t\t\t\"--\",", "\t\t\t\t}",
   "\t\t\t\tcmdline = append(cmdline, oldCmdline...)", "\t\t\t}", "\t\t}", "\t}"])

/-- The output of the debugger is shown, and how to attach to it. -/
def attach : Mark := ins "pipeoutput" (lines
  ["if dlvDebug {", "\tcmd.Stdout = io.MultiWriter(cmd.Stdout, os.Stdout)", "\tcmd.Stderr = io.MultiWriter(cmd.Stderr, os.Stderr)",
   "\tfmt.Fprintf(os.Stderr, \"VSCode: add the following config to .vscode/launch.json:\\n%s\\nThen set breakpoint at %s\\n\", `{",
   "    \"configurations\": [", "        {", "            \"name\": \"Debug dlv localhost:2346\",", "            \"type\": \"go\",",
   "            \"debugAdapter\": \"dlv-dap\",", "            \"request\": \"attach\",", "            \"mode\": \"remote\",",
   "            \"port\": 2346,", "            \"host\": \"127.0.0.1\",", "            \"cwd\": \"./\"", "        }", "    ]",
   "}`, runtime.GOROOT() + \"/src/cmd/compile/main.go\")", "}"])

/-- The function that runs a command. -/
inductive RunOut : (minor : Nat) → (fn : String) → Prop
  | builder {m} : m ≤ 21 → RunOut m "func (b *Builder) runOut(a *Action, dir string,"
  | shell {m} : 22 ≤ m → RunOut m "\nfunc (sh *Shell) runOut(dir string"

/-- The file with the function, and the file with the edits: after the line with the command, and after the line with the time. -/
inductive Debug (minor : Nat) : Str → Patched → Prop
  | mk (fn : String) (a b c d e f : Str) : RunOut minor fn →
      Once fn a (b ++ "cmdline :=".toList ++ c ++ "\n".toList ++ d ++ "start := time.Now()".toList ++ e ++ "\n".toList ++ f) →
      NotBefore "cmdline :=".toList b → NotBefore "\n".toList c →
      NotBefore "start := time.Now()".toList (b ++ "cmdline :=".toList ++ c ++ "\n".toList ++ d) → NotBefore "\n".toList e →
      Debug minor (a ++ fn.toList ++ b ++ "cmdline :=".toList ++ c ++ "\n".toList ++ d ++ "start := time.Now()".toList ++ e ++ "\n".toList ++ f)
        ⟨[(a ++ fn.toList ++ b ++ "cmdline :=".toList ++ c ++ "\n".toList, debugger), (d ++ "start := time.Now()".toList ++ e ++ "\n".toList, attach)], f⟩

end Verif.Instrument.GoDebug.Spec
