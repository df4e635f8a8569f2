/-
Model of xgo's two `-toolexec` wrappers: `xgo exec_tool` and `go-tool-exec insert-trap`.

Source: cmd/xgo/exec_tool/main.go, option.go, tool_exec_main.go, inject/inject.go; support/flag/flag.go:9-28; cmd/go-tool-exec/main.go.

Simplifications: the operating system is not Windows; logging is left out; debugging (`--debug`, XGO_DEBUG_COMPILE_PKG) ends in the one
outcome `waits`; the go parser is a parameter that gives the offsets at which the package clause ends and function bodies begin; a file is
named by its directory's components and its base name, `filepath.Abs`, `Dir` and `Base` of a source file being one parameter; writing and
removing below the directory for temporary files does not fail.
-/
import Verif.Text.EditBuffer

namespace Verif.Cmd.ToolExec
open Verif.Text

abbrev Str := List Char

/-- What a wrapper does in the end. -/
inductive Out
  /-- it prints a message and exits with 1 -/
  | fails
  /-- it prints its help and exits with 0 -/
  | prints
  /-- it runs this program with these arguments and, after its own environment, these variables, and exits as the program does -/
  | runs (cmd : Str) (args : List Str) (env : List Str)
  /-- it writes what a debugger needs, and sleeps -/
  | waits
  deriving DecidableEq

/-- `filepath.Base`. -/
def base (s : Str) : Str :=
  if s = [] then ['.']
  else
    let t := s.reverse.dropWhile (· = '/')
    if t = [] then ['/'] else (t.takeWhile (· ≠ '/')).reverse

/-- `isCompileCommand` (main.go:74-84). -/
def isCompile (cmd : Str) : Bool := base cmd = "compile".toList

/-- `hasFlag` (main.go:299-307). -/
def hasFlag (args : List Str) (flag : Str) : Bool := args.any fun a => a = flag || (flag ++ ['=']).isPrefixOf a

/-- `findArgAfterFlag` (main.go:309-318). -/
def findArgAfter (flag : Str) : List Str → Str
  | [] => []
  | [_] => []
  | a :: b :: l => if a = flag then b else findArgAfter flag (b :: l)

/-! ### exec_tool -/

/-- `options` (option.go:10-23). -/
structure Options where
  enable : Bool
  logCompile : Bool
  testCompile : Bool
  withDlv : Bool
  debug : Str
  remain : List Str

def Options.start : Options := ⟨false, false, false, false, [], []⟩

/-- `parseOptions` (option.go:25-89) with `stopAfterFirstArg`: the rest after the first argument is kept, not that argument itself;
    `TryParseFlagsValue` (flag.go) takes `--debug v` and `--debug=v`. -/
def parseOptions (o : Options) : List Str → Option Options
  | [] => some o
  | arg :: rest =>
    if arg.head? ≠ some '-' then some { o with remain := rest }
    else if arg = "--".toList then some { o with remain := rest }
    else if arg = "--enable".toList then parseOptions { o with enable := true } rest
    else if arg = "--log-compile".toList then parseOptions { o with logCompile := true } rest
    else if arg = "--test-compile".toList then parseOptions { o with testCompile := true } rest
    else if arg = "--debug-with-dlv".toList then parseOptions { o with withDlv := true } rest
    else if arg = "--debug".toList then
      match rest with
      | [] => none
      | v :: rest => parseOptions { o with debug := v } rest
    else if "--debug=".toList.isPrefixOf arg then parseOptions { o with debug := arg.drop 8 } rest
    else none

/-- What stands behind the last `?` (main.go:179-181). -/
def afterLast (s : Str) : Option Str :=
  if '?' ∈ s then some (s.reverse.takeWhile (· ≠ '?')).reverse else none

/-- `handleCompile` (main.go:86-255); `env` is xgo's environment. -/
def handleCompile (env : Str → Option Str) (cmd : Str) (o : Options) (args : List Str) : Out :=
  if hasFlag args "-V".toList then .runs cmd args []
  else
    let pkg := findArgAfter "-p".toList args
    if pkg = [] then .fails
    else if (o.debug ≠ [] ∧ (o.debug = "all".toList ∨ o.debug = pkg)) ∧
        ¬ (o.withDlv = false ∧ afterLast ((env "XGO_DEBUG_VSCODE".toList).getD []) = some "nowait".toList) then .waits
    else if (env "XGO_DEBUG_COMPILE_PKG".toList).getD [] ≠ [] ∧ (env "XGO_DEBUG_COMPILE_PKG".toList).getD [] = pkg then .waits
    else
      let bin := (env "XGO_COMPILER_BIN".toList).getD []
      .runs (if bin = [] then cmd else bin) args
        ["XGO_COMPILER_ENABLE=".toList ++ (env "XGO_COMPILER_ENABLE".toList).getD (if o.enable then "true".toList else []),
          "COMPILER_ALLOW_SYNTAX_REWRITE=true".toList, "COMPILER_ALLOW_IR_REWRITE=true".toList]

/-- `Main` (main.go:25-72). -/
def execTool (env : Str → Option Str) (args : List Str) : Out :=
  match parseOptions .start args with
  | none => .fails
  | some o =>
    match o.remain with
    | [] => .fails
    | cmd :: toolArgs =>
      if cmd = [] then .fails
      else if isCompile cmd then handleCompile env cmd o toolArgs
      else .runs cmd toolArgs []

/-- How a program that was to be run ends. -/
inductive End
  | exited (code : Nat)
  | killed
  | notStarted

/-- The exit code of the wrapper (main.go:331-351): `ExitCode()` of a killed process and of one that was not started is -1, as which the
    operating system takes 255. -/
def exitCode (o : Out) (e : End) : Option Nat :=
  match o with
  | .fails => some 1
  | .prints => some 0
  | .waits => none
  | .runs _ _ _ => match e with
    | .exited n => some n
    | .killed => some 255
    | .notStarted => some 255

/-! ### insert-trap -/

inductive Parsed
  | ok (pkgs : List Str) (remain : List Str)
  | help
  | err

/-- The flags of `handleInsertTrap` (tool_exec_main.go:48-112). `--func` sets its list and falls into the `switch`, which does not know
    it. -/
def parseIns (pkgs : List Str) : List Str → Parsed
  | [] => .err
  | arg :: rest =>
    if arg = "--".toList then .ok pkgs rest
    else if arg = "--pkg".toList then
      match rest with
      | [] => .err
      | v :: rest => if v = [] then .err else parseIns (pkgs ++ [v]) rest
    else if "--pkg=".toList.isPrefixOf arg then
      if arg.drop 6 = [] then .err else parseIns (pkgs ++ [arg.drop 6]) rest
    else if arg = "-v".toList ∨ arg = "--verbose".toList then parseIns pkgs rest
    else if arg = "-h".toList ∨ arg = "--help".toList then .help
    else .err

/-- `isSystemPkg` (tool_exec_main.go:166-181). -/
def isSystemPkg (pkg : Str) : Bool :=
  pkg = "runtime".toList || "runtime/".toList.isPrefixOf pkg || decide (pkg.count '/' ≤ 3)

/-- `findFileStartIndex` (tool_exec_main.go:192-200), as the two parts of the arguments. -/
def splitFiles (args : List Str) : List Str × List Str :=
  let files := (args.reverse.takeWhile fun a => a.head? ≠ some '-').reverse
  (args.take (args.length - files.length), files)

/-- What the parser finds in a source file: where the name of the package ends, and where the bodies of the function declarations begin. -/
structure Parse where
  nameEnd : Nat
  bodies : List Nat

def trapText : Str := "defer __xgo_trap_runtime.XgoTrap()();".toList
def importText : Str := ";import __xgo_trap_runtime \"runtime\"".toList

/-- `InjectRuntimeTrap` (inject.go:30-72): `none` is an error, `some none` a file without a function. -/
def inject (parse : Str → Option Parse) (text : Str) : Option (Option Str) :=
  match parse text with
  | none => none
  | some p =>
    if p.bodies = [] then some none
    else
      match p.bodies.foldlM (fun b (pos : Nat) => b.insert pos trapText) (Buffer.mk' text) with
      | none => none
      | some b => match b.insert p.nameEnd importText with
        | none => none
        | some b => (b.bytes.1).map some

/-- What happens below the directory for temporary files. -/
inductive Op
  /-- `os.RemoveAll` and `os.MkdirAll` of a directory -/
  | clear (dir : List Str)
  | write (dir : List Str) (name text : Str)

/-- `tmpRoot`/runtime-xgo-trap, the directory, the name (tool_exec_main.go:214-217, 244, 273). -/
def tmpName (dir : List Str) (name : Str) : Str :=
  "/tmp/runtime-xgo-trap".toList ++ ((dir ++ [name]).map fun c => '/' :: c).flatten

/-- A source file whose functions get the trap (tool_exec_main.go:225-228). -/
def isSource (f : Str) : Bool := ".go".toList.isSuffixOf f && !("_test.go".toList.isSuffixOf f)

/-- The files as the parser's package sees them: directory and name of each, and its content. -/
structure Disk where
  dirOf : Str → List Str
  nameOf : Str → Str
  text : Str → Option Str

/-- `replaceWithTmpFiles` (tool_exec_main.go:213-280): what it does to the temporary files, and the files to compile. -/
def replace (disk : Disk) (parse : Str → Option Parse) (dirs : List (List Str)) : List Str → Option (List Op × List Str)
  | [] => some ([], [])
  | f :: l =>
    if isSource f then
      let d := disk.dirOf f
      let pre := if d ∈ dirs then [] else [Op.clear d]
      let dirs := if d ∈ dirs then dirs else dirs ++ [d]
      match (disk.text f).bind (inject parse) with
      | none => none
      | some none => (replace disk parse dirs l).map fun r => (pre ++ r.1, f :: r.2)
      | some (some text) => (replace disk parse dirs l).map fun r =>
          (pre ++ Op.write d (disk.nameOf f) text :: r.1, tmpName d (disk.nameOf f) :: r.2)
    else (replace disk parse dirs l).map fun r => (r.1, f :: r.2)

/-- `handleInsertTrap` (tool_exec_main.go:45-164): what it does to temporary files, and what then. -/
def insertTrap (disk : Disk) (parse : Str → Option Parse) (args : List Str) : List Op × Out :=
  match parseIns [] args with
  | .err => ([], .fails)
  | .help => ([], .prints)
  | .ok pkgs remain =>
    match remain with
    | [] => ([], .fails)
    | cmd :: cmdArgs =>
      if !isCompile cmd || hasFlag cmdArgs "-V".toList then ([], .runs cmd cmdArgs [])
      else
        let pkg := findArgAfter "-p".toList args
        if pkg = [] then ([], .fails)
        else if isSystemPkg pkg then ([], .runs cmd cmdArgs [])
        else if pkgs ≠ [] ∧ pkg ∉ pkgs then ([], .runs cmd cmdArgs [])
        else
          let s := splitFiles cmdArgs
          if s.2 = [] then ([], .runs cmd cmdArgs [])
          else
            match replace disk parse [] s.2 with
            | none => ([], .fails)
            | some r => (r.1, .runs cmd (s.1 ++ r.2) [])

/-- `ToolExecMain` (tool_exec_main.go:29-43). -/
def toolExecMain (disk : Disk) (parse : Str → Option Parse) : List Str → List Op × Out
  | [] => ([], .fails)
  | tool :: args =>
    if tool = "insert-trap".toList then insertTrap disk parse args
    else if tool = "help".toList ∨ tool = "-h".toList ∨ tool = "--help".toList then ([], .prints)
    else ([], .fails)

/-- The temporary files, by the components of their names. -/
abbrev Tmp := List Str → Option Str

def Op.apply (t : Tmp) : Op → Tmp
  | .clear d => fun p => if d.isPrefixOf p then none else t p
  | .write d n text => fun p => if p = d ++ [n] then some text else t p

end Verif.Cmd.ToolExec
