/-
Model of the xgo command line: flags, what is passed on to go, which packages are listed.

Source: support/flag/flag.go, cmd/xgo/option.go, cmd/xgo/main.go
-/
import Verif.Support.Decimal

namespace Verif.Cmd
open Verif.Support (Str)

/-- The commands that parse options (cmd/xgo/main.go:104). -/
inductive Cmd
  | build | run | test | exec | setup
  deriving DecidableEq

/-! ### support/flag/flag.go -/

/-- `tryParseArg` (flag.go:60-71). `none` is `ok = false`, `some none` is `next = true`. -/
def tryParseArg (flag arg : Str) : Option (Option Str) :=
  if !flag.isPrefixOf arg then none
  else if arg.length = flag.length then some none
  else if arg[flag.length]? = some '=' then some (some (arg.drop (flag.length + 1)))
  else none

/-- `TrySingleFlag` (flag.go:45-58); `none` is the empty flag. -/
def trySingleFlag (flags : List Str) (arg : Str) : Option Str :=
  match flags with
  | [] => none
  | f :: fs =>
    if !f.isPrefixOf arg then trySingleFlag fs arg
    else if arg.length = f.length then some []
    else if arg[f.length]? = some '=' then some (arg.drop (f.length + 1))
    else trySingleFlag fs arg

/-- What the parser makes of one argument: nothing, a flag with its value, a flag whose value is the next argument
    (an error if there is none), or a failure. -/
inductive Recog
  | no
  | self (name value : Str)
  | next (name : Str)
  | fail
  deriving DecidableEq

/-- `TryParseFlagsValue` with `TryParseFlagValue` (flag.go:8-40); `name` says which variable is set. -/
def tryParseFlags (name : Str) (flags : List Str) (arg : Str) : Recog :=
  match flags with
  | [] => .no
  | f :: fs =>
    match tryParseArg f arg with
    | none => tryParseFlags name fs arg
    | some none => .next name
    | some (some v) => .self name v

/-! ### cmd/xgo/option.go -/

/-- `FlagValue` (option.go:207-212). The variable it sets is named after its first flag. -/
structure FlagValue where
  flags : List Str
  single : Bool := false

/-- `flagValues` (option.go:214-383). `isDevelopment` is false (env_release.go:5). -/
def flagTable (cmd : Cmd) : List FlagValue :=
  [⟨["--project-dir".toList], false⟩,
   ⟨["-o".toList, "--o".toList], false⟩,
   ⟨["--debug-target".toList], false⟩,
   ⟨["--vscode".toList], false⟩,
   ⟨["--xgo-src".toList], false⟩,
   ⟨["--with-goroot".toList], false⟩,
   ⟨["--options-from-file".toList], false⟩,
   ⟨["--mock-rule".toList], false⟩,
   ⟨["--mock-rule-include-as-main-module".toList], false⟩,
   ⟨["--dump-ir".toList], false⟩,
   ⟨["--dump-ast".toList], false⟩,
   ⟨["-run".toList, "--run".toList], false⟩,
   ⟨["-mod".toList, "--mod".toList], false⟩,
   ⟨["-gcflags".toList, "--gcflags".toList], false⟩,
   ⟨["-overlay".toList, "--overlay".toList], false⟩,
   ⟨["-modfile".toList, "--modfile".toList], false⟩,
   ⟨["-tags".toList, "--tags".toList], false⟩,
   ⟨["--log-debug".toList], true⟩,
   ⟨["--build-flag".toList], false⟩,
   ⟨["--prog-flag".toList], false⟩,
   ⟨["--trap".toList], false⟩,
   ⟨["--go".toList], true⟩,
   ⟨["--xgo-race-safe".toList], true⟩] ++
  (if cmd = .setup then
    [⟨["--delete".toList], true⟩, ⟨["--patch-goroot-in-place".toList], true⟩,
     ⟨["--skip-rebuild-compiler-and-go".toList], true⟩] else []) ++
  (if cmd = .test then [⟨["--unified".toList], true⟩] else [])

/-- The `Set` function of `--unified` panics on other values (option.go:373-381). -/
def checkSet (name value : Str) : Recog :=
  if name = "--unified".toList ∧ value ∉ ["".toList, "true".toList, "false".toList] then .fail else .self name value

/-- The loop over `flagValues` (option.go:549-571). -/
def flagLoop (table : List FlagValue) (arg : Str) : Recog :=
  match table with
  | [] => .no
  | fv :: t =>
    if fv.single then
      match trySingleFlag fv.flags arg with
      | some v => checkSet (fv.flags.headD []) v
      | none => flagLoop t arg
    else
      match tryParseFlags (fv.flags.headD []) fv.flags arg with
      | .no => flagLoop t arg
      | r => r

/-- `if arg == f1 || arg == f2 { … continue }` (option.go:408-464). -/
def exact (flags : List Str) (arg : Str) : Recog := if arg ∈ flags then .self (flags.headD []) [] else .no

/-- `--use-file-patches` (option.go:465-482). -/
def useFilePatches (arg : Str) : Recog :=
  let f := "--use-file-patches".toList
  if arg = f then .self f "true".toList
  else if (f ++ ['=']).isPrefixOf arg then
    let val := arg.drop (f ++ ['=']).length
    if val = "true".toList ∨ val = [] then .self f "true".toList
    else if val = "false".toList then .self f "false".toList
    else .fail
  else .no

/-- `tryParseEqSuffixValue` (option.go:729-741). -/
def tryParseEqSuffixValue (flag arg : Str) : Recog :=
  if !flag.isPrefixOf arg then .no
  else match arg.drop flag.length with
    | [] => .self flag []
    | c :: v => if c = '=' then .self flag v else .no

/-- `tryParseRequiredValue` with `tryParseValue` (option.go:685-727), not optional. -/
def tryParseRequiredValue (name flag arg : Str) : Recog :=
  if !flag.isPrefixOf arg then .no
  else match arg.drop flag.length with
    | [] => .next name
    | c :: v => if c = '=' then .self name v else .no

/-- `parseStackTraceFlag` (option.go:743-767). -/
def parseStackTraceFlag (arg : Str) : Recog :=
  let prefix_ := if "--strace".toList.isPrefixOf arg then "--strace".toList
    else if "--stack-trace".toList.isPrefixOf arg then "--stack-trace".toList else []
  if prefix_ = [] then .no
  else if arg.length = prefix_.length then .self "--strace".toList "on".toList
  else if arg[prefix_.length]? ≠ some '=' then .no
  else
    let val := arg.drop (prefix_.length + 1)
    if val = [] ∨ val = "on".toList ∨ val = "true".toList then .self "--strace".toList "on".toList
    else if val = "off".toList ∨ val = "false".toList then .self "--strace".toList "off".toList
    else .fail

/-- `TrySingleFlag` of one flag (option.go:518-543). -/
def single (flag arg : Str) : Recog :=
  match trySingleFlag [flag] arg with
  | some v => .self flag v
  | none => .no

/-- The first attempt that takes the argument. -/
def firstOf : List Recog → Recog
  | [] => .no
  | .no :: rs => firstOf rs
  | r :: _ => r

/-- One round of the loop of `parseOptions`, from option.go:408 to 571: what is made of an argument that starts with
    `-` and is none of `-args`, `--`, `-`. `V1_0_0` (main.go:45) and `isDevelopment` are false. -/
def recog (cmd : Cmd) (arg : Str) : Recog :=
  firstOf [
    exact ["-a".toList, "--a".toList] arg,
    exact ["-x".toList, "--x".toList] arg,
    exact ["-c".toList, "--c".toList] arg,
    exact ["-v".toList, "--v".toList] arg,
    exact ["--log-compile".toList] arg,
    exact ["--sync-xgo-only".toList] arg,
    exact ["--setup-dev".toList] arg,
    exact ["--sync-with-link".toList] arg,
    exact ["--no-build-output".toList] arg,
    exact ["--no-instrument".toList] arg,
    exact ["--reset-instrument".toList] arg,
    exact ["--no-setup".toList] arg,
    exact ["--no-line-directive".toList] arg,
    useFilePatches arg,
    tryParseEqSuffixValue "--debug".toList arg,
    tryParseRequiredValue "--strace-dir".toList "--strace-dir".toList arg,
    tryParseRequiredValue "--strace-dir".toList "--stack-trace-dir".toList arg,
    parseStackTraceFlag arg,
    single "--strace-snapshot-main-module-default".toList arg,
    single "--trap-stdlib".toList arg,
    single "--trap-all".toList arg,
    flagLoop (flagTable cmd) arg]

/-- The result of `parseOptions`: which flags were given with which values, in order, `remainArgs` and `testArgs`. -/
structure Parsed where
  flags : List (Str × Str) := []
  remain : List Str := []
  testArgs : List Str := []
  deriving DecidableEq

def Parsed.addFlag (p : Parsed) (n v : Str) : Parsed := { p with flags := (n, v) :: p.flags }
def Parsed.addRemain (p : Parsed) (l : List Str) : Parsed := { p with remain := l ++ p.remain }

/-- `strings.HasPrefix(arg, "-")`. -/
def dash (arg : Str) : Bool := ['-'].isPrefixOf arg

/-- The loop of `parseOptions` (option.go:385-596). `none` is an error or a panic. -/
def parse (cmd : Cmd) : List Str → Option Parsed
  | [] => some {}
  | arg :: rest =>
    if !dash arg then
      if cmd = .run ∨ cmd = .exec then some { remain := arg :: rest }
      else (parse cmd rest).map (·.addRemain [arg])
    else if cmd = .test ∧ (arg = "-args".toList ∨ arg = "--args".toList) then some { testArgs := rest }
    else if arg = "--".toList then some { remain := rest }
    else if arg = "-".toList then none
    else
      match recog cmd arg with
      | .fail => none
      | .self n v => (parse cmd rest).map (·.addFlag n v)
      | .next n =>
        match rest with
        | [] => none
        | v :: rest' => (parse cmd rest').map (·.addFlag n v)
      | .no =>
        if '=' ∈ arg then (parse cmd rest).map (·.addRemain [arg])
        else
          match rest with
          | [] => some { remain := [arg] }
          | next :: rest' =>
            if !dash next then (parse cmd rest').map (·.addRemain [arg, next])
            else (parse cmd (next :: rest')).map (·.addRemain [arg])

/-- The last value given for a flag, empty if it was not given. -/
def Parsed.last (p : Parsed) (name : String) : Str :=
  ((p.flags.filter (·.1 = name.toList)).getLast?.map (·.2)).getD []

/-- All values given for a flag, in order. -/
def Parsed.all (p : Parsed) (name : String) : List Str := (p.flags.filter (·.1 = name.toList)).map (·.2)

/-- Whether a flag was given. -/
def Parsed.has (p : Parsed) (name : String) : Bool := p.flags.any (·.1 = name.toList)

/-- `parseXgoFlags` (main.go:127-145); `word` are the bytes of the word being read. -/
def flagWords (word : Str) : Str → List Str
  | [] => if word = [] then [] else [word]
  | c :: s =>
    if c = ' ' ∨ c = '\t' ∨ c = '\r' ∨ c = '\n' then
      if word = [] then flagWords [] s else word :: flagWords [] s
    else flagWords (word ++ [c]) s

def parseXgoFlags (s : Str) : List Str := flagWords [] s

/-- The arguments that are parsed (main.go:156-163). -/
def actualArgs (cmd : Cmd) (env : Str) (args : List Str) : List Str :=
  if cmd = .exec then args else parseXgoFlags env ++ args

/-- `--debug` (main.go:634-652): debugging is on if the flag is given and not `false`. -/
def Parsed.debug (p : Parsed) : Bool := p.has "--debug" && p.last "--debug" != "false".toList

/-- What main.go decides from elsewhere: the overlay file, the session's directory, whether everything must be
    rebuilt, the flags of the linker; `abs` is `filepath.Abs`. -/
structure Env where
  abs : Str → Str
  overlayFile : Str
  rebuild : Bool
  discardOut : Str
  debugBin : Str
  linkFlags : List Str

/-- The arguments of the go command, and those of the program if it is run by xgo after the build (main.go:859-975).
    The tool flag (V1_0_0) is empty. -/
def goCommand (cmd : Cmd) (e : Env) (p : Parsed) : List Str × List Str :=
  let runDebug := p.debug && cmd == .run
  let testDebug := p.debug && cmd == .test && !p.has "-c"
  let debugMode := p.debug
  let name : Str := if runDebug then "build".toList else match cmd with
    | .build => "build".toList
    | .run => "run".toList
    | .test => "test".toList
    | .exec => "exec".toList
    | .setup => "setup".toList
  let wantOut := cmd == .build || (cmd == .test && p.has "-c") || debugMode
  let final : Str := if !wantOut || (!debugMode && p.has "--no-build-output") then []
    else if p.last "-o" ≠ [] then (if p.last "--project-dir" ≠ [] then e.abs (p.last "-o") else p.last "-o")
    else if debugMode then e.debugBin else []
  let args : List Str := [name] ++
    (if p.has "-a" || e.rebuild then ["-a".toList] else []) ++
    (if p.has "-v" && !testDebug then ["-v".toList] else []) ++
    (if p.has "-x" then ["-x".toList] else []) ++
    (if p.has "-c" && !testDebug then ["-c".toList] else []) ++
    (if p.last "-run" ≠ [] ∧ testDebug = false then ["-run".toList, p.last "-run"] else []) ++
    (if e.overlayFile ≠ [] then ["-overlay".toList, e.overlayFile] else []) ++
    (if p.last "-mod" ≠ [] then ["-mod=".toList ++ p.last "-mod"] else []) ++
    (if p.last "-modfile" ≠ [] then ["-modfile".toList, e.abs (p.last "-modfile")] else []) ++
    (if p.last "-tags" ≠ [] then ["-tags".toList, p.last "-tags"] else []) ++
    (p.all "-gcflags").map ("-gcflags=".toList ++ ·) ++
    (if debugMode then
      (if "all=-N -l".toList ∈ p.all "-gcflags" ∨ "all=-l -N".toList ∈ p.all "-gcflags" then []
       else ["-gcflags=all=-N -l".toList]) ++
      (if testDebug then ["-c".toList] else []) else []) ++
    (if wantOut && !debugMode && p.has "--no-build-output" then ["-o".toList, e.discardOut] else []) ++
    (if final ≠ [] then ["-o".toList, final] else []) ++
    p.all "--build-flag" ++ e.linkFlags ++
    (if runDebug then p.remain.take 1 else p.remain) ++
    (if cmd = .test ∧ p.testArgs ≠ [] ∧ testDebug = false then "-args".toList :: p.testArgs else [])
  let prog : List Str :=
    (if p.has "-v" && testDebug then ["-test.v".toList] else []) ++
    (if p.last "-run" ≠ [] ∧ testDebug = true then ["-test.run".toList, p.last "-run"] else []) ++
    p.all "--prog-flag" ++
    (if runDebug then p.remain.drop 1 else []) ++
    (if cmd = .test ∧ p.testArgs ≠ [] ∧ testDebug = true then p.testArgs else [])
  (args, prog)

/-- The flags of go that `getPkgArgs` knows to take no value (option.go:817-820), written with one dash. -/
def zeroArg : List Str :=
  ["-a", "-n", "-race", "-masan", "-asan", "-cover", "-v", "-work", "-x", "-linkshared", "-buildvcs",
   "-args", "-c", "-json"].map String.toList

/-- `getPkgArgs` (option.go:794-827). -/
def getPkgArgs : List Str → List Str
  | [] => []
  | arg :: rest =>
    if !dash arg then arg :: rest
    else if arg = "-args".toList then []
    else if '=' ∈ arg then getPkgArgs rest
    else
      let arg' := if "--".toList.isPrefixOf arg then arg.drop 1 else arg
      if arg' ∈ zeroArg then getPkgArgs rest
      else match rest with
        | [] => []
        | _ :: rest' => getPkgArgs rest'

end Verif.Cmd
