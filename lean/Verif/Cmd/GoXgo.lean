/-
Model of how the instrumented go command and xgo call each other, and of the environment they pass on: `go build`, `go run`
and `go test` of the GOROOT that `xgo setup` prints call xgo, which calls the instrumented go again.

Source: instrument/instrument_go/xgo_main_template.go (`xgoPrecheck`), instrument/instrument_go/go_cmd.go:232-253,
instrument/build/env.go, instrument/build/build.go:12-37, cmd/xgo/main.go:655, 812-1002, 1079-1087, 1350-1358.

Simplifications: Unix; an environment is a list of names and values, in the order of the text entries, of which the last
counts (as `os/exec` has it); what xgo makes of the arguments is a parameter (it is the subject of C48); whether `xgo` is found
on PATH is a parameter.
-/
namespace Verif.Cmd.GoXgo

abbrev Str := List Char
abbrev EnvL := List (Str × Str)

/-- The value of a name: the last entry counts. -/
def get (e : EnvL) (k : Str) : Option Str := e.reverse.lookup k

def GOROOT : Str := "GOROOT".toList
def PATH : Str := "PATH".toList
def BYPASS : Str := "GO_BYPASS_XGO".toList
def GOCACHE : Str := "GOCACHE".toList
def yes : Str := "true".toList

/-- `MakeGorootEnv` (env.go:75-104); `goroot` is absolute. -/
def makeGorootEnv (e : EnvL) (goroot : Str) : EnvL :=
  let bin := goroot ++ "/bin".toList
  let path := match get e PATH with
    | some p => bin ++ ":".toList ++ p
    | none => bin
  e.filter (fun x => x.1 != GOROOT && x.1 != PATH) ++ [(GOROOT, goroot), (PATH, path)]

/-- `AppendNativeBuildEnv` and `EnvForNative` (env.go:13-25). -/
def envForNative (e : EnvL) (goroot : Str) : EnvL :=
  makeGorootEnv e goroot ++ [("GOOS".toList, []), ("GOARCH".toList, [])] ++ [("GOEXPERIMENT".toList, [])]

/-- The environment of `BuildNativeBinary` (build.go:28-29). -/
def nativeEnv (e : EnvL) (goroot : Str) : EnvL := envForNative e goroot ++ [(BYPASS, yes)]

/-- What of the options and of the results of instrumenting goes into the environment. -/
structure Opts where
  goroot : Str
  /-- the files for the compiler, if some package is rewritten by it -/
  extra : Option (Str × Str)
  mainModule : Str
  debugPkg : Str
  unified : Bool
  noInstrument : Bool
  cacheDir : Str

/-- The environment of the command that xgo runs (main.go:655, 822-824, 856, 922-927, 997-1003). -/
def xgoEnv (o : Opts) (isExec : Bool) (e : EnvL) : EnvL :=
  makeGorootEnv e o.goroot
  ++ (if isExec then [] else
      (match o.extra with
       | none => []
       | some (f, s) =>
         [("XGO_COMPILER_SYNTAX_REWRITE_ENABLE".toList, yes), ("XGO_COMPILER_SYNTAX_REWRITE_PACKAGES_FILE".toList, f),
          ("XGO_COMPILER_SYNTAX_REWRITE_PACKAGES_SUM_FILE".toList, s)])
      ++ [("XGO_MAIN_MODULE".toList, o.mainModule)]
      ++ (if o.debugPkg = [] then [] else [("XGO_HELPER_DEBUG_PKG".toList, o.debugPkg)])
      ++ (if o.unified then [("XGO_UNIFIEDTEST".toList, yes)] else []))
  ++ (if o.noInstrument then [] else
      [(GOCACHE, o.cacheDir)] ++ (if isExec then [] else [(BYPASS, yes)]))

/-- The program of a process: the go of the instrumented GOROOT, xgo, or anything else. -/
inductive Who where
  | go | xgo | other (name : Str)
  deriving DecidableEq

structure Proc where
  who : Who
  args : List Str
  env : EnvL
  /-- whether the standard input is that of the terminal -/
  stdin : Bool
  deriving DecidableEq

/-- The world: whether xgo is on PATH, the options of xgo (given its arguments) and the arguments that it gives to go. -/
structure World where
  xgoFound : Bool
  opts : List Str → Opts
  goArgs : List Str → List Str

/-- The commands that are handed to xgo (xgo_main_template.go:16). -/
def handed (cmd : Str) : Bool := cmd == "build".toList || cmd == "test".toList || cmd == "run".toList

/-- `xgoPrecheck` (xgo_main_template.go:15-47): the xgo process that go waits for, if it does not do the work itself. -/
def precheck (w : World) (args : List Str) (env : EnvL) : Option Proc :=
  match args with
  | [] => none
  | cmd :: rest =>
    if !handed cmd then none
    else if get env BYPASS = some yes then none
    else if !w.xgoFound then none
    else some ⟨.xgo, cmd :: "--go".toList :: rest, env ++ [(BYPASS, yes)], false⟩

/-- The program named after `xgo exec`, if it is a name: one that is in the `bin` of the instrumented GOROOT is taken from
    there (main.go:981-993). -/
def program (name : Str) : Who := if name = "go".toList then .go else .other name

/-- The process that xgo waits for (main.go:977-993, 1079-1087, which sets no `Stdin`). -/
def runXgo (w : World) (args : List Str) (env : EnvL) : Option Proc :=
  match args with
  | [] => none
  | cmd :: rest =>
    if cmd = "exec".toList then
      match rest with
      | [] => none
      | name :: more => some ⟨program name, more, xgoEnv (w.opts args) true env, false⟩
    else if handed cmd then some ⟨.go, cmd :: w.goArgs args, xgoEnv (w.opts args) false env, false⟩
    else none

/-- The process that a process waits for. -/
def next (w : World) (p : Proc) : Option Proc :=
  match p.who with
  | .go => precheck w p.args p.env
  | .xgo => runXgo w p.args p.env
  | .other _ => none

/-- The processes that follow, at most `n`. -/
def follow (w : World) : Nat → Proc → List Proc
  | 0, _ => []
  | n + 1, p =>
    match next w p with
    | none => []
    | some q => q :: follow w n q

/-- How a process that waited ends: `none` if the other ended well, `some (some c)` if it ended with the code `c`,
    `some none` if it could not be run (xgo_main_template.go:33-45; main.go:1350-1358). -/
def exitCode : Option (Option Nat) → Nat
  | none => 0
  | some (some c) => c
  | some none => 1

/-- What `Cmd.Run` returns for a process that ended with a code. -/
def runErr (c : Nat) : Option (Option Nat) := if c = 0 then none else some (some c)

end Verif.Cmd.GoXgo
