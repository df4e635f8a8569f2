import Verif.Instrument.PatchText
import Verif.Support.Semver
/-
Model of the local copy of the xgo runtime that is compiled into the program (`--strace`, an automatic upgrade, Go 1.25 and
later): its extraction from the xgo executable and its linking, in the directory .xgo/gen/modules/github.com/xhd2015/xgo/runtime,
which stays there from one run of xgo to the next.

Models the first part of `loadDependency` (/repo/cmd/xgo/trace.go:232-275), `needCopyRuntimeFromXgo` (trace.go:431-481),
`CopyDir` (/repo/instrument/embed/embed.go:15-47), `ExtractConstants` (/repo/support/goparse/constants.go:12-56) on the files it
is applied to, `LinkXgoRuntime` (/repo/instrument/instrument_xgo_runtime/link.go:39-242), the functions of parse.go and
bypass_version_check.go in that directory, and `overrideXgoContent` (/repo/cmd/xgo/instrument.go:66-77).

Not modelled: a development build of xgo (`isDevelopment`, trace.go:233-237), runtime versions older than 1.1.4 with their own
templates (link.go:218-225, 258-268, legacy.go: they cannot be embedded in this xgo), the file of the Go runtime that is put
into the overlay (link.go:282-300), files that do not parse, and errors of the file system.
-/
namespace Verif.Cmd.RuntimeCopy
open Verif.Text Verif.Instrument.PatchText

/-! ### Lines of Go files -/

/-- `replaceByLine` (parse.go:111-124). -/
def replaceByLine (code pat replacement : Str) : Str :=
  match cut pat code with
  | none => code
  | some (before, after) =>
    match cut ['\n'] after with
    | none => code
    | some (_, rest) => before ++ replacement ++ '\n' :: rest

/-- `strconv.Itoa` for numbers that are not negative. -/
def itoa (n : Nat) : Str := Nat.toDigits 10 n

/-- `ReplaceActualXgoVersion` (parse.go:73-78). -/
def replaceActualXgoVersion (code version revision : Str) (number : Nat) : Str :=
  let code := replaceByLine code "const XGO_VERSION = ".toList ("const XGO_VERSION = \"".toList ++ version ++ ['"'])
  let code := replaceByLine code "const XGO_REVISION = ".toList ("const XGO_REVISION = \"".toList ++ revision ++ ['"'])
  replaceByLine code "const XGO_NUMBER = ".toList ("const XGO_NUMBER = ".toList ++ itoa number)

/-- One character of `%q`. Simplification: only the quote, the backslash, the tab and the line ends are escaped; the other
    characters are taken to be printable. -/
def quoteChar (c : Char) : Str :=
  if c = '"' then ['\\', '"'] else if c = '\\' then ['\\', '\\'] else if c = '\n' then ['\\', 'n']
  else if c = '\r' then ['\\', 'r'] else if c = '\t' then ['\\', 't'] else [c]

/-- `fmt.Sprintf("%q", s)`. -/
def quote (s : Str) : Str := '"' :: s.flatMap quoteChar ++ ['"']

/-- `fmt.Sprintf("%t", b)`. -/
def boolText (b : Bool) : Str := if b then "true".toList else "false".toList

/-- `InjectFlags` (parse.go:103-108). -/
def injectFlags (code : Str) (collect : Bool) (dir : Str) (race : Bool) : Str :=
  let code := replaceByLine code "const COLLECT_TEST_TRACE = ".toList ("const COLLECT_TEST_TRACE = ".toList ++ boolText collect)
  let code := replaceByLine code "const COLLECT_TEST_TRACE_DIR = ".toList ("const COLLECT_TEST_TRACE_DIR = ".toList ++ quote dir)
  replaceByLine code "const XGO_RACE_SAFE = ".toList ("const XGO_RACE_SAFE = ".toList ++ boolText race)

/-- `strings.TrimSpace`, for the blanks that occur inside a line. -/
def trim (s : Str) : Str :=
  let b := fun c : Char => c = ' ' || c = '\t' || c = '\r'
  ((s.dropWhile b).reverse.dropWhile b).reverse

/-- `strconv.Unquote`. Simplification: only double quotes, without escapes; anything else is an error. -/
def unquote : Str → Option Str
  | '"' :: s => if s.getLast? = some '"' ∧ '"' ∉ s.dropLast ∧ '\\' ∉ s then some s.dropLast else none
  | _ => none

/-- `ParseCoreVersion` (parse.go:80-101); `none` is an error. -/
def parseCoreVersion (code : Str) : Option Str :=
  match cut "const VERSION =".toList code with
  | none => none
  | some (_, after) =>
    match cut ['\n'] after with
    | none => none
    | some (line, _) =>
      match unquote (trim line) with
      | none => none
      | some v => if v = [] then none else some v

/-- `isDeprecatedCoreVersion` (parse.go:61-63). -/
def isDeprecated (v : Str) : Bool := "1.0.".toList.isPrefixOf v

/-- `bypassVersionCheck` (bypass_version_check.go:31-43); `none` is a panic. -/
def bypassVersionCheck (code : Str) : Option Str :=
  updateContent code "/*<begin bypass_version_check>*/".toList "/*<end bypass_version_check>*/".toList
    ["func checkVersion() error {".toList] 0 .after "if true { return nil; }".toList

/-- `checkBypassVersionCheck` (bypass_version_check.go:8-29). -/
def checkBypassVersionCheck (code runtimeVersion : Str) : Option Str :=
  if 0 ≤ Support.Semver.compareSemVer ('v' :: runtimeVersion) "v1.1.4".toList then bypassVersionCheck code else some code

/-- What `LinkXgoRuntime` makes of core/version.go (link.go:113-127); `none` is an error or a panic. -/
def linkVersion (code version revision : Str) (number : Nat) : Option Str :=
  match parseCoreVersion code with
  | none => none
  | some v =>
    if isDeprecated v then none
    else checkBypassVersionCheck (replaceActualXgoVersion code version revision number) v

/-- The lines of a text. -/
def splitLines : Str → List Str
  | [] => [[]]
  | c :: r =>
    if c = '\n' then [] :: splitLines r
    else match splitLines r with
      | [] => [[c]]
      | l :: ls => (c :: l) :: ls

/-- `strconv.Atoi` of an integer literal; `none` for 0 and for what is not a decimal number. -/
def positive (s : Str) : Option Nat :=
  if s ≠ [] ∧ s.all Char.isDigit then
    let n := Nat.ofDigitChars 10 s 0
    if n = 0 then none else some n
  else none

/-- The constant `NUMBER` of a version file as `needCopyRuntimeFromXgo` gets it from `ExtractConstants` (trace.go:452-475);
    `none` if it is missing or not positive. Simplification: the constant is declared by a line `const NUMBER = …`, as in
    /repo/runtime/core/version.go:13; the Go parser is not modelled. -/
def numberOf (code : Str) : Option Nat :=
  match (splitLines code).find? (fun l => "const NUMBER = ".toList.isPrefixOf l) with
  | none => none
  | some l => positive (l.drop "const NUMBER = ".toList.length)

/-! ### The directory -/

/-- The files of the directory, by their path in it. -/
abbrev Dir := Str → Option Str

/-- An xgo executable: the files embedded in it, in the order of `fs.WalkDir` (`asset.RuntimeGenFS`), its VERSION, REVISION
    and NUMBER (/repo/cmd/xgo/version.go:9-11), and what its instrumentation makes of trace.go (link.go:227-247,
    instrument.go:390-415; modelled in Instrument/FuncTrap), which depends on `-cover`. -/
structure Xgo where
  files : List (Str × Str)
  version : Str
  revision : Str
  number : Nat
  trap : Bool → Str → Str

/-- The options of a run. `force` is `--reset-instrument` or `-a` (main.go:735). -/
structure Opts where
  force : Bool
  collect : Bool
  dir : Str
  race : Bool
  cover : Bool

/-- A file embedded in the executable. -/
def Xgo.embedded (x : Xgo) (p : Str) : Option Str := x.files.lookup p

def versionPath : Str := "core/version.go".toList
def flagsPath : Str := "internal/flags/flags.go".toList
def linkPath : Str := "internal/runtime/runtime_link.go".toList
def templatePath : Str := "internal/runtime/runtime_link_template.go".toList
def tracePath : Str := "trace/trace.go".toList
def goModTxt : Str := "go.mod.txt".toList
def goMod : Str := "go.mod".toList

/-- Changes of the directory. -/
inductive Op
  | write (p c : Str)
  | clear
  | rename (p q : Str)

def set (d : Dir) (p : Str) (c : Option Str) : Dir := fun q => if q = p then c else d q

/-- `os.WriteFile`, `os.RemoveAll` and `os.Rename`. -/
def Op.apply : Op → Dir → Dir
  | write p c, d => set d p (some c)
  | clear, _ => fun _ => none
  | rename p q, d => set (set d q (d p)) p none

def applyAll (ops : List Op) (d : Dir) : Dir := ops.foldl (fun d op => op.apply d) d

/-- What a crash in the middle of a change may leave: part of the text, or some of the files. -/
inductive Op.Torn : Op → Dir → Dir → Prop
  | start (op d) : Torn op d d
  | write (p c c' d) : c' <+: c → Torn (.write p c) d (set d p (some c'))
  | clear (d d') : (∀ p, d' p = d p ∨ d' p = none) → Torn .clear d d'

/-! ### A run -/

/-- `needCopyRuntimeFromXgo` (trace.go:431-481); `none` is an error. Simplification: an embedded version file that cannot be
    parsed is an error there, and a reason to copy here. -/
def needCopy (x : Xgo) (d : Dir) : Option Bool :=
  match d versionPath with
  | none => some true
  | some fsVersion =>
    if fsVersion = [] then some true
    else match x.embedded versionPath with
      | none => none
      | some embedVersion =>
        match numberOf fsVersion with
        | none => some true
        | some fsNumber =>
          match numberOf embedVersion with
          | none => some true
          | some embedNumber => some (decide (fsNumber < embedNumber))

/-- The extraction (trace.go:239-274). -/
def extractOps (x : Xgo) (force : Bool) (d : Dir) : Option (List Op) :=
  match (if force then some true else needCopy x d) with
  | none => none
  | some true => some (.clear :: x.files.map (fun f => .write f.1 f.2) ++ [.rename goModTxt goMod])
  | some false =>
    match x.embedded tracePath with
    | none => none
    | some content => some [.write tracePath content]

/-- The writing of core/version.go (link.go:113-128). -/
def versionOps (x : Xgo) (d : Dir) : Option (List Op) :=
  match d versionPath with
  | none => some []
  | some code => (linkVersion code x.version x.revision x.number).map fun c => [.write versionPath c]

/-- The writing of runtime_link.go (`linkRuntimeTemplates`, link.go:257-281, `readRuntimeFileFromDirOrGen`, link.go:303-320). -/
def runtimeLinkOps (x : Xgo) (d : Dir) : Option (List Op) :=
  match d linkPath with
  | none => some []
  | some _ =>
    match (match d templatePath with | some t => some t | none => x.embedded templatePath) with
    | none => none
    | some template => (removeMarker template "//go:build ignore".toList).map fun c => [.write linkPath c]

/-- The writing of flags.go (link.go:186-190). -/
def flagsOps (o : Opts) (d : Dir) : List Op :=
  match d flagsPath with
  | none => []
  | some code =>
    if o.collect || o.dir ≠ [] || o.race then [.write flagsPath (injectFlags code o.collect o.dir o.race)] else []

/-- The writing of trace.go (link.go:227-247), which is not reached without runtime_link.go (link.go:209-216). -/
def traceOps (x : Xgo) (o : Opts) (d : Dir) : List Op :=
  match d linkPath, d tracePath with
  | some _, some content => [.write tracePath (x.trap o.cover content)]
  | _, _ => []

/-- `LinkXgoRuntime` (link.go:39-241). All files are read before the first one is written (link.go:71-84). Simplification:
    the packages are visited in this order. -/
def linkOps (x : Xgo) (o : Opts) (d : Dir) : Option (List Op) :=
  match versionOps x d with
  | none => none
  | some v =>
    match runtimeLinkOps x d with
    | none => none
    | some l => some (v ++ l ++ flagsOps o d ++ traceOps x o d)

/-- A run of xgo, up to the start of the Go command: the directory that is compiled. -/
def run (x : Xgo) (o : Opts) (d : Dir) : Option Dir :=
  match extractOps x o.force d with
  | none => none
  | some ops =>
    match linkOps x o (applyAll ops d) with
    | none => none
    | some ops' => some (applyAll ops' (applyAll ops d))

/-- Runs of possibly different executables, one after the other. -/
def runs : List (Xgo × Opts) → Dir → Option Dir
  | [], d => some d
  | (x, o) :: rest, d => match run x o d with
    | none => none
    | some d => runs rest d

end Verif.Cmd.RuntimeCopy
