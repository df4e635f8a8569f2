import Verif.Cmd.RuntimeCopy
/-
What the local copy of the runtime is to be. Apart from the records of the model (executables, options, directories) the
definitions here use only `quoteChar`, Go's `%q`.
-/
namespace Verif.Cmd.RuntimeCopy.Spec
open Verif.Text

/-- A text of lines. -/
def unlines (lines : List Str) : Str := lines.flatMap (· ++ ['\n'])

/-- A line of core/version.go after linking: the three constants about xgo are filled in, and `checkVersion` returns at once. -/
def versionLine (x : Xgo) (line : Str) : Str :=
  if "const XGO_VERSION = ".toList.isPrefixOf line then "const XGO_VERSION = \"".toList ++ x.version ++ "\"".toList
  else if "const XGO_REVISION = ".toList.isPrefixOf line then "const XGO_REVISION = \"".toList ++ x.revision ++ "\"".toList
  else if "const XGO_NUMBER = ".toList.isPrefixOf line then "const XGO_NUMBER = ".toList ++ Nat.toDigits 10 x.number
  else if line = "func checkVersion() error {".toList then
    "func checkVersion() error {/*<begin bypass_version_check>*/if true { return nil; }/*<end bypass_version_check>*/".toList
  else line

/-- A line of flags.go after linking. -/
def flagsLine (o : Opts) (line : Str) : Str :=
  if "const COLLECT_TEST_TRACE = ".toList.isPrefixOf line then
    "const COLLECT_TEST_TRACE = ".toList ++ (if o.collect then "true".toList else "false".toList)
  else if "const COLLECT_TEST_TRACE_DIR = ".toList.isPrefixOf line then
    "const COLLECT_TEST_TRACE_DIR = \"".toList ++ o.dir.flatMap quoteChar ++ "\"".toList
  else if "const XGO_RACE_SAFE = ".toList.isPrefixOf line then
    "const XGO_RACE_SAFE = ".toList ++ (if o.race then "true".toList else "false".toList)
  else line

/-- One line begins with `pre`, and no other line has `pre` in it. -/
def One (pre : Str) (lines : List Str) : Prop :=
  ∃ before rest after, lines = before ++ (pre ++ rest) :: after ∧
    (∀ l ∈ before, ¬ pre <:+: l) ∧ ¬ pre <:+: rest ∧ ∀ l ∈ after, ¬ pre <:+: l

/-- Version and revision: letters, digits and `.`, `-`, `+`, `_`. -/
def Plain (s : Str) : Prop := ∀ c ∈ s, c.isAlphanum = true ∨ c ∈ ['.', '-', '+', '_']

/-- The files of a release of xgo: `version`, `flags` and so on are the lines of the files of that name. -/
structure Release (x : Xgo) where
  version : List Str
  flags : List Str
  number : Nat
  core : Str
  template : Str
  link : Str
  trace : Str
  mod : Str

/-- A release as it is built from /repo: its files have the form they have there. -/
structure Release.WF {x : Xgo} (r : Release x) : Prop where
  nodup : (x.files.map (·.1)).Nodup
  hversion : ("core/version.go".toList, unlines r.version) ∈ x.files
  hflags : ("internal/flags/flags.go".toList, unlines r.flags) ∈ x.files
  htemplate : ("internal/runtime/runtime_link_template.go".toList, r.template) ∈ x.files
  hlink : ∃ c, ("internal/runtime/runtime_link.go".toList, c) ∈ x.files
  htrace : ("trace/trace.go".toList, r.trace) ∈ x.files
  hmod : ("go.mod.txt".toList, r.mod) ∈ x.files
  nomod : ∀ c, ("go.mod".toList, c) ∉ x.files
  plainVersion : Plain x.version
  plainRevision : Plain x.revision
  /-- lines -/
  versionLines : ∀ l ∈ r.version, '\n' ∉ l
  flagsLines : ∀ l ∈ r.flags, '\n' ∉ l
  /-- core/version.go: its constants, -/
  oneVersion : One "const XGO_VERSION = ".toList r.version
  oneRevision : One "const XGO_REVISION = ".toList r.version
  oneNumber : One "const XGO_NUMBER = ".toList r.version
  /-- its own number, which is positive, -/
  number_pos : 0 < r.number
  coreNumber : One "const NUMBER = ".toList r.version
  hnumber : "const NUMBER = ".toList ++ Nat.toDigits 10 r.number ∈ r.version
  /-- its own version, 1.1.4 or later, -/
  coreVersion : One "const VERSION =".toList r.version
  hcore : "const VERSION = \"".toList ++ r.core ++ "\"".toList ∈ r.version
  core_plain : r.core ≠ [] ∧ '"' ∉ r.core ∧ '\\' ∉ r.core
  core_new : ¬ "1.0.".toList <+: r.core ∧ 0 ≤ Support.Semver.compareSemVer ('v' :: r.core) "v1.1.4".toList
  /-- its function `checkVersion`, -/
  check : One "func checkVersion() error {".toList r.version
  hcheck : "func checkVersion() error {".toList ∈ r.version
  /-- and no marks yet. -/
  unmarked : ∀ l ∈ r.version, ¬ "/*<begin bypass_version_check>*/".toList <:+: l ∧ ¬ "/*<end bypass_version_check>*/".toList <:+: l
  /-- flags.go: its constants, which are off -/
  oneCollect : One "const COLLECT_TEST_TRACE = ".toList r.flags
  oneDir : One "const COLLECT_TEST_TRACE_DIR = ".toList r.flags
  oneRace : One "const XGO_RACE_SAFE = ".toList r.flags
  off : "const COLLECT_TEST_TRACE = false".toList ∈ r.flags ∧ "const COLLECT_TEST_TRACE_DIR = \"\"".toList ∈ r.flags ∧
    "const XGO_RACE_SAFE = false".toList ∈ r.flags
  /-- the template of runtime_link.go: the text with the line `//go:build ignore` -/
  ignore : ∃ a b, r.template = a ++ "//go:build ignore\n".toList ++ b ∧ ¬ "//go:build ignore".toList <:+: a ∧ a.getLast? = some '\n' ∧
    r.link = a ++ b

/-- The copy made by an executable `b`, linked by `x` with the flags `f`, where trace.go is instrumented for `-cover` or
    not. -/
def copy {b x : Xgo} (rb : Release b) (rx : Release x) (f : Opts) (cover : Bool) (p : Str) : Option Str :=
  if p = "go.mod".toList then some rb.mod
  else if p = "go.mod.txt".toList then none
  else if p = "core/version.go".toList then some (unlines (rb.version.map (versionLine x)))
  else if p = "internal/flags/flags.go".toList then some (unlines (rb.flags.map (flagsLine f)))
  else if p = "internal/runtime/runtime_link.go".toList then some rb.link
  else if p = "trace/trace.go".toList then some (x.trap cover rx.trace)
  else b.files.lookup p

/-- A trace directory in whose name, as it is quoted, there is no constant declaration. -/
def DirOk (o : Opts) : Prop := ¬ "const ".toList <:+: o.dir.flatMap quoteChar

/-- The body of an interpreted string of Go, with its closing quote, as the compiler reads it. -/
def readLiteral : Str → Option Str
  | [] => none
  | ['"'] => some []
  | '"' :: _ => none
  | '\\' :: c :: r =>
    let v : Option Char := if c = '"' then some '"' else if c = '\\' then some '\\' else if c = 'n' then some '\n'
      else if c = 'r' then some '\r' else if c = 't' then some '\t' else none
    match v, readLiteral r with
    | some v, some s => some (v :: s)
    | _, _ => none
  | c :: r => if c = '\n' ∨ c = '\\' then none else (readLiteral r).map (c :: ·)

/-- Some flag is on. -/
def On (o : Opts) : Bool := o.collect || decide (o.dir ≠ []) || o.race

/-- A run in a history: the executable, its release, the options. -/
structure Run where
  x : Xgo
  r : Release x
  o : Opts

/-- Where the copy comes from: the run that extracted it, and the options whose flags it has. -/
structure Origin where
  from_ : Run
  flags : Opts

/-- No flags. -/
def off : Opts := { force := false, collect := false, dir := [], race := false, cover := false }

/-- The same run without flags. -/
def Run.quiet (n : Run) : Run := ⟨n.x, n.r, ⟨n.o.force, false, [], false, n.o.cover⟩⟩

/-- A run extracts the runtime if it is told to, or if its runtime has a higher number than the copy; otherwise it keeps
    the copy. Flags stay until the next extraction, unless a run has flags of its own. -/
def Origin.next (g : Origin) (n : Run) : Origin :=
  if n.o.force = true ∨ g.from_.r.number < n.r.number then ⟨n, if On n.o then n.o else off⟩
  else ⟨g.from_, if On n.o then n.o else g.flags⟩

def origin (first : Run) : List Run → Origin := fun l => l.foldl Origin.next ⟨first, if On first.o then first.o else off⟩

/-- The copy after the runs. -/
def after (first : Run) (more : List Run) : Str → Option Str :=
  let g := origin first more
  let last := (first :: more).getLast (List.cons_ne_nil _ _)
  copy g.from_.r last.r g.flags last.o.cover

end Verif.Cmd.RuntimeCopy.Spec
