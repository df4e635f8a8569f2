/-
Model of the test explorer's configuration: support/testconfig/config.go, cmd/xgo/test-explorer/config.go and the places of
cmd/xgo/test-explorer/main.go and run_session.go where it is used.

Simplifications: a text is a list of characters; JSON arrives as a value (the members of an object in the order of the file, keys may
be repeated), numbers are integers of at most 53 bits or texts of other numbers, whose printed form is a parameter, as is the text
`json.Marshal` gives for a mock rule; field names of structures are compared without regard to ASCII case.
-/
import Verif.Support.GoVersion

namespace Verif.Cmd.TestConfig
open Verif.Support Verif.Support.GoVersion

abbrev Str := List Char

inductive Json
  | null
  | bool (b : Bool)
  | int (n : Int)
  | real (t : Str)
  | str (s : Str)
  | arr (l : List Json)
  | obj (l : List (Str × Json))

/-- What `json.Unmarshal` leaves of the members of an object: of a repeated key, the last. -/
def toMap {α : Type} : List (Str × α) → List (Str × α)
  | [] => []
  | p :: l => if l.any (fun q => q.1 = p.1) then toMap l else p :: toMap l

/-- Insertion into a list sorted by keys. -/
def ins {α : Type} (p : Str × α) : List (Str × α) → List (Str × α)
  | [] => [p]
  | q :: l => if strLt p.1 q.1 then p :: q :: l else q :: ins p l

/-- The order in which maps are printed and marshaled. -/
def sorted {α : Type} (l : List (Str × α)) : List (Str × α) := l.foldr ins []

/-- `m[key]`. -/
def get (m : List (Str × Json)) (key : String) : Option Json := (toMap m).lookup key.toList

/-! ### Printing: `fmt.Sprint` -/

/-- Without trailing zeros. -/
def strip (s : Str) : Str := (s.reverse.dropWhile (· = '0')).reverse

/-- `%g` of an integer with shortest digits `d :: ds` (strconv: scientific form from exponent 6 on). -/
def scientific (d : Char) (ds : Str) : Str :=
  d :: (if strip ds = [] then [] else '.' :: strip ds) ++ "e+".toList ++
    (if ds.length < 10 then '0' :: Nat.toDigits 10 ds.length else Nat.toDigits 10 ds.length)

def sprintNat (n : Nat) : Str :=
  match Nat.toDigits 10 n with
  | [] => []
  | d :: ds => if ds.length < 6 then d :: ds else scientific d ds

/-- A JSON number is a `float64`, and `fmt.Sprint` prints it with `%v`, that is `%g`; its digits are those of the number up to
    2^53 (from there on a `float64` is rounded, which is not modelled). -/
def sprintInt (n : Int) : Str := if n < 0 then '-' :: sprintNat n.natAbs else sprintNat n.natAbs

def join (sep : Str) : List Str → Str
  | [] => []
  | [a] => a
  | a :: l => a ++ sep ++ join sep l

mutual
/-- `fmt.Sprint` of what `json.Unmarshal` stores in an `interface{}`; `real` prints numbers that are not integers. -/
def sprint (real : Str → Str) : Json → Str
  | .null => "<nil>".toList
  | .bool b => if b then "true".toList else "false".toList
  | .int n => sprintInt n
  | .real t => real t
  | .str s => s
  | .arr l => '[' :: join [' '] (sprintList real l) ++ [']']
  | .obj l => "map[".toList ++ join [' '] ((sorted (toMap (sprintMembers real l))).map fun p => p.1 ++ ':' :: p.2) ++ [']']

def sprintList (real : Str → Str) : List Json → List Str
  | [] => []
  | a :: l => sprint real a :: sprintList real l

def sprintMembers (real : Str → Str) : List (Str × Json) → List (Str × Str)
  | [] => []
  | (k, a) :: l => (k, sprint real a) :: sprintMembers real l
end

/-! ### config.go -/

/-- `GoConfig` (config.go:42-45). -/
structure GoConf where
  min : Str
  max : Str

/-- `CoverageConfig` (config.go:53-59). -/
structure Cov where
  disabled : Bool
  diffWith : Str
  profile : Str
  include_ : List Str
  exclude : List Str

def Cov.zero : Cov := ⟨false, [], [], [], []⟩

/-- `Config` (config.go:22-39); `env` is a map. -/
structure Config where
  go : Option GoConf
  goCmd : Str
  exclude : List Str
  env : List (Str × Json)
  flags : List Str
  args : List Str
  bypass : Bool
  mockRules : List Str
  /-- `xgo.auto_update`, if there is a block `xgo` -/
  xgo : Option Bool
  coverage : Option Cov

def Config.empty : Config := ⟨none, [], [], [], [], [], false, [], none, none⟩

/-- `toStringList` (config.go:286-311). -/
def strings : List Json → Option (List Str)
  | [] => some []
  | .str s :: l => (strings l).map (s :: ·)
  | _ :: _ => none

def toStringList : Json → Option (List Str)
  | .null => some []
  | .arr l => strings l
  | .str s => some (if s = [] then [] else [s])
  | _ => none

/-- `exclude` (config.go:148-163). -/
def toExclude : Json → Option (List Str)
  | .str s => some (if s = [] then [] else [s])
  | .arr l => strings l
  | _ => none

/-- `toBoolean` (config.go:313-332). -/
def toBoolean : Json → Option Bool
  | .null => some false
  | .bool b => some b
  | .str s => if s = "true".toList then some true else if s = "false".toList then some true else none
  | _ => none

/-- `toMarshaledStrings` (config.go:334-357). -/
def marshaled (marshal : Json → Str) : List Json → Option (List Str)
  | [] => some []
  | .null :: l => marshaled marshal l
  | .str _ :: _ => none
  | a :: l => (marshaled marshal l).map (marshal a :: ·)

def toMarshaledStrings (marshal : Json → Str) : Json → Option (List Str)
  | .null => some []
  | .arr l => marshaled marshal l
  | _ => none

/-- Does a member of an object go to this field of a structure? -/
def isField (k : Str) (name : String) : Bool := k.map Char.toLower = name.toList

/-- Decoding into a string, a boolean, a list of strings. -/
def intoStr (old : Str) : Json → Option Str
  | .null => some old
  | .str s => some s
  | _ => none

def intoBool (old : Bool) : Json → Option Bool
  | .null => some old
  | .bool b => some b
  | _ => none

/-- An element `null` is an empty string. -/
def elements : List Json → Option (List Str)
  | [] => some []
  | .str s :: l => (elements l).map (s :: ·)
  | .null :: l => (elements l).map ([] :: ·)
  | _ :: _ => none

def intoList : Json → Option (List Str)
  | .null => some []
  | .arr l => elements l
  | _ => none

/-- Decoding one member into `GoConfig`. -/
def goField (c : GoConf) (p : Str × Json) : Option GoConf :=
  if isField p.1 "min" then (intoStr c.min p.2).map fun s => { c with min := s }
  else if isField p.1 "max" then (intoStr c.max p.2).map fun s => { c with max := s }
  else some c

def covField (c : Cov) (p : Str × Json) : Option Cov :=
  if isField p.1 "disabled" then (intoBool c.disabled p.2).map fun b => { c with disabled := b }
  else if isField p.1 "diff_with" then (intoStr c.diffWith p.2).map fun s => { c with diffWith := s }
  else if isField p.1 "profile" then (intoStr c.profile p.2).map fun s => { c with profile := s }
  else if isField p.1 "include" then (intoList p.2).map fun l => { c with include_ := l }
  else if isField p.1 "exclude" then (intoList p.2).map fun l => { c with exclude := l }
  else some c

def xgoField (c : Bool) (p : Str × Json) : Option Bool := if isField p.1 "auto_update" then intoBool c p.2 else some c

/-- Marshaling an object and decoding it into a structure, member by member. -/
def decode {α : Type} (field : α → Str × Json → Option α) (zero : α) : Json → Option α
  | .obj l => (sorted (toMap l)).foldlM field zero
  | _ => none

/-- `env` (config.go:114-120). -/
def toEnv : Json → Option (List (Str × Json))
  | .obj l => some (toMap l)
  | _ => none

/-- `go` (config.go:122-136). -/
def toGo : Json → Option GoConf
  | .str s => some ⟨s, []⟩
  | j => decode goField ⟨[], []⟩ j

/-- `go_cmd` (config.go:138-144). -/
def toText : Json → Option Str
  | .str s => some s
  | _ => none

/-- `coverage` (config.go:206-216). -/
def toCoverage : Json → Option (Option Cov)
  | .bool b => some (if b then none else some { Cov.zero with disabled := true })
  | j => (decode covField Cov.zero j).map some

/-- `if e, ok := m[key]; ok && e != nil { … }`: nothing changes if there is no such key, or it is `null`. -/
def opt {α : Type} (m : List (Str × Json)) (key : String) (zero : α) (read : Json → Option α) : Option α :=
  match get m key with
  | none => some zero
  | some .null => some zero
  | some j => read j

/-- `Parse` (config.go:105-216) behind `json.Unmarshal` into a map. -/
def parseMap (marshal : Json → Str) (m : List (Str × Json)) : Option Config := do
  let env ← opt m "env" [] toEnv
  let go ← opt m "go" none fun j => (toGo j).map some
  let goCmd ← opt m "go_cmd" [] toText
  let exclude ← opt m "exclude" [] toExclude
  let flags ← opt m "flags" [] toStringList
  let args ← opt m "args" [] toStringList
  let bypass ← opt m "bypass_go_flags" false toBoolean
  let mockRules ← opt m "mock_rules" [] (toMarshaledStrings marshal)
  let xgo ← opt m "xgo" none fun j => (decode xgoField false j).map some
  let coverage ← opt m "coverage" none toCoverage
  pure ⟨go, goCmd, exclude, env, flags, args, bypass, mockRules, xgo, coverage⟩

def parse (marshal : Json → Str) : Json → Option Config
  | .null => parseMap marshal []
  | .obj m => parseMap marshal m
  | _ => none

/-- `EnvPairs` (config.go:62-71), for the order in which Go happens to walk the map. -/
def envPairs (real : Str → Str) (walk : List (Str × Json)) : List Str := walk.map fun p => p.1 ++ '=' :: sprint real p.2

/-- `CompareGoVersion` with `ignorePatch` (config.go:260-273). -/
def compareMinor (a b : GoInfo) : Int := if a.major ≠ b.major then a.major - b.major else a.minor - b.minor

/-- `strings.TrimPrefix(s, "go")`. -/
def trimGo (s : Str) : Str := if "go".toList.isPrefixOf s then s.drop 2 else s

/-- Is the installed version refused by this bound? (config.go:240-256) -/
def below (installed : GoInfo) (bound : Str) : Bool :=
  bound ≠ [] && match parseGoVersionNumber (trimGo bound) with
    | none => false
    | some v => decide (compareMinor installed v < 0)

def above (installed : GoInfo) (bound : Str) : Bool :=
  bound ≠ [] && match parseGoVersionNumber (trimGo bound) with
    | none => false
    | some v => decide (compareMinor installed v > 0)

/-- `ValidateGoConstraint` (config.go:231-258), given what `go version` prints (`none`: it fails). -/
def validate (goVersion : Option Str) (c : Option GoConf) : Bool :=
  match c with
  | none => true
  | some g =>
    if g.min = [] ∧ g.max = [] then true
    else match goVersion.bind parseGoVersion with
      | none => false
      | some v => !below v g.min && !above v g.max

/-! ### test-explorer/config.go -/

/-- The options of the command line (main.go:33-57) that matter here; `coverage` is `true`, `false` or empty. -/
structure Opts where
  defaultGoCommand : Str
  goCommand : Str
  exclude : List Str
  flags : List Str
  args : List Str
  coverage : Str
  coverageProfile : Str
  coverageDiffWith : Str

/-- `getXgoSupportsMockRule` (test-explorer/config.go:95-110). `cmd.Output` has no builder, and so loses the error of a command that
    fails (support/cmd/cmd.go:101-102, 177-183): `xgo version` that fails is the output printed before, here empty. -/
def supports (xgoVersion : Option Str) : Bool :=
  let v := xgoVersion.getD []
  if !"1.0.".toList.isPrefixOf v then true
  else match parseInt64 (v.drop 4) with
    | none => false
    | some n => decide (n > 44)

/-- The flags for mock rules (test-explorer/config.go:68-72). -/
def ruleFlags : List Str → List Str
  | [] => []
  | r :: l => "--mock-rule".toList :: r :: ruleFlags l

/-- `coverage` of the command line (test-explorer/config.go:75-91). -/
def mergeCoverage (o : Opts) (c : Option Cov) : Cov :=
  if o.coverage = "false".toList then { c.getD Cov.zero with disabled := true }
  else
    let c := c.getD Cov.zero
    let c := if o.coverageProfile ≠ [] then { c with profile := o.coverageProfile } else c
    if o.coverageDiffWith ≠ [] then { c with diffWith := o.coverageDiffWith } else c

/-- `parseConfigAndMergeOptions` (test-explorer/config.go:34-93) behind the reading of the file. -/
def merge (xgoVersion : Option Str) (o : Opts) (c : Config) : Config :=
  let goCmd := if o.goCommand ≠ [] then o.goCommand else if c.goCmd ≠ [] then c.goCmd else o.defaultGoCommand
  { c with
    goCmd := goCmd
    exclude := c.exclude ++ o.exclude
    flags := c.flags ++ o.flags ++
      (if goCmd = "xgo".toList ∧ c.mockRules ≠ [] ∧ supports xgoVersion = true then ruleFlags c.mockRules else [])
    args := c.args ++ o.args
    coverage := some (mergeCoverage o c.coverage) }

/-- What reading the file gives: nothing there, another error, or the JSON value in it (`bad`: it is not JSON; an empty file is like
    an absent one). -/
inductive File
  | missing
  | unreadable
  | empty
  | bad
  | json (j : Json)

/-- `parseConfigAndMergeOptions`; `required` if the file was named by `--config`. -/
def load (marshal : Json → Str) (xgoVersion : Option Str) (o : Opts) (required : Bool) : File → Option Config
  | .missing => if required then none else some (merge xgoVersion o .empty)
  | .unreadable => none
  | .empty => some (merge xgoVersion o .empty)
  | .bad => none
  | .json j => (parse marshal j).map (merge xgoVersion o)

/-- `handle` up to the run of the tests (main.go:338-433), and `runTest` (run_session.go:558-583): the program that is run, with its
    arguments; `none` if the configuration is refused. `cover` are the flags for coverage, `tests` the selected tests. -/
def command (marshal : Json → Str) (xgoVersion goVersion : Option Str) (o : Opts) (required : Bool) (f : File)
    (cover tests : List Str) : Option (Str × List Str) := do
  let c ← load marshal xgoVersion o required f
  if validate goVersion c.go = false then none
  else
    let on := !(c.coverage.getD Cov.zero).disabled
    pure (if c.goCmd = [] then "go".toList else c.goCmd,
      ["test".toList, "-v".toList] ++ c.flags ++ (if on then cover else []) ++ tests ++
        (if c.args = [] then [] else "-args".toList :: (if c.bypass then ["--".toList] else []) ++ c.args))

end Verif.Cmd.TestConfig
