/-
Model of mock rules: parsing, matching, merging of rules from the command line and from a file, module membership.

Source: patch/legacy/match/match.go, patch/legacy/ctxt/match.go, patch/legacy/ctxt/ctx.go, patch/legacy/info,
cmd/xgo/rule.go, cmd/xgo/instrument.go, support/goinfo/pkg.go
-/
import Verif.Support.Coverage
import Verif.Support.Pattern

namespace Verif.Instrument.Rules
open Verif.Support (Str)
open Verif.Support.GoVersion (splitOn)
open Verif.Support.Coverage (trimSpace)
open Verif.Support

/-- `Rule` (match.go:10-25, cmd/xgo/rule.go:15-26), as decoded from JSON. -/
structure Rule where
  any : Bool := false
  kind : Option Str := none
  pkg : Option Str := none
  name : Option Str := none
  stdlib : Option Bool := none
  mainModule : Option Bool := none
  generic : Option Bool := none
  exported : Option Bool := none
  closure : Option Bool := none
  action : Str := []

/-- `DeclKind` (patch/legacy/info/decl_info.go:9-19). -/
inductive Kind
  | func | var | varPtr | const
  deriving DecidableEq

/-- `DeclKind.String` (patch/legacy/info/decl_info.go:28-40). -/
def Kind.string : Kind → Str
  | .func => "func".toList
  | .var => "var".toList
  | .varPtr => "var_ptr".toList
  | .const => "const".toList

/-- The parts of `info.DeclInfo` that rules look at. `identityName` stands for `IdentityName()`, `exported` for
    `types.IsExported(funcDecl.Name)`. -/
structure Decl where
  kind : Kind
  identityName : Str
  exported : Bool
  generic : Bool
  closure : Bool

/-- `toList` (match.go:33-49) and `splitCommaList` (cmd/xgo/instrument.go:499-513), which do the same. -/
def commaList (s : Str) : List Str := ((splitOn ',' [] s).map trimSpace).filter (· ≠ [])

/-- `toList` of an optional string (match.go:33-36). -/
def toList (s : Option Str) : List Str :=
  match s with
  | none => []
  | some s => commaList s

/-- `Match` (match.go:60-120) with `Parse` (match.go:27-31). `isMain` is the argument `isMainModule`, `std` is
    `base.Flag.Std`. -/
def matchRule (r : Rule) (pkgPath : Str) (isMain std : Bool) (d : Decl) : Bool :=
  if r.any then true
  else if toList r.kind ≠ [] ∧ d.kind.string ∉ toList r.kind then false
  else if toList r.pkg ≠ [] ∧ Pattern.matchAny (toList r.pkg) pkgPath = false then false
  else if toList r.name ≠ [] ∧ Pattern.matchAny (toList r.name) d.identityName = false then false
  else if r.mainModule ≠ none ∧ r.mainModule ≠ some isMain then false
  else if r.stdlib ≠ none ∧ r.stdlib ≠ some std then false
  else if (r.generic ≠ none ∧ d.kind = .func) ∧ r.generic ≠ some d.generic then false
  else if r.exported ≠ none ∧ r.exported ≠ some d.exported then false
  else if r.closure ≠ none ∧ r.closure ≠ some d.closure then false
  else decide (toList r.kind ≠ [] ∨ toList r.pkg ≠ [] ∨ toList r.name ≠ [] ∨ r.mainModule ≠ none ∨ r.stdlib ≠ none ∨
    (r.generic ≠ none ∧ d.kind = .func) ∨ r.exported ≠ none ∨ r.closure ≠ none)

/-- `MatchRules` (match.go:51-58). -/
def matchRules (rules : List Rule) (pkgPath : Str) (isMain std : Bool) (d : Decl) : Str :=
  match rules with
  | [] => []
  | r :: rs => if matchRule r pkgPath isMain std d then r.action else matchRules rs pkgPath isMain std d

/-- `FileOptions` (cmd/xgo/rule.go:30-35). -/
structure Options where
  filterRules : List Rule
  includeAsMain : List Str

/-- The JSON library: what decoding and encoding do with texts of type `χ`. -/
structure Json (χ : Type) where
  decodeRule : χ → Option Rule
  decodeOptions : χ → Option Options
  encodeOptions : Options → χ

/-- The outcome of `mergeOptionFiles`: which options file is used, with which content. -/
inductive Merged (χ : Type) where
  | none
  | original (content : χ)
  | new (content : χ)

/-- Decoding the rules of the command line (cmd/xgo/rule.go:80-90); an empty string is skipped. -/
def decodeRules {χ : Type} (j : Json χ) : List (Option χ) → Option (List Rule)
  | [] => some []
  | none :: l => decodeRules j l
  | some t :: l =>
    match j.decodeRule t, decodeRules j l with
    | some r, some rs => some (r :: rs)
    | _, _ => none

/-- Decoding the options file (cmd/xgo/rule.go:63-76): no file is `none`, an empty file `some none`. -/
def decodeFile {χ : Type} (j : Json χ) : Option (Option χ) → Option Options
  | none => some ⟨[], []⟩
  | some none => some ⟨[], []⟩
  | some (some c) => j.decodeOptions c

/-- `mergeOptionFiles` (cmd/xgo/rule.go:56-105). `none` is an error. A rule of the command line or a file content
    that is the empty string is `none`. Reading and writing do not fail. -/
def mergeOptionFiles {χ : Type} (j : Json χ) (file : Option (Option χ)) (mockRules : List (Option χ))
    (includeAsMain : List Str) : Option (Merged χ) :=
  if mockRules = [] ∧ includeAsMain = [] then
    match file with
    | some (some c) => some (.original c)
    | _ => some .none
  else
    match decodeFile j file, decodeRules j mockRules with
    | some o, some rs =>
      some (.new (j.encodeOptions ⟨rs ++ o.filterRules, if includeAsMain = [] then o.includeAsMain else includeAsMain⟩))
    | _, _ => none

/-- What the compiler gets (patch/legacy/ctxt/match.go:14-33): no options if there is no file or it is empty, a panic
    (`none`) if it cannot be decoded. -/
def compilerOptions {χ : Type} (j : Json χ) : Merged χ → Option Options
  | .none => some ⟨[], []⟩
  | .original c => j.decodeOptions c
  | .new c => j.decodeOptions c

/-- `parseModuleList` (cmd/xgo/rule.go:38-54); `seen` are the modules listed so far. -/
def moduleLoop (seen : List Str) : List Str → List Str
  | [] => []
  | p :: ps => if trimSpace p = [] ∨ trimSpace p ∈ seen then moduleLoop seen ps else trimSpace p :: moduleLoop (trimSpace p :: seen) ps

/-- `parseModuleList` (cmd/xgo/rule.go:38-54). -/
def parseModuleList (s : Str) : List Str := if s = [] then [] else moduleLoop [] (splitOn ',' [] s)

/-- `PkgWithinModule` (support/goinfo/pkg.go:3-22). -/
def pkgWithinModule (pkgPath module : Str) : Option Str :=
  if pkgPath.length < module.length then none
  else if pkgPath.take module.length ≠ module then none
  else if pkgPath.length = module.length then some []
  else if pkgPath[module.length]? ≠ some '/' then none
  else some (pkgPath.drop (module.length + 1))

/-- `IsSameModule` (patch/legacy/ctxt/ctx.go:133-147). -/
def isSameModule (pkgPath module : Str) : Bool :=
  if module = [] then false
  else if !module.isPrefixOf pkgPath then false
  else if pkgPath.length = module.length then true
  else pkgPath[module.length]? = some '/'

/-- `pkgWithinAnyModule` (cmd/xgo/instrument.go:517-532). -/
def pkgWithinAnyModule (pkgPath realMain : Str) (extras : List Str) : Bool :=
  (realMain ≠ [] && (pkgWithinModule pkgPath realMain).isSome) ||
    extras.any fun m => m ≠ [] && m ≠ realMain && (pkgWithinModule pkgPath m).isSome

/-- `isMainForMock` (patch/legacy/ctxt/match.go:42-56) with `isMainModule` (ctx.go:17). -/
def isMainForMock (pkgPath mainModule : Str) (extras : List Str) : Bool :=
  isSameModule pkgPath mainModule || extras.any fun m => m ≠ [] && isSameModule pkgPath m

/-! Which packages are loaded for instrumentation. -/

/-- Translating one package of a rule (cmd/xgo/instrument.go:465-491): `a/b/**` becomes `a/b/...`; other uses of `*`
    are errors. -/
def loadPattern (pkg : Str) : Option Str :=
  if '*' ∉ pkg then some pkg
  else
    let n := pkg.length
    let starIdx := (pkg.takeWhile (· != '*')).length
    if starIdx = n - 1 then none
    else if starIdx < n - 2 then none
    else if pkg[n - 1]? ≠ some '*' then none
    else if n < 3 ∨ pkg[n - 3]? ≠ some '/' then none
    else some (pkg.take (n - 2) ++ "...".toList)

/-- State of the loop of `getLoadPackages`. -/
structure LoadState where
  exFunc : Bool := false
  exVar : Bool := false
  packages : List Str := []

/-- One round of the loop of `getLoadPackages` (cmd/xgo/instrument.go:435-493). -/
def loadStep (s : LoadState) (r : Rule) : Option LoadState :=
  if r.mainModule = some true then
    if r.action = "exclude".toList then
      if toList r.kind = [] then some { s with exFunc := true, exVar := true }
      else some { s with
        exFunc := s.exFunc || decide ("func".toList ∈ toList r.kind)
        exVar := s.exVar || decide ("var".toList ∈ toList r.kind) }
    else some s
  else if r.action ≠ "include".toList then some s
  else
    match (toList r.pkg).mapM loadPattern with
    | none => none
    | some ps => some { s with packages := s.packages ++ ps }

/-- `getLoadPackages` (cmd/xgo/instrument.go:432-497). -/
def getLoadPackages (rules : List Rule) : Option (Bool × List Str) :=
  match rules.foldlM loadStep {} with
  | none => none
  | some s => some (!(s.exFunc && s.exVar), s.packages)

end Verif.Instrument.Rules
