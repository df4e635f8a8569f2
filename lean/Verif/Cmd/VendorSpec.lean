/-
Specification for vendored projects: what `go mod vendor` writes, what `go mod edit` does and how go finds the directory of a
package.  Nothing here is taken from xgo.
-/
namespace Verif.Cmd.Vendor.Spec

abbrev Str := List Char

/-! ### vendor/modules.txt -/

/-- A module of the vendor directory. -/
structure Module where
  path : Str
  version : Str
  /-- what it is replaced by: path and version, no version for a directory -/
  repl : Option (Str × Option Str) := none
  explicit : Bool := false
  goVersion : Option Str := none
  pkgs : List Str := []

/-- A replacement that belongs to no vendored module: path, version (none: any) and what it is replaced by. -/
structure Extra where
  path : Str
  version : Option Str := none
  repl : Str × Option Str

def withVersion (p : Str) : Option Str → Str
  | none => p
  | some v => p ++ ' ' :: v

def replText : Option (Str × Option Str) → Str
  | none => []
  | some (p, v) => " => ".toList ++ withVersion p v

/-- The line of annotations. -/
def annotation (explicit : Bool) : Option Str → List Str
  | none => if explicit then ["## explicit".toList] else []
  | some g => [(if explicit then "## explicit; go ".toList else "## go ".toList) ++ g]

/-- The lines of a module. -/
def Module.lines (m : Module) : List Str :=
  ("# ".toList ++ withVersion m.path (some m.version) ++ replText m.repl) :: (annotation m.explicit m.goVersion ++ m.pkgs)

def Extra.line (e : Extra) : Str := "# ".toList ++ withVersion e.path e.version ++ replText (some e.repl)

/-- The file: modules with their packages, then the other replacements. -/
def fileLines (mods : List Module) (extras : List Extra) : List Str := mods.flatMap Module.lines ++ extras.map Extra.line

def fileText (mods : List Module) (extras : List Extra) : Str := (fileLines mods extras).flatMap (fun l => l ++ ['\n'])

/-- A word: not empty, no white space. -/
def Word (white : Char → Bool) (s : Str) : Prop := s ≠ [] ∧ ∀ c ∈ s, white c = false

/-- A directory relative to the main module. -/
def LocalDir (p : Str) : Prop :=
  p = ".".toList ∨ p = "..".toList ∨ (∃ r, p = "./".toList ++ r) ∨ (∃ r, p = "../".toList ++ r)

/-- What go mod vendor may write for a module (`white`: white space, `ver`: a version). -/
structure Module.WF (white : Char → Bool) (ver : Str → Prop) (m : Module) : Prop where
  path : Word white m.path
  version : Word white m.version ∧ ver m.version
  repl : ∀ p v, m.repl = some (p, v) → Word white p ∧ ∀ w, v = some w → Word white w ∧ ver w
  goVersion : ∀ g, m.goVersion = some g → Word white g ∧ ';' ∉ g
  pkgs : ∀ p ∈ m.pkgs, Word white p

structure Extra.WF (white : Char → Bool) (ver : Str → Prop) (e : Extra) : Prop where
  path : Word white e.path
  version : ∀ v, e.version = some v → Word white v ∧ ver v
  repl : Word white e.repl.1 ∧ ∀ w, e.repl.2 = some w → Word white w ∧ ver w

/-- The file is well formed: one version of each module, each package in one module, no replacement written twice. -/
structure FileWF (white : Char → Bool) (ver : Str → Prop) (mods : List Module) (extras : List Extra) : Prop where
  wf : ∀ m ∈ mods, m.WF white ver
  extraWF : ∀ e ∈ extras, e.WF white ver
  onePath : (mods.map (·.path)).Nodup
  onePkg : mods.Pairwise (fun a b => ∀ p ∈ b.pkgs, p ∉ a.pkgs)
  extra : ∀ e ∈ extras, ∀ m ∈ mods, ¬ (e.path = m.path ∧ e.version = some m.version)

/-! ### go.mod -/

structure GoMod where
  requires : List (Str × Str) := []
  /-- path, version (none: any), directory or module -/
  replaces : List (Str × Option Str × Str) := []
  goLine : Option Str := none
deriving DecidableEq

/-- Cut at the first `c`. -/
def cutAt (c : Char) : Str → Option (Str × Str)
  | [] => none
  | x :: r => if x = c then some ([], r) else (cutAt c r).map (fun p => (x :: p.1, p.2))

/-- `-require=path@version`: sets the version, adds the requirement if there is none. -/
def setRequire (l : List (Str × Str)) (p v : Str) : List (Str × Str) :=
  if l.any (fun q => q.1 == p) then l.map (fun q => if q.1 = p then (p, v) else q) else l ++ [(p, v)]

/-- `-replace=path=target`: drops the other replacements of the path. -/
def setReplace (l : List (Str × Option Str × Str)) (p t : Str) : List (Str × Option Str × Str) :=
  l.filter (fun q => q.1 != p) ++ [(p, none, t)]

/-- `go mod edit` with one flag; `none` if the flag is not understood.  (Checks of paths and versions are left out.) -/
def edit (g : GoMod) (flag : Str) : Option GoMod :=
  match cutAt '=' flag with
  | none => none
  | some (f, a) =>
    if f = "-require".toList then (cutAt '@' a).map (fun p => { g with requires := setRequire g.requires p.1 p.2 })
    else if f = "-replace".toList then (cutAt '=' a).map (fun p => { g with replaces := setReplace g.replaces p.1 p.2 })
    else if f = "-go".toList then some { g with goLine := some a }
    else none

/-- The runs of `go mod edit`, one after the other. -/
def editAll (g : GoMod) : List Str → Option GoMod
  | [] => some g
  | f :: r => (edit g f).bind (fun g' => editAll g' r)

/-! ### Where a package is found -/

/-- A rest of a path: nothing, or a slash and more. -/
def Rest (s : Str) : Prop := s = [] ∨ s.head? = some '/'

/-- What go sees of the disk, the overlay included. -/
structure World where
  goModIn : Str → Prop
  goFilesIn : Str → Prop

/-- The module with this path and root directory provides the package `p` from directory `d`: `d` has Go files and no module
begins between the root and `d`. -/
def Provides (W : World) (path root p d : Str) : Prop :=
  ∃ rest, p = path ++ rest ∧ Rest rest ∧ d = root ++ rest ∧ W.goFilesIn d ∧
    ∀ a b, rest = a ++ b → a ≠ [] → Rest a → Rest b → ¬ W.goModIn (root ++ a)

/-- The root directory of a required module: where it is replaced by, or where go keeps it. -/
def rootOf (g : GoMod) (cache : Str → Str → Str) (path version : Str) : Str :=
  match g.replaces.find? (fun q => q.1 == path && q.2.1.isNone) with
  | some q => q.2.2
  | none => cache path version

/-- The modules of the build with their directories: the main module and what go.mod requires. -/
def modules (g : GoMod) (cache : Str → Str → Str) (mainPath mainDir : Str) : List (Str × Str) :=
  (mainPath, mainDir) :: g.requires.map (fun q => (q.1, rootOf g cache q.1 q.2))

/-- go takes the package `p` from `d`: exactly one module provides it (otherwise the import is ambiguous, or unknown). -/
def TakenFrom (W : World) (ms : List (Str × Str)) (p d : Str) : Prop :=
  ∃ m ∈ ms, Provides W m.1 m.2 p d ∧ ∀ m' ∈ ms, ∀ d', Provides W m'.1 m'.2 p d' → m' = m ∧ d' = d

/-- The language version of a vendored module: what modules.txt says, 1.16 if it says nothing (cmd/go: DefaultGoModVersion). -/
def langVersion (m : Module) : Str := m.goVersion.getD "1.16".toList

end Verif.Cmd.Vendor.Spec
