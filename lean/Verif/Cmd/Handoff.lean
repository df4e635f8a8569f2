import Verif.Instrument.FuncTrap

/-!
# Handing the selection to the compiler

Functions and interfaces of packages outside the main module are trapped by the patched compiler, not by editing
sources. `xgo` writes what it selected to `.xgo/gen/compiler_extra.json` and a sum for each package to
`.xgo/gen/compiler_extra.sum.json`; the patched `go` puts the sum into the key of the build cache, the patched compiler
reads the selection when it compiles a package.

Modelled: instrument/compiler_extra/compiler_extra.go, cmd/xgo/instrument.go (`writeCompilerExtra`), cmd/xgo/main.go
(808-823), instrument/instrument_go/xgo_work_sum_template.go and exec.go (124-141), patch/syntax/syntax.go
(`AfterFilesParsed`, the lookup) and decl.go (`initFiles`, `getFuncDecls`, `extractFuncDecls`).

Simplified: encoding/json writes and reads back the maps as they are (a test of that library, not of xgo); the content of
a file being written is `broken` between the truncation and the last byte; which declarations with a selected name the
compiler can take (`getFuncDeclInfo`) is C47's subject and a field of the declaration here.
-/

namespace Verif.Cmd.Handoff

open Verif.Instrument.FuncTrap (TrapFile trapSum)

abbrev Str := List Char

/-! ### The selection and its maps -/

/-- `compiler_extra.Package` (instrument/compiler_extra/compiler_extra.go:12-17). -/
structure Package where
  path : Str
  hasVarTrap : Bool
  files : List TrapFile
  deriving DecidableEq

/-- `compiler_extra.Packages`: what a run selected outside the main module. -/
abbrev Selection := List Package

/-- `FileMapping` (compiler_extra.go:46-49): the keys of its two maps. -/
structure FileMapping where
  funcs : List Str
  interfaces : List Str
  deriving DecidableEq

/-- `PackageMapping` (compiler_extra.go:41-44). A Go map filled in a loop is a list with the newest entry in front. -/
structure PkgMapping where
  hasVarTrap : Bool
  files : List (Str × FileMapping)
  deriving DecidableEq

/-- `(*File).BuildMapping` (compiler_extra.go:94-110). -/
def buildFile (f : TrapFile) : FileMapping := ⟨f.funcs, f.interfaces⟩

/-- One package in `(*Packages).BuildMapping` (compiler_extra.go:59-67). -/
def buildPkg (p : Package) : PkgMapping :=
  ⟨p.hasVarTrap, p.files.foldl (fun m f => (f.name, buildFile f) :: m) []⟩

/-- `(*Packages).BuildMapping` (compiler_extra.go:53-71). -/
def buildMapping (s : Selection) : List (Str × PkgMapping) := s.foldl (fun m p => (p.path, buildPkg p) :: m) []

/-- `(*Packages).BuildMD5SumMapping` (compiler_extra.go:84-92), with `TrapMD5Sum` from `md5sumTraps`. -/
def buildSums (hash : Str → Str) (s : Selection) : List (Str × Str) :=
  s.foldl (fun m p => (p.path, trapSum hash p.files p.hasVarTrap) :: m) []

/-! ### The compiler -/

/-- A declaration as the compiler sees it: a function with its `IdentityName`, or an interface type; `takes` says whether
`getFuncDeclInfo` (patch/syntax/decl.go:110-127) or the `TypeDecl` case (decl.go:75-84) takes it. -/
structure Decl where
  intf : Bool
  id : Str
  takes : Bool
  deriving DecidableEq

/-- A file given to the compiler: its name, and the base name of the position of its `package` clause, which a `//line`
directive above the clause changes (`initFiles`, patch/syntax/decl.go:18-39). -/
structure CFile where
  name : Str
  pos : Str
  decls : List Decl
  deriving DecidableEq

/-- The test in `extractFuncDecls` (decl.go:67-108). -/
def takes (m : FileMapping) (d : Decl) : Bool :=
  d.takes && (if d.intf then m.interfaces.contains d.id else m.funcs.contains d.id)

/-- `getFuncDecls` (decl.go:41-65). -/
def getFuncDecls (m : List (Str × FileMapping)) : List CFile → List (Str × Decl)
  | [] => []
  | f :: fs =>
    (match m.lookup f.pos with
      | none => []
      | some fm => (f.decls.filter (takes fm)).map fun d => (f.name, d)) ++ getFuncDecls m fs

/-- A package that is compiled: `go` knows it by its import path, the compiler by `-p`, which is `main` for a command
(cmd/go/internal/work/gc.go, `pkgPath`; patch/ctxt/pkg.go). -/
structure Target where
  path : Str
  command : Bool
  deriving DecidableEq

/-- `ctxt.GetPkgPath` (patch/ctxt). -/
def Target.seen (t : Target) : Str := if t.command then "main".toList else t.path

/-- The lookup in `AfterFilesParsed` (patch/syntax/syntax.go:26-49): the declarations that get a trap. `none`: there is
no packages file. -/
def trapped (told : Option (List (Str × PkgMapping))) (t : Target) (src : List CFile) : List (Str × Decl) :=
  match told with
  | none => []
  | some m =>
    match m.lookup t.seen with
    | none => []
    | some pm => getFuncDecls pm.files src

/-! ### Runs -/

/-- What is in a file at some moment. -/
inductive Content (α : Type) where
  | absent
  | broken
  | whole (a : α)
  deriving DecidableEq

/-- The two files of a project (`.xgo/gen`). -/
structure Files where
  map : Content (List (Str × PkgMapping))
  sum : Content (List (Str × Str))

/-- How far a run is: before writing, the selection opened, the selection written, the sums opened, `go` running, over
(`writeCompilerExtra`, cmd/xgo/instrument.go:672-694, then main.go:1075-). -/
inductive Phase where
  | start | mapOpen | mapDone | sumOpen | going | over
  deriving DecidableEq

/-- A run of `xgo test`, `build` or `run`: its project, its selection, the project named by the
`XGO_COMPILER_SYNTAX_REWRITE_*` variables in the environment of `go`, and the sums `go` has read (once,
xgo_work_sum_template.go:17-26). -/
structure Run where
  dir : Nat
  sel : Selection
  env : Option Nat
  sums : Option (List (Str × Str))
  phase : Phase

/-- A key of the build cache: package, sources, sum (exec.go:124-141 adds the sum to what `go` hashes). -/
structure Key where
  target : Target
  src : List CFile
  sum : Str
  deriving DecidableEq

/-- A package object that a run links: run, package, sources, the declarations with a trap in it. -/
structure Built where
  run : Nat
  target : Target
  src : List CFile
  traps : List (Str × Decl)
  deriving DecidableEq

structure State where
  files : Nat → Files
  runs : Nat → Option Run
  cache : List (Key × List (Str × Decl))
  built : List Built

def State.init : State := ⟨fun _ => ⟨.absent, .absent⟩, fun _ => none, [], []⟩

inductive Event where
  /-- run `r` starts in project `d`; `inherited` are the variables `xgo` finds in its own environment -/
  | begin (r d : Nat) (sel : Selection) (inherited : Option Nat)
  /-- `-a` or a reset removes `.xgo/gen` (cmd/xgo/main.go:533-544) -/
  | reset (r : Nat)
  /-- the next step of writing the two files and starting `go` -/
  | step (r : Nat)
  /-- `go` looks a package up in the build cache -/
  | use (r : Nat) (t : Target) (src : List CFile)
  /-- `go` compiles a package and puts the object into the build cache -/
  | compile (r : Nat) (t : Target) (src : List CFile)
  /-- the run is over, or it is killed -/
  | stop (r : Nat)

def upd {α : Type} (f : Nat → α) (i : Nat) (v : α) : Nat → α := fun j => if j = i then v else f j

/-- The environment of `go` (cmd/xgo/main.go:654, 808-823): the variables are set only when something is selected. -/
def envFor (d : Nat) (sel : Selection) (inherited : Option Nat) : Option Nat :=
  match sel with
  | [] => inherited
  | _ :: _ => some d

/-- `getXgoTrapSum` (xgo_work_sum_template.go:17-27): any error leaves the map empty. -/
def readSums (files : Nat → Files) (r : Run) : List (Str × Str) :=
  match r.sums with
  | some m => m
  | none =>
    match r.env with
    | none => []
    | some d =>
      match (files d).sum with
      | .whole m => m
      | _ => []

/-- `getXgoPackageTrapSum` and its use in `buildActionID`: no line when there is no sum. -/
def keyOf (sums : List (Str × Str)) (t : Target) (src : List CFile) : Key :=
  ⟨t, src, (sums.lookup t.path).getD []⟩

/-- What the compiler is told (`ParseMapping`, syntax.go:28-36, patch_noders_def.go): `none` is a failing compiler. -/
def told (files : Nat → Files) (r : Run) : Option (Option (List (Str × PkgMapping))) :=
  match r.env with
  | none => some none
  | some d =>
    match (files d).map with
    | .whole m => some (some m)
    | _ => none

/-- `writeCompilerExtra` (cmd/xgo/instrument.go:672-694) and the start of `go`. -/
def stepRun (hash : Str → Str) (s : State) (i : Nat) (r : Run) : State :=
  match r.phase with
  | .start =>
    match r.sel with
    | [] => { s with runs := upd s.runs i (some { r with phase := .going }) }
    | _ :: _ =>
      { s with files := upd s.files r.dir { s.files r.dir with map := .broken }
               runs := upd s.runs i (some { r with phase := .mapOpen }) }
  | .mapOpen =>
    { s with files := upd s.files r.dir { s.files r.dir with map := .whole (buildMapping r.sel) }
             runs := upd s.runs i (some { r with phase := .mapDone }) }
  | .mapDone =>
    { s with files := upd s.files r.dir { s.files r.dir with sum := .broken }
             runs := upd s.runs i (some { r with phase := .sumOpen }) }
  | .sumOpen =>
    { s with files := upd s.files r.dir { s.files r.dir with sum := .whole (buildSums hash r.sel) }
             runs := upd s.runs i (some { r with phase := .going }) }
  | .going => s
  | .over => s

def apply (hash : Str → Str) (s : State) : Event → State
  | .begin r d sel inh =>
    match s.runs r with
    | some _ => s
    | none => { s with runs := upd s.runs r (some ⟨d, sel, envFor d sel inh, none, .start⟩) }
  | .reset i =>
    match s.runs i with
    | none => s
    | some r => if r.phase = .start then { s with files := upd s.files r.dir ⟨.absent, .absent⟩ } else s
  | .step i =>
    match s.runs i with
    | none => s
    | some r => stepRun hash s i r
  | .use i t src =>
    match s.runs i with
    | none => s
    | some r =>
      if r.phase = .going then
        match s.cache.lookup (keyOf (readSums s.files r) t src) with
        | none => { s with runs := upd s.runs i (some { r with sums := some (readSums s.files r) }) }
        | some a =>
          { s with runs := upd s.runs i (some { r with sums := some (readSums s.files r) })
                   built := ⟨i, t, src, a⟩ :: s.built }
      else s
  | .compile i t src =>
    match s.runs i with
    | none => s
    | some r =>
      if r.phase = .going then
        match told s.files r with
        | none => { s with runs := upd s.runs i (some { r with sums := some (readSums s.files r) }) }
        | some m =>
          { s with runs := upd s.runs i (some { r with sums := some (readSums s.files r) })
                   cache := (keyOf (readSums s.files r) t src, trapped m t src) :: s.cache
                   built := ⟨i, t, src, trapped m t src⟩ :: s.built }
      else s
  | .stop i =>
    match s.runs i with
    | none => s
    | some r => { s with runs := upd s.runs i (some { r with phase := .over }) }

def run (hash : Str → Str) (evs : List Event) : State := evs.foldl (apply hash) State.init

end Verif.Cmd.Handoff
