/-
Model of unified tests (`XGO_UNIFIEDTEST=true`): the tests of several packages are run by one test binary.

Source: patches/go1.25/src/cmd/go/internal/test/xgo_testunified.go and xgo_testinfo.go (the files for go 1.24, 1.26, 1.27
and instrument/instrument_go/instrument_unifiedtest differ in load calls only),
patches/go1.25/src/testing/testing.go.xgo.patch, patches/go1.25/src/cmd/internal/test2json/test2json.go.xgo.patch.
Strings are lists of characters.
-/
import Verif.Support.Decimal

namespace Verif.Instrument.Unified
open Verif.Support (Str)

/-- Of a `load.Package` and its test functions: import path, directory, whether it has `package p_test` files, whether it
    has a `TestMain`, its tests, and its benchmarks, examples and fuzz tests. -/
structure Pkg where
  path : Str
  dir : Str
  xtest : Bool := false
  testMain : Bool := false
  tests : List Str
  others : List Str := []
  deriving DecidableEq, Repr

/-- A package that stays on its own (xgo_testunified.go:53-66). -/
def Pkg.alone (p : Pkg) : Bool := p.xtest || p.testMain

/-- A test of the unified package: index and package it comes from (`pkgAlias` of xgo_testunified.go:197 and
    `LoadPackage`), its name in `t.Run`, its name in the package (`xgoPkgTestInfo`, xgo_testinfo.go:24-27). -/
structure Test where
  idx : Nat
  pkg : Pkg
  name : Str
  ref : Str
  deriving DecidableEq, Repr

/-- The counters `dupName` (xgo_testunified.go:146). -/
abbrev Dups := List (Str × Nat)

def Dups.get (d : Dups) (n : Str) : Nat := (d.lookup n).getD 0

/-- `fmt.Sprintf("%s_%d", testName, j)` (xgo_testunified.go:160) -/
def numbered (n : Str) (j : Nat) : Str := n ++ '_' :: Nat.toDigits 10 j

/-- Renaming the tests of one package (xgo_testunified.go:151-163). -/
def renameTests (idx : Nat) (p : Pkg) : List Str → Dups → List Test × Dups
  | [], d => ([], d)
  | n :: ns, d =>
    let j := d.get n
    let r := renameTests idx p ns ((n, j + 1) :: d)
    ({ idx := idx, pkg := p, name := if j > 0 then numbered n j else n, ref := n } :: r.1, r.2)

/-- Renaming the tests of all packages (xgo_testunified.go:147-171). -/
def renamePkgs : List Pkg → Nat → Dups → List Test
  | [], _, _ => []
  | p :: ps, i, d =>
    let r := renameTests i p p.tests d
    r.1 ++ renamePkgs ps (i + 1) r.2

/-- What `go test` is told to run. -/
inductive Job where
  | pkg (p : Pkg)
  | unified (tests : List Test)
  deriving DecidableEq, Repr

/-- `xgoUnifyTestPackages` (xgo_testunified.go:27-182). -/
def unify (pkgs : List Pkg) : List Job :=
  let together := pkgs.filter fun p => !p.alone
  if together.length ≤ 1 then pkgs.map .pkg
  else .unified (renamePkgs together 0 []) :: (pkgs.filter Pkg.alone).map .pkg

/-- `xgoTestInfoMapping` (xgo_testunified.go:145, 165-169): later entries replace earlier ones. -/
def mapping (ts : List Test) (n : Str) : Option Test := ts.reverse.find? fun t => t.name = n

/-- The keys of the map literal `testing.XgoTestNameToDir` in the generated main file (xgo_testunified.go:204-219). Go
    refuses a map literal with a constant key twice. -/
def dirKeys (ts : List Test) : List Str :=
  (ts.filter fun t => ((mapping ts t.name).map fun i => i.pkg.dir) ≠ some []).map Test.name

/-- The value of the map for a name (xgo_testunified.go:205-210). -/
def dirOf (ts : List Test) (n : Str) : Option Str := (mapping ts n).map fun i => i.pkg.dir

def unifiedPackage : Str := "github.com/xhd2015/xgo/runtime/testunified".toList

/-- `xgoGetTestName` (xgo_testinfo.go:41-57) with the way it is used (test2json.go.xgo.patch:18): the package and test name
    that a `-json` event shows instead. -/
def rename (ts : List Test) (pkg name : Str) : Str × Str :=
  if pkg ≠ unifiedPackage then (pkg, name)
  else
    let base := name.takeWhile (· ≠ '/')
    let suffix := name.dropWhile (· ≠ '/')
    match mapping ts base with
    | none => (pkg, name)
    | some i => (if i.pkg.path ≠ [] then i.pkg.path else pkg, if i.ref ++ suffix ≠ [] then i.ref ++ suffix else name)

/-- One run of a test: package, function, the name by which `-run` selects it. -/
structure Exec where
  pkg : Str
  func : Str
  name : Str
  deriving DecidableEq, Repr

/-- What the test binaries run, for the tests selected by `-run` (`sel`). -/
def Job.runs (sel : Str → Bool) : Job → List Exec
  | .pkg p => (p.tests.map fun n => { pkg := p.path, func := n, name := n : Exec }).filter fun e => sel e.name
  | .unified ts => (ts.map fun t => { pkg := t.pkg.path, func := t.ref, name := t.name : Exec }).filter fun e => sel e.name

/-- The benchmarks, examples and fuzz tests that are run: `XgoLoadTestFuncs` gives the tests only. -/
def Job.others : Job → List (Str × Str)
  | .pkg p => p.others.map fun n => (p.path, n)
  | .unified _ => []

/-- The working directory while a test of the unified binary runs (testing.go.xgo.patch:17-18): it is changed before each
    test, in order; `par` are the tests that call `t.Parallel`, whose remaining part runs when all have been started.
    Gives for each test the directory in the part before `t.Parallel` and in the part after. -/
def cwds (par : Str → Bool) (ts : List Test) (cwd : Str) : List (Test × Str × Str) :=
  let go := fun (c : Str) (t : Test) => match dirOf ts t.name with
    | some d => if d ≠ [] then d else c
    | none => c
  let last := ts.foldl go cwd
  (ts.foldl (fun (acc : List (Test × Str × Str) × Str) t =>
    let c := go acc.2 t
    (acc.1 ++ [(t, c, if par t.name then last else c)], c)) ([], cwd)).1

end Verif.Instrument.Unified
