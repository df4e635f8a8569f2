/-
Specification for running and debugging an item of the test explorer: what `go test`, `dlv exec` and a test's binary make of their arguments.
-/
import Verif.Cmd.ExplorerDebug

namespace Verif.Cmd.ExplorerDebug.Spec
open Verif.Cmd.ExplorerDebug

/-- What `go test` was asked for. -/
structure GoTest where
  /-- flags of the build -/
  build : List Str
  /-- settings of the test's binary: name and value -/
  test : List (Str × Str)
  pkgs : List Str
  /-- the arguments behind `-args` -/
  args : List Str
  /-- the binary that is written instead of run -/
  output : Option Str
  deriving DecidableEq

/-- The flags of `go help testflag`, in the form `-name=value`, that go hands to the binary. -/
def testFlagNames : List Str :=
  ["v", "run", "count", "timeout", "parallel", "short", "failfast", "bench", "benchtime", "cpu", "skip", "coverprofile", "shuffle"].map
    String.toList

/-- `-name=value` (or `--name=value`) cut in two. -/
def nameValue (a : Str) : Option (Str × Str) :=
  let b := (a.dropWhile (· = '-'))
  if a.head? = some '-' ∧ '=' ∈ b then some (b.takeWhile (· ≠ '='), (b.dropWhile (· ≠ '=')).drop 1) else none

/-- A flag that go hands to the binary. -/
def TestFlag (a : Str) : Prop := ∃ n v, nameValue a = some (n, v) ∧ n ∈ testFlagNames

instance (a : Str) : Decidable (TestFlag a) :=
  match h : nameValue a with
  | none => .isFalse (fun ⟨n, v, hh, _⟩ => by rw [h] at hh; cases hh)
  | some (n, v) => if hn : n ∈ testFlagNames then .isTrue ⟨n, v, h, hn⟩
    else .isFalse (fun ⟨n', v', hh, hm⟩ => by rw [h] at hh; cases hh; exact hn hm)

def setting (a : Str) : Str × Str := (nameValue a).getD ([], [])

/-- `go test`: the arguments behind the word `test`. `-strace` is a flag of `xgo test`. -/
def goTest : List Str → GoTest
  | [] => ⟨[], [], [], [], none⟩
  | a :: rest =>
    if a = "-args".toList then ⟨[], [], [], rest, none⟩
    else if a = "-v".toList then let g := goTest rest; { g with test := ("v".toList, "true".toList) :: g.test }
    else if a = "-c".toList ∨ a = "-json".toList ∨ a = "--strace".toList then goTest rest
    else if a = "-o".toList ∨ a = "-run".toList ∨ a = "--strace-dir".toList then
      match rest with
      | [] => ⟨[], [], [], [], none⟩
      | v :: rest =>
        let g := goTest rest
        if a = "-o".toList then { g with output := some v }
        else if a = "-run".toList then { g with test := ("run".toList, v) :: g.test }
        else g
    else if TestFlag a then let g := goTest rest; { g with test := setting a :: g.test }
    else if a.head? = some '-' then let g := goTest rest; { g with build := a :: g.build }
    else let g := goTest rest; { g with pkgs := a :: g.pkgs }

/-- A binary takes the place of one package's tests only: go refuses to write several binaries to one file. -/
def Buildable (g : GoTest) : Prop := g.output ≠ none ∧ g.pkgs.length ≤ 1

/-- A flag in the configuration: one word that begins with a dash, and none of those with a meaning of their own above. -/
def Plain (a : Str) : Prop :=
  a.head? = some '-' ∧ a ∉ ["-args", "-v", "-c", "-json", "--strace", "-o", "-run", "--strace-dir"].map String.toList

/-- `dlv exec options binary -- arguments`: the address, the binary and its arguments. An option is one word. -/
def dlvExec : List Str → Option (Str × Str × List Str)
  | [] => none
  | x :: rest => if x = "exec".toList then go none rest else none
where
  go (listen : Option Str) : List Str → Option (Str × Str × List Str)
    | [] => none
    | a :: rest =>
      if "--listen=".toList.isPrefixOf a then go (some (a.drop 9)) rest
      else if a.head? = some '-' then go listen rest
      else match listen, rest with
        | some l, b :: args => if b = "--".toList then some (l, a, args) else none
        | _, _ => none

/-- How go starts the binary that it has built: the settings, then the arguments. (Those that go adds of itself are left out.) -/
def started (g : GoTest) : List Str := g.test.map (fun x => "-test.".toList ++ x.1 ++ '=' :: x.2) ++ g.args

def add (x : Str × Str) (r : Option (List (Str × Str) × List Str)) : Option (List (Str × Str) × List Str) :=
  r.map fun y => (x :: y.1, y.2)

/-- What a test's binary makes of its arguments: the settings, and the arguments left for the tests. It fails at a flag it does not know. -/
def binary : List Str → Option (List (Str × Str) × List Str)
  | [] => some ([], [])
  | a :: rest =>
    if a = "--".toList then some ([], rest)
    else if a = "-test.v".toList then add ("v".toList, "true".toList) (binary rest)
    else if a = "-test.run".toList then
      match rest with
      | [] => none
      | v :: rest => add ("run".toList, v) (binary rest)
    else if "-test.".toList.isPrefixOf a ∧ '=' ∈ a then
      add ((a.drop 6).takeWhile (· ≠ '='), ((a.drop 6).dropWhile (· ≠ '=')).drop 1) (binary rest)
    else if a.head? = some '-' ∧ a ≠ "-".toList then none
    else some ([], a :: rest)

/-- The expression for `-run` that selects the test of a case: its name under the package, or its own (what it selects: C64). -/
def selection (i : Verif.Cmd.Explorer.Item) : Str :=
  match i with
  | .mk _ name under _ _ _ => Verif.Cmd.Explorer.formatRunNames [if under = [] then name else under]

/-- A text cut at its slashes, after `acc`. -/
def cut : Str → Str → List Str
  | acc, [] => [acc]
  | acc, c :: s => if c = '/' then acc :: cut [] s else cut (acc ++ [c]) s

/-- The directory that a relative path means in a directory: `./a/b` is `a/b`, and `./.` the directory itself. -/
def resolve (dir : Path) (arg : Str) : Path := dir ++ (cut [] arg).filter fun x => x ≠ [] ∧ x ≠ ".".toList

/-- A name of a file or a directory. -/
def Ordinary (x : Str) : Prop := x ≠ [] ∧ x ≠ ".".toList ∧ '/' ∉ x

end Verif.Cmd.ExplorerDebug.Spec
