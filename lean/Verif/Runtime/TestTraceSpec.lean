/-
C95, specification: the traces that tests leave behind. Nothing here refers to how the runtime keeps stacks.
-/
import Verif.Runtime.TestTrace
import Verif.Cmd.GoModSpec

namespace Verif.Runtime.TestTrace.Spec

open Verif.Cmd.GoMod (Path abs)
open Verif.Cmd.GoMod.Spec (Ordinary)
open Verif.Cmd.Vendor (split)
open Verif.Support.GetGo (FS Node)

/-- A test that the testing package runs: `func(t *testing.T)` called by its runner; `n` is `t.Name()`. -/
def IsTest (c : Call) (n : Str) : Prop := c.trace = none ∧ c.recv = false ∧ c.args = [.t n] ∧ c.results = 0 ∧ c.byRunner = true

/-- Goroutine `g` does nothing in `h` and is not started. -/
def Idle (g : Gid) (h : List Event) : Prop :=
  ∀ e ∈ h, match e with
    | .spawn p c => p ≠ g ∧ c ≠ g
    | .register g' => g' ≠ g
    | .enter g' _ => g' ≠ g
    | .exit g' => g' ≠ g
    | _ => True

/-- Goroutines come into being by `go`: whoever is started has done nothing before. -/
def Born : List Event → Prop := fun h => ∀ a p c b, h = a ++ .spawn p c :: b → p ≠ c ∧ Idle c a

/-- In the history `h`, latest event first: nothing was registered on goroutine `g`, it called neither `trace.Trace` nor a test, and neither had
    the goroutine that started it when it did so, and so on (unless goroutines do not hand down anything, `--xgo-race-safe`). -/
def Untouched (raceSafe : Bool) : List Event → Gid → Prop
  | [], _ => True
  | .register g' :: h, g => g' ≠ g ∧ Untouched raceSafe h g
  | .enter g' c :: h, g => (g' = g → c.trace = none ∧ ∀ n, ¬ IsTest c n) ∧ Untouched raceSafe h g
  | .spawn p c :: h, g => if c = g then raceSafe = true ∨ Untouched raceSafe h p else Untouched raceSafe h g
  | _ :: h, g => Untouched raceSafe h g

/-- The calls that goroutine `g` makes in `h`, each with its end, and those that are still open, given those that are open before (innermost
    first); `none` if a call ends that was open before. -/
def calls (g : Gid) : List Event → List Nat → Option (List (Bool × Nat) × List Nat)
  | [], o => some ([], o)
  | .enter g' c :: h, o => if g' = g then (calls g h (c.fn :: o)).map fun r => ((true, c.fn) :: r.1, r.2) else calls g h o
  | .exit g' :: h, o =>
    if g' = g then
      match o with
      | [] => none
      | f :: o' => (calls g h o').map fun r => ((false, f) :: r.1, r.2)
    else calls g h o
  | _ :: h, o => calls g h o

/-- The working directory after `h`. -/
def cwdAfter (cwd : List Str) : List Event → List Str
  | [] => cwd
  | .chdir d :: h => cwdAfter d h
  | _ :: h => cwdAfter cwd h

/-- Working directories are absolute paths without `.`, `..` and empty parts. -/
def GoodCwd (cwd : List Str) (h : List Event) : Prop := (∀ x ∈ cwd, Ordinary x) ∧ ∀ e ∈ h, match e with | .chdir d => ∀ x ∈ d, Ordinary x | _ => True

/-- The names that the parts of a test's name have. -/
def parts (n : Str) : List Str := split '/' (n ++ ".json".toList)

/-- The file `<dir>/<name>.json`. -/
def place (cwd : List Str) (dir : Path) (n : Str) : List Str := abs cwd dir ++ parts n

/-- A file can be written at `q`, after its directories have been made. -/
def Free (fs : FS) (q : List Str) : Prop := (∀ a, a ≠ [] → a <+: q.dropLast → fs a = none ∨ fs a = some .dir) ∧ fs q ≠ some .dir

/-- Nobody but xgo changes files in `h`. -/
def NoDisk (h : List Event) : Prop := ∀ e ∈ h, match e with | .disk _ => False | _ => True

/-- Everything is in directories. -/
def Tree (fs : FS) : Prop := ∀ p, fs p ≠ none → ∀ a, a ≠ [] → a ≠ p → a <+: p → fs a = some .dir

/-- What a filter leaves of a trace. -/
def filtered (f : Option (Nat → Bool)) (r : List (Bool × Nat)) : List (Bool × Nat) :=
  match f with
  | none => r
  | some p => r.filter fun x => p x.2

/-- The goroutines that `p` starts in `h`, and those that these start, and so on; `D` those started before. -/
def descend (p : Gid) : List Event → List Gid → List Gid
  | [], D => D
  | .spawn a c :: h, D => descend p h (if a = p ∨ a ∈ D then c :: D else D)
  | _ :: h, D => descend p h D

end Verif.Runtime.TestTrace.Spec
