/-
Specification for the trace that the test explorer shows for a case.
-/
import Verif.Cmd.CaseTrace

namespace Verif.Cmd.CaseTrace.Spec
open Verif.Cmd.CaseTrace

/-- The package of the case: the project and the directory in it. -/
def pkg (s : Session) : Path × List Str := (s.dir, s.itemDir)

/-- A test is named `Test…`. -/
def TestName (x : Str) : Prop := ∃ y, x = "Test".toList ++ y

/-- The last trace that a run wrote for a test. -/
def lastOf (n : List Str) (w : List (List Str × Trace)) : Option Trace := (w.reverse.find? fun x => x.1 = n).map Prod.snd

/-- The last trace of a test of a package in a history. -/
def latest (p : Path × List Str) (n : List Str) : List Session → Option Trace
  | [] => none
  | s :: h => match latest p n h with
    | some t => some t
    | none => if pkg s = p then lastOf n s.wrote else none

/-- The project is a module, none of its packages is in a directory named like a test, and tests are named as tests are. -/
structure Usual (isMod : Path → Bool) (s : Session) : Prop where
  mod : isMod s.dir = true
  dirs : ∀ x ∈ s.itemDir, ¬ TestName x
  case : ∃ x l, s.case = x :: l ∧ TestName x
  wrote : ∀ y ∈ s.wrote, ∃ x l, y.1 = x :: l ∧ TestName x

/-- The module that a directory belongs to: the innermost one around it. -/
structure Module (isMod : Path → Bool) (dir root below : Path) : Prop where
  split : dir = root ++ below
  mod : isMod root = true
  inner : ∀ a b, below = a ++ b → a ≠ [] → isMod (root ++ a) = false

end Verif.Cmd.CaseTrace.Spec
