/-
What the page shows of a run, and what `go test` has said.
-/
import Verif.Cmd.TestStatus
import Verif.Cmd.TestExplorerSpec

namespace Verif.Cmd.Status
open Verif.Support (Str)

/-- The status of an item after these events: that of the last event that has one. -/
def shown (evs : List Event) (p : Path) : Option Status :=
  evs.foldl (fun st e => match e with | .item q (some s) _ => if q = p then some s else st | _ => st) none

/-- The output shown with an item. -/
def output (evs : List Event) (p : Path) : Str :=
  (evs.map fun e => match e with | .item q _ m => if q = p then m else [] | _ => []).flatten

/-- What `go test` says with a line. -/
def Line.event : Line → Option TestEvent
  | .json e => some e
  | .failed pkg t => some { action := .fail, pkg := pkg, test := [], output := '\n' :: t }
  | _ => none

/-- The page can find the item: it was in the tree from the start, it is that of a directory or a test function, or there
    has been an event that adds it as a subtest to the tree. -/
def Found (c : Config) (items : List Path) (before : List Event) (p : Path) : Prop :=
  p ∈ items ∨ (∃ e, eventPath c e = (p, [])) ∨
  ∃ base chain q, .merge base chain ∈ before ∧ q ≠ [] ∧ p = base ++ q ∧ q <+: chain.map Prod.fst

/-- What is to be shown for a result that `go test` reports. -/
def Means (a : Action) (st : Status) : Prop := a = .pass ∧ st = .success ∨ a = .fail ∧ st = .fail ∨ a = .skip ∧ st = .skip

/-- The event says something else about the item later: it has a status for the item itself, or it is about a subtest of the
    subtest `p`. -/
def Overwrites (c : Config) (p : Path) (e : TestEvent) : Prop :=
  ((eventPath c e).1 = p ∧ e.action ≠ .other) ∨
  ((eventPath c e).2 ≠ [] ∧ (eventPath c e).2 <+: p ∧ p ≠ (eventPath c e).2 ∧ p <+: (eventPath c e).1 ∧ p ≠ (eventPath c e).1)

end Verif.Cmd.Status
