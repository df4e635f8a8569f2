/-
Specification for the output of a run: the lines of a text, and what the page has got.
-/
import Verif.Cmd.RunOutput

namespace Verif.Cmd.RunOutput.Spec
open Verif.Cmd.RunOutput

/-- The text of lines, each ended by a newline. -/
def unlines (ls : List Str) : Str := (ls.map fun l => l ++ ['\n']).flatten

/-- A text is these lines, and a last one that is not ended. -/
def Lines (text : Str) (ls : List Str) (tail : Str) : Prop :=
  text = unlines ls ++ tail ∧ (∀ l ∈ ls, '\n' ∉ l) ∧ '\n' ∉ tail

/-- The last line, if there is something behind the last newline. -/
def last (tail : Str) : List Str := if tail = [] then [] else [tail]

/-- The lines of the output, and of the error output, that the page has got. -/
def outs (es : List Ev) : List Str := es.filterMap fun | .out l => some l | _ => none
def errs (es : List Ev) : List Str := es.filterMap fun | .err l => some l | _ => none

/-- A state that the run of a program that writes these texts may come to. -/
def Reached (c : Cfg) (out err : Str) (s : St) : Prop := ∃ l, run c (start out err) l = some s

/-- Nothing more will happen. -/
def Stuck (c : Cfg) (s : St) : Prop := ∀ a, step c s a = none

end Verif.Cmd.RunOutput.Spec
