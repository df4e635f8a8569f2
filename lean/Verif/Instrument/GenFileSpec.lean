/-
What is to be shown of C93, in its own words.
-/
import Verif.Instrument.GenFile

namespace Verif.Instrument.GenFile.Spec
open Verif.Instrument.GenFile

/-- `p` is `d`, or in that directory. -/
def Below (d p : Str) : Prop := p = d ∨ ∃ t, p = d ++ '/' :: t

/-- The names that xgo uses for directories. -/
def Name (n : Str) : Prop := n = "GOROOT".toList ∨ n = "PROJECT".toList ∨ ∃ i, n = gopathName i

/-- A source is in GOROOT, in the project or in GOPATH, or not in a directory at the top of the file system that has one of the names. -/
def Free (goroot project : Str) (gopath : List Str) (p : Str) : Prop :=
  (∃ d ∈ goroot :: project :: gopath, d ≠ [] ∧ Below d p) ∨ ∀ n, Name n → ¬ Below ('/' :: n) p

/-- An absolute path. -/
def Abs (p : Str) : Prop := p.head? = some '/'

/-- The acts of the run among those of all. -/
def own (acts : List (Bool × Act)) : List Act := (acts.filter fun a => !a.1).map (·.2)

end Verif.Instrument.GenFile.Spec
