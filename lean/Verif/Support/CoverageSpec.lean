/-
Specification of merging coverage profiles.
-/
import Verif.Support.Coverage

namespace Verif.Support.Coverage.Spec
open Verif.Support.Coverage

/-- The distinct elements, in the order of their first occurrence. -/
def distinct : List Str → List Str
  | [] => []
  | p :: l => p :: (distinct l).filter (· ≠ p)

/-- The sum of the counts of a block over all lines (with the wrap-around of int64). -/
def total (lines : List CovLine) (p : Str) : Int64 :=
  match lines with
  | [] => 0
  | l :: ls => if l.pfx = p then l.count + total ls p else total ls p

/-- The merged profile: every block once, in order of first occurrence, with its total. -/
def merged (lines : List CovLine) : List CovLine :=
  (distinct (lines.map (·.pfx))).map fun p => ⟨p, total lines p⟩

end Verif.Support.Coverage.Spec
