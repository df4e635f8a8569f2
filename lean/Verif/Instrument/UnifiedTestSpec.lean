/-
What unified tests should do: the same as plain `go test`.
-/
import Verif.Instrument.UnifiedTest

namespace Verif.Instrument.Unified
open Verif.Support (Str)

/-- Plain `go test` of these packages: all tests of all packages that are selected. -/
def plain (sel : Str → Bool) (pkgs : List Pkg) : List (Str × Str) :=
  pkgs.flatMap fun p => (p.tests.filter sel).map fun n => (p.path, n)

/-- The names of all tests that are put together. -/
def togetherNames (pkgs : List Pkg) : List Str :=
  (pkgs.filter fun p => !(p.xtest || p.testMain)).flatMap Pkg.tests

/-- No test has the name that another gets: `T_2` is not a test if there are three or more tests `T`. -/
def NoClash (names : List Str) : Prop := ∀ n j, 0 < j → j < names.count n → numbered n j ∉ names

end Verif.Instrument.Unified
