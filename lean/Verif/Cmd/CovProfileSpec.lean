/-
C108: the coverage of a project, and names of directories. Uses only the types of the model.
-/
import Verif.Cmd.CovProfile

namespace Verif.Cmd.CovProfile.Spec
open Verif.Cmd.GorootDir (Str Path)

/-- The coverage of `dir` after a history: that of its own last run, if it has not been cleared since. -/
def lastRun (dir : Path) : List Op → Option Str → Option Str
  | [], c => c
  | .run p cov :: ops, c => lastRun dir ops (if p = dir then some cov else c)
  | .clear p :: ops, c => lastRun dir ops (if p = dir then none else c)

/-- Letters, digits, `.`, `_`, `-` and what is not ASCII. -/
def Ordinary (c : Char) : Prop :=
  ('a' ≤ c ∧ c ≤ 'z') ∨ ('A' ≤ c ∧ c ≤ 'Z') ∨ ('0' ≤ c ∧ c ≤ '9') ∨ c = '.' ∨ c = '_' ∨ c = '-' ∨ 128 ≤ c.toNat

/-- An element of a path. -/
def Element (s : Str) : Prop := s ≠ [] ∧ s ≠ ".".toList ∧ s ≠ "..".toList

/-- A directory with ordinary names, none of which is that of the profile. -/
def Plain (dir : Path) : Prop := ∀ s ∈ dir, Element s ∧ (∀ c ∈ s, Ordinary c) ∧ s ≠ "coverage.out".toList

/-- The directory of an operation. -/
def dirOf : Op → Path
  | .run p _ => p
  | .clear p => p

/-- A disk before xgo has been used: nothing is in the directory for temporary files, which can be made. -/
structure Fresh (tmp : Path) (d : Disk) : Prop where
  way : ∀ x, x <+: tmp → ∀ c, d x ≠ some (.file c)
  empty : ∀ r, r ≠ [] → d (tmp ++ r) = none

end Verif.Cmd.CovProfile.Spec
