/-
C107: the program that a command runs, what a version is, and arguments. Uses only the types of the model.
-/
import Verif.Cmd.Upgrade

namespace Verif.Cmd.Upgrade.Spec
open Verif.Text

/-- The command `xgo` runs the program in the first directory of PATH that has one. -/
def Runs (w : World) (p : Program) : Prop :=
  ∃ before d after, w.path = before ++ d :: after ∧ (∀ x ∈ before, w.xgo x = none) ∧ w.xgo d = some p

/-- There is no command `xgo`. -/
def NotFound (w : World) : Prop := ∀ d ∈ w.path, w.xgo d = none

/-- The user's xgo has version `v`. -/
def Version (w : World) (v : Str) : Prop := Runs w (.prints (v ++ "\n".toList))

/-- The directories after the newest version `v` has been installed, and nothing else. -/
structure Installed (w w' : World) (v : Str) : Prop where
  latest : w.latest = some v
  there : w'.xgo w.gobin = some (.prints (v ++ "\n".toList))
  rest : ∀ d, d ≠ w.gobin → w'.xgo d = w.xgo d
  path : w'.path = w.path

/-- Arguments in which each `--install-dir` has a directory. -/
inductive Args : List Str → Prop
  | nil : Args []
  | dir (d : Str) {l} : Args l → Args ("--install-dir".toList :: d :: l)
  | other {a : Str} {l} : a ≠ "--install-dir".toList → Args l → Args (a :: l)

end Verif.Cmd.Upgrade.Spec
