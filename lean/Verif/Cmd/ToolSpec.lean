import Verif.Cmd.Tool
import Verif.Cmd.GoModSpec
/-
C103: where the tools of `xgo tool` are to be found.
-/
namespace Verif.Cmd.Tool.Spec
open Verif.Cmd.GoMod (Str Path isAbs dir abs)
open Verif.Cmd.GoMod.Spec (Ordinary)

/-- `xgo` was started as `…/me`, and is the file `me` in the directory `d`. -/
structure Started (w : World) (d : List Str) (me : Str) : Prop where
  cwd : ∀ x ∈ w.cwd, Ordinary x
  name : Ordinary me
  /-- `os.Args[0]` ends in the name -/
  last : ∃ q, w.argv0 = q ++ [me]
  place : abs w.cwd w.argv0 = d ++ [me]

/-- The name of a tool that is not built in: not one of the words that `xgo tool` itself knows, not that of `xgo`. -/
structure Name (me x : Str) : Prop where
  ordinary : Ordinary x
  other : x ≠ me
  own : x ∉ ["help".toList, "-h".toList, "--help".toList, "list".toList, "trace".toList, "coverage".toList, "test-explorer".toList]

/-- HOME is `home`. -/
def Home (w : World) (home : List Str) : Prop := ∃ h, w.home = some h ∧ h ≠ [] ∧ h ≠ [[]] ∧ abs w.cwd h = home

/-- The first program `x` of PATH is `e`. -/
def FirstOnPath (w : World) (x : Str) (e : List Str) : Prop :=
  ∃ before d after, w.path = before ++ d :: after ∧ (∀ b ∈ before, w.stat (abs w.cwd b ++ [x]) ≠ .file true) ∧
    isAbs d = true ∧ e = abs w.cwd d ++ [x] ∧ w.stat e = .file true

end Verif.Cmd.Tool.Spec
