/-
What the setup of the instrumented GOROOT is for.
-/
import Verif.Cmd.Setup

namespace Verif.Cmd.Setup

/-- A copy of the original GOROOT, patched by this version of xgo, with its programs built from the patched sources. -/
def Good (w : World) (v : Str) (filePatches : Bool) (r : Option (Root w)) : Prop :=
  r = some { src := some (w.patch v filePatches w.src), tools := some (w.build (w.patch v filePatches w.src)), rest := some w.rest }

/-- The programs of the original GOROOT work, and so do those built from sources that were patched completely. -/
def World.Ok (w : World) : Prop := w.works w.tools = true ∧ ∀ v fp, w.works (w.build (w.patch v fp w.src)) = true

/-- Never two processes at the same time. -/
inductive Alone {w : World} : State w → State w → Prop where
  | refl {s} : Alone s s
  | step {s t u} : Alone s t → Step t u → u.procs.length ≤ 1 → Alone s u

/-- No run removes the directory. -/
def KeepsDir (log : List (Flags × Str)) : Prop := ∀ x ∈ log, x.1.reset = false ∧ x.1.delete = false

/-- Only runs without options for the setup. -/
def Plain (log : List (Flags × Str)) : Prop := ∀ x ∈ log, x.1 = {} ∧ x.2 ≠ []

/-- Once another version has been run, a version is not run again. -/
def NoReturn (log : List (Flags × Str)) : Prop :=
  ∀ pre x mid y post, log = pre ++ x :: mid ++ y :: post → x.2 = y.2 → ∀ z ∈ mid, z.2 = x.2

end Verif.Cmd.Setup
