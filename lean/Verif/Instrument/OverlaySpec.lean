/-
Specification: the end of a chain of replacements.
-/
import Verif.Instrument.Overlay

namespace Verif.Instrument.Overlay.Spec

variable {α : Type}

/-- Following the replacements `f` from `a` one ends at `b`, which is not replaced. -/
inductive Ends (f : α → Option α) : α → α → Prop
  | here {a : α} : f a = none → Ends f a a
  | step {a b c : α} : f a = some b → Ends f b c → Ends f a c

/-- Each file is replaced by the next one. -/
def Linked (f : α → Option α) : List α → Prop
  | [] => True
  | [_] => True
  | a :: b :: l => f a = some b ∧ Linked f (b :: l)

/-- A path along the replacements whose last file already occurred. -/
def Cycle (f : α → Option α) (l : List α) : Prop :=
  (∃ pre x mid, l = pre ++ x :: (mid ++ [x])) ∧ Linked f l

/-- The replacements of `g`, and those of `c` where `g` has none. -/
def over (g c : α → Option α) : α → Option α := fun a => (g a).orElse fun _ => c a

end Verif.Instrument.Overlay.Spec
