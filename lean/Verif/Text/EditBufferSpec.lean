/-
Specification of the edit buffer: position by position, without sorting or offsets.
-/
import Verif.Text.EditBuffer

namespace Verif.Text.EditSpec
open Verif.Text

variable {α : Type}

/-- Texts inserted at position `p`, in the order of the calls. -/
def insertionsAt (es : List (Edit α)) (p : Nat) : List α :=
  (es.filter fun e => e.start == p && e.stop == p).flatMap (·.new)

/-- Text replacing a non-empty range that starts at `p`. -/
def replacementAt (es : List (Edit α)) (p : Nat) : List α :=
  (es.filter fun e => e.start == p && p < e.stop).flatMap (·.new)

/-- Position `p` of the old text is inside a replaced (or deleted) range. -/
def covered (es : List (Edit α)) (p : Nat) : Bool := es.any fun e => e.start ≤ p && p < e.stop

/-- What position `p` contributes to the new text: insertions, then the replacement starting here, then the
    old byte unless it is replaced. -/
def at_ (old : List α) (es : List (Edit α)) (p : Nat) : List α :=
  insertionsAt es p ++ replacementAt es p ++ (if covered es p then [] else (old[p]?).toList)

/-- The edited text. -/
def edited (old : List α) (es : List (Edit α)) : List α :=
  (List.range (old.length + 1)).flatMap (at_ old es)

/-- Two edits are in conflict: one starts strictly inside the other's range, or both replace non-empty ranges
    starting at the same place. -/
def Conflict (a b : Edit α) : Prop :=
  (a.start < b.start ∧ b.start < a.stop) ∨ (b.start < a.start ∧ a.start < b.stop) ∨
  (a.start = b.start ∧ a.start < a.stop ∧ b.start < b.stop)

/-- Edits of a text of length `n`. -/
def Valid (n : Nat) (e : Edit α) : Prop := e.start ≤ e.stop ∧ e.stop ≤ n

/-- No two of the edits are in conflict. -/
def Compatible (es : List (Edit α)) : Prop := es.Pairwise fun a b => ¬ Conflict a b

end Verif.Text.EditSpec
