/-
Model of the edit buffer through which xgo rewrites Go sources.

Source: support/edit/edit.go
-/
namespace Verif.Text

/-- `edit` (support/edit/edit.go:20-24): replace `[start, stop)` by `new`. Positions have been checked to be
    within the text. Bytes are of an arbitrary type. -/
structure Edit (α : Type) where
  start : Nat
  stop : Nat
  new : List α
  deriving DecidableEq, Repr

/-- `Buffer` (edit.go:14-17). -/
structure Buffer (α : Type) where
  old : List α
  q : List (Edit α)

variable {α : Type}

/-- `NewBuffer` (edit.go:41-43). -/
def Buffer.mk' (data : List α) : Buffer α := ⟨data, []⟩

/-- `Insert` (edit.go:45-50); `none` = panic "invalid edit position". -/
def Buffer.insert (b : Buffer α) (pos : Int) (new : List α) : Option (Buffer α) :=
  if pos < 0 ∨ pos > b.old.length then none
  else some { b with q := b.q ++ [⟨pos.toNat, pos.toNat, new⟩] }

/-- `Replace` (edit.go:62-70); `stop = -1` means the end of the text. -/
def Buffer.replace (b : Buffer α) (start stop : Int) (new : List α) : Option (Buffer α) :=
  let stop := if stop = -1 then (b.old.length : Int) else stop
  if stop < start ∨ start < 0 ∨ stop > b.old.length then none
  else some { b with q := b.q ++ [⟨start.toNat, stop.toNat, new⟩] }

/-- `Delete` (edit.go:52-60). -/
def Buffer.delete (b : Buffer α) (start stop : Int) : Option (Buffer α) := b.replace start stop []

/-- `!Less(y, x)` (edit.go:31-36): `x` may stay before `y`. -/
def Edit.le (x y : Edit α) : Bool :=
  if x.start ≠ y.start then x.start < y.start else x.stop ≤ y.stop

/-- Insertion of an element that precedes `l` in the original order. -/
def stableInsert (e : Edit α) : List (Edit α) → List (Edit α)
  | [] => [e]
  | x :: l => if Edit.le e x then e :: x :: l else x :: stableInsert e l

/-- `sort.Stable(b.q)` (edit.go:78). Simplification: the model uses insertion sort; a stable sort is
    determined by its input. -/
def stableSort : List (Edit α) → List (Edit α)
  | [] => []
  | e :: l => stableInsert e (stableSort l)

/-- The loop of `Bytes` (edit.go:80-92) from `offset` on; `none` = panic "overlapping edits". -/
def applyFrom (old : List α) : Nat → List (Edit α) → Option (List α)
  | offset, [] => some (old.drop offset)
  | offset, e :: es =>
    if e.start < offset then none
    else
      match applyFrom old e.stop es with
      | none => none
      | some rest => some ((old.drop offset).take (e.start - offset) ++ e.new ++ rest)

/-- `Bytes` (edit.go:74-93): the text, and the buffer, whose queue has been sorted in place. -/
def Buffer.bytes (b : Buffer α) : Option (List α) × Buffer α :=
  let q := stableSort b.q
  (applyFrom b.old 0 q, { b with q := q })

end Verif.Text
