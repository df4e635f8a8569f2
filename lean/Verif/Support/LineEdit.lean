/-
Model of line edits, of undoing them, and of the matching of patch statements with source statements.

Sources: support/transform/edit/line/line.go, support/transform/patch/format/format.go,
support/transform/patch/unpatch/unpatch.go, support/transform/patch/patch.go:253-308. Errors and panics are `none`.
-/
import Verif.Text.Cut

namespace Verif.Support.LineEdit
open Verif.Text

/-- `edit` (line.go:14-20): of `prepend`, `append` and `replace` one is set by `Prepend`, `Append`, `Replace` (22-44). -/
structure Edit where
  id : Str
  line : Int
  prepend : List Str
  append : List Str
  replace : List Str
  deriving DecidableEq, Repr

/-- `Prepend` (line.go:22-28). -/
def Edit.mkPrepend (line : Int) (id : Str) (lines : List Str) : Edit := ⟨id, line, lines, [], []⟩
/-- `Append` (line.go:30-36). -/
def Edit.mkAppend (line : Int) (id : Str) (lines : List Str) : Edit := ⟨id, line, [], lines, []⟩
/-- `Replace` (line.go:38-44). -/
def Edit.mkReplace (line : Int) (id : Str) (lines : List Str) : Edit := ⟨id, line, [], [], lines⟩

/-- `format.Begin` (format.go:11-13). -/
def beginMark (id : Str) : Str := "/*<begin ".toList ++ id ++ ">*/".toList
/-- `format.End` (format.go:15-17). -/
def endMark (id : Str) : Str := "/*<end ".toList ++ id ++ ">*/".toList
/-- format.go:8-9. -/
def replacedBegin : Str := "/*<replaced>".toList
def replacedEnd : Str := "</replaced>*/".toList

/-- `appendLines` (line.go:107-118), what is appended. -/
def block (id : Str) (lines : List Str) : List Str :=
  if lines = [] then [] else if id = [] then lines else beginMark id :: lines ++ [endMark id]

/-- The last edit that replaces the line (line.go:79-86): `hasReplaced`, `hasReplacedID`. -/
def lastReplace : List Edit → Option Str
  | [] => none
  | e :: es =>
    match lastReplace es with
    | some id => some id
    | none => if e.replace = [] then none else some e.id

/-- What remains of the line itself (line.go:87-95). -/
def keptLine (es : List Edit) (line : Str) : List Str :=
  match lastReplace es with
  | none => [line]
  | some id => if id = [] then [] else block id [replacedBegin, line, replacedEnd]

/-- The edits of one line and the line (line.go:74-103). -/
def editLine (es : List Edit) (line : Str) : List Str :=
  es.flatMap (fun e => block e.id e.prepend) ++ es.flatMap (fun e => block e.id e.replace) ++
  keptLine es line ++
  es.flatMap (fun e => block e.id e.append)

/-- The loop of `Apply` (line.go:61-104) over the sorted edits; `rest` are the lines from the cursor on, `n` the number of
    lines. `lines[cursor-1]` is a panic if there is no line left. -/
def applyLoop (n : Nat) (cursor : Int) (rest : List Str) (edits : List Edit) : Option (List Str) :=
  match edits with
  | [] => some rest
  | e :: es =>
    if (n : Int) < e.line then none
    else
      let skip := if cursor < e.line then (e.line - cursor).toNat else 0
      match rest.drop skip with
      | [] => none
      | l :: rest' =>
        let same := es.takeWhile fun e' => e'.line = e.line
        (applyLoop n ((if cursor < e.line then e.line else cursor) + 1) rest' (es.dropWhile fun e' => e'.line = e.line)).map
          fun r => rest.take skip ++ editLine (e :: same) l ++ r
termination_by edits.length
decreasing_by
  have := (List.dropWhile_suffix (l := es) fun e' => decide (e'.line = e.line)).length_le
  simp only [List.length_cons]
  omega

/-- `Apply` (line.go:46-106) after sorting. -/
def apply (sorted : List Edit) (lines : List Str) : Option (List Str) := applyLoop lines.length 1 lines sorted

/-- Insertion sort as in `sort.Slice` for at most 12 elements (go 1.19 and later): an element moves to the front while it
    is less than its neighbour, elements of the same line are not moved past each other (line.go:48-54: `i < j` is false
    for the neighbour before). -/
def insertEdit (e : Edit) : List Edit → List Edit
  | [] => [e]
  | x :: l => if e.line < x.line then e :: x :: l else x :: insertEdit e l

def sortEdits (es : List Edit) : List Edit := es.foldl (fun l e => insertEdit e l) []

/-! ### Unpatch -/

/-- `findRange` (unpatch.go:47-80): the text before, the text from the begin marker to the end marker, the text after.
    `none`: an error; `some none`: no marker. (If `*/` follows the begin marker at once the code looks at the character
    before it, the blank.) -/
def findRange (s : Str) : Option (Option (Str × Str × Str)) :=
  match cut "/*<begin ".toList s with
  | none => some none
  | some (a, r) =>
    match cut "*/".toList r with
    | none => none
    | some (x, r1) =>
      if x.getLast? ≠ some '>' then none
      else
        let id := x.dropLast
        if id = [] then none
        else match cut (endMark id) r1 with
          | none => none
          | some (body, after) => some (some (a, "/*<begin ".toList ++ x ++ "*/".toList ++ body ++ endMark id, after))

/-- `findReplaced` (unpatch.go:85-98): the replaced text. -/
def findReplaced (s : Str) : Option Str :=
  match cut replacedBegin s with
  | none => some []
  | some (_, r) => (cut replacedEnd r).map (·.1)

theorem findRange_length {s a m r : Str} (h : findRange s = some (some (a, m, r))) : r.length < s.length := by
  unfold findRange at h
  split at h
  · cases h
  · rename_i h1
    have h1 := cut_length h1
    split at h
    · cases h
    · rename_i h2
      have h2 := cut_length h2
      split at h
      · cases h
      · dsimp only at h
        split at h
        · cases h
        · split at h
          · cases h
          · rename_i h3
            have h3 := cut_length h3
            simp only [Option.some.injEq, Prod.mk.injEq] at h
            obtain ⟨-, -, rfl⟩ := h
            have : 0 < "/*<begin ".toList.length := by decide
            omega

set_option linter.unusedVariables false in
/-- `Unpatch` (unpatch.go:17-45). -/
def unpatch (s : Str) : Option Str :=
  match h : findRange s with
  | none => none
  | some none => some s
  | some (some (a, m, r)) =>
    (findReplaced m).bind fun o => (unpatch r).map fun r => a ++ o ++ r
termination_by s.length
decreasing_by exact findRange_length h

/-! ### Matching -/

/-- `findMatch` (patch.go:285-308): `same` says whether a source node and a patch node are the same. -/
def findMatch {α β : Type} (same : α → β → Bool) (src : List α) (p : β) : Option Nat := src.findIdx? fun s => same s p

/-- `patchNodes` (patch.go:244-278): for each patch node the index of the source node it stands for. The next search
    begins at the node found last. -/
def matchNodes {α β : Type} (same : α → β → Bool) (src : List α) : Nat → List β → Option (List Nat)
  | _, [] => some []
  | i, p :: ps =>
    if src.length ≤ i then none
    else match findMatch same (src.drop i) p with
      | none => none
      | some m => (matchNodes same src (i + m) ps).map fun is => (i + m) :: is

end Verif.Support.LineEdit
