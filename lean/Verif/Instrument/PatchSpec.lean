/-
What a patched file is: unchanged text with marked edits in between. The definitions here do not use the model.
-/
import Verif.Text.Cut

namespace Verif.Instrument.PatchText.Spec
open Verif.Text

/-- A marked edit. -/
inductive Mark
  /-- `/*<begin L>*/new/*<end L>*/` for an insertion (`old` empty), `/*<begin L>*//*old:old*/new/*<end L>*/` for a
      replacement -/
  | region (label old new : Str)
  /-- a replaced line: `/*<next-line-original L>old</next-line-original>*/` and, on the next line, `new` -/
  | line (label old new : Str)

/-- The text of the original file that the edit replaces. -/
def Mark.old : Mark → Str
  | region _ o _ => o
  | line _ o _ => o

def Mark.label : Mark → Str
  | region l _ _ => l
  | line l _ _ => l

def Mark.new : Mark → Str
  | region _ _ n => n
  | line _ _ n => n

/-- Between the markers. -/
def body (old new : Str) : Str := (if old = [] then [] else "/*old:".toList ++ old ++ "*/".toList) ++ new

def Mark.text : Mark → Str
  | region l o n =>
    "/*<begin ".toList ++ l ++ ">*/".toList ++ body o n ++ "/*<end ".toList ++ l ++ ">*/".toList
  | line l o n =>
    "/*<next-line-original ".toList ++ l ++ ">".toList ++ o ++ "</next-line-original>*/".toList ++ '\n' :: n

/-- A patched file: unchanged text followed by an edit, and so on, and the rest. -/
structure Patched where
  parts : List (Str × Mark)
  rest : Str

/-- The file as it was. -/
def original : List (Str × Mark) → Str → Str
  | [], r => r
  | (p, m) :: l, r => p ++ m.old ++ original l r

/-- The file as it is. -/
def text : List (Str × Mark) → Str → Str
  | [], r => r
  | (p, m) :: l, r => p ++ m.text ++ text l r

def Patched.original (f : Patched) : Str := Spec.original f.parts f.rest
def Patched.text (f : Patched) : Str := Spec.text f.parts f.rest

/-- Names of edits. -/
def LabelOk (l : Str) : Prop := '*' ∉ l ∧ '/' ∉ l ∧ '>' ∉ l

/-- Texts without markers. -/
def Unmarked (s : Str) : Prop :=
  ¬ "*<begin".toList <:+: s ∧ ¬ "*<end".toList <:+: s ∧ ¬ "*<next-line-original ".toList <:+: s

/-- Texts without markers of a name. -/
def UnmarkedOf (l s : Str) : Prop :=
  ¬ "*<begin ".toList ++ l ++ ">".toList <:+: s ∧ ¬ "*<end ".toList ++ l ++ ">".toList <:+: s ∧
  ¬ "*<next-line-original ".toList ++ l ++ ">".toList <:+: s

/-- Edits that can be undone: the replaced text of a region can stand in a comment, inserted text does not look like a
    replacement, and a replaced line ends where the line ends (`after` is what follows). -/
def Mark.Undoable (after : Str) : Mark → Prop
  | region _ o n => ¬ "*/".toList <:+: o ∧ (o = [] → ¬ "/*old:".toList <:+: n)
  | line _ o n =>
    ¬ "</next-line-original>*/".toList <:+: o ∧ '\n' ∉ n ∧ (after = [] ∨ ∃ r, after = '\n' :: r)

/-- All edits of a file can be undone, and inserted text has no markers in the sense of `un`. -/
def Undoable (un : Str → Prop) (ok : Str → Prop) : List (Str × Mark) → Str → Prop
  | [], _ => True
  | (_, m) :: l, r => ok m.label ∧ un m.new ∧ m.Undoable (text l r) ∧ Undoable un ok l r

end Verif.Instrument.PatchText.Spec

namespace Verif.Instrument.PatchText.Spec
open Verif.Text

/-- `u₀ a₀ u₁ a₁ … rest`. -/
def joined : List (Str × Str) → Str → Str
  | [], r => r
  | (u, a) :: l, r => u ++ a ++ joined l r

/-- The anchors `seq` occur one after the other in `s`: each `aᵢ` first occurs, after the one before it, behind `uᵢ`. -/
structure Anchored (s : Str) (seq : List Str) (parts : List (Str × Str)) (rest : Str) : Prop where
  text : s = joined parts rest
  anchors : parts.map (·.2) = seq
  nonempty : seq ≠ []
  first : ∀ x ∈ parts, x.2 ≠ [] ∧ NotBefore x.2 x.1

/-- The anchors occur one after the other somewhere in `s`. -/
def Occurs (s : Str) (seq : List Str) : Prop := ∃ parts rest, s = joined parts rest ∧ parts.map (·.2) = seq

end Verif.Instrument.PatchText.Spec
