/-
What line edits mean.
-/
import Verif.Support.LineEdit

namespace Verif.Support.LineEdit.Spec
open Verif.Text

/-- A marked block of lines: nothing for no lines, no markers without an id. -/
inductive Block : Str → List Str → List Str → Prop
  | none (id : Str) : Block id [] []
  | plain (l : Str) (ls : List Str) : Block [] (l :: ls) (l :: ls)
  | marked (c : Char) (id l : Str) (ls : List Str) :
      Block (c :: id) (l :: ls) (("/*<begin ".toList ++ (c :: id) ++ ">*/".toList) :: (l :: ls) ++
        ["/*<end ".toList ++ (c :: id) ++ ">*/".toList])

/-- Marked blocks one after the other. -/
inductive Blocks : List (Str × List Str) → List Str → Prop
  | nil : Blocks [] []
  | cons {id ls b l r} : Block id ls b → Blocks l r → Blocks ((id, ls) :: l) (b ++ r)

/-- What becomes of a line without edits that replace it, of a line that is replaced by edits of which the last one has an
    id (the line is kept in a comment), or has none. -/
inductive Kept (line : Str) : List Edit → List Str → Prop
  | unchanged {es} (h : ∀ e ∈ es, e.replace = []) : Kept line es [line]
  | comment {es₁ es₂ e out} (h : e.replace ≠ []) (h2 : ∀ e ∈ es₂, e.replace = []) (hid : e.id ≠ [])
      (hb : Block e.id ["/*<replaced>".toList, line, "</replaced>*/".toList] out) : Kept line (es₁ ++ e :: es₂) out
  | dropped {es₁ es₂ e} (h : e.replace ≠ []) (h2 : ∀ e ∈ es₂, e.replace = []) (hid : e.id = []) : Kept line (es₁ ++ e :: es₂) []

/-- A line with the edits made at it, in order: what is put before it, what replaces it, the line itself, what is put
    after it. -/
def Edited (es : List Edit) (line : Str) (out : List Str) : Prop :=
  ∃ a b c d, Blocks (es.map fun e => (e.id, e.prepend)) a ∧ Blocks (es.map fun e => (e.id, e.replace)) b ∧
    Kept line es c ∧ Blocks (es.map fun e => (e.id, e.append)) d ∧ out = a ++ b ++ c ++ d

/-- All lines, the first of them with number `i`, with the edits of their number. -/
inductive Lines (es : List Edit) : Nat → List Str → List Str → Prop
  | nil {i} : Lines es i [] []
  | cons {i : Nat} {l ls o r} : Edited (es.filter fun e => e.line = (i : Int)) l o → Lines es (i + 1) ls r → Lines es i (l :: ls) (o ++ r)

/-- Sorted by line. -/
def Sorted (es : List Edit) : Prop := es.Pairwise fun a b => a.line ≤ b.line

/-- `Edited` with the edits of one line in the order of `es`, `Lines` says what the result is up to this order; `Stable es
    es'`: the edits are in the same order in both for each line. -/
def Stable (es es' : List Edit) : Prop := ∀ i : Int, (es'.filter fun e => e.line = i) = es.filter fun e => e.line = i

/-- Lines of a text. -/
def text : List Str → Str
  | [] => []
  | [l] => l
  | l :: ls => l ++ ['\n'] ++ text ls

/-- The lines that are not empty. -/
def nonblank (ls : List Str) : List Str := ls.filter fun l => decide (l ≠ [])

/-- Names of edits. -/
def IdOk (id : Str) : Prop := id ≠ [] ∧ '*' ∉ id ∧ '/' ∉ id ∧ '>' ∉ id ∧ '<' ∉ id

/-- Single lines without anything that looks like a marker. -/
def LineOk (l : Str) : Prop :=
  '\n' ∉ l ∧ ¬ "/*<begin ".toList <:+: l ∧ ¬ "*<end ".toList <:+: l ∧ ¬ "/*<replaced>".toList <:+: l ∧
  ¬ "</replaced>*/".toList <:+: l

structure EditOk (e : Edit) : Prop where
  id : IdOk e.id
  prepend : ∀ l ∈ e.prepend, LineOk l
  append : ∀ l ∈ e.append, LineOk l
  replace : ∀ l ∈ e.replace, LineOk l

/-- Indices of source nodes for the patch nodes `ps`: the nodes are the same, and no index is before the one before it. -/
inductive Matches {α β : Type} (same : α → β → Bool) (src : List α) : Nat → List β → List Nat → Prop
  | nil {i} : Matches same src i [] []
  | cons {i j p ps js a} : i ≤ j → src[j]? = some a → same a p = true → Matches same src j ps js →
      Matches same src i (p :: ps) (j :: js)

end Verif.Support.LineEdit.Spec
