/-
Specification: lines of a source file.
-/
import Verif.Instrument.SourceLines

namespace Verif.Instrument.SourceLines.Spec
open Verif.Instrument.SourceLines Verif.Instrument.RegCode

/-- How many lines end in a text: what stands behind it is on the line with this number, counting from 0. -/
def lines (s : Str) : Nat := s.count '\n'

/-- A part of a text. -/
def slice (text : Str) (a b : Nat) : Str := (text.drop a).take (b - a)

/-- On one line. -/
def OneLine (s : Str) : Prop := '\n' ∉ s

/-- What the parser says of names: they stand where they are said to stand, and no name has a line break. -/
structure Names (s : Src) : Prop where
  pkg : ∀ m ∈ s.imports, OneLine m.1
  vars : ∀ v ∈ s.vars, OneLine v.name ∧ OneLine v.pre
  refs : ∀ r ∈ s.refs, OneLine r.pre
  funcs : ∀ f ∈ s.funcs, OneLine f.name ∧ OneLine f.identity
  intfs : ∀ t ∈ s.intfs, OneLine t.1
  fields : ∀ f ∈ s.funcs, ∀ x ∈ f.recv ++ f.params ++ f.results, ∀ n ∈ x.names,
    OneLine n.name ∧ slice s.text n.start n.stop = n.name

/-- Offset `i` belongs to something xgo takes out: the blank name of a parameter, or an `&` with the space behind it. -/
def Removed (s : Src) (i : Nat) : Prop :=
  (∃ r ∈ s.refs, ∃ a b, r.addr = some (a, b) ∧ r.fieldAccess = false ∧ a ≤ i ∧ i < b) ∨
  ∃ f ∈ s.funcs, ∃ x ∈ f.recv ++ f.params ++ f.results, ∃ n ∈ x.names, (n.name = [] ∨ n.name = "_".toList) ∧ n.start ≤ i ∧ i < n.stop

/-- The user's code: all that is not taken out, up to the end of the last declaration. -/
def Code (s : Src) (i : Nat) : Prop := i < s.declsEnd ∧ i < s.text.length ∧ ¬ Removed s i

/-- How many lines the types of the variables declared before offset `i` break into, twice. -/
def shift (s : Src) (i : Nat) : Nat := ((s.vars.filter fun v => v.declEnd ≤ i).map fun v => 2 * lines v.typ).sum

/-- `pos` says where each character of the user's code is in the new text: in the same order, and `shift` lines further down. -/
def Placed (s : Src) (out : Str) (shift : Nat → Nat) (pos : Nat → Nat) : Prop :=
  (∀ i j, Code s i → Code s j → i < j → pos i < pos j) ∧
  ∀ i, Code s i → out[pos i]? = s.text[i]? ∧ lines (out.take (pos i)) = lines (s.text.take i) + shift i

end Verif.Instrument.SourceLines.Spec
