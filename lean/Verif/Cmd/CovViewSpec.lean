/-
What is to be shown of C92, in its own words: lines of code, which of them ran, which of them are new, and how many there are.
-/
import Verif.Cmd.CovView

namespace Verif.Cmd.CovView.Spec
open Verif.Cmd.CovView

/-- `a` begins before `b`; of two that begin at the same place, the one that ends first. -/
def Before (a b : Block) : Prop :=
  a.sl < b.sl ∨ a.sl = b.sl ∧ (a.sc < b.sc ∨ a.sc = b.sc ∧ (a.el < b.el ∨ a.el = b.el ∧ a.ec < b.ec))

/-- The block is partly or wholly on line `l`. -/
def On (b : Block) (l : Nat) : Prop := b.sl ≤ l ∧ l ≤ b.el

/-- `b` is the first one of the blocks `P` on line `l`. -/
def First (P : Block → Prop) (l : Nat) (b : Block) : Prop :=
  P b ∧ On b l ∧ ∀ b', P b' → On b' l → b' = b ∨ Before b b'

/-- The path in the profile of file `f` of the module. -/
def path (i : Input) (f : Str) : Str := i.mod ++ '/' :: f

/-- `b` is a block of `f`: in the source, or in the profile. -/
def Code (i : Input) (f : Str) (b : Block) : Prop :=
  (f ∈ i.listed ∧ b ∈ i.static f) ∨ ∃ e ∈ i.profile, e.file = path i f ∧ e.block = b

/-- The block ran. -/
def Ran (i : Input) (f : Str) (b : Block) : Prop := ∃ e ∈ i.profile, e.file = path i f ∧ e.block = b ∧ 0 < e.count

/-- The line is one without code. -/
def NoCode (i : Input) (f : Str) (l : Nat) : Prop := f ∈ i.listed ∧ l ∈ i.empty f

/-- Line `l` of `f` can be covered. -/
def Coverable (i : Input) (f : Str) (l : Nat) : Prop := ¬ NoCode i f l ∧ ∃ b, Code i f b ∧ On b l

/-- The first block on the line ran. -/
def Covered (i : Input) (f : Str) (l : Nat) : Prop := ∃ b, First (Code i f) l b ∧ Ran i f b

/-- A profile of `go test`: each block of a file once; what begins with the name of the module is below the module. -/
structure Clean (i : Input) : Prop where
  once : ∀ e ∈ i.profile, ∀ e' ∈ i.profile, e.file = e'.file → e.block = e'.block → e = e'
  named : ∀ f ∈ i.listed, f ≠ []
  below : ∀ e ∈ i.profile, i.mod <+: e.file → ∃ r, r ≠ [] ∧ e.file = i.mod ++ '/' :: r

/-- The file is shown: it is listed or has blocks in the profile, passes the filters, and, unless all files are asked for, has changed. -/
def Shown (i : Input) (f : Str) : Prop :=
  (f ∈ i.listed ∨ f ≠ [] ∧ ∃ e ∈ i.profile, e.file = path i f) ∧ i.keep f = true ∧
    (i.only = true → f ∈ i.listed ∧ ∃ d, i.info f = some d ∧ (d.isNew = true ∨ d.changed = true))

/-- Exactly `n` things have the property. -/
def Count {α : Type} (P : α → Prop) (n : Nat) : Prop := ∃ L : List α, L.Nodup ∧ (∀ x, x ∈ L ↔ P x) ∧ L.length = n

/-! ### Two versions of a text -/

/-- A piece of the comparison of two texts: lines of both, or lines that are replaced. -/
inductive Piece (α : Type)
  | same (ls : List α)
  | edit (del ins : List α)

variable {α : Type}

/-- The old text. -/
def old : List (Piece α) → List α
  | [] => []
  | .same ls :: ps => ls ++ old ps
  | .edit d _ :: ps => d ++ old ps

/-- The new text. -/
def new : List (Piece α) → List α
  | [] => []
  | .same ls :: ps => ls ++ new ps
  | .edit _ i :: ps => i ++ new ps

/-- For each line of the new text, the line of the old text that it is, or `none` if it was put there; `o` lines come before. -/
def origin (o : Nat) : List (Piece α) → List (Option Nat)
  | [] => []
  | .same ls :: ps => (List.range' (o + 1) ls.length).map some ++ origin (o + ls.length) ps
  | .edit d i :: ps => i.map (fun _ => none) ++ origin (o + d.length) ps

/-- How VSCode's comparison tells it (`ILineChange`): `o` and `n` lines come before; a range without lines has end 0, and its start is the
    line before it. -/
def told (o n : Nat) : List (Piece α) → List Change
  | [] => []
  | .same ls :: ps => told (o + ls.length) (n + ls.length) ps
  | .edit d i :: ps =>
    ⟨if d = [] then o else o + 1, if d = [] then 0 else o + d.length,
     if i = [] then n else n + 1, if i = [] then 0 else n + i.length⟩ :: told (o + d.length) (n + i.length) ps

/-- The comparison, as the view gets it. -/
def changes (ps : List (Piece α)) : Changes := ⟨(old ps).length, (new ps).length, told 0 0 ps⟩

/-- Line `l` of file `f` is new or changed since the commit compared with: the file is not part of that commit (or not tracked), or the
    comparison of the two texts, which are not the same but for blanks around them, says that the line was put there. -/
def NewLine (r : Repo) (cmp : Str → Str → List (Piece Str)) (f : Str) (l : Nat) : Prop :=
  ∃ text, r.work f = some text ∧
    ((r.tracked f = false ∨ r.base f = none) ∨
     ∃ was, r.tracked f = true ∧ r.base f = some was ∧ Support.Coverage.trimSpace was ≠ Support.Coverage.trimSpace text ∧
       ∃ j, (origin 0 (cmp was text))[j]? = some none ∧ l = j + 1)

end Verif.Cmd.CovView.Spec
