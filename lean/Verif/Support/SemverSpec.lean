/-
Specification of semantic versions (semver.org §9-11), independent of the string algorithms.
-/
namespace Verif.Support.Semver.Spec

/-- A pre-release identifier: a number, or a word that is not a number. -/
inductive Ident
  | num (n : Nat)
  | word (s : List Char)
  deriving DecidableEq, Repr

/-- Characters of identifiers: ASCII letters, digits, hyphen. -/
def IdentChar (c : Char) : Prop := c.isAlphanum = true ∨ c = '-'

/-- The text of an identifier; numbers have no leading zeros. -/
def Ident.text : Ident → List Char
  | .num n => Nat.toDigits 10 n
  | .word s => s

/-- A word is not empty, has identifier characters only, and is not all digits. -/
def Ident.WF : Ident → Prop
  | .num _ => True
  | .word s => s ≠ [] ∧ (∀ c ∈ s, IdentChar c) ∧ ∃ c ∈ s, c.isDigit = false

/-- A version: three numbers and the pre-release identifiers (none: a release). -/
structure Version where
  major : Nat
  minor : Nat
  patch : Nat
  pre : List Ident
  deriving DecidableEq, Repr

/-- All identifiers are well-formed. -/
def Version.WF (v : Version) : Prop := ∀ i ∈ v.pre, i.WF

/-- Dot separated. -/
def dots : List (List Char) → List Char
  | [] => []
  | [w] => w
  | w :: ws => w ++ '.' :: dots ws

/-- `-alpha.1`, or nothing for a release. -/
def preText (pre : List Ident) : List Char := if pre = [] then [] else '-' :: dots (pre.map Ident.text)

/-- Build metadata `+a.b.c` (ignored by precedence), or nothing. -/
def BuildText (s : List Char) : Prop :=
  s = [] ∨ ∃ ws, ws ≠ [] ∧ (∀ w ∈ ws, w ≠ [] ∧ ∀ c ∈ w, IdentChar c) ∧ s = '+' :: dots ws

/-- `s` is a text of the version `v`: `vM.m.p[-pre][+build]`, or the short forms `vM` and `vM.m` of releases. -/
inductive Text : List Char → Version → Prop
  | full (v : Version) (build : List Char) : v.WF → BuildText build →
      Text ('v' :: Nat.toDigits 10 v.major ++ '.' :: Nat.toDigits 10 v.minor ++ '.' :: Nat.toDigits 10 v.patch
        ++ preText v.pre ++ build) v
  | short2 (M m : Nat) : Text ('v' :: Nat.toDigits 10 M ++ '.' :: Nat.toDigits 10 m) ⟨M, m, 0, []⟩
  | short1 (M : Nat) : Text ('v' :: Nat.toDigits 10 M) ⟨M, 0, 0, []⟩

/-- Precedence of identifiers: numbers numerically, words in ASCII order, numbers before words. -/
def Ident.prec : Ident → Ident → Ordering
  | .num a, .num b => compare a b
  | .num _, .word _ => .lt
  | .word _, .num _ => .gt
  | .word a, .word b => compare a b

/-- Precedence of pre-release parts: a release comes after all its pre-releases; otherwise identifier by
    identifier, a longer list after its prefixes. -/
def precPre (a b : List Ident) : Ordering :=
  match a, b with
  | [], [] => .eq
  | [], _ => .gt
  | _, [] => .lt
  | a, b => List.compareLex Ident.prec a b

/-- Precedence of versions. -/
def prec (v w : Version) : Ordering :=
  (compare v.major w.major).then <| (compare v.minor w.minor).then <| (compare v.patch w.patch).then <|
    precPre v.pre w.pre

end Verif.Support.Semver.Spec
