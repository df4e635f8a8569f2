import Verif.Cmd.GoMod
/-
What the module of a directory is, by the rules of the go command.
-/
namespace Verif.Cmd.GoMod.Spec
open Verif.Cmd.Vendor (isSpace)

/-- The root of the module that the directory `d` is in: the nearest directory, from `d` upwards, with a file `go.mod`. -/
def IsRoot (fs : FS) (d r : List Str) : Prop :=
  r <+: d ∧ fs r = .file ∧ ∀ q, r <+: q → q <+: d → fs q = .file → q = r

/-- A name that a directory can have. -/
def Ordinary (x : Str) : Prop := x ≠ [] ∧ x ≠ ".".toList ∧ x ≠ "..".toList

instance (x : Str) : Decidable (Ordinary x) := inferInstanceAs (Decidable (_ ∧ _ ∧ _))

/-- The line begins with the word `module`. -/
def Starts (l : Str) : Prop :=
  ∃ b t, (∀ c ∈ b, isSpace c = true) ∧ l = b ++ "module".toList ++ t ∧ (t = [] ∨ (∃ c r, t = c :: r ∧ isSpace c = true) ∨ "//".toList <+: t)

/-- The line is `module p`, without quotes, perhaps with a comment: blanks, the word, blanks, the path, blanks, comment. -/
structure Module (l p : Str) (b sep : Str) : Prop where
  blanks : ∀ c ∈ b, isSpace c = true
  between : ∀ c ∈ sep, isSpace c = true
  apart : sep ≠ []
  word : p ≠ [] ∧ ∀ c ∈ p, isSpace c = false ∧ c ≠ '"' ∧ c ≠ '`'
  plain : ¬ "//".toList <:+: p ++ ['/']
  line : ∃ e rest, (∀ c ∈ e, isSpace c = true) ∧ (rest = [] ∨ "//".toList <+: rest) ∧ l = b ++ "module".toList ++ sep ++ p ++ e ++ rest

/-- The file says `module p`: in the first line that begins with the word `module`. -/
def Says (content p : Str) : Prop :=
  ∃ before l after b sep, lines content = before ++ l :: after ∧ Module l p b sep ∧ ∀ l' ∈ before, ¬ Starts l'

/-- The same, with nothing but blanks and tabs before the word and a blank after it, as `go mod init` and `go mod edit` write it. -/
def SaysPlainly (content p : Str) : Prop :=
  ∃ before l after b sep, lines content = before ++ l :: after ∧ Module l p b sep ∧ (∀ l' ∈ before, ¬ Starts l') ∧
    (∀ c ∈ b, c = ' ' ∨ c = '\t') ∧ sep.head? = some ' '

/-- The import path of the package in the directory `sub` of the module `m`. -/
def importPath (m : Str) (sub : List Str) : Str := m ++ (sub.map ('/' :: ·)).flatten

end Verif.Cmd.GoMod.Spec
