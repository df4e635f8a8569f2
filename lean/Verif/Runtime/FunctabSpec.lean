/-
The table of functions, as a user sees it: how functions are named, and which one a lookup should give.
-/
import Verif.Runtime.Functab

namespace Verif.Runtime.Functab.Spec
open Verif.Runtime.Functab

/-- A function of a Go program as the Go runtime names it: package, receiver type with type arguments, name, type
    arguments. -/
structure FullName where
  pkg : Str
  recv : Option (Bool × Str × Option Str) := none
  name : Str
  args : Option Str := none

/-- `[args]`. -/
def bracket : Option Str → Str
  | none => []
  | some a => '[' :: a ++ [']']

/-- The text: `a/b.F`, `a/b.F[int]`, `a/b.T.M`, `a/b.T[int].M`, `a/b.(*T).M`, `a/b.(*T[int]).M`. -/
def FullName.text (f : FullName) : Str :=
  f.pkg ++ ['.'] ++
  (match f.recv with
   | none => []
   | some (false, t, g) => t ++ bracket g ++ ['.']
   | some (true, t, g) => "(*".toList ++ t ++ bracket g ++ ").".toList) ++
  f.name ++ bracket f.args

/-- A Go identifier: no punctuation. -/
def Ident (n : Str) : Prop := n ≠ [] ∧ ∀ c ∈ n, c ∉ "./[]()*".toList

/-- Type arguments that are not themselves instances of generic types, nor function types. -/
def SimpleArgs (a : Str) : Prop := a ≠ [] ∧ '[' ∉ a ∧ '(' ∉ a

/-- The last part of a package path. -/
def lastPart (p : Str) : Str := (p.reverse.takeWhile (· ≠ '/')).reverse

/-- A function name as the Go runtime reports it: dots in the last part of the package path are escaped there. -/
def FullName.Valid (f : FullName) : Prop :=
  f.pkg ≠ [] ∧ '.' ∉ lastPart f.pkg ∧ ']' ∉ f.pkg ∧ ')' ∉ f.pkg ∧ Ident f.name ∧
  (∀ p t g, f.recv = some (p, t, g) → Ident t ∧ (∀ a, g = some a → SimpleArgs a)) ∧
  (∀ a, f.args = some a → SimpleArgs a) ∧
  -- methods have no type parameters of their own
  (f.recv ≠ none → f.args = none)

/-- How the Go runtime writes a package path in names (cmd/internal/objabi.PathToPrefix, for printable ASCII without
    quotes): dots in the last part, and percent signs, are escaped. -/
def escape (p : Str) : Str :=
  let n := p.length - (lastPart p).length
  ((p.take n).map fun c => if c = '%' then "%25".toList else [c]).flatten ++
  ((p.drop n).map fun c => if c = '%' then "%25".toList else if c = '.' then "%2e".toList else [c]).flatten

/-- The last one registered that satisfies a condition. -/
def lastWith (infos : List Info) (p : Info → Bool) : Option Info := (infos.filter p).getLast?

end Verif.Runtime.Functab.Spec
