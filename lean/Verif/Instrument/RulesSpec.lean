/-
Specification of mock rules.
-/
import Verif.Instrument.Rules
import Verif.Support.PatternSpec

namespace Verif.Instrument.Rules.Spec
open Verif.Support (Str)

/-- The words for the kinds of declarations in a rule. -/
def kindWord (k : Kind) : Str :=
  (match k with | .func => "func" | .var => "var" | .varPtr => "var_ptr" | .const => "const").toList

/-- The conditions a rule states for a declaration. `pat` says what a pattern means. -/
inductive Condition (pat : Str → Str → Prop) (r : Rule) (pkgPath : Str) (isMain std : Bool) (d : Decl) : Prop → Prop
  | kind : toList r.kind ≠ [] → Condition pat r pkgPath isMain std d (kindWord d.kind ∈ toList r.kind)
  | pkg : toList r.pkg ≠ [] → Condition pat r pkgPath isMain std d (∃ p ∈ toList r.pkg, pat p pkgPath)
  | name : toList r.name ≠ [] → Condition pat r pkgPath isMain std d (∃ p ∈ toList r.name, pat p d.identityName)
  | main {b : Bool} : r.mainModule = some b → Condition pat r pkgPath isMain std d (b = isMain)
  | std {b : Bool} : r.stdlib = some b → Condition pat r pkgPath isMain std d (b = std)
  | generic {b : Bool} : r.generic = some b → d.kind = .func → Condition pat r pkgPath isMain std d (b = d.generic)
  | exported {b : Bool} : r.exported = some b → Condition pat r pkgPath isMain std d (b = d.exported)
  | closure {b : Bool} : r.closure = some b → Condition pat r pkgPath isMain std d (b = d.closure)

/-- A rule matches if it is marked `any`, or it states a condition and all conditions it states hold. -/
def Matches (pat : Str → Str → Prop) (r : Rule) (pkgPath : Str) (isMain std : Bool) (d : Decl) : Prop :=
  r.any = true ∨ ((∃ c, Condition pat r pkgPath isMain std d c) ∧ ∀ c, Condition pat r pkgPath isMain std d c → c)

/-- `a` is the action of the first rule that matches, or empty if none does. -/
inductive FirstAction (m : Rule → Prop) : List Rule → Str → Prop
  | none : FirstAction m [] []
  | hit {r rs} : m r → FirstAction m (r :: rs) r.action
  | miss {r rs a} : ¬ m r → FirstAction m rs a → FirstAction m (r :: rs) a

/-- A package belongs to a module if it is the module or below it. -/
def Within (pkgPath module : Str) : Prop := pkgPath = module ∨ ∃ rest, pkgPath = module ++ '/' :: rest

end Verif.Instrument.Rules.Spec
