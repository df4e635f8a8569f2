/-
Goroutine-local storage as a user thinks of it: each goroutine has its own variables.
-/
import Verif.Runtime.Tls

namespace Verif.Runtime.Tls.Spec
open Verif.Runtime.Tls

/-- The main goroutine is number 0, in struct 0. -/
def live {V : Type} : List (Ev V) → Gid → Bool
  | [], g => g = 0
  | .spawn _ c _ :: h, g => if g = c then true else live h g
  | .exit c :: h, g => if g = c then false else live h g
  | _ :: h, g => live h g

/-- Has this goroutine ever been there? -/
def known {V : Type} : List (Ev V) → Gid → Bool
  | [], g => g = 0
  | .spawn _ c _ :: h, g => if g = c then true else known h g
  | _ :: h, g => known h g

/-- The struct a goroutine runs in. -/
def slotOf {V : Type} : List (Ev V) → Gid → Slot
  | [], _ => 0
  | .spawn _ c s :: h, g => if g = c then s else slotOf h g
  | _ :: h, g => slotOf h g

/-- The number of keys declared. -/
def declared {V : Type} : List (Ev V) → Nat
  | [] => 0
  | .declare _ :: h => declared h + 1
  | _ :: h => declared h

/-- Histories that can happen (newest event first): only live goroutines act, new goroutines are new, and run in a
    struct that no live goroutine runs in; only declared keys are used. -/
def WF {V : Type} : List (Ev V) → Prop
  | [] => True
  | .init :: h => WF h
  | .declare _ :: h => WF h
  | .set g k _ :: h => live h g = true ∧ k < declared h ∧ WF h
  | .spawn p c s :: h => (∀ q, p = some q → live h q = true) ∧ known h c = false ∧
      (∀ g, live h g = true → slotOf h g ≠ s) ∧ WF h
  | .exit g :: h => live h g = true ∧ WF h

/-- Is the package initialised? -/
def inited {V : Type} : List (Ev V) → Bool
  | [] => false
  | .init :: _ => true
  | _ :: h => inited h

/-- Was this key declared inheritable? -/
def inheritable {V : Type} : List (Ev V) → Key → Bool
  | [], _ => false
  | .declare b :: h, k => if k = declared h then b else inheritable h k
  | _ :: h, k => inheritable h k

/-- The value of a variable in a goroutine (newest event first): the last one it set, or else, for inheritable
    variables, the one its creator had when it was created. -/
def value {V : Type} : List (Ev V) → Gid → Key → Option V
  | [], _, _ => none
  | .set g' k' v :: h, g, k => if g = g' ∧ k = k' then some v else value h g k
  | .spawn p c _ :: h, g, k =>
    if g = c then
      match p with
      | some q => if inited h && inheritable h k then value h q k else none
      | none => none
    else value h g k
  | _ :: h, g, k => value h g k

end Verif.Runtime.Tls.Spec
