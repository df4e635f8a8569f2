/-
Specification of the registries in terms of the history of API calls only: no heap, no holders, no
list surgery. Histories are lists of operations, newest first.
-/
import Verif.Runtime.Registry

namespace Verif.Runtime.RegSpec
open Verif.Runtime

/-- Histories, newest operation first. -/
abbrev Hist := List Op

/-- Package initialisation has finished. -/
def inited (h : Hist) : Bool := h.contains .finishInit

/-- Number of registrations made so far (they are numbered 0, 1, 2, ...). -/
def regCount : Hist → Nat
  | [] => 0
  | .push .. :: h => regCount h + 1
  | _ :: h => regCount h

/-- Registration `n` was made during init. -/
def madeInInit : Hist → Nat → Bool
  | [], _ => false
  | .push .. :: h, n => (n == regCount h && !inited h) || madeInInit h n
  | _ :: h, n => madeInInit h n

/-- The goroutine that made registration `n`. -/
def owner : Hist → Nat → Option Gid
  | [], _ => none
  | .push g _ _ _ :: h, n => if n = regCount h then some g else owner h n
  | _ :: h, n => owner h n

/-- Registration `n` has been cancelled by the user (a call of its cancel function that was allowed:
    init-time registrations may only be cancelled during init). -/
def cancelled : Hist → Nat → Bool
  | [], _ => false
  | .cancel m :: h, n =>
      (m == n && n < regCount h && !(madeInInit h n && inited h)) || cancelled h n
  | _ :: h, n => cancelled h n

/-- A registration as the user thinks of it: its number (`none` for one inherited from the creating
    goroutine), the instance it is bound to, and the handler. -/
structure Reg where
  no : Option Nat
  want : Option Nat
  fn : Nat
  deriving DecidableEq, Repr

/-- How a registration looks in a new goroutine: same handler; function mocks stay bound to their
    instance. (For other kinds the code forgets the instance, see C09.) -/
def inherit (k : Kind) (r : Reg) : Reg :=
  { no := none, want := if k = .mock then r.want else none, fn := r.fn }

/-- Registrations of goroutine `g` for slot `s`, oldest first. -/
def localRegs (raceSafe : Bool) : Hist → Gid → Slot → List Reg
  | [], _, _ => []
  | .push g' s' want fn :: h, g, s =>
      localRegs raceSafe h g s ++
        (if inited h ∧ g' = g ∧ s' = s then [⟨some (regCount h), want, fn⟩] else [])
  | .cancel n :: h, g, s => (localRegs raceSafe h g s).filter (·.no ≠ some n)
  | .spawn p c :: h, g, s =>
      if c = g then
        (if inited h ∧ ¬ raceSafe then (localRegs raceSafe h p s).map (inherit s.kind) else [])
      else localRegs raceSafe h g s
  | .finishInit :: h, g, s => localRegs raceSafe h g s
  | .detach g' :: h, g, s => if g' = g then [] else localRegs raceSafe h g s

/-- Init-time registrations for slot `s`, oldest first. -/
def globalRegs : Hist → Slot → List Reg
  | [], _ => []
  | .push _ s' want fn :: h, s =>
      globalRegs h s ++ (if ¬ inited h ∧ s' = s then [⟨some (regCount h), want, fn⟩] else [])
  | .cancel n :: h, s => if inited h then globalRegs h s else (globalRegs h s).filter (·.no ≠ some n)
  | _ :: h, s => globalRegs h s

/-- Goroutines mentioned in a history. -/
def mentioned : Hist → Gid → Prop
  | [], _ => False
  | .push g' _ _ _ :: h, g => g' = g ∨ mentioned h g
  | .spawn p c :: h, g => p = g ∨ c = g ∨ mentioned h g
  | .detach g' :: h, g => g' = g ∨ mentioned h g
  | _ :: h, g => mentioned h g

/-- Possible histories: a `go` statement creates a goroutine that has not done anything yet. -/
def WF : Hist → Prop
  | [] => True
  | .spawn p c :: h => c ≠ p ∧ ¬ mentioned h c ∧ WF h
  | _ :: h => WF h

/-- Operations that are about goroutine `g`'s own registrations: a registration by `g`, cancelling a
    registration `g` made, its creation, and the disposal of its stack. -/
def touches (h : Hist) (op : Op) (g : Gid) : Prop :=
  match op with
  | .push g' _ _ _ => g' = g
  | .cancel n => owner h n = some g
  | .spawn _ c => c = g
  | .finishInit => False
  | .detach g' => g' = g

/-- Does cancelling registration `n` panic, according to the specification? -/
def cancelPanics (h : Hist) (n : Nat) : Prop :=
  regCount h ≤ n ∨ (madeInInit h n = true ∧ inited h = true) ∨ cancelled h n = true

instance (h : Hist) (n : Nat) : Decidable (cancelPanics h n) := by
  unfold cancelPanics; infer_instance

end Verif.Runtime.RegSpec

namespace Verif.Runtime
open RegSpec

/-- The registration an entry stands for. -/
def Entry.toReg (e : Entry) : Reg := ⟨e.id, e.want, e.fn⟩

/-- The world after a newest-first history, from program start. -/
def World.after (raceSafe : Bool) (h : Hist) : World := World.run raceSafe World.init h.reverse

end Verif.Runtime
