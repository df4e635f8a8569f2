/-
What sessions should do.
-/
import Verif.Support.Session

namespace Verif.Support.Session
open Verif.Support (Str)

variable {α : Type}

/-- What a goroutine has sent. -/
def Thread.didSend : Thread α → List α
  | .send d _ => d
  | _ => []

/-- The events a poll has, still running or returned. -/
def Thread.batch : Thread α → List α
  | .poll e _ => e
  | .polled e _ => e
  | _ => []

/-- The events of polls still running. -/
def Thread.pending : Thread α → List α
  | .poll e _ => e
  | _ => []

def Thread.isPoll : Thread α → Bool
  | .poll _ _ => true
  | _ => false

/-- Never two polls at the same time. -/
inductive OnePoll : Ses α → Ses α → Prop where
  | refl {s} : OnePoll s s
  | step {s t u} : OnePoll s t → Step t u → u.threads.countP Thread.isPoll ≤ 1 → OnePoll s u

/-- The sessions started in this history, in order. -/
def started : List Call → List (Str × Nat)
  | [] => []
  | .start id n :: l => (id, n) :: started l
  | _ :: l => started l

/-- According to the history the session has been started with this id and not been destroyed since. -/
def Alive (log : List Call) (id : Str) (n : Nat) : Prop :=
  ∃ before after, log = before ++ .start id n :: after ∧ .destroy id ∉ after

end Verif.Support.Session
