/-
C100: cases that meet the hypotheses of its theorems, and what does not hold.
-/
import Verif.Runtime.MutexProps

namespace Verif.Runtime.Mutex
open Spec
open Stack (Stk Node)

/-- An instrumented call on stack 0, after which its goroutine exports the stack (trap.go:325-440). -/
def exCall : Prog := .call 0 (.push 10 7) fun
  | .entry cur old => .call 0 (.finish cur old 20 false true) fun _ => .call 0 .snapshot fun _ => .done
  | _ => .done

/-- Goroutine 1 exports stack 0; goroutine 2 makes a call on stack 1; goroutine 3 exports stack 0 and then stack 1, that of a `go` statement (export.go:12-70). -/
def exProg : Nat → Prog
  | 0 => exCall
  | 1 => .call 0 .snapshot fun _ => .done
  | 2 => .call 1 (.push 12 9) fun _ => .done
  | 3 => .call 0 .snapshot fun _ => .call 1 .snapshot fun _ => .done
  | _ => .done

theorem exSane (g : Nat) : Sane [] (exProg g) := by
  match g with
  | 0 => exact .push fun cur old => .finish (by simp) (fun r h => by simp [h]) (.snapshot fun _ _ _ => .done)
  | 1 => exact .snapshot fun _ _ _ => .done
  | 2 => exact .push fun _ _ => .done
  | 3 => exact .snapshot fun _ _ _ => .snapshot fun _ _ _ => .done
  | _ + 4 => exact .done

def exStart : St := start exProg (empty (fun _ => 0) (fun _ => none))

def times (n g : Nat) : List Nat := List.replicate n g

/-- The entry of the call, and as it is when the call is over. -/
def exNode (c : Nat) : Node := ⟨1, 0, c, 10, 0, false, false, [], false⟩
def exOver : Node := ⟨1, 0, 7, 10, 20, true, true, [], false⟩

/-- Goroutine 1 asks for the mutex while goroutine 0 pushes; and at the end goroutine 0 sees that its call is over. (C100_linearizable, C100_whole and C100_complete.) -/
example : returned ((xgo id).exec exStart (times 5 0 ++ times 3 1 ++ times 10 0 ++ times 9 1 ++ times 20 0)).log =
    [⟨0, 0, .push 10 7, .entry 0 none⟩, ⟨1, 0, .snapshot, .tree 0 none (.node (exNode 7) none .nil .nil)⟩] ++
    [⟨0, 0, .finish 0 none 20 false true, .unit⟩, ⟨0, 0, .snapshot, .tree 0 none (.node exOver none .nil .nil)⟩] := rfl

/-- Two goroutines are in sections of different stacks at the same time; of stack 0 goroutine 0 is, and goroutine 1 waits. (C100_exclusive and C100_returns.) -/
example : let σ := (xgo id).exec exStart (times 5 0 ++ times 3 1 ++ times 4 2)
    (σ.goroutine 0).busy = some (0, .push 10 7) ∧ (σ.goroutine 1).busy = some (0, .snapshot) ∧ σ.lock 0 = some 0 ∧ σ.lock 1 = some 2 := ⟨rfl, rfl, rfl, rfl⟩

/-- What `SetEndIfZero` must not be (the comment at stack.go:181-182): `IsZero` is called while the mutex is held. -/
def zero : Sys := ⟨fun op b => match op with | .setEnd t => .trap (setEndCode t) | op => code op b, id, true⟩

def zeroProg : Nat → Prog
  | 0 => .call 0 (.setEnd 5) fun _ => .done
  | _ => .call 0 .snapshot fun _ => .done

/-- The goroutine is stuck as soon as it has the mutex. (C100_reenter.) -/
example : ∃ c k, (zero.exec (start zeroProg (empty (fun _ => 0) (fun _ => none))) [0, 0]).goroutine 0 = .inside 0 (.setEnd 5) (.trap c) k := ⟨_, _, rfl⟩

/-- …so no export of its stack returns, ever. -/
theorem C100_counterexample_reenter (more : List Nat) (e : Ev) (he : e ∈ (zero.exec (start zeroProg (empty (fun _ => 0) (fun _ => none))) ([0, 0] ++ more)).log)
    (hs : e.s = 0) : e.ret = none := by
  have h := (C100_reenter zero rfl zeroProg (empty (fun _ => 0) (fun _ => none)) [0, 0] (g := 0) (s := 0) rfl rfl more).2
  cases hr : e.ret with
  | none => rfl
  | some r =>
    have : e ∈ List.filter (fun e => e.s = 0 && e.ret.isSome) (zero.exec (start zeroProg (empty (fun _ => 0) (fun _ => none))) ([0, 0] ++ more)).log :=
      List.mem_filter.2 ⟨he, by simp [hs, hr]⟩
    rw [h] at this
    cases this

/-- Without the mutex an export would show an entry that is half built: in the tree, but not saying which call it is. -/
theorem C100_counterexample_no_mutex : ∃ sched n f, ⟨1, 0, .snapshot, .tree 0 none f⟩ ∈ returned ((⟨code, id, false⟩ : Sys).exec exStart sched).log ∧
    n ∈ nodes f ∧ ∀ l, (∀ c ∈ l, c.op ≠ .push 10 0) → ¬ Complete l 0 0 n := by
  refine ⟨times 11 0 ++ times 9 1, exNode 0, .node (exNode 0) none .nil .nil, ?_, List.mem_cons_self, ?_⟩
  · exact List.mem_cons_self
  · intro l hl h
    rcases h with ⟨h, -⟩ | ⟨-, g, t, c, cur, old, h1, h2, h3, -⟩
    · cases h
    · have h3 : (10 : Int) = t - 0 := h3
      have h2 : 0 = c := h2
      have : t = 10 := by omega
      subst this h2
      exact hl _ h1 rfl

/-- An access of a variable is recorded by two calls (var.go:155-163), not by one as the comment there says: an export between the two shows the access, which is over, as
    running. -/
theorem C100_counterexample_var : ∃ sched f, returned ((xgo id).exec exStart sched).log =
    [⟨0, 0, .push 10 7, .entry 0 none⟩, ⟨1, 0, .snapshot, .tree 0 none f⟩, ⟨0, 0, .finish 0 none 20 false true, .unit⟩] ∧ nodes f = [exNode 7] ∧ (exNode 7).finished = false :=
  ⟨times 15 0 ++ times 7 1 ++ times 9 0, _, rfl, rfl, rfl⟩

/-- The export of a trace is not one moment: each stack is copied at its own time (export.go:18 and 53). A trace can show a call made by a goroutine and not one that was
    recorded before it on the stack of the goroutine that started it. -/
theorem C100_counterexample_torn : ∃ sched f, returned ((xgo id).exec exStart sched).log =
    [⟨3, 0, .snapshot, .tree 0 none .nil⟩, ⟨0, 0, .push 10 7, .entry 0 none⟩, ⟨2, 1, .push 12 9, .entry 0 none⟩, ⟨3, 1, .snapshot, .tree 0 none f⟩] ∧
    (nodes f).map (·.call) = [9] :=
  ⟨times 6 3 ++ times 15 0 ++ times 15 2 ++ times 7 3, _, rfl, rfl⟩

end Verif.Runtime.Mutex
