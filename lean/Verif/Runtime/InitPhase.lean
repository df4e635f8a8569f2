/-
C98: traps, mocks of method values and traces while packages are being initialised. Sources: runtime/internal/stack/g.go:36-81
(`GetStack`, `GetOrAttachStack`, `DetachStack`), runtime/internal/trap/trap.go:55-137, 423-455, runtime/internal/trap/inspect.go:78-101,
runtime/internal/trap/stack_data.go:46-68.

Simplifications: events are atomic (each is a few instructions on one goroutine); of a call only whether its body runs; mocks are in
`Verif.Runtime.Registry`; a goroutine's stack is identified with its `StackData` (both are made together after initialisation); stacks
inherited at the start of a goroutine are in `Verif.Runtime.Registry`, here goroutines start without.
-/
namespace Verif.Runtime.InitPhase

/-- `StackData` (stack_data.go:14-44): whose handler is in `inspecting`, and `hasStartedTracing`. -/
structure Data where
  insp : Option Nat := none
  tracing : Bool := false
  deriving DecidableEq, Repr

/-- `done` is `XgoInitFinished`; `shared` is the data of `InitGStack`, `own g` that of the stack attached to goroutine `g`; `at g` is where
    the variable `stack` of a running `Inspect` on `g` points: `some true` to the shared data. -/
structure S where
  done : Bool := false
  shared : Option Data := none
  own : Nat → Option Data := fun _ => none
  «at» : Nat → Option Bool := fun _ => none

/-- What happens. `ask g` and `asked g` enclose the probing call of `mock.Patch(x.M, …)` on `g` (inspect.go:79-90). -/
inductive Ev
  | ask (g : Nat)
  | asked (g : Nat)
  /-- an instrumented function is called -/
  | call (g : Nat)
  /-- `trace.Trace` with an output is called -/
  | trace (g : Nat)
  /-- a trace that is being recorded ends -/
  | traced (g : Nat)
  /-- all packages are initialised -/
  | initDone
  deriving DecidableEq, Repr

/-- What an event comes to. -/
inductive Out
  /-- the function runs -/
  | ran
  /-- the function returns at once with zero results; the handler of goroutine `h` is told -/
  | told (h : Nat)
  /-- a trace is recorded -/
  | recorded
  /-- the function given to trace.Trace runs, nothing is written -/
  | nested
  /-- panic "stackData is nil while stk is not nil!" (trap.go:113-118) -/
  | panics
  /-- nothing to see -/
  | quiet
  deriving DecidableEq, Repr

def upd (f : Nat → α) (g : Nat) (v : α) : Nat → α := fun x => if x = g then v else f x

/-- `getStackDataOf(stack.Get())` (g.go:40-53, stack_data.go:50-57). -/
def data (s : S) (g : Nat) : Option Data := if s.done then s.own g else s.shared

/-- Writes the data that `data` reads. -/
def put (s : S) (g : Nat) (d : Data) : S :=
  if s.done then { s with own := upd s.own g (some d) } else { s with shared := some d }

/-- `trap` as far as it concerns whether the body runs (trap.go:55-137). -/
def outcome (s : S) : Ev → Out
  | .call g =>
    match (data s g).bind (·.insp) with
    | some h => .told h
    | none => .ran
  | .trace g =>
    match data s g with
    | none => if s.done then .recorded else .panics
    | some d =>
      match d.insp with
      | some h => .told h
      | none => if d.tracing then .nested else .recorded
  | _ => .quiet

/-- The state afterwards. -/
def step (s : S) : Ev → S
  | .ask g =>
    { put s g { (data s g).getD {} with insp := some g } with «at» := upd s.at g (some (!s.done)) }
  | .asked g =>
    match s.at g with
    | none => s
    | some true => { s with shared := s.shared.map fun d => { d with insp := none }, «at» := upd s.at g none }
    | some false => { s with own := upd s.own g ((s.own g).map fun d => { d with insp := none }), «at» := upd s.at g none }
  | .call _ => s
  | .trace g =>
    if outcome s (.trace g) = .recorded then put s g { (data s g).getD {} with tracing := true } else s
  | .traced g => { s with own := upd s.own g none }
  | .initDone => { s with done := true }

def run (s : S) (es : List Ev) : S := es.foldl step s

/-! ### Specification -/

/-- Goroutine `g` is in the middle of asking for a mock. -/
def Asking (es : List Ev) (g : Nat) : Prop := ∃ a b, es = a ++ .ask g :: b ∧ Ev.asked g ∉ b

/-- The goroutine an event is on. -/
def Ev.on : Ev → Option Nat
  | .ask g => some g
  | .asked g => some g
  | .call g => some g
  | .trace g => some g
  | .traced g => some g
  | .initDone => none

/-- What a goroutine can do: while it asks, it only calls functions, and it does not ask again; it ends asking only if it
    asks. -/
def Sane (es : List Ev) : Prop :=
  ∀ a e b g, es = a ++ e :: b → Ev.on e = some g →
    (Asking a g → e = .call g ∨ e = .asked g ∨ e = .trace g) ∧ (e = .asked g → Asking a g)

/-- During initialisation goroutines leave each other alone: while one asks, no other does anything, and initialisation does not
    end. -/
def Alone (es : List Ev) : Prop :=
  ∀ a e b g, es = a ++ e :: b → Ev.initDone ∉ a → Asking a g → Ev.on e = some g

end Verif.Runtime.InitPhase
