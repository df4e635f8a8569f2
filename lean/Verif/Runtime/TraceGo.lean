/-
Model of how a trace follows the goroutines it starts: the hooks on goroutine creation and exit (runtime/internal/trap/init.go:12-72),
the methods of the per-goroutine stack (runtime/internal/stack/stack.go, via `Verif.Runtime.Stack`), and the export of the trace
(runtime/internal/stack/export.go:12-85), which runs while the other goroutines go on.

Every method of a stack holds its mutex, so each is one atomic step (proved of all interleavings: C100_atomic, C100_moment); the steps of all goroutines form one history. The export observes
the world several times (once per snapshot, once per reading of the clock); a schedule says how many steps the others make before
each observation.
-/
import Verif.Runtime.Stack

namespace Verif.Runtime.TraceGo
open Stack (Stk Node)

/-- What a goroutine does, as far as its stack is concerned. -/
inductive Ev where
  /-- a traced call begins: `PushNew` (trap.go:325, var.go:155); the call and its `begin` -/
  | enter (c : Nat) (t : Int)
  /-- the innermost traced call ends: `Finish` in its `post` (trap.go:408, var.go:161); `end` and whether it panicked -/
  | exit (t : Int) (panicked : Bool)
  /-- a `go` statement: the hook on goroutine creation (init.go:29-72); the new goroutine and the time its stack begins (stack/g.go:66-69) -/
  | spawn (k : Nat) (t : Int)
  /-- the goroutine ends: the hook on goroutine exit (init.go:18-26) -/
  | done (t : Int)
  /-- anything else -/
  | other
  deriving DecidableEq, Repr

/-- A goroutine's stack with what `Verif.Runtime.Stack` left out: `End`, the `GetStack` of each `go` entry (by its index in the heap), and,
    of the goroutine's own call stack, the `cur, oldTop` captured by the `post` of every call in progress, innermost first (trap.go:325). -/
structure GStk where
  stk : Stk
  ended : Option Int
  kids : List (Nat × Nat)
  frames : List (Nat × Option Nat)

/-- `&Stack{Begin: ..}` (stack/g.go:66-69, trap.go:121-126). -/
def GStk.new (begin : Int) : GStk := ⟨Stk.new begin, none, [], []⟩

/-- `PushNew` (stack.go:127-138, trap.go:325). -/
def GStk.enter (s : GStk) (c : Nat) (t : Int) : GStk :=
  let (stk, cur, old) := s.stk.pushNew t c
  { s with stk := stk, frames := (cur, old) :: s.frames }

/-- `Finish` by the `post` of the innermost call (stack.go:142-153, trap.go:408-420). (`setStackEnd` is left out: it concerns the
    goroutine that started the trace, whose `End` the export does not use, export.go:18.) -/
def GStk.exit (s : GStk) (t : Int) (p : Bool) : GStk :=
  match s.frames with
  | [] => s                                                        -- impossible: no call in progress
  | (cur, old) :: fs => { s with stk := s.stk.finish cur old t p, frames := fs }

/-- `AppendGoChild` (stack.go:156-172), called with `newStack.Begin.Sub(curStack.Begin)` (init.go:66-68). -/
def GStk.go (s : GStk) (k : Nat) (t : Int) : GStk :=
  match s.stk.top with
  | none => s                                                      -- stack.go:162-164
  | some _ => { s with stk := s.stk.appendGo (t - s.stk.begin), kids := (s.stk.heap.length, k) :: s.kids }

/-- `SetEndIfZero` (stack.go:175-186). -/
def GStk.done (s : GStk) (t : Int) : GStk :=
  { s with ended := match s.ended with | none => some t | some e => some e }

/-- What an event does to the stack of the goroutine it belongs to. -/
def GStk.step (s : GStk) : Ev → GStk
  | .enter c t => s.enter c t
  | .exit t p => s.exit t p
  | .spawn k t => s.go k t
  | .done t => s.done t
  | .other => s

/-- The stack attached to each goroutine that takes part in the trace. -/
abbrev World := Nat → Option GStk

/-- Goroutine 0 has called `trace.Trace` (trap.go:117-132), no other goroutine takes part yet. -/
def World.start (begin : Int) : World := fun g => if g = 0 then some (GStk.new begin) else none

def World.set (w : World) (g : Nat) (s : GStk) : World := fun x => if x = g then some s else w x

/-- One step of goroutine `g` (init.go:12-72). With `XGO_RACE_SAFE` (`raceSafe`) a new goroutine inherits nothing (init.go:30-33).
    Goroutines without stack are not traced. -/
def World.step (raceSafe : Bool) (w : World) (g : Nat) (e : Ev) : World :=
  match w g with
  | none => w                                                      -- init.go:35-37, 21-23
  | some s =>
    match e with
    | .spawn k t => if raceSafe then w else (w.set g (s.go k t)).set k (GStk.new t)     -- init.go:39, 62-69
    | e => w.set g (s.step e)

/-- The world after the first `m` steps of a history. -/
def World.after (raceSafe : Bool) (begin : Int) (H : Nat → Nat × Ev) : Nat → World
  | 0 => World.start begin
  | m + 1 => (World.after raceSafe begin H m).step raceSafe (H m).1 (H m).2

/-- A copied entry (`cloneEntry`, stack.go:244-257): its fields, what its `GetStack` returns, its copied children. -/
inductive Ent where
  | mk (n : Node) (stack : Option Nat) (children : List Ent)

/-- `cloneEntries` (stack.go:233-257). The fuel bounds the depth; entries are allocated before their children, so the number of entries is enough. -/
def clone (heap : List Node) (kids : List (Nat × Nat)) : Nat → Nat → Ent
  | 0, _ => .mk ⟨0, 0, 0, 0, 0, false, false, [], false⟩ none []
  | fuel + 1, r =>
    match heap[r]? with
    | none => .mk ⟨0, 0, 0, 0, 0, false, false, [], false⟩ none []
    | some n => .mk n (kids.lookup r) (n.children.map (clone heap kids fuel))

/-- `Snapshot` (stack.go:191-198): the roots. -/
def GStk.roots (s : GStk) : List Ent := s.stk.roots.map (clone s.stk.heap s.kids s.stk.heap.length)

/-- `stack_model.StackEntry` as far as modelled (export.go:77-87): the call (none: "go"), its times, "(running)", panic, children. -/
inductive X where
  | node (call : Option Nat) (beginNs endNs : Int) (running panic : Bool) (children : List X)
  deriving Repr

/-- How far the export is: number of observations made, number of steps the program has made. -/
structure At where
  seen : Nat
  time : Nat
  deriving DecidableEq, Repr

/-- The next observation: the others make `sched seen` steps before it. -/
def At.next (a : At) (sched : Nat → Nat) : At := ⟨a.seen + 1, a.time + sched a.seen⟩

/-- What the export needs to know about the run of the program. -/
structure Env where
  world : Nat → World
  /-- `XgoRealTimeNow` after so many steps -/
  clock : Nat → Int
  sched : Nat → Nat

/-- What happens at a `go` entry: given its child stack, its begin on the clock of the trace, and where the export is, the end of the
    entry, whether it is running, and its exported children (or nothing: the export has not ended). -/
abbrev Hop := Nat → Int → At → Option (Option (Int × Bool × List X) × At)

mutual
/-- `ExportStackEntry` (export.go:37-88). `hop` is the part of export.go:51-66 that visits the child stack. -/
def exportEntry (E : Env) (hop : Hop) (begin off : Int) (a : At) : Ent → Option (X × At)
  | .mk n stack children =>
    match exportEntries E hop begin off a children with                     -- 43
    | none => none
    | some (xs, a) =>
      let beginNs := n.beginNs + off                                        -- 44
      let endNs := n.endNs + off                                            -- 45
      let call := if n.isGo then none else some n.call
      if n.isGo && stack.isSome then                                        -- 47
        match hop (stack.getD 0) beginNs a with
        | none => none
        | some (none, a) => some (.node call beginNs endNs false n.panic xs, a)
        | some (some (e, running, ys), a) => some (.node call beginNs e running n.panic (xs ++ ys), a)
      else if !n.finished then                                              -- 70
        let a := a.next E.sched
        some (.node call beginNs (endNs + (E.clock a.time - begin)) true n.panic xs, a)    -- 71-72
      else some (.node call beginNs endNs false n.panic xs, a)
/-- `ExportStackEntries` (export.go:26-35). -/
def exportEntries (E : Env) (hop : Hop) (begin off : Int) (a : At) : List Ent → Option (List X × At)
  | [] => some ([], a)
  | t :: ts =>
    match exportEntry E hop begin off a t with
    | none => none
    | some (x, a) =>
      match exportEntries E hop begin off a ts with
      | none => none
      | some (xs, a) => some (x :: xs, a)
end

/-- The visit of a child stack (export.go:52-66). The fuel bounds the nesting of goroutines. -/
def visit (E : Env) : Nat → Hop
  | 0, _, _, _ => none
  | fuel + 1, k, beginNs, a =>
    let a := a.next E.sched
    match E.world a.time k with
    | none => some (none, a)                                                -- 52
    | some s =>
      match exportEntries E (visit E fuel) s.stk.begin beginNs a s.roots with     -- 53-55
      | none => none
      | some (xs, a) =>
        match s.ended with
        | none =>                                                           -- 60-62
          let a := a.next E.sched
          some (some (E.clock a.time - s.stk.begin + beginNs, true, xs), a)
        | some e => some (some (e - s.stk.begin + beginNs, false, xs), a)   -- 64

/-- `Export(stk, 0)` of the stack of goroutine 0 (export.go:12-24, trap.go:422), begun when the program has made `start` steps. `none`: more than
    `fuel` goroutines are nested in each other. -/
def exportTrace (E : Env) (fuel start : Nat) : Option (List X × At) :=
  let a := At.next ⟨0, start⟩ E.sched
  match E.world a.time 0 with
  | none => some ([], a)                                                    -- 13-15
  | some s => exportEntries E (visit E fuel) s.stk.begin 0 a s.roots        -- 18-23

end Verif.Runtime.TraceGo
