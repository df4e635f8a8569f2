/-
Model of calls in Go with `defer`, `panic`, `recover` and `runtime.Goexit`, and of what xgo puts at the beginning of a function.

Source: instrument/instrument_func/func_template.go:4 (the statements put behind the opening brace);
runtime/internal/trap/trap.go:129-205, 233-263, 338-449 (what the trap and its post function do, as far as it concerns the call);
runtime/internal/runtime/xgo_trap_template.go:96-105 (`XgoPeekPanic`).

The language has what matters for the order in which things happen: computations on the memory of the program and of the frame, branches,
loops, calls, deferred function literals, deferred calls, `panic`, `recover`, `return`, `Goexit`. What Go does with them is that of the
language specification and of src/runtime/panic.go.

Simplifications: one goroutine; a function literal is only deferred, never stored; what the trap does (look up hooks, run them) is a
function of the memory of the program, of the frame and of the memory of the hooks; hooks end.
-/
namespace Verif.Runtime.Defer

/-- Code of a function: `S` is the memory of the program, `F` that of a frame (parameters, locals, results), `V` the values of panics, and
    `P` the post functions that a trap returns. -/
inductive Code (S F V P : Type)
  /-- the end of the block -/
  | done
  /-- any computation; it may panic -/
  | prim (g : S → F → S × F × Option V) (rest : Code S F V P)
  | ite (b : S → F → Bool) (t e rest : Code S F V P)
  | loop (b : S → F → Bool) (body rest : Code S F V P)
  /-- `k(f(x))`: `x` makes the frame of the callee, `k` gets it back with the results -/
  | call (f : Nat) (x : S → F → F) (k : F → S → F → S × F) (rest : Code S F V P)
  /-- `defer func(){d}()` -/
  | deferLit (d rest : Code S F V P)
  /-- `defer f(x)` -/
  | deferCall (f : Nat) (x : S → F → F) (rest : Code S F V P)
  /-- `k(recover())` -/
  | recover (k : Option V → S → F → S × F) (rest : Code S F V P)
  | ret
  | goexit
  /-- `post, stop := trap(...)` of function `f` (func_template.go:4) -/
  | trap (f : Nat) (k : Option P → Bool → Code S F V P)
  /-- `defer post()` (func_template.go:4) -/
  | deferPost (p : P) (rest : Code S F V P)

variable {S F V P H : Type}

/-- `if post != nil { defer post() }` (func_template.go:4). -/
def deferring (post : Option P) (next : Code S F V P) : Code S F V P :=
  match post with
  | some p => .deferPost p next
  | none => next

/-- What is put into function `f` (func_template.go:4):
    `post, stop := trap(...); if post != nil { defer post() }; if stop { return }`. -/
def stub (f : Nat) (body : Code S F V P) : Code S F V P :=
  .trap f fun post stop => deferring post (if stop then .ret else body)

/-- The program as xgo compiles it: the functions in `sel` get the trap. -/
def instrument (sel : Nat → Bool) (prog : Nat → Code S F V P) (f : Nat) : Code S F V P :=
  if sel f then stub f (prog f) else prog f

/-- How a frame is left: with a panic, or because the goroutine exits; `exit` stays when a panic on the way is recovered. -/
structure Status (V : Type) where
  exit : Bool := false
  panic : Option V := none
deriving DecidableEq

/-- Left by `return`. -/
def Status.normal (st : Status V) : Bool := !st.exit && st.panic.isNone

/-- What a block ends with: its end, a `return`, or a panic or exit. -/
inductive End (V : Type)
  | fall
  | ret
  | unwind (st : Status V)

/-- A deferred function. -/
inductive Deferred (S F V P : Type)
  | lit (d : Code S F V P)
  | call (f : Nat) (frame : F)
  | post (p : P)

/-- What the trap does: it may change the program's memory, the frame (by the pointers it is given) and the memory of the hooks; then a hook
    has panicked, or it returns a post function and whether to stop. `post` is what the post function does; it is told whether
    `XgoPeekPanic` sees a panic. -/
structure Trap (S F V P H : Type) where
  trap : Nat → S → F → H → S × F × H × (V ⊕ (Option P × Bool))
  post : P → Bool → S → F → H → S × F × H × Option V

/-- An observer who sees each call begin and end: the function, its frame, how it ends, and whether a panic was on while it was called. -/
structure Observer (S F V H : Type) where
  enter : Nat → S → F → H → H
  leave : Nat → S → F → Status V → Bool → H → H

/-- An observer who does not look. -/
def Observer.none : Observer S F V H where
  enter _ _ _ h := h
  leave _ _ _ _ _ h := h

/-- Where a frame was started: `can` is the panic that it may recover (it is a deferred function run because of that panic), `peek` whether
    `XgoPeekPanic` saw a panic when it was called. -/
structure Ctx (V : Type) where
  can : Option V := Option.none
  peek : Bool := false

/-- The state while a frame runs. -/
structure St (S F V P H : Type) where
  s : S
  h : H
  f : F
  recovered : Bool := false
  defers : List (Deferred S F V P) := []

/-- `XgoPeekPanic` (xgo_trap_template.go:96-105): is the last panic on, and not recovered? -/
def peek (c : Ctx V) (recovered : Bool) : Bool :=
  match c.can with
  | some _ => !recovered
  | none => c.peek

/-- The same while the frame is left. -/
def peekLeaving (c : Ctx V) (recovered : Bool) (st : Status V) : Bool :=
  st.panic.isSome || (!st.exit && peek c recovered)

/-- What a deferred function, which recovered or not and was left with `d`, makes of how the frame is left. -/
def after (st : Status V) (recovered : Bool) (d : Status V) : Status V where
  exit := st.exit || d.exit
  panic := match d.panic with
    | some v => some v
    | none => if d.exit || recovered then none else st.panic

/-- What a function call gives: memory, frame, whether it recovered the panic it was run for, and how it was left. -/
structure Res (S F V H : Type) where
  s : S
  h : H
  f : F
  recovered : Bool
  status : Status V

/-- A call of a function in a context, with memory and frame. -/
abbrev Call (S F V H : Type) := Ctx V → Nat → S → H → F → Option (Res S F V H)

/-- A loop: at most `n` times. -/
def iterate (b : S → F → Bool) (body : St S F V P H → Option (St S F V P H × End V)) : Nat → St S F V P H →
    Option (St S F V P H × End V)
  | 0, _ => none
  | n + 1, st =>
    if b st.s st.f then
      match body st with
      | none => none
      | some (st, .fall) => iterate b body n st
      | some (st, e) => some (st, e)
    else some (st, .fall)

/-- Running a block. -/
def code (T : Trap S F V P H) (call : Call S F V H) (n : Nat) (c : Ctx V) : Code S F V P → St S F V P H → Option (St S F V P H × End V)
  | .done, st => some (st, .fall)
  | .prim g rest, st =>
    match g st.s st.f with
    | (s, f, none) => code T call n c rest { st with s := s, f := f }
    | (s, f, some v) => some ({ st with s := s, f := f }, .unwind { panic := some v })
  | .ite b t e rest, st =>
    match if b st.s st.f then code T call n c t st else code T call n c e st with
    | none => none
    | some (st, .fall) => code T call n c rest st
    | some (st, e) => some (st, e)
  | .loop b body rest, st =>
    match iterate b (code T call n c body) n st with
    | none => none
    | some (st, .fall) => code T call n c rest st
    | some (st, e) => some (st, e)
  | .call f x k rest, st =>
    match call { peek := peek c st.recovered } f st.s st.h (x st.s st.f) with
    | none => none
    | some r =>
      if r.status.normal then code T call n c rest { st with s := (k r.f r.s st.f).1, h := r.h, f := (k r.f r.s st.f).2 }
      else some ({ st with s := r.s, h := r.h }, .unwind r.status)
  | .deferLit d rest, st => code T call n c rest { st with defers := .lit d :: st.defers }
  | .deferCall f x rest, st => code T call n c rest { st with defers := .call f (x st.s st.f) :: st.defers }
  | .recover k rest, st =>
    let v := if st.recovered then none else c.can
    code T call n c rest { st with s := (k v st.s st.f).1, f := (k v st.s st.f).2, recovered := st.recovered || c.can.isSome }
  | .ret, st => some (st, .ret)
  | .goexit, st => some (st, .unwind { exit := true })
  | .trap f k, st =>
    match T.trap f st.s st.f st.h with
    | (s, fr, h, .inl v) => some ({ st with s := s, f := fr, h := h }, .unwind { panic := some v })
    | (s, fr, h, .inr (post, stop)) => code T call n c (k post stop) { st with s := s, f := fr, h := h }
  | .deferPost p rest, st => code T call n c rest { st with defers := .post p :: st.defers }

/-- Running the deferred functions of a frame that is left with `e`, the last one first. -/
def leaving (T : Trap S F V P H) (call : Call S F V H) (lit : Ctx V → S → H → F → Code S F V P → Option (Res S F V H))
    (c : Ctx V) (recovered : Bool) : List (Deferred S F V P) → S → H → F → Status V → Option (Res S F V H)
  | [], s, h, f, e => some { s := s, h := h, f := f, recovered := recovered, status := e }
  | .lit d :: ds, s, h, f, e =>
    match lit { can := e.panic, peek := peekLeaving c recovered e } s h f d with
    | none => none
    | some r => leaving T call lit c recovered ds r.s r.h r.f (after e r.recovered r.status)
  | .call g x :: ds, s, h, f, e =>
    match call { can := e.panic, peek := peekLeaving c recovered e } g s h x with
    | none => none
    | some r => leaving T call lit c recovered ds r.s r.h f (after e r.recovered r.status)
  | .post p :: ds, s, h, f, e =>
    match T.post p (peekLeaving c recovered e) s f h with
    | (s, f, h, v) => leaving T call lit c recovered ds s h f (after e false { panic := v })

/-- How a frame begins to be left. -/
def End.status : End V → Status V
  | .unwind e => e
  | _ => {}

/-- A call, when frames can be run: the observer sees its begin and its end. -/
def observed (O : Observer S F V H) (prog : Nat → Code S F V P) (run : Ctx V → S → H → F → Code S F V P → Option (Res S F V H)) :
    Call S F V H := fun c g s h f =>
  (run c s (O.enter g s f h) f (prog g)).map fun r => { r with h := O.leave g r.s r.f r.status (peek c r.recovered) r.h }

/-- Running the body of a function or function literal, then what it deferred; `n` bounds the number of nested calls and of rounds of a
    loop. -/
def frame (T : Trap S F V P H) (O : Observer S F V H) (prog : Nat → Code S F V P) : Nat → Ctx V → S → H → F → Code S F V P →
    Option (Res S F V H)
  | 0, _, _, _, _, _ => none
  | n + 1, c, s, h, f, body =>
    let call := observed O prog (frame T O prog n)
    match code T call n c body { s := s, h := h, f := f } with
    | none => none
    | some (st, e) => leaving T call (frame T O prog n) c st.recovered st.defers st.s st.h st.f e.status

/-- Calling a function. -/
def func (T : Trap S F V P H) (O : Observer S F V H) (prog : Nat → Code S F V P) (n : Nat) : Call S F V H :=
  observed O prog (frame T O prog n)

end Verif.Runtime.Defer
