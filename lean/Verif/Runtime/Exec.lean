/-
Model of `trap` (runtime/internal/trap/trap.go:33-457) and of the code xgo injects into every
instrumented function, as a big-step interpreter of programs whose instrumented calls, mocks,
recorders and interceptors may themselves make instrumented calls, panic and recover.

One goroutine, after init; the registries do not change while the program runs (their evolution is
modelled in `Verif.Runtime.Registry`, in-place changes during a call in `Verif.Runtime.Slice`).
Not modelled here: the detection of `trace.Trace` itself (`Verif.Runtime.TraceStart`), `Inspect`,
argument and result values (`Verif.Runtime.Build`, `Verif.Runtime.CallValue`).
-/
namespace Verif.Runtime.Exec

/-- A `recorderHolder` (trap/stack_data.go:70-74): the hooks may be nil. `want` is the value of the
    receiver it is bound to, if any. -/
structure Handler where
  id : Nat
  want : Option Nat := none
  hasPre : Bool := true
  hasPost : Bool := true
  deriving DecidableEq, Repr

/-- A `mockHolder` (trap/mock.go:33-36). -/
structure Mock where
  id : Nat
  want : Option Nat := none
  deriving DecidableEq, Repr

/-- What code on the goroutine does, as far as instrumentation is concerned. -/
inductive Stmt where
  /-- call of instrumented function `fn` with receiver `recv`; `body` is what its original body does -/
  | call (fn : Nat) (recv : Option Nat) (body : List Stmt)
  /-- panic -/
  | panic
  /-- run `body`, recovering any panic -/
  | protect (body : List Stmt)
  deriving Repr

/-- What a pre hook does when invoked: run `body`; then return `stop` (ErrMocked) or not. -/
structure PreBeh where
  body : List Stmt
  stop : Bool

/-- What a mock does when invoked; `ok = false` would ask for the original to be called. -/
structure MockBeh where
  body : List Stmt
  ok : Bool

/-- The registries as seen by the goroutine, and the behaviour of all user hooks. A hook may behave
    differently at each invocation: its behaviour is indexed by the time of invocation. -/
structure Env where
  /-- `getLastMock` -/
  mock : Nat → Option Mock
  /-- `getRecordHandlers` -/
  recorders : Nat → List Handler
  /-- `getGeneralInterceptors` -/
  interceptors : List Handler
  /-- `stackData.hasStartedTracing` -/
  tracing : Bool
  /-- `stackData.filterTrace == nil || stackData.filterTrace(funcInfo)` -/
  filter : Nat → Bool
  preBeh : Nat → Nat → PreBeh
  postBeh : Nat → Nat → List Stmt
  mockBeh : Nat → Nat → MockBeh

/-- Observable events. `cid` identifies a call; `gen` says whether the hook belongs to a general
    interceptor (as opposed to a recorder of a specific function). -/
inductive Ev where
  | call (cid fn : Nat) (recv : Option Nat)
  | pre (cid : Nat) (gen : Bool) (h : Nat) (data : Nat)
  | preEnd (cid : Nat) (gen : Bool) (h : Nat)
  | abort (cid : Nat) (h : Nat)
  | mock (cid m : Nat)
  | mockEnd (cid m : Nat)
  | orig (cid : Nat)
  | post (cid : Nat) (gen : Bool) (h : Nat) (data : Option Nat)
  | postEnd (cid : Nat) (gen : Bool) (h : Nat)
  | nilPost (cid : Nat)
  | hookPanic (cid : Nat)
  | entry (cid : Nat) (parent : Option Nat)
  | finish (cid : Nat) (panicked : Bool)
  | callEnd (cid : Nat) (panicked : Bool)
  deriving DecidableEq, Repr

def Ev.cid : Ev → Nat
  | .call c _ _ | .pre c _ _ _ | .preEnd c _ _ | .abort c _ | .mock c _ | .mockEnd c _ | .orig c
  | .post c _ _ _ | .postEnd c _ _ | .nilPost c | .hookPanic c | .entry c _ | .finish c _ | .callEnd c _ => c

/-- Goroutine state. -/
structure St where
  /-- `G.trappingDepth` (runtime/internal/runtime/g.go:13) -/
  depth : Int
  /-- a clock, also used to name calls and the data returned by pre hooks -/
  tick : Nat
  /-- events so far, oldest first -/
  log : List Ev
  /-- `Stack.Top` (stack/stack.go:26): the call id of the innermost open trace entry -/
  top : Option Nat

def St.start : St := ⟨0, 0, [], none⟩

def St.emit (σ : St) (e : Ev) : St := { σ with log := σ.log ++ [e], tick := σ.tick + 1 }
/-- `IncTrappingDepth` (runtime/internal/runtime/g.go:44-47) -/
def St.inc (σ : St) : St := { σ with depth := σ.depth + 1 }
/-- `DecTrappingDepth` (g.go:49-51) -/
def St.dec (σ : St) : St := { σ with depth := σ.depth - 1 }

/-- State of one of the two hook loops (trap/trap.go:157-175 and 178-195). `posts` are the closures
    appended to `postRecordersAndInterceptors`, each with the `data` variable of its iteration. `cur` is
    the loop variable `h`. The runtime module is compiled as Go 1.14 (runtime/go.mod:3), so there is
    one `h` per loop, shared by all closures of the loop. -/
structure Loop where
  posts : List (Option Nat)
  cur : Option Handler
  stopped : Bool
  panicked : Bool

def Loop.start : Loop := ⟨[], none, false, false⟩

/-- A closure of `postRecordersAndInterceptors`, at the time it is called. -/
structure PostC where
  gen : Bool
  data : Option Nat
  h : Option Handler

/-- The closures of a finished loop: they all see the final value of the loop variable
    (trap/trap.go:171-173, 191-193 under Go 1.14 loop semantics). -/
def Loop.closures (gen : Bool) (L : Loop) : List PostC :=
  L.posts.map fun d => { gen := gen, data := d, h := L.cur }

/-- Receiver test for recorders (trap/trap.go:158) and for the mock (trap/trap.go:151). Receivers are
    compared by value (`sameReceiver`, trap/mock.go:363-368). -/
def wantOk (want : Option Nat) (recv : Option Nat) : Bool :=
  match want with
  | none => true
  | some v => match recv with
    | none => false
    | some r => r == v

/-- `mock` selected at trap/trap.go:138,151-153. -/
def Env.activeMock (E : Env) (fn : Nat) (recv : Option Nat) : Option Mock :=
  match E.mock fn with
  | none => none
  | some m => if wantOk m.want recv then some m else none

mutual

/-- A sequence of statements; `true` = panicking. `none` = out of fuel. -/
def execStmts (E : Env) : Nat → St → List Stmt → Option (St × Bool)
  | 0, _, _ => none
  | _ + 1, σ, [] => some (σ, false)
  | n + 1, σ, s :: ss =>
    match execStmt E n σ s with
    | none => none
    | some (σ, true) => some (σ, true)
    | some (σ, false) => execStmts E n σ ss

/-- One statement. A call runs the injected code (instrument/instrument_func/func_template.go:4):
    `post, stop := trap(...); if post != nil { defer post() }; if stop { return }` and then the body.
    A panic inside `trap` means that no post hook has been deferred yet. -/
def execStmt (E : Env) : Nat → St → Stmt → Option (St × Bool)
  | 0, _, _ => none
  | _ + 1, σ, .panic => some (σ, true)
  | n + 1, σ, .protect body =>
    match execStmts E n σ body with
    | none => none
    | some (σ, _) => some (σ, false)
  | n + 1, σ, .call fn recv body =>
    let cid := σ.tick
    let σ := σ.emit (.call cid fn recv)
    match execTrap E n σ cid fn recv with
    | none => none
    | some (σ, none) => some (σ.emit (.callEnd cid true), true)   -- trap panicked
    | some (σ, some (posts, traced, stop)) =>
      match (if stop then some (σ, false) else execStmts E n (σ.emit (.orig cid)) body) with
      | none => none
      | some (σ, p) =>
        match execPost E n σ cid posts traced p with
        | none => none
        | some (σ, p2) => some (σ.emit (.callEnd cid (p || p2)), p || p2)

/-- `trap` (trap/trap.go:33-457) for a goroutine with StackData, not inspecting, tracing already
    started or not at all. Result: `none` = panicked, else the post closures, whether a trace
    entry was pushed (with the old top), and `stop`. -/
def execTrap (E : Env) : Nat → St → Nat → Nat → Option Nat →
    Option (St × Option (List PostC × Option (Option Nat) × Bool))
  | 0, _, _, _, _ => none
  | n + 1, σ, cid, fn, recv =>
    let σ := σ.inc                                    -- trap.go:62
    let depth := σ.depth
    match runHooks E n σ cid false recv (E.recorders fn) Loop.start with      -- 157-175
    | none => none
    | some (σ, L) =>
      if L.panicked then some (σ.dec, none)
      else
        let interceptors := if depth ≤ 1 then E.interceptors else []           -- 141-150
        match (if L.stopped then some (σ, Loop.start)
               else runHooks E n σ cid true recv interceptors Loop.start) with  -- 177-196
        | none => none
        | some (σ, L2) =>
          if L2.panicked then some (σ.dec, none)
          else
            let posts := L.closures false ++ L2.closures true
            let mocked := L.stopped || L2.stopped
            let allow := E.tracing && E.filter fn                              -- 212-215
            -- 226-252: not traced unless allowed; when not aborted, only at depth 1
            let traced := allow && (mocked || depth ≤ 1)
            let oldTop := σ.top
            let σ := if traced then { σ.emit (.entry cid σ.top) with top := some cid } else σ   -- 325
            let tr := if traced then some oldTop else none
            if mocked then some (σ.dec, some (posts, tr, true))
            else
              match E.activeMock fn recv with
              | none => some (σ.dec, some (posts, tr, false))
              | some m =>
                let beh := E.mockBeh m.id σ.tick
                match execStmts E n (σ.emit (.mock cid m.id)) beh.body with
                | none => none
                | some (σ, true) => some ((σ.emit (.hookPanic cid)).dec, none)
                | some (σ, false) => some ((σ.emit (.mockEnd cid m.id)).dec, some (posts, tr, beh.ok))

/-- The loops over recorders (trap/trap.go:157-175, `gen = false`, with the receiver test) and over general
    interceptors (178-195, `gen = true`, no receiver test). -/
def runHooks (E : Env) : Nat → St → Nat → Bool → Option Nat → List Handler → Loop → Option (St × Loop)
  | 0, _, _, _, _, _, _ => none
  | _ + 1, σ, _, _, _, [], L => some (σ, L)
  | n + 1, σ, cid, gen, recv, h :: hs, L =>
    let L := { L with cur := some h }
    if !gen && !wantOk h.want recv then runHooks E n σ cid gen recv hs L      -- continue
    else if h.hasPre then
      let data := σ.tick
      let beh := E.preBeh h.id data
      match execStmts E n (σ.emit (.pre cid gen h.id data)) beh.body with
      | none => none
      | some (σ, true) => some (σ.emit (.hookPanic cid), { L with panicked := true })
      | some (σ, false) =>
        let σ := σ.emit (.preEnd cid gen h.id)
        if beh.stop then some (σ.emit (.abort cid h.id), { L with stopped := true })   -- break
        else runHooks E n σ cid gen recv hs
          (if h.hasPost then { L with posts := L.posts ++ [some data] } else L)
    else
      runHooks E n σ cid gen recv hs
        (if h.hasPost then { L with posts := L.posts ++ [none] } else L)

/-- The closure returned by `trap`: `callRecorderWithDepth` (trap/trap.go:217-224) without tracing,
    `post` (333-448) with tracing. `p` = the call is panicking. A panic in a post hook skips
    `Finish`. -/
def execPost (E : Env) : Nat → St → Nat → List PostC → Option (Option Nat) → Bool → Option (St × Bool)
  | 0, _, _, _, _, _ => none
  | n + 1, σ, cid, posts, traced, p =>
    match runPosts E n σ.inc cid posts.reverse with
    | none => none
    | some (σ, true) => some (σ.dec, true)
    | some (σ, false) =>
      match traced with
      | none => some (σ.dec, false)
      | some oldTop => some (({ σ.emit (.finish cid p) with top := oldTop }).dec, false)

/-- Running the closures in the order given (reversed by the caller, trap/trap.go:201-207). A closure whose
    handler has a nil `post` is a nil function call: panic. -/
def runPosts (E : Env) : Nat → St → Nat → List PostC → Option (St × Bool)
  | 0, _, _, _ => none
  | _ + 1, σ, _, [] => some (σ, false)
  | n + 1, σ, cid, c :: cs =>
    match c.h with
    | none => some (σ.emit (.nilPost cid), true)
    | some h =>
      if !h.hasPost then some (σ.emit (.nilPost cid), true)
      else
        let body := E.postBeh h.id σ.tick
        match execStmts E n (σ.emit (.post cid c.gen h.id c.data)) body with
        | none => none
        | some (σ, true) => some (σ.emit (.hookPanic cid), true)
        | some (σ, false) => runPosts E n (σ.emit (.postEnd cid c.gen h.id)) cid cs

end

end Verif.Runtime.Exec
