/-
Model of the variable traps: the getters generated for an instrumented package variable and the trap
functions they call.

Sources: instrument/instrument_var/var_template.go, runtime/internal/trap/var.go
-/
import Verif.Runtime.Registry

namespace Verif.Runtime.Var
open Verif.Runtime

/-- Go values held in memory: plain data or a pointer. Simplification: all other value shapes are
    identified with `data`. -/
inductive Val where
  | data (n : Nat)
  | ptr (addr : Nat)
  deriving DecidableEq, Repr

/-- Memory: one value per variable address. -/
abbrev Mem := Nat → Val

def Mem.set (m : Mem) (a : Nat) (v : Val) : Mem := fun b => if b = a then v else m b

/-- What running a user hook does: it is given the address of `__mock_res` and either ends in some
    memory or panics (`none`). Everything the hook does in between (including reading other
    instrumented variables) is part of this function. -/
abbrev HookFn := Mem → Nat → Option Mem

/-- A registered handler of a variable (`varMockHolder`, `varRecordHolder`,
    `recorderHolder`; trap/mock.go:38-40, trap/stack_data.go:70-79). Mocks use `mock`, recorders
    and general interceptors use `pre` / `post` (`none` = nil). The data value passed from pre to post
    is not modelled. -/
structure Handler where
  mock : HookFn
  pre : Option HookFn
  post : Option HookFn

/-- The handler that `pushMockReplacer` and `pushMockReplacerByName` register for a variable
    (trap/mock.go:135-138, 293-296): call the replacer, then store its result through `res`. -/
def replacerHook (replacer : Mem → Option (Mem × Val)) : HookFn := fun m res =>
  match replacer m with
  | none => none
  | some (m', v) => some (m'.set res v)

/-- Calls a hook if it is not nil (trap/var.go:113-115, 126-128, 136-138). -/
def callOpt (f : Option HookFn) (m : Mem) (res : Nat) : Option Mem :=
  match f with
  | none => some m
  | some f => f m res

/-- Runs the `pre`s of a list of holders in order (trap/var.go:111-121 and 124-134); the boolean
    second results are discarded there. -/
def runPres (hs : List Handler) (m : Mem) (res : Nat) : Option Mem :=
  hs.foldl (fun acc h => acc.bind fun m => callOpt h.pre m res) (some m)

/-- The post closures (trap/var.go:116-120, 129-133). The closures capture the loop variable, of which
    there is one per loop (go.mod says go 1.14): when they run, it holds the last element. So each
    holder having a post contributes one call of the *last* holder's post. -/
def runPosts (hs : List Handler) (m : Mem) (res : Nat) : Option Mem :=
  let n := (hs.filter fun h => h.post.isSome).length
  (List.replicate n ()).foldl
    (fun acc _ => acc.bind fun m =>
      match hs.getLast? with
      | none => none
      | some l => match l.post with
        | none => none
        | some f => f m res) (some m)

/-- `doTrapVar` (trap/var.go:109-165): recorder pres, interceptor pres, the mock, recorder posts,
    interceptor posts. Lines 147-164 (recording the read in the trace) only read the result and are
    left out. -/
def doTrapVar (recorders interceptors : List Handler) (mock : Option Handler) (m : Mem) (res : Nat) :
    Option Mem :=
  (runPres recorders m res).bind fun m =>
  (runPres interceptors m res).bind fun m =>
  (callOpt (mock.map (·.mock)) m res).bind fun m =>
  (runPosts recorders m res).bind fun m =>
  runPosts interceptors m res

/-- Both trap functions (trap/var.go:15-47 and 49-107), which differ in the registries they look
    into. `sem` gives the handler closures of a registration; `depth` is the trapping depth after
    `IncTrappingDepth`, `tracing` whether a trace is being recorded.
    Not modelled: `stack.NilGStack` (running on g0). -/
def trap (sem : Nat → Handler) (w : World) (g : Gid) (mockKind recKind : Kind) (addr : Nat)
    (depth : Nat) (tracing : Bool) (m : Mem) (res : Nat) : Option Mem :=
  let recorders := w.handlers g ⟨recKind, addr⟩
  let mock := w.lastMock g ⟨mockKind, addr⟩
  let interceptors := if depth ≤ 1 then w.handlers g ⟨.interceptors, 0⟩ else []
  let tracing := depth ≤ 1 && tracing
  if mock.isNone && recorders.length == 0 && interceptors.length == 0 && !tracing then some m
  else doTrapVar (recorders.map fun e => sem e.fn) (interceptors.map fun e => sem e.fn)
    (mock.map fun e => sem e.fn) m res

/-- `trapVar` (trap/var.go:15-47). -/
def trapVar (sem : Nat → Handler) (w : World) (g : Gid) (addr depth : Nat) (tracing : Bool) (m : Mem)
    (res : Nat) : Option Mem :=
  trap sem w g .varMock .varRecorder addr depth tracing m res

/-- `trapVarPtr` (trap/var.go:49-107) with `DISABLE_PTR_FALLBACK = true`. -/
def trapVarPtr (sem : Nat → Handler) (w : World) (g : Gid) (addr depth : Nat) (tracing : Bool)
    (m : Mem) (res : Nat) : Option Mem :=
  trap sem w g .varPtrMock .varPtrRecorder addr depth tracing m res

/-- The generated getter `V_xgo_get` (var_template.go:12-16), which replaces a read of `V`: copy `V`
    to the fresh local `__mock_res` at address `res`, trap, return it. `none` is a panic. -/
def getVar (sem : Nat → Handler) (w : World) (g : Gid) (addr depth : Nat) (tracing : Bool) (m : Mem)
    (res : Nat) : Option (Mem × Val) :=
  match trapVar sem w g addr depth tracing (m.set res (m addr)) res with
  | none => none
  | some m' => some (m', m' res)

/-- The generated getter `V_xgo_get_addr` (var_template.go:17-21), which replaces `&V`. -/
def getVarAddr (sem : Nat → Handler) (w : World) (g : Gid) (addr depth : Nat) (tracing : Bool)
    (m : Mem) (res : Nat) : Option (Mem × Val) :=
  match trapVarPtr sem w g addr depth tracing (m.set res (.ptr addr)) res with
  | none => none
  | some m' => some (m', m' res)

end Verif.Runtime.Var
