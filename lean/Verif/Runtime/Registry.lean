/-
Model of the mock / recorder / interceptor registries of xgo's runtime.

Sources (all under /repo/runtime/internal):
  trap/mock.go, trap/record.go, trap/interceptor.go, trap/stack_data.go, trap/init.go, stack/g.go
-/
namespace Verif.Runtime

/-- A goroutine (`stack.G`, runtime/internal/stack/g.go:19). -/
abbrev Gid := Nat

/-- The seven registries of `interceptorHolders` (trap/stack_data.go:27-40). -/
inductive Kind where
  | mock            -- map pc -> []*mockHolder
  | varMock         -- map varAddr -> []*varMockHolder
  | varPtrMock
  | recorder        -- map pc -> []*recorderHolder
  | varRecorder
  | varPtrRecorder
  | interceptors    -- a plain []*recorderHolder (key always 0)
  deriving DecidableEq, Repr

/-- A list inside a holder: which map, and which key (function pc or variable address).
    Simplification: for `interceptors` the key is ignored by the code; the model uses key 0. -/
structure Slot where
  kind : Kind
  key : Nat
  deriving DecidableEq, Repr

/-- `mockHolder` / `varMockHolder` / `recorderHolder` / `varRecordHolder`
    (trap/mock.go:33-40, trap/stack_data.go:70-79).
    `id` is the identity of the struct (Go compares the pointers): `some n` for the struct allocated by
    the `n`-th push call of the program, `none` for a struct allocated when a goroutine inherits
    registrations (its address is never captured by a cancel closure, hence never compared).
    `want` is `wantRecvPtr` (`none` = nil; `some v` = pointer to a receiver of value `v`), `fn` stands for
    the handler closures stored in the struct. -/
structure Entry where
  id : Option Nat
  want : Option Nat
  fn : Nat
  deriving DecidableEq, Repr

/-- The contents of an `interceptorHolders` value: missing map and missing key both read as the
    empty list, as in Go. -/
abbrev Holders := Slot → List Entry

/-- Which `interceptorHolders` a `holder` pointer points to: the package variable
    `globalInterceptorHolder` (trap/stack_data.go:13) or the one inside the StackData at address `sid`. -/
inductive HolderRef where
  | global
  | stack (sid : Nat)
  deriving DecidableEq, Repr

/-- The variables captured by the cancel closure returned from a push
    (trap/mock.go:171-181): `holder`, the key, and `h`. -/
structure Cancel where
  holder : HolderRef
  slot : Slot
  id : Nat
  deriving DecidableEq, Repr

/-- The memory relevant to the registries. -/
structure World where
  /-- `runtime.XgoInitFinished()` -/
  initDone : Bool
  /-- `globalInterceptorHolder` -/
  global : Holders
  /-- heap of `StackData.interceptors` by address -/
  stacks : Nat → Holders
  /-- the stack (with its StackData) attached to each goroutine, stack/g.go:41-52.
      Simplification: a Stack and its StackData are one object; every attach in trap/ sets both. -/
  attached : Gid → Option Nat
  /-- next fresh StackData address -/
  next : Nat
  /-- cancel functions handed to the user so far, in the order of the push calls -/
  cancels : List Cancel

def World.init : World where
  initDone := false
  global := fun _ => []
  stacks := fun _ _ => []
  attached := fun _ => none
  next := 0
  cancels := []

/-- `holder.m[key] = list`. -/
def Holders.set (h : Holders) (s : Slot) (l : List Entry) : Holders :=
  fun s' => if s' = s then l else h s'

def World.get (w : World) : HolderRef → Holders
  | .global => w.global
  | .stack sid => w.stacks sid

def World.put (w : World) (r : HolderRef) (h : Holders) : World :=
  match r with
  | .global => { w with global := h }
  | .stack sid => { w with stacks := fun i => if i = sid then h else w.stacks i }

/-- `getOrAttachStackData` after init (trap/stack_data.go:46-68, stack/g.go:55-71): the attached
    StackData, or a fresh empty one. Returns its address. -/
def World.getOrAttach (w : World) (g : Gid) : World × Nat :=
  match w.attached g with
  | some sid => (w, sid)
  | none =>
    ({ w with
        attached := fun g' => if g' = g then some w.next else w.attached g'
        stacks := fun i => if i = w.next then (fun _ => []) else w.stacks i
        next := w.next + 1 }, w.next)

/-- The common text of `pushMockHandler` (trap/mock.go:170-181), `pushVarMockHandler` (202-213),
    `pushVarPtrMockHandler` (234-245), `PushRecordHandler` (trap/record.go:140-151),
    `PushVarRecordHandler` (172-183), `PushVarPtrRecordHandler` (204-215) and `pushInterceptor`
    (trap/interceptor.go:38-51), which differ only in the map they use.
    The returned cancel closure is appended to `cancels`. -/
def World.push (w : World) (g : Gid) (s : Slot) (want : Option Nat) (fn : Nat) : World :=
  let (w, r) : World × HolderRef :=
    if w.initDone then
      let (w, sid) := w.getOrAttach g
      (w, .stack sid)
    else (w, .global)
  let n := w.cancels.length
  let h : Entry := { id := some n, want := want, fn := fn }
  let w := w.put r ((w.get r).set s (w.get r s ++ [h]))
  { w with cancels := w.cancels ++ [{ holder := r, slot := s, id := n }] }

/-- The list surgery of a cancel closure (trap/mock.go:185-198): drop the last element if it is `h`,
    else remove the first occurrence; `none` is a panic (index out of range on the empty list, or
    "pop mock not found").
    Simplification: `append(list[:i], list[i+1:]...)` shifts the backing array in place; here lists
    are values. The effect on slices already handed out is modelled in `Verif.Runtime.Slice`. -/
def removeEntry (list : List Entry) (id : Nat) : Option (List Entry) :=
  match list.getLast? with
  | none => none
  | some l =>
    if l.id = some id then some (list.take (list.length - 1))
    else
      match list.findIdx? (fun m => m.id = some id) with
      | some i => some (list.take i ++ list.drop (i + 1))
      | none => none

/-- The cancel closure (trap/mock.go:181-199 and its copies); `none` is a panic. -/
def World.cancel (w : World) (c : Cancel) : Option World :=
  if c.holder = .global && w.initDone then none
  else
    match removeEntry (w.get c.holder c.slot) c.id with
    | none => none
    | some l => some (w.put c.holder ((w.get c.holder).set c.slot l))

/-- The loops of `cloneFuncMocks` (trap/init.go:78-84), `cloneVarMocks` (96-101),
    `cloneFuncRecordMapping` (113-119), `cloneVarRecordMapping` (130-136) and `cloneRecorderList`
    (145-151): fresh structs with the same handlers. `keepWant` is true where the clone copies
    `wantRecvPtr` (only `cloneFuncMocks`, line 81). -/
def cloneList (keepWant : Bool) (l : List Entry) : List Entry :=
  l.map fun e => { id := none, want := if keepWant then e.want else none, fn := e.fn }

/-- Does the clone of this registry keep `wantRecvPtr`? `cloneFuncMocks` does (trap/init.go:80-83);
    `cloneFuncRecordMapping` does not (115-118). The var holders have no such field, and general
    interceptors are always registered with nil (trap/interceptor.go:49). -/
def keepsWant : Kind → Bool
  | .mock => true
  | _ => false

/-- `inerhitStack` (trap/init.go:29-70): run on goroutine creation. `raceSafe` is
    flags.XGO_RACE_SAFE. During init `GetStack` and `GetOrAttachStack` both return the shared
    `InitGStack`, whose registries are never filled (pushes go to the global holder), so nothing
    is inherited. The tracing part (60-69) is modelled
    in `Verif.Runtime.Stack`. -/
def World.spawn (raceSafe : Bool) (w : World) (parent child : Gid) : World :=
  if raceSafe then w
  else if !w.initDone then w
  else
    match w.attached parent with
    | none => w
    | some sid =>
      let (w, nsid) := w.getOrAttach child
      let src := w.stacks sid
      let h : Holders := fun s => cloneList (keepsWant s.kind) (src s)
      w.put (.stack nsid) h

/-- `DetachStack` (stack/g.go:25-27), run when a trace finishes (trap/trap.go:446), and the
    disappearance of goroutine-local data at goroutine exit. -/
def World.detach (w : World) (g : Gid) : World :=
  { w with attached := fun g' => if g' = g then none else w.attached g' }

/-- What user programs and the Go runtime do to the registries. -/
inductive Op where
  /-- mock.Patch / mock.Mock / trace.Record / trap.AddInterceptor on goroutine `g` -/
  | push (g : Gid) (s : Slot) (want : Option Nat) (fn : Nat)
  /-- call the cancel function returned by the `n`-th push of the program -/
  | cancel (n : Nat)
  /-- goroutine `parent` executes a `go` statement creating `child` -/
  | spawn (parent child : Gid)
  /-- all package init functions have run -/
  | finishInit
  /-- the stack of `g` is detached -/
  | detach (g : Gid)
  deriving DecidableEq, Repr

/-- One operation: the new world and whether the operation panicked. A panicking cancel has not
    written anything (trap/mock.go:181-199). Calling a cancel function that was never returned is
    impossible; the model treats it as a panic. -/
def World.step (raceSafe : Bool) (w : World) : Op → World × Bool
  | .push g s want fn => (w.push g s want fn, false)
  | .cancel n =>
    match w.cancels[n]? with
    | none => (w, true)
    | some c =>
      match w.cancel c with
      | none => (w, true)
      | some w' => (w', false)
  | .spawn p c => (w.spawn raceSafe p c, false)
  | .finishInit => ({ w with initDone := true }, false)
  | .detach g => (w.detach g, false)

/-- Runs a sequence of operations (first operation first). -/
def World.run (raceSafe : Bool) (w : World) (ops : List Op) : World :=
  ops.foldl (fun w op => (w.step raceSafe op).1) w

/-- The goroutine-local list for a slot: `c.interceptors.mock[pc]` with `c == nil` reading as empty
    (trap/stack_data.go:82-85). -/
def World.localList (w : World) (g : Gid) (s : Slot) : List Entry :=
  match w.attached g with
  | none => []
  | some sid => w.stacks sid s

/-- `getLastMock`, `getLastVarMock`, `getLastVarPtrMock` (trap/stack_data.go:81-124): the last
    entry of the goroutine's list, or of the global list if the former is empty. -/
def World.lastMock (w : World) (g : Gid) (s : Slot) : Option Entry :=
  let l := w.localList g s
  let l := if l.length = 0 then w.global s else l
  if l.length = 0 then none else l[l.length - 1]?

/-- `getRecordHandlers`, `getVarRecordHandlers`, `getVarPtrRecordHandlers`, `getGeneralInterceptors`
    (trap/stack_data.go:126-196): local ones first, then global ones. -/
def World.handlers (w : World) (g : Gid) (s : Slot) : List Entry :=
  let gl := w.global s
  let lo := w.localList g s
  if gl.length > 0 && lo.length > 0 then lo ++ gl
  else if lo.length > 0 then lo
  else gl

end Verif.Runtime
