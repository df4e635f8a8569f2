/-
C97: which calls are caught by a mock that was asked for with a function value (`mock.Patch(f, …)`, `mock.Mock(f, …)`,
`trap.…Record(f, …)`), and what asking does. Sources: runtime/internal/trap/inspect.go, runtime/internal/trap/trap.go,
runtime/internal/trap/mock.go, runtime/internal/trap/stack_data.go.

Simplifications: Go 1.20 and later (`generic.GenericImplIsClosure` false); one goroutine, after initialisation; the lookup of names is
`Verif.Runtime.Functab` (C38) and appears here only as "known or not"; recorders and interceptors are in `Verif.Runtime.Exec`; the body of a
function is the list of what it does when it is entered (its arguments are left out: `Inspect` passes zero values); a mock's
replacement is one event; panics are not recovered by the program.
-/
namespace Verif.Runtime.PatchTarget

/-- A call: the declared function or method, the type arguments (0 for functions without), and the receiver's value. -/
structure Call where
  fn : Nat
  targs : Nat := 0
  recv : Option Nat := none
  deriving DecidableEq, Repr

/-- What the body of a function does. -/
inductive Act
  /-- something the world sees, such as closing a file -/
  | effect (e : Nat)
  | call (c : Call)
  | panics
  deriving DecidableEq, Repr

/-- A declared function: `instr` tells whether xgo put a trap into it and registered it (instrument_func/trap.go:56-232). -/
structure Decl where
  instr : Bool
  generic : Bool := false
  acts : List Act := []

/-- A program. `entry f a` is the entry point of the machine code for `f` with type arguments `a`; the Go compiler lets type arguments of
    the same shape, as are all pointers, share one body. `wrap i` is the entry point of the function the compiler makes for
    the method expression `I.M` of interface method `i`. -/
structure Prog where
  decl : Nat → Decl
  entry : Nat → Nat → Nat
  wrap : Nat → Nat
  /-- interfaces in functab (functab.go:117-143) -/
  intfKnown : Nat → Bool
  /-- can values of the receiver's type be compared with `==` without a panic -/
  comparable : Nat → Bool

/-- What linkers guarantee: different functions have different code, and the compiler's own functions are none of them. -/
structure Linked (p : Prog) : Prop where
  functions : ∀ f a g b, p.entry f a = p.entry g b → f = g
  plain : ∀ f a b, (p.decl f).generic = false → p.entry f a = p.entry f b
  wrappers : ∀ i f a, p.wrap i ≠ p.entry f a
  nonzero : ∀ f a, p.entry f a ≠ 0

/-- `mockHolder` under its key (mock.go:33-36, 170-200). -/
structure Hook where
  pc : Nat
  want : Option Nat
  id : Nat
  deriving DecidableEq, Repr

/-- `StackData` (stack_data.go), as far as needed: the mocks in the order they were pushed, whether `inspecting` is set, and
    what its handler was told (inspect.go:81-87), the latest last. -/
structure G where
  mocks : List Hook := []
  insp : Bool := false
  seen : List (Nat × Option Nat) := []
  deriving DecidableEq, Repr

/-- What an observer sees. -/
inductive Ev
  /-- the body of the function called is entered -/
  | entered (c : Call)
  /-- mock `id` runs in its place -/
  | replaced (id : Nat) (c : Call)
  | effect (e : Nat)
  deriving DecidableEq, Repr

/-- What `trap` decides. -/
inductive Verdict
  | body
  | mock (id : Nat)
  /-- `==` on values that cannot be compared -/
  | crash
  deriving DecidableEq, Repr

/-- `getLastMock` and the receiver test (trap.go:140-155, stack_data.go:81-94, `sameReceiver` mock.go:363-368). Comparing a
    value with itself is taken to give true (not so for NaN). -/
def verdict (p : Prog) (g : G) (c : Call) : Verdict :=
  match (g.mocks.filter fun h => h.pc = p.entry c.fn c.targs).getLast? with
  | none => .body
  | some h =>
    match h.want with
    | none => .mock h.id
    | some w =>
      match c.recv with
      | none => .body
      | some r =>
        if p.comparable w = false ∨ p.comparable r = false then .crash
        else if w = r then .mock h.id else .body

/-- Runs the statements of a body; `none` when a call has no result. The flag tells whether it ends in a panic. -/
def runActs (k : G → Call → Option (G × List Ev × Bool)) (g : G) : List Act → Option (G × List Ev × Bool)
  | [] => some (g, [], false)
  | .effect e :: as => (runActs k g as).map fun r => (r.1, .effect e :: r.2.1, r.2.2)
  | .panics :: _ => some (g, [], true)
  | .call c :: as =>
    (k g c).bind fun r =>
      if r.2.2 then some r
      else (runActs k r.1 as).map fun s => (s.1, r.2.1 ++ s.2.1, s.2.2)

/-- A call (trap.go:33-260 at the start of an instrumented function): while `inspecting` is set, the handler is told of
    the call and the function returns at once (trap.go:73-76). The number bounds the depth of calls. -/
def runCall : Nat → Prog → G → Call → Option (G × List Ev × Bool)
  | 0, _, _, _ => none
  | n + 1, p, g, c =>
    let body := (runActs (runCall n p) g (p.decl c.fn).acts).map fun r => (r.1, .entered c :: r.2.1, r.2.2)
    if (p.decl c.fn).instr then
      if g.insp then some ({ g with seen := g.seen ++ [(p.entry c.fn c.targs, c.recv)] }, [], false)
      else match verdict p g c with
        | .crash => some (g, [], true)
        | .mock id => some (g, [.replaced id c], false)
        | .body => body
    else body

/-- A function value, as a Go programmer writes it. -/
inductive FnVal
  /-- `F`, or the method expression `(*T).M` -/
  | func (f : Nat)
  /-- the method value `x.M`; `r` is the value of `x` -/
  | bound (f a r : Nat)
  /-- `F[T]`, or `G[T].M` -/
  | inst (f a : Nat)
  /-- `v.M` for a variable of interface type; `f` is the method of the value in it -/
  | viaIntf (i f a r : Nat)
  /-- the method expression `I.M` of an interface type -/
  | intfExpr (i : Nat)
  deriving DecidableEq, Repr

/-- How `mock.Patch` ends. -/
inductive Out
  | ok
  /-- panic with ErrNotInstrumented (inspect.go:62-66) -/
  | notInstrumented
  /-- panic "failed to retrieve instance pointer" (inspect.go:103-108) -/
  | noInstance
  /-- a panic of the function inspected -/
  | crashed
  deriving DecidableEq, Repr

/-- Which call `fn.Call(args)` makes, and `needRecv` (inspect.go:53-60, 78-101). -/
def probe : FnVal → Option (Call × Bool)
  | .func _ => none
  | .intfExpr _ => none
  | .bound f a r => some (⟨f, a, some r⟩, true)
  | .viaIntf _ f a r => some (⟨f, a, some r⟩, true)
  | .inst f a => some (⟨f, a, none⟩, false)

/-- Is the name known to functab (inspect.go:36-66; C38). Functions that are generic have no entry for their bare name. -/
def known (p : Prog) : FnVal → Bool
  | .func f => (p.decl f).instr && !(p.decl f).generic
  | .bound f _ _ => (p.decl f).instr
  | .inst f _ => (p.decl f).instr
  | .viaIntf i _ _ _ => p.intfKnown i
  | .intfExpr i => p.intfKnown i

/-- The entry point of the function value itself (`funcPC`, inspect.go:34), where it is used as the key (inspect.go:36-44,
    70-74). -/
def ownPC (p : Prog) : FnVal → Nat
  | .func f => p.entry f 0
  | .intfExpr i => p.wrap i
  | .bound f a _ => p.entry f a
  | .viaIntf _ f a _ => p.entry f a
  | .inst f a => p.entry f a

/-- `Inspect` (inspect.go:20-110): the key and the receiver. `inspecting` is cleared by a deferred function (inspect.go:88-90), panic or not. When
    nothing is trapped the key is 0. -/
def inspect (n : Nat) (p : Prog) (g : G) (v : FnVal) : Option (G × List Ev × Out × Nat × Option Nat) :=
  if known p v = false then some (g, [], .notInstrumented, 0, none)
  else match probe v with
    | none => some (g, [], .ok, ownPC p v, none)
    | some (c, needRecv) =>
      (runCall n p { g with insp := true, seen := [] } c).map fun r =>
        let g' : G := { r.1 with insp := false, seen := [] }
        if r.2.2 then (g', r.2.1, .crashed, 0, none)
        else
          let last := r.1.seen.getLast?.getD (0, none)
          let recv := if needRecv then last.2 else none
          if needRecv && recv.isNone then (g', r.2.1, .noInstance, 0, none)
          else (g', r.2.1, .ok, last.1, recv)

/-- `pushMockReplacer`, `pushMockInterceptor` (mock.go:87-168) and `pushMockHandler` (mock.go:170-200) for a function value. -/
def patch (n : Nat) (p : Prog) (g : G) (v : FnVal) (id : Nat) : Option (G × List Ev × Out) :=
  (inspect n p g v).map fun r =>
    match r.2.2.1 with
    | .ok => ({ r.1 with mocks := r.1.mocks ++ [⟨r.2.2.2.1, r.2.2.2.2, id⟩] }, r.2.1, .ok)
    | o => (r.1, r.2.1, o)

/-- `PushMockByName`, `pushMockReplacerByName` (mock.go:58-79, 266-306) for the name of function `f`: the key is `FuncInfo.PC`, which is 0 for
    generic functions (functab.go:240-268). -/
def patchByName (p : Prog) (g : G) (f id : Nat) : G × Out :=
  if (p.decl f).instr then
    ({ g with mocks := g.mocks ++ [⟨if (p.decl f).generic then 0 else p.entry f 0, none, id⟩] }, .ok)
  else (g, .notInstrumented)

/-! ### Specification -/

/-- Is a call one of the function that the value names: same function, same type arguments if it has any, and for a method
    value the same receiver. -/
def Named (p : Prog) : FnVal → Call → Prop
  | .func f, c => c.fn = f
  | .bound f a r, c => c.fn = f ∧ ((p.decl f).generic = true → c.targs = a) ∧ c.recv = some r
  | .viaIntf _ f a r, c => c.fn = f ∧ ((p.decl f).generic = true → c.targs = a) ∧ c.recv = some r
  | .inst f a, c => c.fn = f ∧ ((p.decl f).generic = true → c.targs = a)
  | .intfExpr _, _ => False

/-- The function a value leads to. -/
def fnOf : FnVal → Option Nat
  | .func f => some f
  | .bound f _ _ => some f
  | .viaIntf _ f _ _ => some f
  | .inst f _ => some f
  | .intfExpr _ => none

/-- The receiver a value is bound to. -/
def recvOf : FnVal → Option Nat
  | .bound _ _ r => some r
  | .viaIntf _ _ _ r => some r
  | _ => none

/-- The type arguments of a value. -/
def targsOf : FnVal → Nat
  | .bound _ a _ => a
  | .viaIntf _ _ a _ => a
  | .inst _ a => a
  | _ => 0

end Verif.Runtime.PatchTarget
