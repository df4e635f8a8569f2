/-
Model of how several goroutines use one recorded stack at the same time: every method of `Stack` (runtime/internal/stack/stack.go:107-257) as the
sequence of the single reads and writes it makes, the mutex of each stack, and goroutines whose steps are interleaved in any order. Callers:
runtime/internal/trap/trap.go:325-420, var.go:150-165, init.go:11-70, stack_data.go:50-68, stack/export.go:12-70.

`Begin` is read without the mutex (stack.go:22-24, 128; trap.go:406). The contents of the memory are those of `Verif.Runtime.Stack` (the entries
are numbered, in the order in which they were allocated), with `End`, what the `GetStack` of a `go` entry returns, and the one value kept in `Data`.
Not modelled: the memory model of Go for accesses without mutex (reads and writes are single steps), the queue of goroutines that wait for a mutex.
-/
import Verif.Runtime.TraceGo

namespace Verif.Runtime.Mutex
open Stack (Stk Node)

/-- `stack.Stack` (stack.go:16-30) and all its entries. `ended`: `End`, nothing if it is the zero time. `data`: the value under the key of trap/stack_data.go:11. -/
structure Mem where
  stk : Stk
  ended : Option Int
  kids : List (Nat × Nat)
  data : Option Nat
  deriving DecidableEq, Repr

/-- The copy that `cloneEntries` makes (stack.go:233-257): an entry, what its `GetStack` returns, its children, and the entries after it. -/
inductive Forest where
  | nil
  | node (n : Node) (stack : Option Nat) (children next : Forest)
  deriving DecidableEq, Repr

/-- The methods of `Stack` with their arguments. `finish` has `cur`, `oldTop`, `end`, `setStackEnd`, and whether there was a panic. -/
inductive Op where
  | push (t : Int) (c : Nat)
  | finish (cur : Nat) (old : Option Nat) (t : Int) (setEnd panicked : Bool)
  | appendGo (ns : Int) (k : Nat)
  | setEnd (t : Int)
  | snapshot
  | getData
  | setData (v : Nat)
  deriving DecidableEq, Repr

/-- What a method returns. -/
inductive Res where
  | unit
  | entry (cur : Nat) (old : Option Nat)
  | tree (begin : Int) (ended : Option Int) (roots : Forest)
  | data (d : Option Nat)
  deriving DecidableEq, Repr

/-- What is left to do while the mutex is held. `act f k`: one access to the memory: `f` is what it writes, `k` what comes after, which may depend on what
    was there before. `trap k`: a call of an instrumented function, which calls `GetData` of the stack of the running goroutine first (trap.go:58-66). -/
inductive Code where
  | ret (r : Res)
  | act (f : Mem → Mem) (k : Mem → Code)
  | trap (k : Code)

/-- A read. -/
def Code.read (k : Mem → Code) : Code := .act id k

/-- A write. -/
def Code.write (f : Mem → Mem) (k : Code) : Code := .act f fun _ => k

/-- A write to a field of entry `r`. -/
def Mem.node (r : Nat) (f : Node → Node) (m : Mem) : Mem := { m with stk := { m.stk with heap := m.stk.heap.modify r f } }

def Mem.maxId (v : Nat) (m : Mem) : Mem := { m with stk := { m.stk with maxId := v } }
def Mem.roots (v : List Nat) (m : Mem) : Mem := { m with stk := { m.stk with roots := v } }
def Mem.top (v : Option Nat) (m : Mem) : Mem := { m with stk := { m.stk with top := v } }
def Mem.depth (v : Int) (m : Mem) : Mem := { m with stk := { m.stk with depth := v } }
def Mem.end (v : Option Int) (m : Mem) : Mem := { m with ended := v }
def Mem.alloc (n : Node) (m : Mem) : Mem := { m with stk := { m.stk with heap := m.stk.heap ++ [n] } }
def Mem.kid (r k : Nat) (m : Mem) : Mem := { m with kids := (r, k) :: m.kids }

/-- `c.MaxEntryID++` (stack.go:95, 116). -/
def bump (k : Nat → Code) : Code := .read fun m => .write (Mem.maxId (m.stk.maxId + 1)) (k (m.stk.maxId + 1))

/-- Attaching the new entry `cur` (stack.go:96-103). -/
def link (cur : Nat) (old : Option Nat) (k : Code) : Code :=
  match old with
  | none => .read fun m => .write (Mem.roots (m.stk.roots ++ [cur])) k
  | some t =>
    .read fun m => .write (Mem.node cur fun n => { n with parentId := match m.stk.heap[t]? with | some n => n.id | none => 0 })
      (.read fun m => .write (Mem.node t fun n => { n with children := (match m.stk.heap[t]? with | some n => n.children | none => []) ++ [cur] }) k)

/-- `PushNew` (stack.go:127-138, with 92-105 and 115-122) with the closure of trap.go:325-330 (one write here: `call`). -/
def pushCode (beginNs : Int) (c : Nat) : Code :=
  bump fun id =>
  .act (Mem.alloc ⟨id, 0, 0, beginNs, 0, false, false, [], false⟩) fun m =>
  let cur := m.stk.heap.length
  bump fun _ =>
  .read fun m =>
  let old := m.stk.top
  link cur old <|
  .write (Mem.top (some cur)) <|
  .write (Mem.node cur fun n => { n with call := c }) <|
  .read fun m => .write (Mem.depth (m.stk.depth + 1)) <|
  .ret (.entry cur old)

/-- `Finish` (stack.go:142-153) with the closure of trap.go:408-420. (The code writes `Panic` only if there was a panic; before, it is false.) -/
def finishCode (cur : Nat) (old : Option Nat) (t endNs : Int) (setEnd panicked : Bool) : Code :=
  let rest : Code :=
    .write (Mem.node cur fun n => { n with endNs := endNs }) <|
    .write (Mem.node cur fun n => { n with finished := true }) <|
    .write (Mem.node cur fun n => { n with panic := panicked }) <|
    .write (Mem.top old) <|
    .read fun m => .write (Mem.depth (m.stk.depth - 1)) <|
    .ret .unit
  if setEnd then .write (Mem.end (some t)) rest else rest

/-- `AppendGoChild` (stack.go:156-172). -/
def appendGoCode (ns : Int) (k : Nat) : Code :=
  .read fun m =>
  match m.stk.top with
  | none => .ret .unit
  | some t =>
    .act (Mem.alloc ⟨0, 0, 0, ns, 0, false, false, [], true⟩) fun m =>
    let cur := m.stk.heap.length
    .write (Mem.kid cur k) <|
    .read fun m => .write (Mem.node t fun n => { n with children := (match m.stk.heap[t]? with | some n => n.children | none => []) ++ [cur] }) <|
    .ret .unit

/-- `SetEndIfZero` (stack.go:175-186). -/
def setEndCode (t : Int) : Code :=
  .read fun m => match m.ended with
  | none => .write (Mem.end (some t)) (.ret .unit)
  | some _ => .ret .unit

/-- The loop of `cloneEntries` (stack.go:233-242), one read for each entry; `below` copies the children. -/
def walk (below : List Nat → (Forest → Code) → Code) : List Nat → (Forest → Code) → Code
  | [], k => k .nil
  | r :: rs, k => .read fun m =>
    match m.stk.heap[r]? with
    | none => walk below rs k
    | some n => below n.children fun cs => walk below rs fun next => k (.node n (m.kids.lookup r) cs next)

/-- `cloneEntries` and `cloneEntry` (stack.go:233-257). The number bounds the nesting of calls. -/
def cloneCode : Nat → List Nat → (Forest → Code) → Code
  | 0 => fun _ k => k .nil
  | d + 1 => walk (cloneCode d)

/-- `Snapshot` (stack.go:191-198). Entries are made before those under them, so their number bounds the nesting. -/
def snapshotCode : Code :=
  .read fun m => .read fun m' => .read fun m'' =>
  cloneCode m''.stk.heap.length m''.stk.roots fun f => .ret (.tree m.stk.begin m'.ended f)

/-- `SetData` (stack.go:224-231), `GetData` (218-222), and the other methods: what is done while the mutex is held, given the `Begin` that was read before. -/
def code : Op → Int → Code
  | .push t c, b => pushCode (t - b) c
  | .finish cur old t e p, b => finishCode cur old t (t - b) e p
  | .appendGo ns k, _ => appendGoCode ns k
  | .setEnd t, _ => setEndCode t
  | .snapshot, _ => snapshotCode
  | .getData, _ => .read fun m => .ret (.data m.data)
  | .setData v, _ => .write (fun m => { m with data := some v }) (.ret .unit)

/-- A goroutine: the methods it calls, one after another, on which stacks; what comes next may depend on what was returned. -/
inductive Prog where
  | done
  | call (s : Nat) (op : Op) (k : Res → Prog)

/-- Where a goroutine is: between two calls; at `c.mu.Lock()`; while it holds the mutex. -/
inductive At where
  | idle (p : Prog)
  | waits (s : Nat) (op : Op) (c : Code) (k : Res → Prog)
  | inside (s : Nat) (op : Op) (c : Code) (k : Res → Prog)

/-- A call begins (`none`) or returns. -/
structure Ev where
  g : Nat
  s : Nat
  op : Op
  ret : Option Res
  deriving DecidableEq, Repr

structure St where
  goroutine : Nat → At
  /-- the mutexes: who holds it -/
  lock : Nat → Option Nat
  mem : Nat → Mem
  log : List Ev

/-- The program: what the methods do while they hold the mutex, which stack belongs to which goroutine (`stack.Get`, stack.go:32-34), and whether the mutex is used. -/
structure Sys where
  code : Op → Int → Code
  own : Nat → Nat
  locks : Bool

def upd (f : Nat → α) (i : Nat) (v : α) : Nat → α := fun x => if x = i then v else f x

/-- One step of goroutine `g`. -/
def Sys.step (y : Sys) (σ : St) (g : Nat) : St :=
  match σ.goroutine g with
  | .idle .done => σ
  | .idle (.call s op k) =>
    { σ with goroutine := upd σ.goroutine g (.waits s op (y.code op (σ.mem s).stk.begin) k), log := σ.log ++ [⟨g, s, op, none⟩] }
  | .waits s op c k =>
    if y.locks && (σ.lock s).isSome then σ                                              -- blocked in `Lock`
    else { σ with goroutine := upd σ.goroutine g (.inside s op c k), lock := upd σ.lock s (some g) }
  | .inside s op (.act f c) k =>
    { σ with goroutine := upd σ.goroutine g (.inside s op (c (σ.mem s)) k), mem := upd σ.mem s (f (σ.mem s)) }
  | .inside s op (.trap c) k =>
    if (σ.lock (y.own g)).isSome then σ                                                 -- blocked in `Lock` of `GetData`
    else { σ with goroutine := upd σ.goroutine g (.inside s op c k) }
  | .inside s op (.ret r) k =>
    { σ with goroutine := upd σ.goroutine g (.idle (k r)), lock := upd σ.lock s none, log := σ.log ++ [⟨g, s, op, some r⟩] }

/-- The steps of a schedule. -/
def Sys.exec (y : Sys) (σ : St) (sched : List Nat) : St := sched.foldl y.step σ

/-- All goroutines are about to begin. -/
def start (prog : Nat → Prog) (m : Nat → Mem) : St := ⟨fun g => .idle (prog g), fun _ => none, m, []⟩

/-- A section that is not interrupted. -/
def Code.run : Code → Mem → Mem × Res
  | .ret r, m => (m, r)
  | .act f k, m => (k m).run (f m)
  | .trap k, m => k.run m

/-- The program xgo has. -/
def xgo (own : Nat → Nat) : Sys := ⟨code, own, true⟩

end Verif.Runtime.Mutex
