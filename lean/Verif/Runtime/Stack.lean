/-
Model of the recorded call tree: runtime/internal/stack/stack.go and the export walk of
runtime/internal/stack/export.go, and of how `trap` drives them (trap/trap.go:325-330, 405-420).

`*Entry` pointers are indices into a heap. Every method of `Stack` runs under its mutex, so each is one atomic step.
-/
import Verif.Runtime.Exec

namespace Verif.Runtime.Stack

/-- `stack.Entry` (stack.go:42-70). `call` stands for FuncInfo, Args, Results, File, Line. -/
structure Node where
  id : Nat
  parentId : Nat
  call : Nat
  beginNs : Int
  endNs : Int
  finished : Bool
  panic : Bool
  children : List Nat
  isGo : Bool
  deriving DecidableEq, Repr

/-- `stack.Stack` (stack.go:16-30). -/
structure Stk where
  /-- `Begin` in ns -/
  begin : Int
  maxId : Nat
  roots : List Nat
  top : Option Nat
  depth : Int
  /-- all entries ever allocated -/
  heap : List Node
  deriving DecidableEq, Repr

/-- `&stack.Stack{Begin: begin}` (trap/trap.go:121-126, stack/g.go:66-69). -/
def Stk.new (begin : Int) : Stk := ⟨begin, 0, [], none, 0, []⟩

/-- `newEntryLocked` then `pushLocked` then `Depth++` : `PushNew` (stack.go:127-138, 92-105, 115-122). Returns the stack, the
    new entry and the old top. -/
def Stk.pushNew (s : Stk) (begin : Int) (call : Nat) : Stk × Nat × Option Nat :=
  let beginNs := begin - s.begin                                    -- 128
  let id := s.maxId + 1                                             -- 116
  let cur := s.heap.length
  let node : Node := ⟨id, 0, call, beginNs, 0, false, false, [], false⟩
  let maxId := id + 1                                               -- 95
  match s.top with
  | none =>
    ({ s with heap := s.heap ++ [node], roots := s.roots ++ [cur], maxId := maxId, top := some cur, depth := s.depth + 1 },
      cur, none)
  | some t =>
    let pid := match s.heap[t]? with | some n => n.id | none => 0   -- 100 (the pointer is always valid)
    let heap := s.heap.modify t fun n => { n with children := n.children ++ [cur] }      -- 101
    ({ s with heap := heap ++ [{ node with parentId := pid }], maxId := maxId, top := some cur, depth := s.depth + 1 },
      cur, some t)

/-- `Finish` (stack.go:142-153) with the closure of trap/trap.go:408-420. -/
def Stk.finish (s : Stk) (cur : Nat) (oldTop : Option Nat) (endTime : Int) (panic : Bool) : Stk :=
  { s with
    heap := s.heap.modify cur fun n => { n with endNs := endTime - s.begin, finished := true, panic := panic }
    top := oldTop
    depth := s.depth - 1 }

/-- `AppendGoChild` (stack.go:156-172): the entry of a `go` statement, without id. -/
def Stk.appendGo (s : Stk) (beginNs : Int) : Stk :=
  match s.top with
  | none => s
  | some t =>
    let child : Node := ⟨0, 0, 0, beginNs, 0, false, false, [], true⟩
    { s with heap := (s.heap.modify t fun n => { n with children := n.children ++ [s.heap.length] }) ++ [child] }

/-- `stack_model.StackEntry` as far as modelled (export.go:77-87): which call, times, "(running)" suffix, panic, children. -/
inductive XTree where
  | node (call : Nat) (beginNs endNs : Int) (running panic : Bool) (children : List XTree)
  deriving Repr

/-- `ExportStackEntry` (export.go:37-88) with offset 0 for entries of calls, at time `now`. The fuel bounds the depth of the
    recursion; entries are allocated before their children, so the number of entries is always enough. (A `go` entry, whose
    children come from another stack, is exported as a leaf here.) -/
def exportEntry (begin now : Int) (heap : List Node) : Nat → Nat → XTree
  | 0, _ => .node 0 0 0 false false []
  | fuel + 1, r =>
    match heap[r]? with
    | none => .node 0 0 0 false false []
    | some n =>
      let children := n.children.map (exportEntry begin now heap fuel)
      let endNs := if n.finished then n.endNs else n.endNs + (now - begin)   -- 70-73
      .node n.call n.beginNs endNs (!n.finished) n.panic children

/-- `Export` (export.go:12-24). -/
def Stk.export (s : Stk) (now : Int) : List XTree :=
  s.roots.map (exportEntry s.begin now s.heap s.heap.length)

/-- The stack and, for each call that pushed an entry, the variables `cur, oldTop` its `post` closure captured (trap/trap.go:325). -/
structure Rec where
  stk : Stk
  closures : Nat → Option (Nat × Option Nat)

def Rec.start (begin : Int) : Rec := ⟨Stk.new begin, fun _ => none⟩

/-- What an event of the interpreter does to the stack. `i` is the position of the event; `clock` is the real time clock at each position.
    `begin` is read when the call enters `trap` (trap/trap.go:77), at the position which is also the id of the call. -/
def Rec.step (clock : Nat → Int) (i : Nat) (R : Rec) : Exec.Ev → Rec
  | .entry c _ =>
    let (s, cur, old) := R.stk.pushNew (clock c) c
    ⟨s, fun c' => if c' = c then some (cur, old) else R.closures c'⟩
  | .finish c p =>
    match R.closures c with
    | some (cur, old) => { R with stk := R.stk.finish cur old (clock i) p }
    | none => R                    -- impossible: `post` exists only after `PushNew`
  | _ => R

/-- The stack after a log whose first event has position `i`. -/
def Rec.replay (clock : Nat → Int) : Nat → Rec → List Exec.Ev → Rec
  | _, R, [] => R
  | i, R, e :: l => Rec.replay clock (i + 1) (R.step clock i e) l

end Verif.Runtime.Stack
