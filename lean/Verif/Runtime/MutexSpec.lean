/-
Specification for C100: what the methods of a recorded stack do when nothing else happens, and what it means that concurrent calls behave as if they were
made one after another.
-/
import Verif.Runtime.Mutex

namespace Verif.Runtime.Mutex.Spec
open Mutex (Mem Forest Op Res Ev Prog upd)
open Stack (Stk Node)

/-- Entry `r` of a stack is that of a call (not of a `go` statement). -/
def IsCall (m : Mem) (r : Nat) : Prop := ∃ n, m.stk.heap[r]? = some n ∧ n.isGo = false

/-- `Copies heap kids rs f`: `f` is a copy of the entries `rs` and of everything under them. -/
inductive Copies (heap : List Node) (kids : List (Nat × Nat)) : List Nat → Forest → Prop where
  | nil : Copies heap kids [] .nil
  | cons {r n rs cs next} : heap[r]? = some n → Copies heap kids n.children cs → Copies heap kids rs next →
      Copies heap kids (r :: rs) (.node n (kids.lookup r) cs next)

/-- `Does m op m' r`: the method `op`, called on the stack `m` when nothing else happens, leaves `m'` and returns `r`. -/
inductive Does : Mem → Op → Mem → Res → Prop where
  | push {m t c} : Does m (.push t c) { m with stk := (m.stk.pushNew t c).1 } (.entry (m.stk.pushNew t c).2.1 (m.stk.pushNew t c).2.2)
  | finish {m cur old t e p} : IsCall m cur → (∀ r, old = some r → IsCall m r) →
      Does m (.finish cur old t e p) { m with stk := m.stk.finish cur old t p, ended := if e then some t else m.ended } .unit
  | noGo {m ns k} : m.stk.top = none → Does m (.appendGo ns k) m .unit
  | go {m ns k t} : m.stk.top = some t →
      Does m (.appendGo ns k) { m with stk := m.stk.appendGo ns, kids := (m.stk.heap.length, k) :: m.kids } .unit
  | setEnd {m t} : m.ended = none → Does m (.setEnd t) { m with ended := some t } .unit
  | keepEnd {m t e} : m.ended = some e → Does m (.setEnd t) m .unit
  | snapshot {m f} : Copies m.stk.heap m.kids m.stk.roots f → Does m .snapshot m (.tree m.stk.begin m.ended f)
  | getData {m} : Does m .getData m (.data m.data)
  | setData {m v} : Does m (.setData v) { m with data := some v } .unit

/-- A call that has returned. -/
structure Call where
  g : Nat
  s : Nat
  op : Op
  r : Res

/-- The calls that have returned, in the order in which they did. -/
def returned (log : List Ev) : List Call := log.filterMap fun e => e.ret.map fun r => ⟨e.g, e.s, e.op, r⟩

/-- `Serial w l w'`: the calls `l`, made one after another on the stacks `w`, return what they say and leave the stacks `w'`. -/
inductive Serial : (Nat → Mem) → List Call → (Nat → Mem) → Prop where
  | nil {w} : Serial w [] w
  | snoc {w l w' g s op m r} : Serial w l w' → Does (w' s) op m r → Serial w (l ++ [⟨g, s, op, r⟩]) (upd w' s m)

/-- `Follows g p l`: the events `l` are what goroutine `g` with program `p` has done, one call after the other; the last one may not have returned. -/
inductive Follows (g : Nat) : Prog → List Ev → Prop where
  | nothing {p} : Follows g p []
  | begun {s op k} : Follows g (.call s op k) [⟨g, s, op, none⟩]
  | next {s op k r l} : Follows g (k r) l → Follows g (.call s op k) (⟨g, s, op, none⟩ :: ⟨g, s, op, some r⟩ :: l)

/-- `Sane known p`: a goroutine passes to `Finish` only entries that its calls of `PushNew` on the same stack have returned (trap.go:325 and 408, var.go:155 and 161);
    `known` has those it has got already. -/
inductive Sane : List (Nat × Nat) → Prog → Prop where
  | done {known} : Sane known .done
  | push {known s t c k} : (∀ cur old, Sane ((s, cur) :: (old.toList.map fun r => (s, r)) ++ known) (k (.entry cur old))) →
      Sane known (.call s (.push t c) k)
  | finish {known s cur old t e p k} : (s, cur) ∈ known → (∀ r, old = some r → (s, r) ∈ known) → Sane known (k .unit) →
      Sane known (.call s (.finish cur old t e p) k)
  | appendGo {known s ns i k} : Sane known (k .unit) → Sane known (.call s (.appendGo ns i) k)
  | setEnd {known s t k} : Sane known (k .unit) → Sane known (.call s (.setEnd t) k)
  | snapshot {known s k} : (∀ b e f, Sane known (k (.tree b e f))) → Sane known (.call s .snapshot k)
  | getData {known s k} : (∀ d, Sane known (k (.data d))) → Sane known (.call s .getData k)
  | setData {known s v k} : Sane known (k .unit) → Sane known (.call s (.setData v) k)

/-- A stack on which nothing has been recorded (stack/g.go:66-68, trap.go:121-126). -/
def fresh (b : Int) (d : Option Nat) : Mem := ⟨Stk.new b, none, [], d⟩

/-- The entries of a copy. -/
def nodes : Forest → List Node
  | .nil => []
  | .node n _ cs next => n :: (nodes cs ++ nodes next)

/-- The entry is complete as of the calls `l`, on stack `s` which began at `b`: it is that of a `go` statement, or of a call whose `PushNew` has returned, with
    what that was given; and it has either nothing of what `Finish` sets, or all that one `Finish` of it, which has returned, was given. -/
def Complete (l : List Call) (s : Nat) (b : Int) (n : Node) : Prop :=
  (n.isGo = true ∧ ∃ g ns k, ⟨g, s, .appendGo ns k, .unit⟩ ∈ l ∧ n.beginNs = ns) ∨
  (n.isGo = false ∧ ∃ g t c cur old, ⟨g, s, .push t c, .entry cur old⟩ ∈ l ∧ n.call = c ∧ n.beginNs = t - b ∧
    ((n.finished = false ∧ n.endNs = 0 ∧ n.panic = false) ∨
     (n.finished = true ∧ ∃ g' old' t' e p, ⟨g', s, .finish cur old' t' e p, .unit⟩ ∈ l ∧ n.endNs = t' - b ∧ n.panic = p)))

end Verif.Runtime.Mutex.Spec
