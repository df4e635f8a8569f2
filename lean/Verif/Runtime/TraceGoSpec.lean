/-
Specification for C76: what a trace should show of the goroutines started under it.
-/
import Verif.Runtime.TraceGo

namespace Verif.Runtime.TraceGo.Spec
open TraceGo (Ev X)

/-- Something done under a goroutine: a traced call (when it began; when it ended and whether it panicked, or nothing while it is running;
    what was done under it), or the start of goroutine `k` at time `t`. -/
inductive Act where
  | call (c : Nat) (begin : Int) (fin : Option (Int × Bool)) (under : List Act)
  | go (k : Nat) (t : Int)
  deriving Repr

/-- `Whole inCall l f`: the events `l` of a goroutine, in which every call that begins also ends, are the acts `f`. `inCall`: they happen
    during a traced call. (A goroutine started outside of every traced call is under no call, so it is not an act.) -/
inductive Whole : Bool → List Ev → List Act → Prop where
  | nil (b) : Whole b [] []
  | call {b c t t' p body rest f g} : Whole true body f → Whole b rest g →
      Whole b (.enter c t :: (body ++ .exit t' p :: rest)) (.call c t (some (t', p)) f :: g)
  | go {k t rest g} : Whole true rest g → Whole true (.spawn k t :: rest) (.go k t :: g)
  | goOutside {k t rest g} : Whole false rest g → Whole false (.spawn k t :: rest) g
  | done {b t rest g} : Whole b rest g → Whole b (.done t :: rest) g
  | other {b rest g} : Whole b rest g → Whole b (.other :: rest) g

/-- The same with calls still running: the innermost at the end. -/
inductive Ongoing : Bool → List Ev → List Act → Prop where
  | whole {b l f} : Whole b l f → Ongoing b l f
  | running {b c t l f l' g} : Whole b l f → Ongoing true l' g → Ongoing b (l ++ .enter c t :: l') (f ++ [.call c t none g])

/-- The first `m` events of a history. -/
def upto (H : Nat → Nat × Ev) (m : Nat) : List (Nat × Ev) := (List.range m).map H

/-- The events of goroutine `k` among the first `m`. -/
def eventsOf (H : Nat → Nat × Ev) (k m : Nat) : List Ev := (upto H m).filterMap fun x => if x.1 = k then some x.2 else none

/-- When the goroutine ended, if it has. -/
def endOf : List Ev → Option Int
  | [] => none
  | .done t :: _ => some t
  | _ :: l => endOf l

/-- The number of calls in progress after the events `l`. -/
def depth : List Ev → Int
  | [] => 0
  | .enter _ _ :: l => depth l + 1
  | .exit _ _ :: l => depth l - 1
  | _ :: l => depth l

/-- A call ends only when one is in progress on its goroutine. -/
def Balanced (H : Nat → Nat × Ev) : Prop := ∀ m g t p, H m = (g, .exit t p) → 0 < depth (eventsOf H g m)

/-- A goroutine that is started is new: nothing was done by it before, it was not started before, and it is not goroutine 0. -/
def Fresh (H : Nat → Nat × Ev) : Prop :=
  ∀ m g k t, H m = (g, .spawn k t) → k ≠ 0 ∧ k ≠ g ∧ ∀ i, i < m → (H i).1 ≠ k ∧ ∀ g' t', H i ≠ (g', .spawn k t')

section
variable (H : Nat → Nat × Ev) (clock : Nat → Int) (origin : Int) (hi : Nat)

mutual
/-- `Picture lo k e xs`: `xs` shows what goroutine `k` has done up to one moment between `lo` and `hi`, and `e` is when it ended, if it has at
    that moment. -/
inductive Picture : Nat → Nat → Option Int → List X → Prop where
  | mk {lo m k f xs} : lo ≤ m → m ≤ hi → Ongoing false (eventsOf H k m) f → Shown m f xs → Picture lo k (endOf (eventsOf H k m)) xs
/-- `Shown lo f xs`: `xs` shows the acts `f`, one entry for each, all times counted from `origin`. What is running ends at a moment between `lo`
    and `hi`. Under a `go` entry there is a picture of the goroutine that was started. -/
inductive Shown : Nat → List Act → List X → Prop where
  | nil (lo) : Shown lo [] []
  | ended {lo c b e p g xs rest ys} : Shown lo g xs → Shown lo rest ys →
      Shown lo (.call c b (some (e, p)) g :: rest) (.node (some c) (b - origin) (e - origin) false p xs :: ys)
  | running {lo c b g xs now rest ys} : Shown lo g xs → lo ≤ now → now ≤ hi → Shown lo rest ys →
      Shown lo (.call c b none g :: rest) (.node (some c) (b - origin) (clock now - origin) true false xs :: ys)
  | goEnded {lo k t e xs rest ys} : Picture lo k (some e) xs → Shown lo rest ys →
      Shown lo (.go k t :: rest) (.node none (t - origin) (e - origin) false false xs :: ys)
  | goRunning {lo k t xs now rest ys} : Picture lo k none xs → lo ≤ now → now ≤ hi → Shown lo rest ys →
      Shown lo (.go k t :: rest) (.node none (t - origin) (clock now - origin) true false xs :: ys)
end
end

mutual
/-- The calls shown. -/
def callsIn : X → List Nat
  | .node c _ _ _ _ xs => c.toList ++ callsOf xs
def callsOf : List X → List Nat
  | [] => []
  | x :: xs => callsIn x ++ callsOf xs
end

/-- Goroutine `g` makes call `c` before moment `m`. -/
def Calls (H : Nat → Nat × Ev) (m g c : Nat) : Prop := ∃ i t, i < m ∧ H i = (g, .enter c t)

/-- Goroutine `g` starts goroutine `k` before moment `m`, during a traced call. -/
def Starts (H : Nat → Nat × Ev) (m g k : Nat) : Prop := ∃ i t, i < m ∧ H i = (g, .spawn k t) ∧ 0 < depth (eventsOf H g i)

/-- The goroutines that belong to the trace at moment `m`: goroutine 0, and those started by one of them during a traced call. -/
inductive Member (H : Nat → Nat × Ev) (m : Nat) : Nat → Prop where
  | root : Member H m 0
  | started {g k} : Member H m g → Starts H m g k → Member H m k

/-- No two calls have the same number. -/
def DistinctCalls (H : Nat → Nat × Ev) : Prop := ∀ i j g g' c t t', H i = (g, .enter c t) → H j = (g', .enter c t') → i = j

/-- The clock does not go back; what is recorded with an event was read before it; the end of a call is read after its begin; a goroutine ends after it began. -/
structure Clocked (H : Nat → Nat × Ev) (clock : Nat → Int) : Prop where
  mono : ∀ i j, i ≤ j → clock i ≤ clock j
  enter : ∀ i g c t, H i = (g, .enter c t) → t ≤ clock i
  spawn : ∀ i g k t, H i = (g, .spawn k t) → t ≤ clock i
  exit : ∀ i j g c t t' p body f, H i = (g, .enter c t) → H j = (g, .exit t' p) → eventsOf H g j = eventsOf H g i ++ .enter c t :: body →
    Whole true body f → t ≤ t'
  done : ∀ i j g k t t', H i = (g, .spawn k t) → H j = (k, .done t') → t ≤ t'

/-- The history without its `go` statements. -/
def withoutGo (H : Nat → Nat × Ev) : Nat → Nat × Ev := fun i => match H i with | (g, .spawn _ _) => (g, .other) | x => x

mutual
/-- Every entry begins no later than it ends. -/
def Forward : X → Prop
  | .node _ b e _ _ xs => b ≤ e ∧ Forwards xs
def Forwards : List X → Prop
  | [] => True
  | x :: xs => Forward x ∧ Forwards xs
end

end Verif.Runtime.TraceGo.Spec
