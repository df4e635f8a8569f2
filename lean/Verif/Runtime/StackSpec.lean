/-
Specification for C14-C16: the forest of traced calls described by an event log, by a bracket grammar.
-/
import Verif.Runtime.Stack

namespace Verif.Runtime.Stack
open Exec (Ev)

/-- A traced call: its id (= the position of its call event), the position at which it was finished, whether it panicked, and the
    traced calls made by it. -/
inductive Tree where
  | node (call : Nat) (fin : Nat) (panicked : Bool) (children : List Tree)
  deriving Repr

/-- `Forest i l f`: the events `l`, the first of which has position `i`, contain exactly the traced calls `f`. A call without trace entry
    is spliced out: the calls made by it belong to its caller. Calls made by the pre hooks of a call, before its entry is
    created, precede it. -/
inductive Forest : Nat → List Ev → List Tree → Prop where
  | nil (i) : Forest i [] []
  | plain {i e l f} : (∀ c fn r, e ≠ .call c fn r) → (∀ c p, e ≠ .entry c p) → (∀ c p, e ≠ .finish c p) →
      (∀ c p, e ≠ .callEnd c p) → Forest (i + 1) l f → Forest i (e :: l) f
  | untraced {i fn r p body l f g} : Forest (i + 1) body f → Forest (i + body.length + 2) l g →
      Forest i (.call i fn r :: (body ++ .callEnd i p :: l)) (f ++ g)
  | traced {i fn r par p e1 e2 l f1 f2 g} :
      Forest (i + 1) e1 f1 → Forest (i + e1.length + 2) e2 f2 → Forest (i + e1.length + e2.length + 4) l g →
      Forest i (.call i fn r :: (e1 ++ .entry i par :: (e2 ++ .finish i p :: .callEnd i p :: l)))
        (f1 ++ .node i (i + e1.length + e2.length + 2) p f2 :: g)

mutual
/-- What the export of a traced call should look like. -/
def Tree.expected (clock : Nat → Int) (begin : Int) : Tree → XTree
  | .node c e p ch => .node c (clock c - begin) (clock e - begin) false p (Tree.expecteds clock begin ch)
def Tree.expecteds (clock : Nat → Int) (begin : Int) : List Tree → List XTree
  | [] => []
  | t :: ts => t.expected clock begin :: Tree.expecteds clock begin ts
end

mutual
/-- Every entry ends no earlier than it begins, and its children lie inside its interval. -/
def XTree.Nested : XTree → Prop
  | .node _ b e _ _ ch => b ≤ e ∧ XTree.NestedIn b e ch
/-- all trees of a forest are nested and lie within [lo, hi] -/
def XTree.NestedIn (lo hi : Int) : List XTree → Prop
  | [] => True
  | .node c b e r p ch :: ts => lo ≤ b ∧ e ≤ hi ∧ XTree.Nested (.node c b e r p ch) ∧ XTree.NestedIn lo hi ts
end

/-- The stacks that can arise from a new one by any sequence of calls of its methods, with any arguments, except that `Finish` gets
    a pair returned by an earlier `PushNew` (all of them are collected in the second index). -/
inductive Reachable : Stk → List (Nat × Option Nat) → Prop where
  | new (b) : Reachable (Stk.new b) []
  | push {s I} (b c) : Reachable s I → Reachable (s.pushNew b c).1 ((s.pushNew b c).2 :: I)
  | finish {s I cur old} (e p) : Reachable s I → (cur, old) ∈ I → Reachable (s.finish cur old e p) I
  | go {s I} (b) : Reachable s I → Reachable (s.appendGo b) I

end Verif.Runtime.Stack
