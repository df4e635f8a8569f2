/-
C100 and C76: the model of C76 (`Verif.Runtime.TraceGo`) takes every operation on a stack as one step. Here: whatever the interleaving, the stacks are what that
model says they are after the operations that have returned.
-/
import Verif.Runtime.MutexEx

namespace Verif.Runtime.Mutex
open Spec
open Stack (Stk Node)

namespace Spec

/-- `Acts s b es frames l`: the calls `l` on stack `s`, which began at `b`, are the events `es` of C76: a traced call begins by `PushNew`, and the innermost one that is
    still going on ends by `Finish` with what its `PushNew` returned (trap.go:325 and 408); `frames` has the calls going on. Exports and the like are no events. -/
inductive Acts (s : Nat) (b : Int) : List TraceGo.Ev → List (Nat × Option Nat) → List Call → Prop where
  | nil : Acts s b [] [] []
  | enter {es fr l g t c cur old} : Acts s b es fr l → Acts s b (es ++ [.enter c t]) ((cur, old) :: fr) (l ++ [⟨g, s, .push t c, .entry cur old⟩])
  | exit {es fr l g t p cur old} : Acts s b es ((cur, old) :: fr) l → Acts s b (es ++ [.exit t p]) fr (l ++ [⟨g, s, .finish cur old t false p, .unit⟩])
  | spawn {es fr l g t k} : Acts s b es fr l → Acts s b (es ++ [.spawn k t]) fr (l ++ [⟨g, s, .appendGo (t - b) k, .unit⟩])
  | done {es fr l g t} : Acts s b es fr l → Acts s b (es ++ [.done t]) fr (l ++ [⟨g, s, .setEnd t, .unit⟩])
  | look {es fr l g r} : Acts s b es fr l → Acts s b es fr (l ++ [⟨g, s, .snapshot, r⟩])
  | get {es fr l g r} : Acts s b es fr l → Acts s b es fr (l ++ [⟨g, s, .getData, r⟩])
  | put {es fr l g v} : Acts s b es fr l → Acts s b es fr (l ++ [⟨g, s, .setData v, .unit⟩])

end Spec

/-- What the two models have in common. -/
def Same (m : Mem) (x : TraceGo.GStk) : Prop := m.stk = x.stk ∧ m.ended = x.ended ∧ m.kids = x.kids

/-- The stack of C76 after the events `es`. -/
def replay (b : Int) (es : List TraceGo.Ev) : TraceGo.GStk := es.foldl TraceGo.GStk.step (TraceGo.GStk.new b)

theorem replay_snoc (b es e) : replay b (es ++ [e]) = (replay b es).step e := by simp [replay]

/-- The result of a call is determined. -/
theorem copies_unique {heap kids rs f} (h : Copies heap kids rs f) : ∀ f', Copies heap kids rs f' → f = f' := by
  induction h with
  | nil => intro f' h'; cases h'; rfl
  | @cons r n rs cs next h1 h2 h3 ih1 ih2 =>
    intro f' h'
    cases h' with
    | cons a b c =>
      rw [h1] at a
      cases a
      rw [ih1 _ b, ih2 _ c]

/-- C100: from the same stack, with the same operation, always the same. -/
theorem does_unique {m op m1 r1 m2 r2} (h1 : Does m op m1 r1) (h2 : Does m op m2 r2) : m1 = m2 ∧ r1 = r2 := by
  cases h1 with
  | push => cases h2; exact ⟨rfl, rfl⟩
  | finish a b => cases h2; exact ⟨rfl, rfl⟩
  | noGo a => cases h2 with
    | noGo => exact ⟨rfl, rfl⟩
    | go b => rw [a] at b; cases b
  | go a => cases h2 with
    | noGo b => rw [a] at b; cases b
    | go b => exact ⟨rfl, rfl⟩
  | setEnd a => cases h2 with
    | setEnd => exact ⟨rfl, rfl⟩
    | keepEnd b => rw [a] at b; cases b
  | keepEnd a => cases h2 with
    | setEnd b => rw [a] at b; cases b
    | keepEnd => exact ⟨rfl, rfl⟩
  | snapshot a => cases h2 with
    | snapshot b => rw [copies_unique a _ b]; exact ⟨rfl, rfl⟩
  | getData => cases h2; exact ⟨rfl, rfl⟩
  | setData => cases h2; exact ⟨rfl, rfl⟩

theorem filter_snoc_self {s : Nat} (l : List Call) (c : Call) (h : c.s = s) : (l ++ [c]).filter (fun c => c.s = s) = l.filter (fun c => c.s = s) ++ [c] := by
  simp [List.filter_append, h]

theorem filter_snoc_other {s : Nat} (l : List Call) (c : Call) (h : c.s ≠ s) : (l ++ [c]).filter (fun c => c.s = s) = l.filter (fun c => c.s = s) := by
  simp [List.filter_append, h]

/-- The stack after a serial history is the one that C76 computes. -/
theorem serial_replay {m0 l w} (h : Serial m0 l w) (s : Nat) (b : Int) (hm : ∃ d, m0 s = fresh b d) : ∀ es fr, Acts s b es fr (l.filter fun c => c.s = s) →
    Same (w s) (replay b es) ∧ (replay b es).frames = fr ∧ (w s).stk.begin = b := by
  induction h with
  | nil =>
    intro es fr ha
    obtain ⟨d, hd⟩ := hm
    generalize hL : List.filter (fun c : Call => decide (c.s = s)) [] = L at ha
    have hL : L = [] := hL.symm
    subst hL
    generalize hL : ([] : List Call) = L at ha
    cases ha with
    | nil => rw [hd]; exact ⟨⟨rfl, rfl, rfl⟩, rfl, rfl⟩
    | _ => simp at hL
  | @snoc l w g s' op m r hs hd ih =>
    intro es fr ha
    by_cases e : s' = s
    · subst e
      rw [filter_snoc_self (s := s') l ⟨g, s', op, r⟩ rfl] at ha
      rw [upd_self]
      generalize hL : List.filter (fun c => decide (c.s = s')) l ++ [⟨g, s', op, r⟩] = L at ha
      cases ha with
      | nil => simp at hL
      | @enter es fr l' g' t c cur old ha =>
        obtain ⟨h1, h2⟩ := List.append_inj' hL rfl
        cases h2
        subst h1
        obtain ⟨⟨q1, q2, q3⟩, q4, q5⟩ := ih es fr ha
        rw [replay_snoc]
        generalize hR : Res.entry cur old = R at hd
        cases hd with
        | push =>
          injection hR with e1 e2
          rw [q1] at e1 e2
          refine ⟨⟨?_, q2, q3⟩, ?_, ?_⟩
          · simp only [q1, TraceGo.GStk.step, TraceGo.GStk.enter]
          · simp only [TraceGo.GStk.step, TraceGo.GStk.enter, q4, e1, e2]
          · rw [← q5]; dsimp only [Stk.pushNew]; cases (w s').stk.top <;> rfl
      | @exit es fr l' g' t p cur old ha =>
        obtain ⟨h1, h2⟩ := List.append_inj' hL rfl
        cases h2
        subst h1
        obtain ⟨⟨q1, q2, q3⟩, q4, q5⟩ := ih es _ ha
        rw [replay_snoc]
        cases hd with
        | finish a c =>
          simp only [TraceGo.GStk.step, TraceGo.GStk.exit, q4]
          exact ⟨⟨by rw [q1], q2, q3⟩, trivial, q5⟩
      | @spawn es fr l' g' t k ha =>
        obtain ⟨h1, h2⟩ := List.append_inj' hL rfl
        cases h2
        subst h1
        obtain ⟨⟨q1, q2, q3⟩, q4, q5⟩ := ih es fr ha
        rw [replay_snoc]
        simp only [TraceGo.GStk.step, TraceGo.GStk.go]
        cases hd with
        | noGo a => rw [← q1, a]; exact ⟨⟨q1, q2, q3⟩, q4, q5⟩
        | go a =>
          rw [← q1, a]
          refine ⟨⟨?_, q2, ?_⟩, q4, ?_⟩
          · simp only [q5]
          · simp only [q3]
          · rw [← q5]; simp only [Stk.appendGo, a]
      | @done es fr l' g' t ha =>
        obtain ⟨h1, h2⟩ := List.append_inj' hL rfl
        cases h2
        subst h1
        obtain ⟨⟨q1, q2, q3⟩, q4, q5⟩ := ih es fr ha
        rw [replay_snoc]
        simp only [TraceGo.GStk.step, TraceGo.GStk.done]
        cases hd with
        | setEnd a => rw [← q2, a]; exact ⟨⟨q1, rfl, q3⟩, q4, q5⟩
        | keepEnd a => rw [← q2, a]; exact ⟨⟨q1, a, q3⟩, q4, q5⟩
      | @look es fr l' g' r' ha =>
        obtain ⟨h1, h2⟩ := List.append_inj' hL rfl
        cases h2
        subst h1
        cases hd
        exact ih es fr ha
      | @get es fr l' g' r' ha =>
        obtain ⟨h1, h2⟩ := List.append_inj' hL rfl
        cases h2
        subst h1
        cases hd
        exact ih es fr ha
      | @put es fr l' g' v ha =>
        obtain ⟨h1, h2⟩ := List.append_inj' hL rfl
        cases h2
        subst h1
        cases hd
        obtain ⟨⟨q1, q2, q3⟩, q4, q5⟩ := ih es fr ha
        exact ⟨⟨q1, q2, q3⟩, q4, q5⟩
    · rw [filter_snoc_other (s := s) l ⟨g, s', op, r⟩ e] at ha
      have e' : s ≠ s' := fun x => e x.symm
      rw [upd_other _ _ e']
      exact ih es fr ha

/-- However the goroutines are interleaved: the stack that nobody works on is the one that the model of C76 has after the same traced calls, `go` statements and ends of
    goroutines, each as a single step, in the order in which the operations returned. -/
theorem C100_atomic (own : Nat → Nat) (prog : Nat → Prog) (hp : ∀ g, Sane [] (prog g)) (b : Nat → Int) (d : Nat → Option Nat) (sched : List Nat) (s : Nat)
    (hl : ((xgo own).exec (start prog (empty b d)) sched).lock s = none) {es fr}
    (ha : Acts s (b s) es fr ((returned ((xgo own).exec (start prog (empty b d)) sched).log).filter fun c => c.s = s)) :
    let m := ((xgo own).exec (start prog (empty b d)) sched).mem s
    let x := es.foldl TraceGo.GStk.step (TraceGo.GStk.new (b s))
    m.stk = x.stk ∧ m.ended = x.ended ∧ m.kids = x.kids ∧ x.frames = fr := by
  obtain ⟨w, h1, h2, -⟩ := C100_linearizable own prog hp b d sched
  obtain ⟨⟨q1, q2, q3⟩, q4, -⟩ := serial_replay h1 s (b s) ⟨d s, rfl⟩ es fr ha
  rw [h2 s hl]
  exact ⟨q1, q2, q3, q4⟩

/-- A snapshot returns what the model of C76 has at that moment: the same entries, in the same places. -/
theorem C100_moment (own : Nat → Nat) (prog : Nat → Prog) (hp : ∀ g, Sane [] (prog g)) (b : Nat → Int) (d : Nat → Option Nat) (sched : List Nat) {l1 l2 g s b' e f es fr}
    (h : returned ((xgo own).exec (start prog (empty b d)) sched).log = l1 ++ ⟨g, s, .snapshot, .tree b' e f⟩ :: l2)
    (ha : Acts s (b s) es fr (l1.filter fun c => c.s = s)) :
    let x := es.foldl TraceGo.GStk.step (TraceGo.GStk.new (b s))
    b' = b s ∧ e = x.ended ∧ Copies x.stk.heap x.kids x.stk.roots f := by
  obtain ⟨w, hs, -⟩ := C100_linearizable own prog hp b d sched
  obtain ⟨w1, m, h1, h2⟩ := serial_split hs _ _ _ h
  obtain ⟨⟨q1, q2, q3⟩, q4, q5⟩ := serial_replay h1 s (b s) ⟨d s, rfl⟩ es fr ha
  dsimp only at h2
  cases h2 with
  | snapshot hc =>
    refine ⟨q5, q2, ?_⟩
    rw [q1, q3] at hc
    exact hc

/-- The copy in C76 and the copy here. -/
inductive Alike : List TraceGo.Ent → Forest → Prop where
  | nil : Alike [] .nil
  | cons {n k cs cs' es next} : Alike cs cs' → Alike es next → Alike (.mk n k cs :: es) (.node n k cs' next)

/-- …and both models make the same copy of a stack in order. -/
theorem C100_copy {heap kids} (hb : ∀ (r : Nat) (n : Node), heap[r]? = some n → ∀ c ∈ n.children, r < c) {rs f} (h : Copies heap kids rs f) :
    ∀ d, (∀ r ∈ rs, heap.length ≤ r + d) → Alike (rs.map (TraceGo.clone heap kids d)) f := by
  induction h with
  | nil => intro d _; exact .nil
  | @cons r n rs cs next h1 h2 h3 ih1 ih2 =>
    intro d hd
    have hlt := lt_of_get h1
    have hr := hd r List.mem_cons_self
    cases d with
    | zero => omega
    | succ d =>
      rw [List.map_cons, TraceGo.clone, h1]
      refine .cons (ih1 d fun c hc => ?_) (ih2 (d + 1) fun c hc => hd c (List.mem_cons_of_mem _ hc))
      have := hb r n h1 c hc
      omega

/-- The case of `MutexEx`: what stack 0 is at the end, and the events it is made of. -/
example : Acts 0 0 [.enter 7 10, .exit 20 true] [] ((returned ((xgo id).exec exStart (times 5 0 ++ times 3 1 ++ times 10 0 ++ times 9 1 ++ times 20 0)).log).filter fun c => c.s = 0) ∧
    ((xgo id).exec exStart (times 5 0 ++ times 3 1 ++ times 10 0 ++ times 9 1 ++ times 20 0)).lock 0 = none :=
  ⟨.look (l := [_, _, _]) (.exit (l := [_, _]) (es := [_]) (.look (l := [_]) (.enter (l := []) (es := []) .nil))), rfl⟩

end Verif.Runtime.Mutex
