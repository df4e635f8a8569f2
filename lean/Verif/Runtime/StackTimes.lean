/-
C16 for all runs, including those in which hooks panic: no exported entry ends before it begins.
-/
import Verif.Runtime.StackProps

namespace Verif.Runtime.Stack
open Exec

/-- the call id of each event is the position of an earlier or the same event; the first event has position `b` -/
def Past (b : Nat) : List Ev → Prop
  | [] => True
  | e :: l => e.cid ≤ b ∧ Past (b + 1) l

theorem Past.append {b : Nat} {a c : List Ev} : Past b (a ++ c) ↔ Past b a ∧ Past (b + a.length) c := by
  induction a generalizing b with
  | nil => simp [Past]
  | cons e a ih =>
    simp only [List.cons_append, Past, ih, List.length_cons, and_assoc]
    rw [show b + 1 + a.length = b + (a.length + 1) by omega]

theorem Past.entryEv {σ : St} {b c t} (h : c ≤ b) : Past b (entryEv σ c t) := by
  cases t <;> simp [Exec.entryEv, Past, Ev.cid, h]

theorem enter_tick (σ : St) (c b) : (σ.enter c b).tick = σ.tick + (Exec.entryEv σ c b).length := by
  cases b <;> simp [St.enter, St.emit, Exec.entryEv]

theorem Run.past {E j σ ev o σ'} (h : Run E j σ ev o σ') :
    σ'.tick = σ.tick + ev.length ∧ ((∀ c, j.own = some c → c ≤ σ.tick) → Past σ.tick ev) := by
  induction h
  all_goals
    simp only [Job.own, reduceCtorEq, false_implies, forall_const, Option.some.injEq, forall_eq', St.emit, St.inc, St.dec,
      enter_tick, List.length_append, List.length_cons, List.length_nil] at *
  all_goals refine ⟨by grind, ?_⟩
  all_goals
    try simp only [Past, Past.append, Ev.cid, and_true]
  all_goals grind [Past.entryEv]

/-- what holds of every entry recorded so far, `i` being the position of the next event -/
structure Times (clock : Nat → Int) (begin : Int) (i : Nat) (R : Rec) : Prop where
  start : R.stk.begin = begin
  node : ∀ n ∈ R.stk.heap, n.beginNs ≤ clock i - begin ∧ (n.finished = true → n.beginNs ≤ n.endNs) ∧
    (n.finished = false → n.endNs = 0)

theorem mem_modify {α} {f : α → α} : ∀ {l : List α} {t : Nat} {x : α}, x ∈ l.modify t f → x ∈ l ∨ ∃ y ∈ l, x = f y
  | [], _, _, h => by simp at h
  | a :: l, 0, x, h => by
    simp only [List.modify_zero_cons, List.mem_cons] at h
    rcases h with h | h
    · exact .inr ⟨a, by simp, h⟩
    · exact .inl (by simp [h])
  | a :: l, t + 1, x, h => by
    simp only [List.modify_succ_cons, List.mem_cons] at h
    rcases h with h | h
    · exact .inl (by simp [h])
    · rcases mem_modify h with h | ⟨y, hy, h⟩
      · exact .inl (by simp [h])
      · exact .inr ⟨y, by simp [hy], h⟩

theorem Times.step {clock : Nat → Int} (hm : ∀ i j, i ≤ j → clock i ≤ clock j) {begin i R} {e : Ev} (h : Times clock begin i R)
    (he : e.cid ≤ i) : Times clock begin (i + 1) (R.step clock i e) := by
  have hi := hm i (i + 1) (by omega)
  have weak : ∀ n ∈ R.stk.heap, n.beginNs ≤ clock (i + 1) - begin ∧ (n.finished = true → n.beginNs ≤ n.endNs) ∧
      (n.finished = false → n.endNs = 0) := fun n hn => by
    obtain ⟨h1, h2, h3⟩ := h.node n hn
    exact ⟨by omega, h2, h3⟩
  have plain : Times clock begin (i + 1) R := ⟨h.start, weak⟩
  cases e with
  | entry c par =>
    simp only [Ev.cid] at he
    have hci := hm c i he
    have hs := h.start
    constructor
    · simp only [Rec.step, Stk.pushNew]; split <;> exact hs
    · intro n hn
      simp only [Rec.step, Stk.pushNew] at hn
      split at hn
      · simp only [List.mem_append, List.mem_singleton] at hn
        rcases hn with hn | hn
        · exact weak n hn
        · subst hn; simp only [hs]; exact ⟨by omega, by simp, by simp⟩
      · simp only [List.mem_append, List.mem_singleton] at hn
        rcases hn with hn | hn
        · rcases mem_modify hn with hn | ⟨y, hy, rfl⟩
          · exact weak n hn
          · exact weak y hy
        · subst hn; simp only [hs]; exact ⟨by omega, by simp, by simp⟩
  | finish c p =>
    simp only [Rec.step]
    split
    · constructor
      · exact h.start
      · intro n hn
        simp only [Stk.finish] at hn
        rcases mem_modify hn with hn | ⟨y, hy, rfl⟩
        · exact weak n hn
        · have := weak y hy
          have hy0 := (h.node y hy).1
          have hs := h.start
          simp only [hs]
          exact ⟨this.1, fun _ => hy0, by simp⟩
    · exact plain
  | _ => exact plain

theorem Times.replay {clock : Nat → Int} (hm : ∀ i j, i ≤ j → clock i ≤ clock j) {begin} : ∀ (l : List Ev) (i : Nat) (R : Rec),
    Times clock begin i R → Past i l → Times clock begin (i + l.length) (R.replay clock i l)
  | [], _, _, h, _ => h
  | e :: l, i, R, h, hp => by
    have := Times.replay hm l (i + 1) (R.step clock i e) (h.step hm hp.1) hp.2
    rw [show i + 1 + l.length = i + (e :: l).length by simp; omega] at this
    exact this

mutual
/-- No entry ends before it begins, and those still running are shown to last until `now`. -/
def XTree.Forward (now : Int) : XTree → Prop
  | .node _ b e running _ ch => b ≤ e ∧ (running = true → e = now) ∧ XTree.Forwards now ch
def XTree.Forwards (now : Int) : List XTree → Prop
  | [] => True
  | t :: ts => XTree.Forward now t ∧ XTree.Forwards now ts
end

theorem XTree.forwards_iff {now} : ∀ {l : List XTree}, XTree.Forwards now l ↔ ∀ t ∈ l, XTree.Forward now t
  | [] => by simp [XTree.Forwards]
  | t :: l => by simp [XTree.Forwards, XTree.forwards_iff (l := l)]

theorem Times.exportEntry {clock : Nat → Int} {begin i R} (h : Times clock begin i R) (now : Int) (hn : clock i ≤ now) :
    ∀ fuel r, XTree.Forward (now - begin) (exportEntry begin now R.stk.heap fuel r)
  | 0, _ => by simp [Stack.exportEntry, XTree.Forward, XTree.Forwards]
  | fuel + 1, r => by
    unfold Stack.exportEntry
    split
    · simp [XTree.Forward, XTree.Forwards]
    · rename_i n hr
      obtain ⟨h1, h2, h3⟩ := h.node n (List.mem_of_getElem? hr)
      simp only [XTree.Forward]
      refine ⟨?_, fun hr => ?_, XTree.forwards_iff.2 fun t ht => ?_⟩
      · split
        · rename_i hf; exact h2 hf
        · rename_i hf; have := h3 (by simpa using hf); omega
      · have hf : n.finished = false := by simpa using hr
        simp [hf, h3 hf]
      · obtain ⟨r', -, rfl⟩ := List.mem_map.1 ht
        exact h.exportEntry now hn fuel r'

/-- **C16** for every run, also when hooks panic: with a clock that never goes backwards, whenever the trace is exported after the run, no
    entry ends before it begins, and every entry marked as running lasts until the time of the export. -/
theorem C16_no_entry_ends_before_it_begins (E : Env) (n : Nat) (ss : List Stmt) (σ' : St) (p : Bool) (clock : Nat → Int)
    (begin now : Int) (hc : ∀ i j, i ≤ j → clock i ≤ clock j) (h : execStmts E n St.start ss = some (σ', p))
    (hn : clock σ'.log.length ≤ now) :
    ∀ t ∈ ((Rec.start begin).replay clock 0 σ'.log).stk.export now, XTree.Forward (now - begin) t := by
  obtain ⟨ev, hr⟩ := (run_of_exec E n).1 _ _ _ _ h
  have hlog := hr.log_eq
  simp only [St.start, List.nil_append] at hlog
  rw [hlog] at hn ⊢
  have hp := (Run.past hr).2 (by simp [Job.own])
  have ht := Times.replay hc ev 0 (Rec.start begin) ⟨rfl, by simp [Rec.start, Stk.new]⟩ hp
  rw [Nat.zero_add] at ht
  intro t h
  obtain ⟨r, -, rfl⟩ := List.mem_map.1 h
  have := ht.exportEntry now hn ((Rec.start begin).replay clock 0 ev).stk.heap.length r
  rw [ht.start]
  exact this

/-- the run of `C16_counterexample`, where an entry is never finished: it is shown to last from 2 to the time of the export -/
example : (execStmts cexTimes 30 St.start [.call 0 none []]).map (fun r =>
      (decide (r.1.log.length ≤ 100), match ((Rec.start 0).replay (fun i => i) 0 r.1.log).stk.export 100 with
      | [.node _ b e running _ [.node _ b' e' running' _ []]] => some ([b, b'], [e, e'], [running, running'])
      | _ => none)) = some (true, some ([2, 0], [100, 15], [true, false])) := by
  decide +kernel

end Verif.Runtime.Stack
