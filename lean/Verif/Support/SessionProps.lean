/-
C63: every event that is sent is delivered exactly once and in order; sessions have ids of their own.
-/
import Verif.Support.SessionSpec
import Verif.Instrument.FuncTrapNames
import Mathlib.Data.List.Nodup
import Mathlib.Data.List.Perm.Basic

namespace Verif.Support.Session
open Verif.Support (Str)

variable {α : Type}

/-! ### One session -/

structure Inv (s : Ses α) : Prop where
  flow : s.sent = s.got ++ s.queue
  bound : s.queue.length ≤ capacity
  senders : ∀ t ∈ s.threads, t.didSend.Sublist s.sent
  sentPerm : (s.threads.flatMap Thread.didSend).Perm s.sent
  polls : ∀ t ∈ s.threads, t.batch.Sublist s.got
  gotPerm : (s.threads.flatMap Thread.batch).Perm s.got
  outPerm : (s.out.flatten ++ s.threads.flatMap Thread.pending).Perm s.got
  outMem : ∀ b ∈ s.out, b.Sublist s.got

theorem inv_init : Inv ({} : Ses α) := by
  constructor <;> simp

theorem perm_mid (l d r : List α) (e : α) : (l ++ ((d ++ [e]) ++ r)).Perm ((l ++ (d ++ r)) ++ [e]) := by
  have : (l ++ ((d ++ [e]) ++ r)) = (l ++ d) ++ e :: r := by simp
  rw [this]
  refine List.perm_middle.trans ?_
  refine List.Perm.trans ?_ (List.perm_append_singleton _ _).symm
  simp

theorem inv_step {s t : Ses α} (i : Inv s) (h : Step s t) : Inv t := by
  cases h with
  | callSend evs =>
    constructor
    · exact i.flow
    · exact i.bound
    · intro t ht; simp at ht; rcases ht with ht | rfl
      · exact i.senders t ht
      · simp [Thread.didSend]
    · simpa [Thread.didSend] using i.sentPerm
    · intro t ht; simp at ht; rcases ht with ht | rfl
      · exact i.polls t ht
      · simp [Thread.batch]
    · simpa [Thread.batch] using i.gotPerm
    · simpa [Thread.pending] using i.outPerm
    · exact i.outMem
  | callPoll =>
    constructor
    · exact i.flow
    · exact i.bound
    · intro t ht; simp at ht; rcases ht with ht | rfl
      · exact i.senders t ht
      · simp [Thread.didSend]
    · simpa [Thread.didSend] using i.sentPerm
    · intro t ht; simp at ht; rcases ht with ht | rfl
      · exact i.polls t ht
      · simp [Thread.batch]
    · simpa [Thread.batch] using i.gotPerm
    · simpa [Thread.pending] using i.outPerm
    · exact i.outMem
  | @send l r d e es ht hq =>
    have s1 := i.senders; have s2 := i.sentPerm; have s3 := i.polls; have s4 := i.gotPerm; have s5 := i.outPerm
    rw [ht] at s1 s2 s3 s4 s5
    constructor
    · simp [i.flow]
    · simp; exact hq
    · intro t h
      simp only [List.mem_append, List.mem_cons] at h
      rcases h with h | rfl | h
      · exact (s1 t (by simp [h])).trans (List.sublist_append_left _ _)
      · exact (s1 (.send d (e :: es)) (by simp)).append (List.Sublist.refl _)
      · exact (s1 t (by simp [h])).trans (List.sublist_append_left _ _)
    · simp only [List.flatMap_append, List.flatMap_cons, Thread.didSend] at s2 ⊢
      exact (perm_mid _ _ _ _).trans (s2.append_right _)
    · intro t h
      simp only [List.mem_append, List.mem_cons] at h
      rcases h with h | rfl | h
      · exact s3 t (by simp [h])
      · simp [Thread.batch]
      · exact s3 t (by simp [h])
    · simpa [Thread.batch] using s4
    · simpa [Thread.pending] using s5
    · exact i.outMem
  | @recv l r evs t e q ht hq =>
    have s1 := i.senders; have s2 := i.sentPerm; have s3 := i.polls; have s4 := i.gotPerm; have s5 := i.outPerm
    have s6 := i.flow; have s7 := i.bound
    rw [ht] at s1 s2 s3 s4 s5
    rw [hq] at s6 s7
    constructor
    · simp [s6]
    · simp at s7 ⊢; omega
    · intro t h
      simp only [List.mem_append, List.mem_cons] at h
      rcases h with h | rfl | h
      · exact s1 t (by simp [h])
      · simp [Thread.didSend]
      · exact s1 t (by simp [h])
    · simpa [Thread.didSend] using s2
    · intro u h
      simp only [List.mem_append, List.mem_cons] at h
      rcases h with h | rfl | h
      · exact (s3 u (by simp [h])).trans (List.sublist_append_left _ _)
      · exact (s3 (.poll evs t) (by simp)).append (List.Sublist.refl _)
      · exact (s3 u (by simp [h])).trans (List.sublist_append_left _ _)
    · simp only [List.flatMap_append, List.flatMap_cons, Thread.batch] at s4 ⊢
      exact (perm_mid _ _ _ _).trans (s4.append_right _)
    · simp only [List.flatMap_append, List.flatMap_cons, Thread.pending, ← List.append_assoc] at s5 ⊢
      have := perm_mid (s.out.flatten ++ List.flatMap Thread.pending l) evs (List.flatMap Thread.pending r) e
      simp only [← List.append_assoc] at this
      exact this.trans (s5.append_right _)
    · intro b hb; exact (i.outMem b hb).trans (List.sublist_append_left _ _)
  | @timer l r evs ht =>
    have s1 := i.senders; have s2 := i.sentPerm; have s3 := i.polls; have s4 := i.gotPerm; have s5 := i.outPerm
    rw [ht] at s1 s2 s3 s4 s5
    constructor
    · exact i.flow
    · exact i.bound
    · intro t h
      simp only [List.mem_append, List.mem_cons] at h
      rcases h with h | rfl | h
      · exact s1 t (by simp [h])
      · simp [Thread.didSend]
      · exact s1 t (by simp [h])
    · simpa [Thread.didSend] using s2
    · intro u h
      simp only [List.mem_append, List.mem_cons] at h
      rcases h with h | rfl | h
      · exact s3 u (by simp [h])
      · exact s3 (.poll evs false) (by simp)
      · exact s3 u (by simp [h])
    · simpa [Thread.batch] using s4
    · simpa [Thread.pending] using s5
    · exact i.outMem
  | @timeout l r evs ht =>
    have s1 := i.senders; have s2 := i.sentPerm; have s3 := i.polls; have s4 := i.gotPerm; have s5 := i.outPerm
    rw [ht] at s1 s2 s3 s4 s5
    constructor
    · exact i.flow
    · exact i.bound
    · intro t h
      simp only [List.mem_append, List.mem_cons] at h
      rcases h with h | rfl | h
      · exact s1 t (by simp [h])
      · simp [Thread.didSend]
      · exact s1 t (by simp [h])
    · simpa [Thread.didSend] using s2
    · intro u h
      simp only [List.mem_append, List.mem_cons] at h
      rcases h with h | rfl | h
      · exact s3 u (by simp [h])
      · exact s3 (.poll evs true) (by simp)
      · exact s3 u (by simp [h])
    · simpa [Thread.batch] using s4
    · refine List.Perm.trans ?_ s5
      simp only [Thread.pending, List.flatten_append, List.flatMap_append, List.flatMap_cons, List.nil_append,
        List.flatten_cons, List.flatten_nil, List.append_nil, List.append_assoc]
      refine List.Perm.append_left _ ?_
      rw [← List.append_assoc, ← List.append_assoc]
      exact List.perm_append_comm.append_right _
    · intro b hb
      simp at hb
      rcases hb with hb | rfl
      · exact i.outMem b hb
      · exact s3 (.poll b true) (by simp)
  | @ready l r evs ht hq he =>
    have s1 := i.senders; have s2 := i.sentPerm; have s3 := i.polls; have s4 := i.gotPerm; have s5 := i.outPerm
    rw [ht] at s1 s2 s3 s4 s5
    constructor
    · exact i.flow
    · exact i.bound
    · intro t h
      simp only [List.mem_append, List.mem_cons] at h
      rcases h with h | rfl | h
      · exact s1 t (by simp [h])
      · simp [Thread.didSend]
      · exact s1 t (by simp [h])
    · simpa [Thread.didSend] using s2
    · intro u h
      simp only [List.mem_append, List.mem_cons] at h
      rcases h with h | rfl | h
      · exact s3 u (by simp [h])
      · exact s3 (.poll evs false) (by simp)
      · exact s3 u (by simp [h])
    · simpa [Thread.batch] using s4
    · refine List.Perm.trans ?_ s5
      simp only [Thread.pending, List.flatten_append, List.flatMap_append, List.flatMap_cons, List.nil_append,
        List.flatten_cons, List.flatten_nil, List.append_nil, List.append_assoc]
      refine List.Perm.append_left _ ?_
      rw [← List.append_assoc, ← List.append_assoc]
      exact List.perm_append_comm.append_right _
    · intro b hb
      simp at hb
      rcases hb with hb | rfl
      · exact i.outMem b hb
      · exact s3 (.poll b false) (by simp)
  | sleep => exact i

theorem inv_steps {s t : Ses α} (h : Steps s t) (i : Inv s) : Inv t := by
  induction h with
  | refl => exact i
  | step _ hs ih => exact inv_step (ih) hs

/-- **C63.** Whatever the schedule, with any number of goroutines that send and poll: what has been sent is what the polls
    have, returned or still running, and what waits in the session, each event once; nothing is lost, nothing is delivered
    twice. -/
theorem C63_once {s : Ses α} (h : Steps {} s) :
    (s.threads.flatMap Thread.didSend).Perm (s.out.flatten ++ s.threads.flatMap Thread.pending ++ s.queue) := by
  have i := inv_steps h inv_init
  refine i.sentPerm.trans ?_
  rw [i.flow]
  exact i.outPerm.symm.append_right _

/-- **C63.** Whatever the schedule: there is one order of all events such that what each goroutine has sent and what each poll
    returns are in this order. -/
theorem C63_order {s : Ses α} (h : Steps {} s) :
    ∃ all : List α, (∀ t ∈ s.threads, t.didSend.Sublist all) ∧ (∀ b ∈ s.out, b.Sublist all) ∧
      all.Perm (s.threads.flatMap Thread.didSend) ∧ ∃ got, all = got ++ s.queue := by
  have i := inv_steps h inv_init
  refine ⟨s.sent, i.senders, ?_, i.sentPerm.symm, s.got, i.flow⟩
  intro b hb
  rw [i.flow]
  exact (i.outMem b hb).trans (List.sublist_append_left _ _)

theorem onePoll_steps {s t : Ses α} (h : OnePoll s t) : Steps s t := by
  induction h with
  | refl => exact .refl
  | step _ hs _ ih => exact .step ih hs

theorem pending_nil {l : List (Thread α)} (h : l.countP Thread.isPoll = 0) : l.flatMap Thread.pending = [] := by
  rw [List.countP_eq_zero] at h
  rw [List.flatMap_eq_nil_iff]
  intro t ht
  have := h t ht
  cases t <;> simp_all [Thread.isPoll, Thread.pending]

/-- Without a second poll nothing else is pending. -/
theorem alone {l r : List (Thread α)} {e : List α} {b : Bool} (h : (l ++ .poll e b :: r).countP Thread.isPoll ≤ 1) :
    l.flatMap Thread.pending = [] ∧ r.flatMap Thread.pending = [] := by
  simp only [List.countP_append, List.countP_cons, Thread.isPoll, if_true] at h
  exact ⟨pending_nil (by omega), pending_nil (by omega)⟩

theorem onePoll_count {s : Ses α} (h : OnePoll {} s) : s.threads.countP Thread.isPoll ≤ 1 := by
  cases h with
  | refl => simp
  | step _ _ h => exact h

/-- **C63.** Whatever the schedule, if there are never two polls at the same time (the page of the test explorer polls again
    when it has the answer): the results of the polls, one after the other, are the events in the order in which they were
    sent; the rest is in the running poll and in the session, in order. -/
theorem C63_stream {s : Ses α} (h : OnePoll {} s) :
    s.out.flatten ++ s.threads.flatMap Thread.pending ++ s.queue = s.sent ∧
    (∀ t ∈ s.threads, t.didSend.Sublist s.sent) ∧ (s.threads.flatMap Thread.didSend).Perm s.sent := by
  have i := inv_steps (onePoll_steps h) inv_init
  refine ⟨?_, i.senders, i.sentPerm⟩
  rw [i.flow]
  congr 1
  clear i
  generalize h0 : ({} : Ses α) = s0 at h
  induction h with
  | refl => subst h0; rfl
  | @step a b h1 hs c ih =>
    subst h0
    cases hs with
    | callSend => simpa [Thread.pending] using ih
    | callPoll => simpa [Thread.pending] using ih
    | send ht => rw [ht] at ih; simpa [Thread.pending] using ih
    | recv ht =>
      obtain ⟨x, y⟩ := alone c
      rw [ht] at ih
      simp [Thread.pending, x, y] at ih ⊢
      rw [← ih]; simp
    | timer ht => rw [ht] at ih; simpa [Thread.pending] using ih
    | @timeout l r evs ht =>
      have c' := onePoll_count h1
      rw [ht] at ih c'
      obtain ⟨x, y⟩ := alone c'
      simp [Thread.pending, x, y] at ih ⊢
      exact ih
    | @ready l r evs ht =>
      have c' := onePoll_count h1
      rw [ht] at ih c'
      obtain ⟨x, y⟩ := alone c'
      simp [Thread.pending, x, y] at ih ⊢
      exact ih
    | sleep => exact ih

/-- **C63.** A poll returns nothing only if the time was over. -/
theorem C63_empty {s : Ses α} (h : Steps {} s) (b : Bool) (hp : .polled [] b ∈ s.threads) : b = true := by
  generalize h0 : ({} : Ses α) = s0 at h
  have : ∀ t ∈ s.threads, t = .polled [] b → b = true := by
    clear hp
    induction h with
    | refl => subst h0; simp
    | step _ hs ih =>
      cases hs with
      | callSend => intro t ht; simp at ht; rcases ht with ht | rfl; exact ih t ht; simp
      | callPoll => intro t ht; simp at ht; rcases ht with ht | rfl; exact ih t ht; simp
      | send e =>
        rw [e] at ih; intro t ht; simp only [List.mem_append, List.mem_cons] at ht
        rcases ht with ht | rfl | ht
        · exact ih t (by simp [ht])
        · simp
        · exact ih t (by simp [ht])
      | recv e =>
        rw [e] at ih; intro t ht; simp only [List.mem_append, List.mem_cons] at ht
        rcases ht with ht | rfl | ht
        · exact ih t (by simp [ht])
        · simp
        · exact ih t (by simp [ht])
      | timer e =>
        rw [e] at ih; intro t ht; simp only [List.mem_append, List.mem_cons] at ht
        rcases ht with ht | rfl | ht
        · exact ih t (by simp [ht])
        · simp
        · exact ih t (by simp [ht])
      | timeout e =>
        rw [e] at ih; intro t ht; simp only [List.mem_append, List.mem_cons] at ht
        rcases ht with ht | rfl | ht
        · exact ih t (by simp [ht])
        · intro x; injection x with _ x; exact x.symm
        · exact ih t (by simp [ht])
      | ready e _ ne =>
        rw [e] at ih; intro t ht; simp only [List.mem_append, List.mem_cons] at ht
        rcases ht with ht | rfl | ht
        · exact ih t (by simp [ht])
        · intro x; injection x with x _; exact absurd x ne
        · exact ih t (by simp [ht])
      | sleep => exact ih
  exact this _ hp rfl

/-- **C63.** Nobody waits for ever if somebody polls: a running poll can receive or return now or when its time is over, and
    then, or if there is room, a goroutine that sends can go on. -/
theorem C63_progress {s : Ses α} {evs : List α} {b : Bool} (hp : .poll evs b ∈ s.threads) :
    (s.queue ≠ [] → ∃ t, Step s t ∧ t.queue.length < s.queue.length) ∧
    (b = true → ∃ t, Step s t ∧ t.out = s.out ++ [evs]) ∧
    (s.queue = [] → evs ≠ [] → ∃ t, Step s t ∧ t.out = s.out ++ [evs]) := by
  obtain ⟨l, r, e⟩ := List.append_of_mem hp
  refine ⟨?_, ?_, ?_⟩
  · intro hq
    cases h : s.queue with
    | nil => exact absurd h hq
    | cons x q => exact ⟨_, .recv e h, by simp⟩
  · rintro rfl; exact ⟨_, .timeout e, rfl⟩
  · intro hq he
    cases b with
    | true => exact ⟨_, .timeout e, rfl⟩
    | false => exact ⟨_, .ready e hq he, rfl⟩

/-- **C63.** A session never holds more than 100 events, and sending waits only while it holds 100. -/
theorem C63_bound {s : Ses α} (h : Steps {} s) :
    s.queue.length ≤ 100 ∧
    ∀ d e es, .send d (e :: es) ∈ s.threads → s.queue.length ≠ 100 → ∃ t, Step s t ∧ t.sent = s.sent ++ [e] := by
  have i := inv_steps h inv_init
  refine ⟨i.bound, ?_⟩
  intro d e es hm hq
  obtain ⟨l, r, x⟩ := List.append_of_mem hm
  have := i.bound
  exact ⟨_, .send x (by unfold capacity at *; omega), rfl⟩

/-- Two polls at the same time may return the events in another order: the first event is in the result that comes last. -/
theorem C63_two_polls :
    ∃ s : Ses Nat, Steps {} s ∧ s.sent = [1, 2] ∧ s.out = [[2], [1]] := by
  have h0 : Steps ({} : Ses Nat) _ := .refl
  have h1 := h0.step (.callSend [1, 2])
  have h2 := h1.step .callPoll
  have h3 := h2.step .callPoll
  have h4 := h3.step (.send (l := []) rfl (by decide))
  have h5 := h4.step (.send (l := []) rfl (by decide))
  have h6 := h5.step (.recv (l := [_]) rfl rfl)
  have h7 := h6.step (.recv (l := [_, _]) rfl rfl)
  have h8 := h7.step (.ready (l := [_, _]) rfl rfl (by decide))
  have h9 := h8.step (.ready (l := [_]) rfl rfl (by decide))
  exact ⟨_, h9, rfl, rfl⟩

/-- One poll after the other. -/
example : ∃ s : Ses Nat, OnePoll {} s ∧ s.sent = [1, 2, 3] ∧ s.out = [[1], [2]] ∧ s.queue = [3] := by
  have h0 : OnePoll ({} : Ses Nat) _ := .refl
  have h1 := h0.step (.callSend [1, 2, 3]) (by decide)
  have h2 := h1.step .callPoll (by decide)
  have h4 := h2.step (.send (l := []) rfl (by decide)) (by decide)
  have h6 := h4.step (.recv (l := [_]) rfl rfl) (by decide)
  have h8 := h6.step (.ready (l := [_]) rfl rfl (by decide)) (by decide)
  have h9 := h8.step .callPoll (by decide)
  have h10 := h9.step (.send (l := []) rfl (by decide)) (by decide)
  have h11 := h10.step (.recv (l := [_, _]) rfl rfl) (by decide)
  have h12 := h11.step (.timer (l := [_, _]) rfl) (by decide)
  have h13 := h12.step (.send (l := []) rfl (by decide)) (by decide)
  have h14 := h13.step (.timeout (l := [_, _]) rfl) (by decide)
  exact ⟨_, h14, rfl, rfl, rfl⟩

/-! ### The manager -/

theorem sessionID_inj {a b : Str} {m n : Nat} (h : sessionID a m = sessionID b n) : m = n := by
  unfold sessionID at h
  generalize "session_".toList = p at h
  have fr : ∀ k, '_' ∉ (Nat.toDigits 10 k) := fun k => Verif.Instrument.FuncTrap.dec_free (n := k)
  -- what follows the last `_`
  have key : ∀ (x : Str) (k : Nat), (x ++ '_' :: Nat.toDigits 10 k).reverse.takeWhile (· ≠ '_') = (Nat.toDigits 10 k).reverse := by
    intro x k
    rw [List.reverse_append, List.reverse_cons, List.append_assoc]
    rw [List.takeWhile_append_of_pos]
    · simp
    · intro c hc; simp; rintro rfl; exact fr k (by simpa using hc)
  have := congrArg (fun l => l.reverse.takeWhile (· ≠ '_')) h
  simp only [key] at this
  exact Verif.Instrument.FuncTrap.dec_inj (List.reverse_injective this)

/-- The number of a `Start`, if it has one. -/
def Starting.num : Starting → Option Nat
  | .begun => none
  | .numbered n => some n
  | .named n _ => some n
  | .stored n _ => some n

/-- What a `Start` has stored. -/
def Starting.result : Starting → Option (Str × Nat)
  | .stored n id => some (id, n)
  | _ => none

/-- Its id, made with its number. -/
def Starting.good : Starting → Prop
  | .begun => True
  | .numbered _ => True
  | .named n id => ∃ now, id = sessionID now n
  | .stored n id => ∃ now, id = sessionID now n

theorem started_append (a b : List Call) : started (a ++ b) = started a ++ started b := by
  induction a with
  | nil => rfl
  | cons c a ih => cases c <;> simp [started, ih]

theorem mem_started (l : List Call) (id : Str) (n : Nat) : (id, n) ∈ started l ↔ .start id n ∈ l := by
  induction l with
  | nil => simp [started]
  | cons c l ih => cases c <;> simp [started, ih]

structure MInv (s : Manager) : Prop where
  le : ∀ t ∈ s.starts, ∀ n, t.num = some n → n ≤ s.nextID
  nodup : (s.starts.filterMap Starting.num).Nodup
  good : ∀ t ∈ s.starts, t.good
  stored : (s.starts.filterMap Starting.result).Perm (started s.log)
  gets : ∀ pre post id r, s.log = pre ++ .get id r :: post → (∀ n, r = some n ↔ Alive pre id n)
  map : ∀ id n, s.mapping.lookup id = some n ↔ Alive s.log id n

theorem minv_init : MInv {} := by
  constructor <;> simp [started, Alive]

theorem alive_append {l : List Call} {c : Call} {id : Str} {n : Nat} (hs : ∀ m, c ≠ .start id m) :
    Alive (l ++ [c]) id n ↔ Alive l id n ∧ c ≠ .destroy id := by
  constructor
  · rintro ⟨a, b, e, h⟩
    rcases List.eq_nil_or_concat b with rfl | ⟨b', x, rfl⟩
    · have := List.append_inj_right' (s₁ := l) (s₂ := a) e rfl
      injection this with this; exact absurd this (hs n)
    · have e' : l ++ [c] = (a ++ .start id n :: b') ++ [x] := by simp [e]
      have h1 := List.append_inj_left' e' rfl
      have h2 := List.append_inj_right' e' rfl
      injection h2 with h2; subst h2
      simp at h
      exact ⟨⟨a, b', h1, h.1⟩, fun x => h.2 x.symm⟩
  · rintro ⟨⟨a, b, rfl, h⟩, hd⟩
    refine ⟨a, b ++ [c], by simp, ?_⟩
    simp [h]; exact fun x => hd x.symm

/-- The history `log ++ [c]` with a call of `Get` in it. -/
theorem gets_append {log : List Call} {c : Call}
    (h : ∀ pre post id r, log = pre ++ .get id r :: post → (∀ n, r = some n ↔ Alive pre id n))
    (hc : ∀ id r, c = .get id r → (∀ n, r = some n ↔ Alive log id n)) :
    ∀ pre post id r, log ++ [c] = pre ++ .get id r :: post → (∀ n, r = some n ↔ Alive pre id n) := by
  intro pre post id r e
  rcases List.eq_nil_or_concat post with rfl | ⟨p, x, rfl⟩
  · have h1 := List.append_inj_left' (s₁ := log) (s₂ := pre) e rfl
    have h2 := List.append_inj_right' (s₁ := log) (s₂ := pre) e rfl
    injection h2 with h2
    subst h1
    exact hc id r h2
  · have e' : log ++ [c] = (pre ++ .get id r :: p) ++ [x] := by simp [e]
    exact h pre p id r (List.append_inj_left' e' rfl)

theorem nodup_mid {l r : List Nat} {n : Nat} : (l ++ n :: r).Nodup ↔ n ∉ l ++ r ∧ (l ++ r).Nodup := by
  rw [List.perm_middle.nodup_iff, List.nodup_cons]

theorem lookup_filter (m : List (Str × Nat)) (id id' : Str) :
    (m.filter (fun p => p.1 ≠ id)).lookup id' = if id' = id then none else m.lookup id' := by
  induction m with
  | nil => simp
  | cons p m ih =>
    obtain ⟨k, v⟩ := p
    by_cases hk : k = id
    · subst hk
      rw [List.filter_cons_of_neg (by simp), ih]
      by_cases h : id' = k
      · simp [h]
      · have : (id' == k) = false := by simpa using h
        rw [List.lookup_cons, this]
    · rw [List.filter_cons_of_pos (by simpa using hk), List.lookup_cons, List.lookup_cons, ih]
      by_cases h : id' = k
      · subst h; simp [hk]
      · have : (id' == k) = false := by simpa using h
        simp only [this]

theorem minv_step {s t : Manager} (i : MInv s) (h : MStep s t) : MInv t := by
  cases h with
  | callStart =>
    refine { i with le := ?_, nodup := ?_, good := ?_, stored := ?_ }
    · intro t ht n hn; simp at ht; rcases ht with ht | rfl
      · exact i.le t ht n hn
      · simp [Starting.num] at hn
    · simpa [List.filterMap_cons, Starting.num] using i.nodup
    · intro t ht; simp at ht; rcases ht with ht | rfl
      · exact i.good t ht
      · trivial
    · simpa [List.filterMap_cons, Starting.result] using i.stored
  | @number l r ht =>
    have a := i.le; have b := i.nodup; have c := i.good; have d := i.stored
    rw [ht] at a b c d
    refine { i with le := ?_, nodup := ?_, good := ?_, stored := ?_ }
    · intro t h n hn
      simp only [List.mem_append, List.mem_cons] at h
      rcases h with h | rfl | h
      · have := a t (by simp [h]) n hn; show n ≤ s.nextID + 1; omega
      · simp [Starting.num] at hn; subst hn; exact Nat.le_refl _
      · have := a t (by simp [h]) n hn; show n ≤ s.nextID + 1; omega
    · simp only [List.filterMap_append, List.filterMap_cons, Starting.num] at b ⊢
      rw [nodup_mid]
      refine ⟨?_, b⟩
      intro h
      rw [← List.filterMap_append] at h
      obtain ⟨t, h1, h2⟩ := List.mem_filterMap.mp h
      have := a t (by simp at h1 ⊢; tauto) _ h2
      omega
    · intro t h
      simp only [List.mem_append, List.mem_cons] at h
      rcases h with h | rfl | h
      · exact c t (by simp [h])
      · trivial
      · exact c t (by simp [h])
    · simpa [List.filterMap_cons, Starting.result] using d
  | @name l r n now ht =>
    have a := i.le; have b := i.nodup; have c := i.good; have d := i.stored
    rw [ht] at a b c d
    refine { i with le := ?_, nodup := ?_, good := ?_, stored := ?_ }
    · intro t h m hn
      simp only [List.mem_append, List.mem_cons] at h
      rcases h with h | rfl | h
      · exact a t (by simp [h]) m hn
      · exact a (.numbered n) (by simp) m hn
      · exact a t (by simp [h]) m hn
    · simpa [List.filterMap_cons, Starting.num] using b
    · intro t h
      simp only [List.mem_append, List.mem_cons] at h
      rcases h with h | rfl | h
      · exact c t (by simp [h])
      · exact ⟨now, rfl⟩
      · exact c t (by simp [h])
    · simpa [List.filterMap_cons, Starting.result] using d
  | @store l r n id ht =>
    have a := i.le; have b := i.nodup; have c := i.good; have d := i.stored
    rw [ht] at a b c d
    -- the id is new
    have fresh : ∀ m, .start id m ∉ s.log := by
      intro m hm
      rw [← mem_started] at hm
      have hm := d.mem_iff.mpr hm
      obtain ⟨t, h1, h2⟩ := List.mem_filterMap.mp hm
      have gt := c t h1
      obtain ⟨now, e⟩ := c (.named n id) (by simp)
      cases t with
      | stored k id' =>
        simp [Starting.result] at h2
        obtain ⟨rfl, rfl⟩ := h2
        obtain ⟨now', e'⟩ := gt
        have := sessionID_inj (e'.symm.trans e)
        subst this
        simp only [List.filterMap_append, List.filterMap_cons, Starting.num, nodup_mid] at b
        apply b.1
        rw [← List.filterMap_append]
        refine List.mem_filterMap.mpr ⟨_, ?_, (rfl : Starting.num (.stored k id') = some k)⟩
        simpa using h1
      | _ => simp [Starting.result] at h2
    constructor
    · intro t h m hn
      simp only [List.mem_append, List.mem_cons] at h
      rcases h with h | rfl | h
      · exact a t (by simp [h]) m hn
      · exact a (.named n id) (by simp) m hn
      · exact a t (by simp [h]) m hn
    · simpa [List.filterMap_cons, Starting.num] using b
    · intro t h
      simp only [List.mem_append, List.mem_cons] at h
      rcases h with h | rfl | h
      · exact c t (by simp [h])
      · exact c (.named n id) (by simp)
      · exact c t (by simp [h])
    · simp only [started_append, started, List.filterMap_append, List.filterMap_cons, Starting.result] at d ⊢
      exact List.perm_middle.trans ((List.Perm.cons _ d).trans (List.perm_append_singleton _ _).symm)
    · exact gets_append i.gets (by intro _ _ h; cases h)
    · intro id' m
      show ((id, n) :: s.mapping).lookup id' = some m ↔ Alive (s.log ++ [.start id n]) id' m
      rw [List.lookup_cons]
      by_cases e : id' = id
      · subst e
        simp only [beq_self_eq_true]
        constructor
        · intro h; injection h with h; subst h; exact ⟨s.log, [], rfl, by simp⟩
        · rintro ⟨x, y, e, hy⟩
          rcases List.eq_nil_or_concat y with rfl | ⟨y', z, rfl⟩
          · have := List.append_inj_right' (s₁ := s.log) (s₂ := x) e rfl
            injection this with this; injection this with _ this; rw [this]
          · have e' : s.log ++ [.start id' n] = (x ++ .start id' m :: y') ++ [z] := by simp [e]
            have := List.append_inj_left' e' rfl
            exact absurd (by rw [this]; simp) (fresh m)
      · rw [show (id' == id) = false by simpa using e]
        show s.mapping.lookup id' = some m ↔ _
        rw [alive_append (by intro k h; injection h with h _; exact e h.symm), i.map]
        simp
  | get id =>
    refine { i with stored := ?_, gets := ?_, map := ?_ }
    · simpa [started_append, started] using i.stored
    · apply gets_append i.gets
      intro id' r h
      injection h with h1 h2; subst h1; subst h2
      exact i.map id
    · intro id' n
      show s.mapping.lookup id' = some n ↔ Alive (s.log ++ [_]) id' n
      rw [alive_append (by simp), i.map]; simp
  | destroy id =>
    refine { i with stored := ?_, gets := ?_, map := ?_ }
    · simpa [started_append, started] using i.stored
    · exact gets_append i.gets (by intro _ _ h; cases h)
    · intro id' n
      show (s.mapping.filter (fun p => p.1 ≠ id)).lookup id' = some n ↔ Alive (s.log ++ [_]) id' n
      rw [alive_append (by simp), lookup_filter]
      by_cases e : id' = id
      · simp [e]
      · rw [if_neg e, i.map]
        simp; intro _ h; exact e h.symm

theorem minv_steps {s t : Manager} (h : MSteps s t) (i : MInv s) : MInv t := by
  induction h with
  | refl => exact i
  | step _ hs ih => exact minv_step ih hs

/-- **C63.** Whatever the schedule and whatever the clock shows: no two sessions have the same id. -/
theorem C63_ids {s : Manager} (h : MSteps {} s) : ((started s.log).map Prod.fst).Nodup := by
  have i := minv_steps h minv_init
  rw [← (i.stored.map Prod.fst).nodup_iff]
  have b := i.nodup
  have c := i.good
  revert b c
  generalize s.starts = l
  intro b c
  induction l with
  | nil => simp
  | cons t l ih =>
    have b' : (l.filterMap Starting.num).Nodup := by
      simp only [List.filterMap_cons] at b
      split at b
      · exact b
      · exact (List.nodup_cons.mp b).2
    have := ih b' (fun u hu => c u (by simp [hu]))
    cases t with
    | stored n id =>
      simp only [List.filterMap_cons, Starting.result, List.map_cons, List.nodup_cons]
      refine ⟨?_, this⟩
      intro hm
      simp only [List.mem_map, List.mem_filterMap] at hm
      obtain ⟨⟨id', m⟩, ⟨u, hu, hr⟩, rfl⟩ := hm
      cases u with
      | stored k id'' =>
        simp [Starting.result] at hr
        obtain ⟨rfl, rfl⟩ := hr
        obtain ⟨x, ex⟩ := c (.stored n id'') (by simp)
        obtain ⟨y, ey⟩ := c (.stored k id'') (by simp [hu])
        have := sessionID_inj (ex.symm.trans ey)
        subst this
        simp only [List.filterMap_cons, Starting.num, List.nodup_cons] at b
        exact b.1 (List.mem_filterMap.mpr ⟨_, hu, rfl⟩)
      | _ => simp [Starting.result] at hr
    | _ => simpa [List.filterMap_cons, Starting.result] using this

/-- **C63.** Whatever the schedule: `Get(id)` gives the session that was started with this id, until it is destroyed; no other
    call has an effect on it. -/
theorem C63_get {s : Manager} (h : MSteps {} s) (pre post : List Call) (id : Str) (r : Option Nat)
    (e : s.log = pre ++ .get id r :: post) (n : Nat) : r = some n ↔ Alive pre id n :=
  (minv_steps h minv_init).gets pre post id r e n

/-- Two sessions started in the same second, one destroyed. -/
example : ∃ s : Manager, MSteps {} s ∧ s.log =
    [.start "session_t_2".toList 2, .start "session_t_1".toList 1, .destroy "session_t_2".toList,
     .get "session_t_1".toList (some 1), .get "session_t_2".toList none] := by
  have h0 : MSteps {} _ := .refl
  have h1 := h0.step .callStart
  have h2 := h1.step .callStart
  have h3 := h2.step (.number (l := []) rfl)
  have h4 := h3.step (.number (l := [_]) rfl)
  have h5 := h4.step (.name (l := []) "t".toList rfl)
  have h6 := h5.step (.name (l := [_]) "t".toList rfl)
  have h7 := h6.step (.store (l := [_]) rfl)
  have h8 := h7.step (.store (l := []) rfl)
  have h9 := h8.step (.destroy "session_t_2".toList)
  have h10 := h9.step (.get "session_t_1".toList)
  have h11 := h10.step (.get "session_t_2".toList)
  exact ⟨_, h11, by decide⟩

end Verif.Support.Session
