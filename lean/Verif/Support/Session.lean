/-
Model of sessions: the queue of events of a session with any number of goroutines that send and poll, and the session
manager.

Source: support/session/session.go (lines 12-90), used by cmd/xgo/test-explorer/run_session.go:37-150.
-/
import Verif.Support.Decimal

namespace Verif.Support.Session
open Verif.Support (Str)

/-! ### One session -/

/-- A goroutine in `SendEvents` (session.go:32-37): what it has sent and what it has still to send. Or a goroutine in `poll`
    (session.go:44-61): the variable `events`, whether `timeoutCh` is ready; or it has returned. -/
inductive Thread (α : Type) where
  | send (did rest : List α)
  | poll (events : List α) (timeout : Bool)
  | polled (events : List α) (timeout : Bool)
  deriving DecidableEq, Repr

/-- `queue` is the channel `ch` (session.go:28-30). The other fields record the history: what was sent, what was received,
    both in the order in which it happened, and the results of the polls in the order in which they returned. -/
structure Ses (α : Type) where
  queue : List α := []
  threads : List (Thread α) := []
  sent : List α := []
  got : List α := []
  out : List (List α) := []
  deriving DecidableEq, Repr

/-- The capacity of the channel (session.go:73). -/
def capacity : Nat := 100

/-- Interleaved steps. -/
inductive Step {α : Type} : Ses α → Ses α → Prop where
  /-- somebody calls `SendEvents` -/
  | callSend {s} (evs : List α) : Step s { s with threads := s.threads ++ [.send [] evs] }
  /-- somebody calls `PollEvents` -/
  | callPoll {s} : Step s { s with threads := s.threads ++ [.poll [] false] }
  /-- `c.ch <- e` (session.go:34); it waits while the channel is full -/
  | send {s l r d e es} : s.threads = l ++ .send d (e :: es) :: r → s.queue.length < capacity →
      Step s { s with threads := l ++ .send (d ++ [e]) es :: r, queue := s.queue ++ [e], sent := s.sent ++ [e] }
  /-- `case event := <-c.ch` (session.go:50-51) -/
  | recv {s l r evs t e q} : s.threads = l ++ .poll evs t :: r → s.queue = e :: q →
      Step s { s with threads := l ++ .poll (evs ++ [e]) t :: r, queue := q, got := s.got ++ [e] }
  /-- the time is over (session.go:47) -/
  | timer {s l r evs} : s.threads = l ++ .poll evs false :: r →
      Step s { s with threads := l ++ .poll evs true :: r }
  /-- `case <-timeoutCh` (session.go:52-53): chosen at random if an event could be received, too -/
  | timeout {s l r evs} : s.threads = l ++ .poll evs true :: r →
      Step s { s with threads := l ++ .polled evs true :: r, out := s.out ++ [evs] }
  /-- `default` with events (session.go:54-57) -/
  | ready {s l r evs} : s.threads = l ++ .poll evs false :: r → s.queue = [] → evs ≠ [] →
      Step s { s with threads := l ++ .polled evs false :: r, out := s.out ++ [evs] }
  /-- `default` without events: `time.Sleep` (session.go:58) -/
  | sleep {s l r t} : s.threads = l ++ .poll [] t :: r → s.queue = [] → t = false → Step s s

inductive Steps {α : Type} : Ses α → Ses α → Prop where
  | refl {s} : Steps s s
  | step {s t u} : Steps s t → Step t u → Steps s u

/-! ### The manager -/

/-- `fmt.Sprintf("session_%s_%d", now, id)` (session.go:71). -/
def sessionID (now : Str) (n : Nat) : Str :=
  "session_".toList ++ now ++ '_' :: Nat.toDigits 10 n

/-- A goroutine in `Start` (session.go:68-77). -/
inductive Starting where
  /-- before `atomic.AddInt64` -/
  | begun
  /-- with the number -/
  | numbered (n : Nat)
  /-- with the id; the session is an object of its own -/
  | named (n : Nat) (id : Str)
  /-- after `Store` -/
  | stored (n : Nat) (id : Str)
  deriving DecidableEq, Repr

/-- What callers of the manager see: `Start` has stored, `Get` and its result, `Destroy`. Sessions are named by their
    number. -/
inductive Call where
  | start (id : Str) (session : Nat)
  | get (id : Str) (result : Option Nat)
  | destroy (id : Str)
  deriving DecidableEq, Repr

/-- `sessionManager` (session.go:63-66); `log` is the history. -/
structure Manager where
  nextID : Nat := 0
  mapping : List (Str × Nat) := []
  starts : List Starting := []
  log : List Call := []
  deriving DecidableEq, Repr

inductive MStep : Manager → Manager → Prop where
  | callStart {s} : MStep s { s with starts := s.starts ++ [.begun] }
  /-- `atomic.AddInt64(&c.nextID, 1)` (session.go:70). Simplification: it does not overflow. -/
  | number {s l r} : s.starts = l ++ .begun :: r →
      MStep s { s with nextID := s.nextID + 1, starts := l ++ .numbered (s.nextID + 1) :: r }
  /-- the id (session.go:71); the clock may show anything -/
  | name {s l r n} (now : Str) : s.starts = l ++ .numbered n :: r →
      MStep s { s with starts := l ++ .named n (sessionID now n) :: r }
  /-- `c.mapping.Store(id, session)` (session.go:75) -/
  | store {s l r n id} : s.starts = l ++ .named n id :: r →
      MStep s { s with starts := l ++ .stored n id :: r, mapping := (id, n) :: s.mapping, log := s.log ++ [.start id n] }
  /-- `Get` (session.go:78-85) -/
  | get {s} (id : Str) : MStep s { s with log := s.log ++ [.get id (s.mapping.lookup id)] }
  /-- `Destroy` (session.go:87-90) -/
  | destroy {s} (id : Str) :
      MStep s { s with mapping := s.mapping.filter (fun p => p.1 ≠ id), log := s.log ++ [.destroy id] }

inductive MSteps : Manager → Manager → Prop where
  | refl {s} : MSteps s s
  | step {s t u} : MSteps s t → MStep t u → MSteps s u

end Verif.Support.Session
