/-
Model of how the output of a run in the test explorer gets to the page: the pipes between the program that is run and the readers that
turn its lines into events.

Source: cmd/xgo/test-explorer/run_session.go:296-427 (`Start`), 585-603 (`consumeTestEvent`), poll.go:115-164 (`startRun`, for the
handlers `/run` and `/debug`); bufio.Scanner with its buffer of 64 KiB, io.Pipe.

Simplifications: a text is a list of characters, each taking one place in the buffer; the writes of the program are one text per
stream (a write to an `io.Pipe` ends when all of it has been read, in whatever portions); the page polls, so that sending an event does
not block; the events that only concern statuses are left out.
-/
namespace Verif.Cmd.RunOutput

abbrev Str := List Char

/-- Where a reader is: in its loop, or out of it because of a line that is longer than its buffer, of a line that is no event, or
    because of the end of the stream. -/
inductive Reader
  | on | full | bad | eof
  deriving DecidableEq

structure Stream where
  /-- what the program has still to write -/
  rest : Str
  /-- what the scanner has read and not yet given out -/
  buf : Str
  st : Reader
  deriving DecidableEq

inductive Ev
  /-- a line of the standard output, and of the error output -/
  | out (l : Str)
  | err (l : Str)
  /-- `Event_ErrorMsg` -/
  | bad
  /-- the run has failed -/
  | fail
  /-- `Event_TestEnd` -/
  | done
  deriving DecidableEq

structure Cfg where
  /-- the size of the buffer of a scanner: 64 KiB -/
  max : Nat
  /-- is the pipe closed when the program ends? (run_session.go:337-340; not in poll.go) -/
  closes : Bool
  /-- does the end wait for the reader of the output? (run_session.go:383-384; not in poll.go) -/
  waits : Bool
  /-- is the line an event? (run_session.go:590-598) -/
  accept : Str → Bool

structure St where
  out : Stream
  err : Stream
  /-- has the program ended, and with an error? -/
  exited : Option Bool
  /-- a write to the error output has failed -/
  broken : Bool
  ended : Bool
  events : List Ev
  deriving DecidableEq

def start (out err : Str) : St where
  out := ⟨out, [], .on⟩
  err := ⟨err, [], .on⟩
  exited := none
  broken := false
  ended := false
  events := []

/-- The first line in the buffer, and what follows it. -/
def nextLine : Str → Option (Str × Str)
  | [] => none
  | c :: s => if c = '\n' then some ([], s) else (nextLine s).map fun p => (c :: p.1, p.2)

/-- `bufio.ScanLines` drops a carriage return before the end of the line. -/
def dropCR (l : Str) : Str := if l.getLast? = some '\r' then l.dropLast else l

/-- The scanner reads `k` characters: there is no line in its buffer, and there is room. -/
def Stream.read (max : Nat) (x : Stream) (k : Nat) : Option Stream :=
  if x.st = .on ∧ nextLine x.buf = none ∧ 0 < k ∧ k ≤ x.rest.length ∧ x.buf.length + k ≤ max then
    some { x with rest := x.rest.drop k, buf := x.buf ++ x.rest.take k }
  else none

/-- The buffer is full and has no line in it: `bufio.ErrTooLong` ends the loop, and nothing says so. -/
def Stream.overflow (max : Nat) (x : Stream) : Option Stream :=
  if x.st = .on ∧ nextLine x.buf = none ∧ max ≤ x.buf.length then some { x with st := .full } else none

inductive Label
  | readOut (k : Nat) | lineOut | fullOut | eofOut
  | readErr (k : Nat) | lineErr | fullErr
  /-- the program writes to the error output after its reader has closed it (run_session.go:373) -/
  | breakErr
  /-- the program ends, with an error or not -/
  | exit (failed : Bool)
  /-- the end of the run is sent (run_session.go:383-420, poll.go:122-124) -/
  | finish
  deriving DecidableEq

/-- `Run` returns when the program has ended and all it has written has been taken (run_session.go:336-363). -/
def step (c : Cfg) (s : St) : Label → Option St
  | .readOut k => (s.out.read c.max k).map fun x => { s with out := x }
  | .lineOut =>
    if s.out.st = .on then
      match nextLine s.out.buf with
      | none => none
      | some (l, r) =>
        if c.accept (dropCR l) then some { s with out := { s.out with buf := r }, events := s.events ++ [.out (dropCR l)] }
        else some { s with out := { s.out with buf := r, st := .bad }, events := s.events ++ [.bad] }
    else none
  | .fullOut => (s.out.overflow c.max).map fun x => { s with out := x }
  | .eofOut =>
    if s.out.st = .on ∧ nextLine s.out.buf = none ∧ s.out.buf.length < c.max ∧ c.closes = true ∧ s.exited.isSome = true then
      if s.out.buf = [] then some { s with out := { s.out with st := .eof } }
      else if c.accept (dropCR s.out.buf) then
        some { s with out := { s.out with buf := [], st := .eof }, events := s.events ++ [.out (dropCR s.out.buf)] }
      else some { s with out := { s.out with buf := [], st := .bad }, events := s.events ++ [.bad] }
    else none
  | .readErr k => (s.err.read c.max k).map fun x => { s with err := x }
  | .lineErr =>
    if s.err.st = .on then
      match nextLine s.err.buf with
      | none => none
      | some (l, r) => some { s with err := { s.err with buf := r }, events := s.events ++ [.err (dropCR l)] }
    else none
  | .fullErr => (s.err.overflow c.max).map fun x => { s with err := x }
  | .breakErr =>
    if s.err.st ≠ .on ∧ s.err.rest ≠ [] then some { s with err := { s.err with rest := [] }, broken := true } else none
  | .exit failed =>
    if s.exited = none ∧ s.out.rest = [] ∧ s.err.rest = [] then some { s with exited := some (failed || s.broken) } else none
  | .finish =>
    if s.ended = false ∧ (c.waits = true → s.out.st ≠ .on) then
      match s.exited with
      | none => none
      | some f => some { s with ended := true, events := s.events ++ (if f then [.fail] else []) ++ [.done] }
    else none

def run (c : Cfg) : St → List Label → Option St
  | s, [] => some s
  | s, a :: l => (step c s a).bind fun s' => run c s' l

/-- A session (run_session.go): of one test (both outputs go to one pipe, every line is a message) or of several. -/
def session (accept : Str → Bool) : Cfg := ⟨65536, true, true, accept⟩

/-- `/run` and `/debug` (poll.go): the pipe is never closed, and the end waits for nothing. -/
def polled : Cfg := ⟨65536, false, false, fun _ => true⟩

end Verif.Cmd.RunOutput
