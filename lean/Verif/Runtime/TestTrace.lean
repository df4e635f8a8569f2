/-
Model of the traces that `xgo test --strace` writes for tests, and that `trace.Trace` writes: runtime/internal/trap/trap.go:58-133 (when a trace
begins), 203-206 and 300-340 (what is recorded), 408-447 (where it goes), runtime/internal/trap/init.go:28-68 (goroutines).

Simplifications: after initialisation; calls made by hooks (trapping depth above 1) and inspecting are left out; of a call its function is kept,
not its arguments and results (C75); of the goroutines started by a traced one only whether they are traced, not how they are shown in its trace
(C76). Unix paths as in Cmd/GoMod. The place of a call within its goroutine follows from `enter` and `exit`: `exit` is the deferred function
that `trap` returns, so it also happens when the function panics or ends its goroutine (C90), and it does not when the process is ended.
-/
import Verif.Support.GetGo

namespace Verif.Runtime.TestTrace

open Verif.Cmd.GoMod (Path isAbs clean cleanStep abs dir)
open Verif.Cmd.Vendor (split)
open Verif.Support.GetGo (FS Node mkdirAll)

abbrev Str := List Char
abbrev Gid := Nat

/-- `trace.Config` (runtime/trace/trace.go:13-24); `[[]]`, the empty path, is no file. -/
structure Cfg where
  out : Path
  onFinish : Bool
  filter : Option (Nat → Bool)

/-- An argument, as far as `trap` looks at it (trap.go:91): a `*testing.T` with its `Name()`, or something else. -/
inductive Arg
  | t (name : Str)
  | other

/-- A call of a function with a trap. -/
structure Call where
  /-- the function -/
  fn : Nat
  /-- it is `trace.Trace`, with this config -/
  trace : Option Cfg
  recv : Bool
  args : List Arg
  results : Nat
  /-- the function that called it is `testing.tRunner` -/
  byRunner : Bool

/-- The flags of the run (runtime/internal/flags/flags.go) and how a trace is written as JSON. -/
structure Conf where
  collect : Bool
  dir : Path
  raceSafe : Bool
  json : List (Bool × Nat) → Str

/-- What a frame with a trace of its own will do at its end. -/
inductive Start
  | test (name : Str)
  | trace

structure Frame where
  fn : Nat
  /-- the stack that the call is recorded in -/
  sid : Option Nat
  starts : Option Start

structure State where
  /-- the stack of each goroutine -/
  att : Gid → Option Nat
  next : Nat
  /-- `StackData` (stack_data.go): `hasStartedTracing`, `filterTrace`, `stackOutputFile` and `onFinish` -/
  started : Nat → Bool
  filter : Nat → Option (Nat → Bool)
  cfg : Nat → Cfg
  /-- what the stack has recorded: `(true, f)` for a call of `f`, `(false, f)` for its end -/
  log : Nat → List (Bool × Nat)
  frames : Gid → List Frame
  cwd : List Str
  fs : FS
  /-- what was given to `OnFinish` functions -/
  finished : List (List (Bool × Nat))
  /-- number of messages `error writing stack` -/
  errs : Nat

def upd {α : Type} (f : Nat → α) (k : Nat) (v : α) : Nat → α := fun x => if x = k then v else f x

/-- Does a call begin a trace on a goroutine that is not being traced (trap.go:82-107)? `fresh`: it has no stack. -/
def begins (cf : Conf) (c : Call) (fresh : Bool) : Option Start :=
  if c.trace.isSome then some .trace                                   -- 84-86
  else if fresh && cf.collect && !c.recv && c.results == 0 then        -- 87-90
    match c.args with
    | [.t n] => if c.byRunner then some (.test n) else none            -- 91-104
    | _ => none
  else none

/-- `filterTrace == nil || filterTrace(funcInfo)` (trap.go:213) -/
def allowed (f : Option (Nat → Bool)) (fn : Nat) : Bool :=
  match f with
  | none => true
  | some p => p fn

def State.push (s : State) (g : Gid) (f : Frame) : State := { s with frames := upd s.frames g (f :: s.frames g) }

/-- `PushNew` and the frame (trap.go:325-330). -/
def State.record (s : State) (g : Gid) (i : Nat) (fn : Nat) (st : Option Start) : State :=
  { s with log := upd s.log i (s.log i ++ [(true, fn)]) }.push g ⟨fn, some i, st⟩

/-- The rest of a call that begins a trace on stack `i` (trap.go:211-308). -/
def State.begin (s : State) (g : Gid) (i : Nat) (fresh : Bool) (c : Call) : Start → State
  | .test n =>
    if allowed (s.filter i) c.fn then s.record g i c.fn (some (.test n)) else s.push g ⟨c.fn, none, none⟩
  | .trace =>
    if allowed (s.filter i) c.fn then
      match c.trace with
      | none => s
      | some k =>
        let s1 := { s with filter := upd s.filter i k.filter }                                           -- 299
        if k.out = [[]] ∧ k.onFinish = false then                                                          -- 300-305
          (if fresh then { s1 with att := upd s1.att g none } else s1).push g ⟨c.fn, none, none⟩
        else { s1 with cfg := upd s1.cfg i k }.record g i c.fn (some .trace)                               -- 306-307
    else s.push g ⟨c.fn, none, none⟩

/-- A call on goroutine `g` (trap.go:58-340). -/
def State.enter (cf : Conf) (s : State) (g : Gid) (c : Call) : State :=
  match s.att g with
  | none =>
    match begins cf c true with
    | none => s.push g ⟨c.fn, none, none⟩
    | some st =>
      let i := s.next
      { s with att := upd s.att g (some i), next := i + 1, started := upd s.started i true, filter := upd s.filter i none, log := upd s.log i [] }.begin
        g i true c st                                                                                      -- 108-128
  | some i =>
    if s.started i then                                                                                    -- 77: isTracing
      if allowed (s.filter i) c.fn then s.record g i c.fn none else s.push g ⟨c.fn, none, none⟩
    else
      match begins cf c false with
      | none => s.push g ⟨c.fn, none, none⟩
      | some st => { s with started := upd s.started i true }.begin g i false c st                         -- 129-131

/-- `filepath.Join(flags.COLLECT_TEST_TRACE_DIR, testName+".json")` (trap.go:424). -/
def outPath (dir : Path) (name : Str) : Path :=
  let n := split '/' (name ++ ".json".toList)
  clean (if dir = [[]] then n else dir ++ n)

/-- `os.WriteFile` -/
def writeFile (fs : FS) (p : List Str) (c : Str) : Option FS :=
  if p ≠ [] ∧ (p.dropLast = [] ∨ fs p.dropLast = some .dir) ∧ fs p ≠ some .dir then some (fs.put p (.file c)) else none

/-- Writing the trace of a test (trap.go:424-431); the error of `MkdirAll` is not looked at. -/
def State.saveTest (cf : Conf) (s : State) (n : Str) (tr : List (Bool × Nat)) : State :=
  let p := outPath cf.dir n
  let fs1 := (mkdirAll s.fs [] (abs s.cwd (dir p))).getD s.fs
  match writeFile fs1 (abs s.cwd p) (cf.json tr) with
  | some fs2 => { s with fs := fs2 }
  | none => { s with fs := fs1, errs := s.errs + 1 }

/-- `OnFinish` and `OutputFile` (trap.go:433-445). -/
def State.saveTrace (cf : Conf) (s : State) (k : Cfg) (tr : List (Bool × Nat)) : State :=
  let s1 := if k.onFinish then { s with finished := s.finished ++ [tr] } else s
  if k.out = [[]] then s1
  else
    match writeFile s1.fs (abs s1.cwd k.out) (cf.json tr) with
    | some fs2 => { s1 with fs := fs2 }
    | none => { s1 with errs := s1.errs + 1 }

/-- The end of the innermost call on goroutine `g` (trap.go:343-447). -/
def State.exit (cf : Conf) (s : State) (g : Gid) : State :=
  match s.frames g with
  | [] => s
  | f :: rest =>
    let s0 := { s with frames := upd s.frames g rest }
    match f.sid with
    | none => s0
    | some i =>
      let s1 := { s0 with log := upd s0.log i (s0.log i ++ [(false, f.fn)]) }
      match f.starts with
      | none => s1
      | some (.test n) => { (s1.saveTest cf n (s1.log i)) with att := upd s1.att g none }
      | some .trace => { (s1.saveTrace cf (s1.cfg i) (s1.log i)) with att := upd s1.att g none }

/-- `inerhitStack` (init.go:28-68): `c` is a new goroutine. -/
def State.spawn (cf : Conf) (s : State) (p c : Gid) : State :=
  if cf.raceSafe then s
  else
    match s.att p with
    | none => s
    | some i =>
      { s with att := upd s.att c (some s.next), next := s.next + 1, started := upd s.started s.next (s.started i),
               filter := upd s.filter s.next (if s.started i then s.filter i else none), log := upd s.log s.next [] }

/-- Registering a mock, recorder or interceptor on goroutine `g` (`getOrAttachStackData`, stack_data.go). -/
def State.register (s : State) (g : Gid) : State :=
  match s.att g with
  | some _ => s
  | none => { s with att := upd s.att g (some s.next), next := s.next + 1, started := upd s.started s.next false,
                     filter := upd s.filter s.next none, log := upd s.log s.next [] }

inductive Event
  /-- goroutine `p` starts goroutine `c` -/
  | spawn (p c : Gid)
  | register (g : Gid)
  | enter (g : Gid) (c : Call)
  | exit (g : Gid)
  | chdir (d : List Str)
  /-- the tests, or anyone else, change the files -/
  | disk (fs : FS)

def State.step (cf : Conf) (s : State) : Event → State
  | .spawn p c => s.spawn cf p c
  | .register g => s.register g
  | .enter g c => s.enter cf g c
  | .exit g => s.exit cf g
  | .chdir d => { s with cwd := d }
  | .disk fs => { s with fs := fs }

def State.run (cf : Conf) (s : State) (h : List Event) : State := h.foldl (State.step cf) s

/-- A process at its start. -/
def State.init (cwd : List Str) (fs : FS) : State where
  att := fun _ => none
  next := 0
  started := fun _ => false
  filter := fun _ => none
  cfg := fun _ => ⟨[[]], false, none⟩
  log := fun _ => []
  frames := fun _ => []
  cwd := cwd
  fs := fs
  finished := []
  errs := 0

end Verif.Runtime.TestTrace
