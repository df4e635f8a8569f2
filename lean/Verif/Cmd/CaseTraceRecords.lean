/-
C110: the records of a trace that the test explorer shows.

Source: cmd/xgo/test-explorer/trace_record.go:24-38 (`CallRecord`), 68-114 (`convertStacks`, `convertStack`), run_session.go:457-483
(`readTraceFromFile`), cmd/xgo/trace/render/stack_model (the trace that is read).

Simplifications: arguments and results are opaque values; an entry `null` in the list of children is `nil`. A file that is missing is no trace,
and one that cannot be read or is no trace is shown as one record with the error (run_session.go:441-455).
-/
namespace Verif.Cmd.CaseTrace.Records

abbrev Str := List Char
abbrev Val := Nat

/-- What is known of the function (stack_model.FuncInfo). -/
structure Info where
  pkg : Str
  name : Str
  file : Str
  line : Int
  deriving DecidableEq

/-- One call, without those made from it (stack_model.StackEntry). -/
structure Entry where
  info : Option Info
  beginNs : Int
  endNs : Int
  args : Val
  results : Val
  error : Str
  panic : Bool
  deriving DecidableEq

mutual
inductive Stack
  | nil
  | mk (e : Entry) (children : Stacks)
inductive Stacks
  | empty
  | cons (s : Stack) (rest : Stacks)
end

/-- `CallRecord` without its children; `MockStatus` and `Log` are never set. -/
structure Fields where
  pkg : Str
  func : Str
  file : Str
  line : Int
  start : Int
  stop : Int
  args : Val
  error : Str
  panic : Bool
  result : Val
  deriving DecidableEq

mutual
inductive Record
  | nil
  | mk (f : Fields) (children : Records)
inductive Records
  | empty
  | cons (r : Record) (rest : Records)
end

/-- The fields of `convertStack` (trace_record.go:87-113). -/
def fields (e : Entry) : Fields :=
  let i := e.info.getD ⟨[], [], [], 0⟩
  { pkg := i.pkg, func := i.name, file := i.file, line := i.line, start := e.beginNs, stop := e.endNs, args := e.args, error := e.error,
    panic := e.panic, result := e.results }

mutual
/-- `convertStack` (trace_record.go:82-114). -/
def convert : Stack → Record
  | .nil => .nil
  | .mk e cs => .mk (fields e) (convertAll cs)
/-- `convertStacks` (trace_record.go:70-80). -/
def convertAll : Stacks → Records
  | .empty => .empty
  | .cons s rest => .cons (convert s) (convertAll rest)
end

/-- The file of a trace: missing, not readable or not a trace, the trace `null` (or one without the list of calls), or
    the calls of a trace. -/
inductive File
  | missing
  | bad (err : Str)
  | null
  | trace (children : Stacks)

/-- `readTrace` (run_session.go:441-483): the records that are sent, if any. An empty list that is not nil is sent too. -/
def readTrace : File → Option Records
  | .missing => none
  | .bad err =>
    let f : Fields := ⟨"github.com/xhd2015/xgo/cmd/xgo/test-explorer".toList, "readTraceFromFile".toList, [], 0, 0, 0, 0, err, false, 0⟩
    some (.cons (.mk f .empty) .empty)
  | .null => none
  | .trace cs => some (convertAll cs)

/-! ### Specification -/

/-- What a user wants to know of a call: which function, where, when, with what, and how it ended. -/
structure Seen where
  func : Option (Str × Str × Str × Int)
  time : Int × Int
  values : Val × Val
  outcome : Str × Bool
  deriving DecidableEq

mutual
/-- The calls of a trace, in order, each with its depth. -/
def calls (d : Nat) : Stack → List (Nat × Seen)
  | .nil => []
  | .mk e cs => (d, ⟨e.info.map fun i => (i.pkg, i.name, i.file, i.line), (e.beginNs, e.endNs), (e.args, e.results), (e.error, e.panic)⟩) ::
      callsAll (d + 1) cs
def callsAll (d : Nat) : Stacks → List (Nat × Seen)
  | .empty => []
  | .cons s rest => calls d s ++ callsAll d rest
end

mutual
/-- The calls that records show; no name and no file is an unknown function. -/
def shown (d : Nat) : Record → List (Nat × Seen)
  | .nil => []
  | .mk f rs => (d, ⟨if f.pkg = [] ∧ f.func = [] ∧ f.file = [] ∧ f.line = 0 then none else some (f.pkg, f.func, f.file, f.line), (f.start, f.stop),
      (f.args, f.result), (f.error, f.panic)⟩) :: shownAll (d + 1) rs
def shownAll (d : Nat) : Records → List (Nat × Seen)
  | .empty => []
  | .cons r rest => shown d r ++ shownAll d rest
end

mutual
/-- What is known of a function is not nothing. -/
def Known : Stack → Prop
  | .nil => True
  | .mk e cs => e.info ≠ some ⟨[], [], [], 0⟩ ∧ KnownAll cs
def KnownAll : Stacks → Prop
  | .empty => True
  | .cons s rest => Known s ∧ KnownAll rest
end

/-! ### The theorem -/

theorem fields_func (e : Entry) (h : e.info ≠ some ⟨[], [], [], 0⟩) :
    (if (fields e).pkg = [] ∧ (fields e).func = [] ∧ (fields e).file = [] ∧ (fields e).line = 0 then none
      else some ((fields e).pkg, (fields e).func, (fields e).file, (fields e).line)) = e.info.map fun i => (i.pkg, i.name, i.file, i.line) := by
  cases hi : e.info with
  | none => simp [fields, hi]
  | some i =>
    obtain ⟨p, n, f, l⟩ := i
    rw [hi] at h
    have : ¬ (p = [] ∧ n = [] ∧ f = [] ∧ l = 0) := by
      rintro ⟨rfl, rfl, rfl, rfl⟩
      exact h rfl
    simp only [fields, hi, Option.getD_some]
    rw [if_neg this]
    rfl

mutual
theorem shown_convert : ∀ (s : Stack) (d : Nat), Known s → shown d (convert s) = calls d s
  | .nil, _, _ => by rw [convert, shown, calls]
  | .mk e cs, d, h => by
    rw [Known] at h
    rw [convert, shown, calls, shown_convertAll cs (d + 1) h.2, fields_func e h.1]
    rfl
theorem shown_convertAll : ∀ (s : Stacks) (d : Nat), KnownAll s → shownAll d (convertAll s) = callsAll d s
  | .empty, _, _ => by rw [convertAll, shownAll, callsAll]
  | .cons s rest, d, h => by
    rw [KnownAll] at h
    rw [convertAll, shownAll, callsAll, shown_convert s d h.1, shown_convertAll rest d h.2]
end

/-- **C110.** The records shown for a trace are its calls: all of them, in order, at their depth, each with its function, time, arguments,
    results, error and panic. -/
theorem C110_records (cs : Stacks) (h : KnownAll cs) : ∃ rs, readTrace (.trace cs) = some rs ∧ shownAll 0 rs = callsAll 0 cs :=
  ⟨_, rfl, shown_convertAll cs 0 h⟩

/-- **C110.** Without a trace nothing is shown; a file that is no trace is shown as an error. -/
theorem C110_no_trace (err : Str) : readTrace .missing = none ∧ readTrace .null = none ∧
    ∃ rs x, readTrace (.bad err) = some rs ∧ shownAll 0 rs = [x] ∧ x.2.outcome = (err, false) :=
  ⟨rfl, rfl, _, _, rfl, rfl, rfl⟩

/-- Two calls from a test, and an entry that is null. -/
example : ∃ cs, KnownAll cs ∧ (callsAll 0 cs).map (fun x => (x.1, x.2.func.map fun f => f.2.1)) =
    [(0, some "TestA".toList), (1, some "f".toList), (1, none)] := by
  let e (n : Str) : Entry := ⟨some ⟨"p".toList, n, "a.go".toList, 3⟩, 0, 5, 1, 2, [], false⟩
  refine ⟨.cons (.mk (e "TestA".toList) (.cons (.mk (e "f".toList) .empty) (.cons .nil (.cons (.mk ⟨none, 1, 2, 0, 0, [], true⟩ .empty) .empty)))) .empty, ?_, ?_⟩
  · simp [KnownAll, Known, e]
  · rfl

end Verif.Cmd.CaseTrace.Records
