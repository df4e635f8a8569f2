/-
C102: the edits that put xgo's hooks into the sources of the Go runtime and standard library.
Sources: instrument/instrument_runtime/instrument.go:34-119 (`InstrumentRuntime`), runtim2.go:11-32, proc.go:11-187 (without the
deprecated `InstrumentGoroutineCreation`), time.go:15-84, json_encoding.go:9-67, instrument_testing/testing.go:16-59; the edits
themselves are those of Instrument/PatchText (`UpdateContent`, `EditFile`).

Simplifications: of the tree only the seven edited files exist, reading and writing succeed; the mark file is left out, since the only
caller (cmd/xgo/patch.go:125-127) uses the mode that ignores it; so is xgo_trap.go, which is written as a whole
(instrument.go:102-111). `enableCyclicDetect` is false (json_encoding.go:9).
-/
import Verif.Instrument.PatchText

namespace Verif.Instrument.GoHooks
open Verif.Text Verif.Instrument.PatchText

/-- The marks of an edit as all callers write them: `/*<begin NAME>*/`, `/*<end NAME>*/`. -/
def bm (name : String) : Str := "/*<begin ".toList ++ name.toList ++ ">*/".toList
/-- The end mark, likewise. -/
def em (name : String) : Str := "/*<end ".toList ++ name.toList ++ ">*/".toList

/-- `UpdateContent` with the marks of `name`. -/
def upd (name : String) (seq : List String) (i : Nat) (pos : Position) (new : Str) (content : Str) : Option Str :=
  updateContent content (bm name) (em name) (seq.map String.toList) i pos new

/-! ### runtime2.go -/

/-- runtim2.go:11-32: a field for xgo at the end of `g`. -/
def editRuntime2 : Str → Option Str :=
  upd "instrument_runtime2_xgo_g" ["type g struct {", "}\n"] 1 .before "__xgo_g __xgo_g;".toList

/-! ### time -/

/-- `strings.ReplaceAll`. -/
def replaceAll (old new : Str) (s : Str) : Str :=
  match h : cut old s with
  | none => s
  | some (a, b) => if hne : old = [] then s else a ++ new ++ replaceAll old new b
termination_by s.length
decreasing_by
  have := cut_length h
  have : 0 < old.length := List.length_pos_iff.2 hne
  omega

/-- `strings.TrimSuffix`. -/
def trimSuffix (suf s : Str) : Str := if suf.isSuffixOf s then s.take (s.length - suf.length) else s

/-- time.go:15-45: a copy of `time.Now` under another name at the end of the file. -/
def editTimeNow (content : Str) : Option Str :=
  match cut "func Now() Time {".toList content with
  | none => none
  | some (_, r) =>
    match cut "\n}\n".toList r with
    | none => none
    | some (b, _) =>
      let body := "func Now() Time {".toList ++ b ++ "\n}\n".toList
      let x := trimSuffix "\n".toList (replaceAll "func Now() Time {".toList "func XgoRealNow() Time {".toList body)
      let x := bm "add_xgo_real_time_now" ++ x ++ em "add_xgo_real_time_now"
      some (content ++ if "\n".toList.isSuffixOf content then x else '\n' :: x)

/-- What `time.Sleep` becomes (time.go:55). -/
def sleepText : Str :=
  "func XgoRealSleep(d Duration);func /*xgo_instrumented*/Sleep(d Duration){ XgoRealSleep(d); }".toList

/-- time.go:47-65. -/
def editSleep (content : Str) : Option Str :=
  match cut "func Sleep(d Duration)".toList content with
  | none => none
  | some (a, b) =>
    some (a ++ bm "xgo_time_sleep" ++ "/*old:".toList ++ "func Sleep(d Duration)".toList ++ "*/".toList ++ sleepText ++ em "xgo_time_sleep" ++ b)

/-- time.go:67-84. -/
def editRuntimeSleep (content : Str) : Option Str :=
  match cut "//go:linkname timeSleep time.Sleep".toList content with
  | none => none
  | some (a, b) =>
    some (a ++ ("/*<next-line-original xgo_runtime_time_linkname>".toList ++ "//go:linkname timeSleep time.Sleep".toList ++
      "</next-line-original>*/\n".toList) ++ "//go:linkname timeSleep time.XgoRealSleep".toList ++ b)

/-! ### encoding/json -/

/-- json_encoding.go:64-67. -/
def looseText : Str :=
  "if __xgo_runtime.XgoIsLooseJsonMarshaling() { e.WriteString(fmt.Sprintf(\"{%q:%q}\", v.Type().String(), \"?\")); return; }".toList

/-- json_encoding.go:11-62. -/
def editJson (content : Str) : Option Str :=
  (upd "instrument_json_encoding_import_runtime" ["package json", "\n"] 0 .after ";import __xgo_runtime \"runtime\"".toList content).bind
    (upd "instrument_json_encoding_unsupported_type_encoder" ["func unsupportedTypeEncoder(", ") {", "\n"] 1 .after looseText)

/-! ### testing -/

/-- instrument_testing/testing.go:49-53. -/
def chdirText : Str := "if xgoDir := XgoTestNameToDir[test.Name]; xgoDir != \"\" { os.Chdir(xgoDir); };".toList

/-- instrument_testing/testing.go:16-59. -/
def editTesting (content : Str) : Option Str :=
  (upd "declare_XgoTestNameToDir" ["func runTests("] 0 .before "var XgoTestNameToDir map[string]string;".toList content).bind
    (upd "check_XgoTestNameToDir" ["func runTests(", "tRunner(t, func(t *T) {", "t.Run(test.Name,"] 2 .before chdirText)

/-! ### proc.go -/

/-- `getProcAnchor` (proc.go:28-44); of a version 1.x only `x` counts. -/
def procAnchor (major minor : Nat) : String × String :=
  if major = 1 ∧ minor ≤ 17 then ("func newproc(siz int32", "newg := newproc1(fn, argp, siz, gp, pc)")
  else if major = 1 ∧ minor ≤ 22 then ("func newproc(fn", "newg := newproc1(fn, gp, pc)")
  else ("func newproc(fn", "newg := newproc1(fn, gp, pc, false, waitReasonZero)")

/-- `containsInFunc` (proc.go:136-152). -/
def containsInFunc (content startMark needle : Str) : Bool :=
  match cut startMark content with
  | none => false
  | some (_, r) =>
    match cut "\nfunc ".toList r with
    | none => contains (startMark ++ r) needle
    | some (f, _) => contains (startMark ++ f) needle

/-- `buildRaceSetupAfterCreateCallback` (proc.go:118-134). -/
def raceSetup (content : Str) : Str :=
  "if raceenabled { newg.racectx = racegostart(pc);".toList ++
  (if containsInFunc content "func newproc1(".toList "newg.raceignore".toList then " newg.raceignore = 0;".toList else []) ++
  (if containsInFunc content "func newproc1(".toList "racereleasemergeg(newg".toList then
    " if newg.labels != nil { racereleasemergeg(newg, unsafe.Pointer(&labelSync)) };".toList else []) ++
  " };".toList

/-- The anchors of `newproc` (proc.go:52-59, 78-85). -/
def newprocSeq (major minor : Nat) : List String :=
  [(procAnchor major minor).1, "systemstack(func() {", (procAnchor major minor).2, "\n", "})", "}"]

/-- proc.go:88. -/
def createText (setup : Str) : Str :=
  ";__xgo_newg=newg});__xgo_callback_on_create_g(__xgo_curg,__xgo_newg);systemstack(func(){newg:=__xgo_newg;".toList ++ setup

/-- `instrumentNewGroutineV2` (proc.go:46-116). -/
def editNewproc (major minor : Nat) (content : Str) : Option Str :=
  (upd "declare_xgo_curg" (newprocSeq major minor) 1 .before "__xgo_curg := gp.m.curg;var __xgo_newg *g;".toList content).bind fun c =>
  (upd "add_go_newproc_callback_v2" (newprocSeq major minor) 2 .after (createText (raceSetup c)) c).bind
  (upd "xgo_proc_defer_racegostart" ["func newproc1(", "if raceenabled {", "racegostart("] 1 .replace
    "if false { // xgo: race setup moved after create callback (#341)".toList)

/-- `instrumentGoexit` (proc.go:174-187). -/
def editGoexit : Str → Option Str :=
  upd "add_go_exit1_callback" ["func goexit1() {", "\n"] 0 .after ";__xgo_callback_on_exit_g()".toList

/-- `instrumentInitFinished` (proc.go:154-172). -/
def editInit : Str → Option Str :=
  upd "set_init_finished_mark" ["func main() {", "doInit(", "runtime_inittask", ")", "doInit(", "close(main_init_done)", "\n"] 5 .before
    "__xgo_callback_on_init_finished();".toList

/-- `instrumentProc` (proc.go:11-26). -/
def editProc (major minor : Nat) (content : Str) : Option Str :=
  ((editNewproc major minor content).bind editGoexit).bind editInit

/-! ### The tree -/

/-- The files that are edited. -/
inductive File
  | runtime2 | proc | timeNow | timeSleep | runtimeTime | json | testing
  deriving DecidableEq, Repr

/-- The edits in the order in which they are made (instrument.go:66-99). -/
def order : List File := [.runtime2, .proc, .timeNow, .timeSleep, .runtimeTime, .json, .testing]

/-- `goMajor != 1 || (goMinor < 17 || goMinor > 26)` is an error, for each file but proc.go (runtim2.go:12 and others). -/
def supported (major minor : Nat) : Bool := major = 1 && 17 ≤ minor && minor ≤ 26

/-- The edit of a file. -/
def editOf (major minor : Nat) : File → Str → Option Str
  | .runtime2 => editRuntime2
  | .proc => editProc major minor
  | .timeNow => editTimeNow
  | .timeSleep => editSleep
  | .runtimeTime => editRuntimeSleep
  | .json => editJson
  | .testing => editTesting

/-- One step of `InstrumentRuntime`: the text of the file afterwards, and whether to go on. -/
def instrumentFile (major minor : Nat) (f : File) (text : Str) : Str × Bool :=
  if f ≠ .proc ∧ supported major minor = false then (text, false) else editFile text (editOf major minor f)

/-- `InstrumentRuntime` (instrument.go:66-99): the first error ends it. -/
def instrumentAll (major minor : Nat) : List File → (File → Str) → (File → Str) × Bool
  | [], t => (t, true)
  | f :: fs, t =>
    let r := instrumentFile major minor f (t f)
    let t' := fun g => if g = f then r.1 else t g
    if r.2 then instrumentAll major minor fs t' else (t', false)

/-- `InstrumentRuntime` (instrument.go:34-119). -/
def instrument (major minor : Nat) (t : File → Str) : (File → Str) × Bool := instrumentAll major minor order t

end Verif.Instrument.GoHooks
