/-
C102: where the hooks belong. Uses only the description of patched files of Instrument/PatchSpec, not the model.
-/
import Verif.Instrument.PatchSpec
import Verif.Instrument.GoHooks

namespace Verif.Instrument.GoHooks.Spec
open Verif.Text Verif.Instrument.PatchText.Spec

/-- `w` occurs in `a ++ w ++ b` only where it is written. -/
def Once (w : String) (a b : Str) : Prop := NotBefore w.toList a ∧ ¬ w.toList <:+: b

/-- An insertion. -/
def ins (label : String) (new : Str) : Mark := .region label.toList [] new

/-- The functions of Go that `newproc1` has, as far as xgo moves them. -/
structure Race where
  ignore : Bool
  labels : Bool

/-- The race setup of `newproc1`, as one line. -/
def Race.text (r : Race) : Str :=
  "if raceenabled { newg.racectx = racegostart(pc);".toList ++ (if r.ignore then " newg.raceignore = 0;".toList else []) ++
  (if r.labels then " if newg.labels != nil { racereleasemergeg(newg, unsafe.Pointer(&labelSync)) };".toList else []) ++ " };".toList

/-- The race setup that the function beginning with `func newproc1(` has: `fn` is the rest of its text. -/
def Race.In (r : Race) (fn : Str) : Prop :=
  (r.ignore = true ↔ "newg.raceignore".toList <:+: "func newproc1(".toList ++ fn) ∧
  (r.labels = true ↔ "racereleasemergeg(newg".toList <:+: "func newproc1(".toList ++ fn)

/-- `fn` is the text up to the next function of the file, if there is one. -/
def UpToFunc (fn text : Str) : Prop :=
  (fn = text ∧ ¬ "\nfunc ".toList <:+: text) ∨ (NotBefore "\nfunc ".toList fn ∧ ∃ b, text = fn ++ "\nfunc ".toList ++ b)

/-- How `newproc` is declared and how it calls `newproc1`. -/
inductive Decl : (major minor : Nat) → (decl call : String) → Prop
  | go17 {minor} : minor ≤ 17 → Decl 1 minor "func newproc(siz int32" "newg := newproc1(fn, argp, siz, gp, pc)"
  | go22 {minor} : 18 ≤ minor → minor ≤ 22 → Decl 1 minor "func newproc(fn" "newg := newproc1(fn, gp, pc)"
  | go23 {minor} : 23 ≤ minor → Decl 1 minor "func newproc(fn" "newg := newproc1(fn, gp, pc, false, waitReasonZero)"

/-- The file of the Go distribution, and the file with hooks: which text is put where. -/
inductive Hooked (major minor : Nat) : File → Str → Patched → Prop
  /-- a field of xgo is the last of `g` -/
  | runtime2 (a b c : Str) : Once "type g struct {" a (b ++ "}\n".toList ++ c) → NotBefore "}\n".toList b →
      Hooked major minor .runtime2 (a ++ "type g struct {".toList ++ b ++ "}\n".toList ++ c)
        ⟨[(a ++ "type g struct {".toList ++ b, ins "instrument_runtime2_xgo_g" "__xgo_g __xgo_g;".toList)], "}\n".toList ++ c⟩
  /-- a copy of `time.Now`, called `XgoRealNow`, is at the end -/
  | timeNow (a b c : Str) : NotBefore "func Now() Time {".toList a → NotBefore "\n}\n".toList b →
      ¬ "func Now() Time {".toList <:+: b ++ "\n}\n".toList → ¬ "/*old:".toList <:+: b → (c = [] ∨ ∃ c', c = c' ++ ['\n']) →
      Hooked major minor .timeNow (a ++ "func Now() Time {".toList ++ b ++ "\n}\n".toList ++ c)
        ⟨[(a ++ "func Now() Time {".toList ++ b ++ "\n}\n".toList ++ c,
          ins "add_xgo_real_time_now" ("func XgoRealNow() Time {".toList ++ b ++ "\n}".toList))], []⟩
  /-- `time.Sleep` has a body, which calls `XgoRealSleep`, which has none -/
  | timeSleep (a b : Str) : NotBefore "func Sleep(d Duration)".toList a →
      Hooked major minor .timeSleep (a ++ "func Sleep(d Duration)".toList ++ b)
        ⟨[(a, .region "xgo_time_sleep".toList "func Sleep(d Duration)".toList
          "func XgoRealSleep(d Duration);func /*xgo_instrumented*/Sleep(d Duration){ XgoRealSleep(d); }".toList)], b⟩
  /-- the runtime's function is linked to `XgoRealSleep` -/
  | runtimeTime (a b : Str) : NotBefore "//go:linkname timeSleep time.Sleep".toList a →
      Hooked major minor .runtimeTime (a ++ "//go:linkname timeSleep time.Sleep".toList ++ '\n' :: b)
        ⟨[(a, .line "xgo_runtime_time_linkname".toList "//go:linkname timeSleep time.Sleep".toList
          "//go:linkname timeSleep time.XgoRealSleep".toList)], '\n' :: b⟩
  /-- what json cannot encode is written as its type if xgo says so, before anything else is done about it -/
  | json (a b c d : Str) : Once "package json" a (b ++ "func unsupportedTypeEncoder(".toList ++ c ++ ") {".toList ++ d) → '\n' ∈ b →
      Once "func unsupportedTypeEncoder(" (a ++ "package json".toList ++ b) (c ++ ") {".toList ++ d) → NotBefore ") {".toList c →
      '\n' ∈ d →
      Hooked major minor .json (a ++ "package json".toList ++ b ++ "func unsupportedTypeEncoder(".toList ++ c ++ ") {".toList ++ d)
        ⟨[(a ++ "package json".toList, ins "instrument_json_encoding_import_runtime" ";import __xgo_runtime \"runtime\"".toList),
          (b ++ "func unsupportedTypeEncoder(".toList ++ c ++ ") {".toList, ins "instrument_json_encoding_unsupported_type_encoder"
            "if __xgo_runtime.XgoIsLooseJsonMarshaling() { e.WriteString(fmt.Sprintf(\"{%q:%q}\", v.Type().String(), \"?\")); return; }".toList)], d⟩
  /-- a test whose directory is known runs in it -/
  | testing (a b c d : Str) : Once "func runTests(" a (b ++ "tRunner(t, func(t *T) {".toList ++ c ++ "t.Run(test.Name,".toList ++ d) →
      NotBefore "tRunner(t, func(t *T) {".toList b → NotBefore "t.Run(test.Name,".toList c →
      Hooked major minor .testing
        (a ++ "func runTests(".toList ++ b ++ "tRunner(t, func(t *T) {".toList ++ c ++ "t.Run(test.Name,".toList ++ d)
        ⟨[(a, ins "declare_XgoTestNameToDir" "var XgoTestNameToDir map[string]string;".toList),
          ("func runTests(".toList ++ b ++ "tRunner(t, func(t *T) {".toList ++ c, ins "check_XgoTestNameToDir"
            "if xgoDir := XgoTestNameToDir[test.Name]; xgoDir != \"\" { os.Chdir(xgoDir); };".toList)], "t.Run(test.Name,".toList ++ d⟩
  /-- `main` tells xgo that the packages are initialised, before the program may know; `goexit1` tells it first of all; `newproc` tells
      it of the new goroutine before race detection is set up for it, which `newproc1` no longer does -/
  | proc (decl call : String) (m0 m1 m2 m3 m4 m5 b c n1 n2 n r1 r2 r3 : Str) (race : Race) (fn : Str) (A B C D E : Str) :
      Decl major minor decl call →
      A = m0 ++ "func main() {".toList ++ (m1 ++ "doInit(".toList ++ (m2 ++ "runtime_inittask".toList ++ (m3 ++ ")".toList ++
        (m4 ++ "doInit(".toList ++ m5)))) →
      E = r1 ++ "if raceenabled {".toList ++ r2 ++ "racegostart(".toList ++ r3 →
      D = n1 ++ "systemstack(func() {".toList ++ n2 ++ call.toList ++ n ++ "func newproc1(".toList ++ E →
      C = c ++ decl.toList ++ D →
      B = b ++ "func goexit1() {".toList ++ C →
      Once "func main() {" m0 B → NotBefore "doInit(".toList m1 → NotBefore "runtime_inittask".toList m2 → NotBefore ")".toList m3 →
      NotBefore "doInit(".toList m4 → NotBefore "close(main_init_done)".toList m5 → '\n' ∈ b →
      Once "func goexit1() {" (A ++ "close(main_init_done)".toList ++ b) C → '\n' ∈ c →
      Once decl (A ++ "close(main_init_done)".toList ++ b ++ "func goexit1() {".toList ++ c) D → NotBefore "systemstack(func() {".toList n1 →
      NotBefore call.toList n2 → (∃ x y z w, n = x ++ "\n".toList ++ (y ++ "})".toList ++ (z ++ "}".toList ++ w)) ∧
        NotBefore "\n".toList x ∧ NotBefore "})".toList y ∧ NotBefore "}".toList z) →
      Once "func newproc1(" (A ++ "close(main_init_done)".toList ++ b ++ "func goexit1() {".toList ++ c ++ decl.toList ++ n1 ++
        "systemstack(func() {".toList ++ n2 ++ call.toList ++ n) E →
      NotBefore "if raceenabled {".toList r1 → NotBefore "racegostart(".toList r2 → UpToFunc fn E → race.In fn →
      Hooked major minor .proc (A ++ "close(main_init_done)".toList ++ B)
        ⟨[(A, ins "set_init_finished_mark" "__xgo_callback_on_init_finished();".toList),
          ("close(main_init_done)".toList ++ b ++ "func goexit1() {".toList, ins "add_go_exit1_callback" ";__xgo_callback_on_exit_g()".toList),
          (c ++ decl.toList ++ n1, ins "declare_xgo_curg" "__xgo_curg := gp.m.curg;var __xgo_newg *g;".toList),
          ("systemstack(func() {".toList ++ n2 ++ call.toList, ins "add_go_newproc_callback_v2"
            (";__xgo_newg=newg});__xgo_callback_on_create_g(__xgo_curg,__xgo_newg);systemstack(func(){newg:=__xgo_newg;".toList ++ race.text)),
          (n ++ "func newproc1(".toList ++ r1, .region "xgo_proc_defer_racegostart".toList "if raceenabled {".toList
            "if false { // xgo: race setup moved after create callback (#341)".toList)],
          r2 ++ "racegostart(".toList ++ r3⟩

/-- The file has not got the place where its first hook belongs. -/
inductive Lacks (major minor : Nat) : File → Str → Prop
  | runtime2 {s} : ¬ "type g struct {".toList <:+: s → Lacks major minor .runtime2 s
  | proc {s} (decl call : String) : Decl major minor decl call → ¬ decl.toList <:+: s → Lacks major minor .proc s
  | timeNow {s} : ¬ "func Now() Time {".toList <:+: s → Lacks major minor .timeNow s
  | timeSleep {s} : ¬ "func Sleep(d Duration)".toList <:+: s → Lacks major minor .timeSleep s
  | runtimeTime {s} : ¬ "//go:linkname timeSleep time.Sleep".toList <:+: s → Lacks major minor .runtimeTime s
  | json {s} : ¬ "package json".toList <:+: s → Lacks major minor .json s
  | testing {s} : ¬ "func runTests(".toList <:+: s → Lacks major minor .testing s

/-- A tree of sources with edits, as any version of xgo leaves it. -/
structure Tree where
  file : File → Patched
  /-- The sources themselves have no markers. -/
  clean : ∀ f, Unmarked (file f).original
  undo : ∀ f, Undoable Unmarked LabelOk (file f).parts (file f).rest

/-- The line on which a text ends, counted from 0. -/
def line (s : Str) : Nat := s.count '\n'

end Verif.Instrument.GoHooks.Spec
