/-
Specification of the xgo command line.
-/
import Verif.Cmd.Options

namespace Verif.Cmd.Spec
open Verif.Support (Str)

/-- How a flag takes its value: not at all; optionally after `=` (with the values that are allowed and what they
    stand for); always, after `=` or as the next argument. -/
inductive Kind
  | bare
  | opt (meaning : Str → Option Str)
  | value

structure Entry where
  name : String
  flag : String
  kind : Kind

/-- `on`/`off`. -/
def onOff (v : Str) : Option Str :=
  if v ∈ ["".toList, "on".toList, "true".toList] then some "on".toList
  else if v ∈ ["off".toList, "false".toList] then some "off".toList else none

/-- `true`/`false`, `true` if no value is given. -/
def trueFalse (v : Str) : Option Str :=
  if v ∈ ["".toList, "true".toList] then some "true".toList
  else if v = "false".toList then some "false".toList else none

/-- One of three values. -/
def triState (v : Str) : Option Str := if v ∈ ["".toList, "true".toList, "false".toList] then some v else none

/-- The flags of xgo. -/
def table (cmd : Cmd) : List Entry :=
  [⟨"-a", "-a", .bare⟩, ⟨"-a", "--a", .bare⟩, ⟨"-x", "-x", .bare⟩, ⟨"-x", "--x", .bare⟩,
   ⟨"-c", "-c", .bare⟩, ⟨"-c", "--c", .bare⟩, ⟨"-v", "-v", .bare⟩, ⟨"-v", "--v", .bare⟩,
   ⟨"--log-compile", "--log-compile", .bare⟩, ⟨"--sync-xgo-only", "--sync-xgo-only", .bare⟩,
   ⟨"--setup-dev", "--setup-dev", .bare⟩, ⟨"--sync-with-link", "--sync-with-link", .bare⟩,
   ⟨"--no-build-output", "--no-build-output", .bare⟩, ⟨"--no-instrument", "--no-instrument", .bare⟩,
   ⟨"--reset-instrument", "--reset-instrument", .bare⟩, ⟨"--no-setup", "--no-setup", .bare⟩,
   ⟨"--no-line-directive", "--no-line-directive", .bare⟩,
   ⟨"--use-file-patches", "--use-file-patches", .opt trueFalse⟩,
   ⟨"--debug", "--debug", .opt some⟩,
   ⟨"--strace-dir", "--strace-dir", .value⟩, ⟨"--strace-dir", "--stack-trace-dir", .value⟩,
   ⟨"--strace", "--strace", .opt onOff⟩, ⟨"--strace", "--stack-trace", .opt onOff⟩,
   ⟨"--strace-snapshot-main-module-default", "--strace-snapshot-main-module-default", .opt some⟩,
   ⟨"--trap-stdlib", "--trap-stdlib", .opt some⟩, ⟨"--trap-all", "--trap-all", .opt some⟩,
   ⟨"--project-dir", "--project-dir", .value⟩, ⟨"-o", "-o", .value⟩, ⟨"-o", "--o", .value⟩,
   ⟨"--debug-target", "--debug-target", .value⟩, ⟨"--vscode", "--vscode", .value⟩,
   ⟨"--xgo-src", "--xgo-src", .value⟩, ⟨"--with-goroot", "--with-goroot", .value⟩,
   ⟨"--options-from-file", "--options-from-file", .value⟩, ⟨"--mock-rule", "--mock-rule", .value⟩,
   ⟨"--mock-rule-include-as-main-module", "--mock-rule-include-as-main-module", .value⟩,
   ⟨"--dump-ir", "--dump-ir", .value⟩, ⟨"--dump-ast", "--dump-ast", .value⟩,
   ⟨"-run", "-run", .value⟩, ⟨"-run", "--run", .value⟩, ⟨"-mod", "-mod", .value⟩, ⟨"-mod", "--mod", .value⟩,
   ⟨"-gcflags", "-gcflags", .value⟩, ⟨"-gcflags", "--gcflags", .value⟩,
   ⟨"-overlay", "-overlay", .value⟩, ⟨"-overlay", "--overlay", .value⟩,
   ⟨"-modfile", "-modfile", .value⟩, ⟨"-modfile", "--modfile", .value⟩,
   ⟨"-tags", "-tags", .value⟩, ⟨"-tags", "--tags", .value⟩,
   ⟨"--log-debug", "--log-debug", .opt some⟩, ⟨"--build-flag", "--build-flag", .value⟩,
   ⟨"--prog-flag", "--prog-flag", .value⟩, ⟨"--trap", "--trap", .value⟩,
   ⟨"--go", "--go", .opt some⟩, ⟨"--xgo-race-safe", "--xgo-race-safe", .opt some⟩] ++
  (if cmd = .setup then
    [⟨"--delete", "--delete", .opt some⟩, ⟨"--patch-goroot-in-place", "--patch-goroot-in-place", .opt some⟩,
     ⟨"--skip-rebuild-compiler-and-go", "--skip-rebuild-compiler-and-go", .opt some⟩] else []) ++
  (if cmd = .test then [⟨"--unified", "--unified", .opt triState⟩] else [])

/-- What an argument means as the flag `f` of the given kind, for the option `n`. -/
inductive Says (n f : Str) : Kind → Str → Recog → Prop
  | bare : Says n f .bare f (.self n [])
  | opt {m v} : m [] = some v → Says n f (.opt m) f (.self n v)
  | optEq {m raw v} : m raw = some v → Says n f (.opt m) (f ++ '=' :: raw) (.self n v)
  | optBad {m raw} : m raw = none → Says n f (.opt m) (f ++ '=' :: raw) .fail
  | value : Says n f .value f (.next n)
  | valueEq {v} : Says n f .value (f ++ '=' :: v) (.self n v)

/-- What an argument means, if it is one of xgo's flags. -/
def Means (cmd : Cmd) (arg : Str) (r : Recog) : Prop :=
  ∃ e ∈ table cmd, Says e.name.toList e.flag.toList e.kind arg r

/-- An argument that starts with `-` and is neither a flag of xgo nor one of the separators. -/
def Foreign (cmd : Cmd) (arg : Str) : Prop :=
  (∃ s, arg = '-' :: s) ∧ (∀ r, ¬ Means cmd arg r) ∧ arg ≠ "-".toList ∧ arg ≠ "--".toList ∧
  ¬ (cmd = .test ∧ (arg = "-args".toList ∨ arg = "--args".toList))

/-- A complete flag on the command line: a flag of xgo, alone or with its value; a flag of go written `-f=v`; a flag
    of go followed by its value, which does not start with `-`. `fl` are the options it gives, `pass` what go gets. -/
inductive CompleteFlag (cmd : Cmd) : List Str → List (Str × Str) → List Str → Prop
  | own {arg n v} : Means cmd arg (.self n v) → CompleteFlag cmd [arg] [(n, v)] []
  | ownNext {arg n v} : Means cmd arg (.next n) → CompleteFlag cmd [arg, v] [(n, v)] []
  | goEq {arg} : Foreign cmd arg → '=' ∈ arg → CompleteFlag cmd [arg] [] [arg]
  | goNext {arg v} : Foreign cmd arg → '=' ∉ arg → (∀ s, v ≠ '-' :: s) → CompleteFlag cmd [arg, v] [] [arg, v]

/-- A sequence of complete flags. -/
inductive CompleteFlags (cmd : Cmd) : List Str → List (Str × Str) → List Str → Prop
  | nil : CompleteFlags cmd [] [] []
  | cons {a fl pass as fls passes} : CompleteFlag cmd a fl pass → CompleteFlags cmd as fls passes →
      CompleteFlags cmd (a ++ as) (fl ++ fls) (pass ++ passes)

/-- A sequence of complete flags as go reads them; `noValue f` says that the flag `f`, written with one dash, takes
    no value. -/
inductive GoFlags (noValue : Str → Prop) : List Str → Prop
  | nil : GoFlags noValue []
  | eq {s as} : '=' ∈ s → GoFlags noValue as → GoFlags noValue (('-' :: s) :: as)
  | alone {s as} : '=' ∉ s → (∀ t, s ≠ '-' :: t) → noValue ('-' :: s) → GoFlags noValue as → GoFlags noValue (('-' :: s) :: as)
  | alone2 {s as} : '=' ∉ s → noValue ('-' :: s) → GoFlags noValue as → GoFlags noValue (('-' :: '-' :: s) :: as)
  | next {s v as} : '=' ∉ s → (∀ t, s ≠ '-' :: t) → ¬ noValue ('-' :: s) → GoFlags noValue as →
      GoFlags noValue (('-' :: s) :: v :: as)
  | next2 {s v as} : '=' ∉ s → ¬ noValue ('-' :: s) → GoFlags noValue as → GoFlags noValue (('-' :: '-' :: s) :: v :: as)

end Verif.Cmd.Spec
