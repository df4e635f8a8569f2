/-
What a user expects of the selection of intercepted functions, stated without the model's helpers.
-/
import Verif.Instrument.FuncTrap
import Verif.Instrument.RulesSpec

namespace Verif.Instrument.FuncTrap.Spec
open Verif.Support (Str)
open Verif.Instrument.FuncTrap

/-- The name of the receiver's type, whether it is a pointer, for the receivers `T`, `*T`, `T[K]`, `*T[K]`. -/
def recvOf : Expr → Option (Bool × Str)
  | .ident t => some (false, t)
  | .index (.ident t) => some (false, t)
  | .star (.ident t) => some (true, t)
  | .star (.index (.ident t)) => some (true, t)
  | _ => none

/-- A function, or a method with a receiver written without parentheses. -/
def PlainRecv (d : FuncDecl) : Prop := ∀ e, d.recv = some e → (recvOf e).isSome = true

/-- How a function is named inside its package: `F`, `T.f`, `(*T).f`. -/
def identity (d : FuncDecl) : Str :=
  match d.recv with
  | none => d.name
  | some e =>
    match recvOf e with
    | some (false, t) => t ++ ".".toList ++ d.name
    | some (true, t) => "(*".toList ++ t ++ ").".toList ++ d.name
    | none => []

/-- Functions that can be intercepted: they have a body and a name, are no `init` function and not marked nosplit; the
    two functions xgo adds to package `time` for its own use are left alone. -/
def Interceptable (pkgPath : Str) (d : FuncDecl) : Prop :=
  d.hasBody = true ∧ d.name ≠ "".toList ∧ d.name ≠ "_".toList ∧ ¬ (d.recv = none ∧ d.name = "init".toList) ∧
  (∀ line ∈ d.doc, ¬ ∃ rest, line = "//go:nosplit".toList ++ rest) ∧
  ¬ (pkgPath = "time".toList ∧ d.name ∈ ["XgoRealNow".toList, "XgoRealSleep".toList])

/-- The program refers to this function or method in a call of `mock.Patch` or the like. -/
def Mocked (r : Recorder) (d : FuncDecl) : Prop :=
  (d.recv = none ∧ d.name ∈ r.funcs) ∨
  ∃ e p t, d.recv = some e ∧ recvOf e = some (p, t) ∧ (t, d.name) ∈ r.methods

/-- A method that has the name of a mocked function of its package. -/
def Namesake (r : Recorder) (d : FuncDecl) : Prop := d.recv ≠ none ∧ d.name ∈ r.funcs

/-- Standard library functions that are intercepted without being asked for. -/
def Listed (c : PkgConfig) (d : FuncDecl) : Prop :=
  identity d ∈ c.whitelist ∨ ∃ p ∈ c.prefixes, p ≠ [] ∧ ∃ rest, identity d = p ++ rest

/-- A name starting with an upper case letter. -/
def Exported (upper : Char → Bool) (n : Str) : Prop := ∃ c rest, n = c :: rest ∧ upper c = true

/-- The functions of a dependency that should be intercepted. -/
def Requested (upper : Char → Bool) (r : Recorder) (trapAll : Bool) (p : Pkg) (d : FuncDecl) : Prop :=
  Mocked r d ∨ Namesake r d ∨
  match getPkgConfig p.path with
  | some c => Listed c d
  | none => p.stdlib = false ∧ trapAll = true ∧ Exported upper d.name

/-- The functions of the standard library that can be mocked without being named (runtime/mock/stdlib.md, and the reading functions of
    `os`, `io`, `io/ioutil`), written as in the program: `pkg`, `F` or `T.f` or `(*T).f`. -/
def StdListed (pkg f : Str) : Prop :=
  (pkg, f) ∈ [("os", "OpenFile"), ("os", "ReadFile"), ("os", "WriteFile"), ("io", "ReadAll"),
    ("io/ioutil", "ReadAll"), ("io/ioutil", "ReadFile"), ("io/ioutil", "ReadDir"),
    ("time", "Now"), ("time", "Sleep"), ("time", "NewTicker"), ("time", "Time.Format"),
    ("os/exec", "Command"), ("os/exec", "(*Cmd).Run"), ("os/exec", "(*Cmd).Output"), ("os/exec", "(*Cmd).Start"),
    ("net/http", "Get"), ("net/http", "Head"), ("net/http", "Post"), ("net/http", "Serve"), ("net/http", "Handle"),
    ("net/http", "(*Client).Do"), ("net/http", "(*Server).Close")].map (fun p => (p.1.toList, p.2.toList)) ∨
  ∃ p ∈ [("os", "Get"), ("net", "(*Dialer).Dial"), ("net", "Dial")], pkg = p.1.toList ∧ p.2.toList <+: f

/-- Packages of the runtime, of the standard library's internals and its vendor directory, of xgo itself except its
    tests, and a few more are never touched. -/
def Untouchable (pkgPath : Str) : Prop :=
  Rules.Spec.Within pkgPath "runtime".toList ∨ Rules.Spec.Within pkgPath "internal".toList ∨
  Rules.Spec.Within pkgPath "vendor".toList ∨
  (Rules.Spec.Within pkgPath "github.com/xhd2015/xgo/runtime".toList ∧
    ¬ Rules.Spec.Within pkgPath "github.com/xhd2015/xgo/runtime/test".toList) ∨
  pkgPath ∈ ["unsafe".toList, "syscall".toList, "reflect".toList, "sync".toList, "sync/atomic".toList,
    "testing".toList]

/-- A file of tests. -/
def TestFile (name : Str) : Prop := ∃ base, name = base ++ "_test.go".toList

/-! Parameters -/

/-- The names a list of fields declares, in order; `none` for unnamed and blank ones. -/
def declared (fs : List (List Str)) : List (Option Str) :=
  (fs.map fun ns =>
    match ns with
    | [] => [none]
    | n :: ns => (n :: ns).map fun n => if n = [] ∨ n = "_".toList then none else some n).flatten

/-- Go's rule: the names of receiver, parameters and results are distinct. -/
def DistinctNames (s : Sig) : Prop :=
  ((declared s.recv ++ declared s.params ++ declared s.results).filterMap id).Nodup

/-- The names a signature of package syntax declares (one name, or none, per field). -/
def cdeclared (s : CSig) : List Str :=
  (s.recv.toList ++ s.params ++ s.results).filterMap fun f =>
    match f with
    | some n => if n = [] ∨ n = "_".toList then none else some n
    | none => none

/-- Names beginning with `__xgo_` are reserved for xgo. -/
def Reserved (n : Str) : Prop := ∃ rest, n = "__xgo_".toList ++ rest

end Verif.Instrument.FuncTrap.Spec
