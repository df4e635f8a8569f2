/-
Specification for the `-toolexec` wrappers: their command lines, and sources with traps.
-/
import Verif.Cmd.ToolExec

namespace Verif.Cmd.ToolExec.Spec
open Verif.Cmd.ToolExec

/-- An option of `xgo exec_tool`. -/
inductive Opt
  | enable | logCompile | testCompile | withDlv
  | debug (v : Str)
  | debugEq (v : Str)

def Opt.args : Opt → List Str
  | .enable => ["--enable".toList]
  | .logCompile => ["--log-compile".toList]
  | .testCompile => ["--test-compile".toList]
  | .withDlv => ["--debug-with-dlv".toList]
  | .debug v => ["--debug".toList, v]
  | .debugEq v => ["--debug=".toList ++ v]

/-- The line `exec_tool options -- tool args`, as xgo writes it for `-toolexec` and go completes it. -/
def execLine (opts : List Opt) (cmd : Str) (args : List Str) : List Str := opts.flatMap Opt.args ++ "--".toList :: cmd :: args

/-- A program called `compile`, in whatever directory. -/
def Compiler (cmd : Str) : Prop :=
  ∃ dir slashes, cmd = dir ++ "compile".toList ++ slashes ∧ (dir = [] ∨ dir.getLast? = some '/') ∧ ∀ c ∈ slashes, c = '/'

/-- The arguments ask for the version of the tool: `-V`, or `-V=full` and the like. -/
def AsksVersion (args : List Str) : Prop := ∃ a ∈ args, a = "-V".toList ∨ ∃ v, a = "-V=".toList ++ v

/-- An option of `insert-trap`. -/
inductive Ins
  | pkg (v : Str)
  | pkgEq (v : Str)
  | verbose | short

def Ins.args : Ins → List Str
  | .pkg v => ["--pkg".toList, v]
  | .pkgEq v => ["--pkg=".toList ++ v]
  | .verbose => ["--verbose".toList]
  | .short => ["-v".toList]

def Ins.pkg? : Ins → Option Str
  | .pkg v => some v
  | .pkgEq v => some v
  | _ => none

/-- A package's name is not empty and does not look like the compiler's flag. -/
def Ins.Good (i : Ins) : Prop := ∀ p, i.pkg? = some p → p ≠ [] ∧ p ≠ "-p".toList

def insLine (opts : List Ins) (cmd : Str) (args : List Str) : List Str :=
  "insert-trap".toList :: opts.flatMap Ins.args ++ "--".toList :: cmd :: args

/-- The arguments name the package that is compiled. -/
def Names (args : List Str) (pkg : Str) : Prop := ∃ pre post, args = pre ++ "-p".toList :: pkg :: post ∧ "-p".toList ∉ pre

/-- A source with the import behind the package clause and a trap at the beginning of each body: what stands at each position. -/
def trapped (text : Str) (p : Parse) : Str :=
  (List.range (text.length + 1)).flatMap fun i =>
    (p.bodies.filter (· = i)).flatMap (fun _ => "defer __xgo_trap_runtime.XgoTrap()();".toList) ++
      (if i = p.nameEnd then ";import __xgo_trap_runtime \"runtime\"".toList else []) ++ (text[i]?).toList

/-- The parser's offsets lie in the file. -/
def Parse.Within (p : Parse) (text : Str) : Prop := p.nameEnd ≤ text.length ∧ ∀ b ∈ p.bodies, b ≤ text.length

def run (t : Tmp) (ops : List Op) : Tmp := ops.foldl Op.apply t

/-- `s` is what can be seen of two programs that run at the same time: all that `a` does and the beginning of what `b` does, each in its
    order. -/
inductive Interleaved : List Op → List Op → List Op → Prop
  | done (b : List Op) : Interleaved [] b []
  | left (x : Op) {a b s : List Op} : Interleaved a b s → Interleaved (x :: a) b (x :: s)
  | right (x : Op) {a b s : List Op} : Interleaved a b s → Interleaved a (x :: b) (x :: s)

end Verif.Cmd.ToolExec.Spec
