/-
Model of the command `xgo tool coverage`: `merge` and `compact` in full, of `serve` and `load` the command line.

Source: cmd/xgo/coverage/main.go, cmd/xgo/coverage/serve.go:20-112, with support/coverage (Support/Coverage.lean).

Simplifications: a file is a text under a name (two names are two files); whether a file can be created is a parameter; writes do not
fail; help texts and messages are left out.
-/
import Verif.Support.Coverage

namespace Verif.Cmd.CovMerge
open Verif.Support.Coverage

abbrev Str := List Char

/-- The files: `none` if there is none, or it cannot be read. -/
abbrev FS := Str → Option Str

def FS.write (fs : FS) (name text : Str) : FS := fun n => if n = name then some text else fs n

/-- What the command leaves: its exit code, what it printed to the standard output, the files. -/
structure Res where
  code : Nat
  stdout : Str
  fs : FS

/-- `hasAnyPrefix` (main.go:157-164). -/
def hasAnyPrefix (s : Str) (prefixes : List Str) : Bool := prefixes.any fun p => p.isPrefixOf s

/-- The flags of `merge` and `compact` (main.go:37-86). -/
structure Flags where
  files : List Str
  out : Str
  exclude : List Str
  help : Bool

/-- The loop (main.go:43-81); `none`: the command ends with code 1. -/
def parseFlags (f : Flags) : List Str → Option Flags
  | [] => some f
  | arg :: rest =>
    if arg = "--".toList then some { f with files := f.files ++ rest }
    else if arg = "-o".toList then
      match rest with
      | [] => none
      | v :: rest => parseFlags { f with out := v } rest
    else if arg = "--exclude-prefix".toList then
      match rest with
      | [] => none
      | v :: rest => if v = [] then none else parseFlags { f with exclude := f.exclude ++ [v] } rest
    else if arg = "--help".toList ∨ arg = "-h".toList then parseFlags { f with help := true } rest
    else if arg.head? ≠ some '-' then parseFlags { f with files := f.files ++ [arg] } rest
    else none

/-- Reading the files (main.go:120-131): all lines of all, or nothing if one is missing. -/
def readAll (fs : FS) : List Str → Option (List (List CovLine))
  | [] => some []
  | f :: l =>
    match fs f with
    | none => none
    | some text => (readAll fs l).map ((parse text).2 :: ·)

/-- Every line is an object of its own: line `i` of all lines has the address `i`. -/
def heapOf (covs : List (List CovLine)) : Heap := fun i => covs.flatten.getD i ⟨[], 0⟩

/-- The addresses of the lines, profile by profile, from `n` on. -/
def addresses (n : Nat) : List (List CovLine) → List (List Nat)
  | [] => []
  | c :: l => List.range' n c.length :: addresses (n + c.length) l

/-- `mergeCover` (main.go:116-155), from the profiles to the text that is written. -/
def mergeText (covs : List (List CovLine)) (exclude : List Str) : Str :=
  let m := merge (heapOf covs) (addresses 0 covs)
  format "count".toList (filter (m.2.map m.1) fun line => !hasAnyPrefix line.pfx exclude)

/-- `mergeCover` with its files. -/
def mergeCover (fs : FS) (can : Str → Bool) (f : Flags) : Res :=
  match readAll fs f.files with
  | none => ⟨1, [], fs⟩
  | some covs =>
    if f.out = [] then ⟨0, mergeText covs f.exclude, fs⟩
    else if can f.out then ⟨0, [], fs.write f.out (mergeText covs f.exclude)⟩
    else ⟨1, [], fs⟩

/-- `Main` (main.go:12-114) for commands other than `serve` and `load`. -/
def main (fs : FS) (can : Str → Bool) : List Str → Res
  | [] => ⟨1, [], fs⟩
  | cmd :: args =>
    if cmd = "help".toList then ⟨0, [], fs⟩
    else if cmd ≠ "merge".toList ∧ cmd ≠ "compact".toList then ⟨0, [], fs⟩
    else
      match parseFlags ⟨[], [], [], false⟩ args with
      | none => ⟨1, [], fs⟩
      | some f =>
        if f.help then ⟨0, [], fs⟩
        else if f.files = [] then ⟨1, [], fs⟩
        else if cmd = "compact".toList ∧ f.files.length ≠ 1 then ⟨1, [], fs⟩
        else mergeCover fs can f

/-! ### serve and load -/

structure Serve where
  bind : Str
  port : Str
  dir : Str
  include_ : List Str
  exclude : List Str
  buildArgs : List Str
  diffWith : Str
  full : Bool
  profiles : List Str
  deriving DecidableEq

def Serve.start : Serve := ⟨[], "8000".toList, [], [], [], [], [], false, []⟩

/-- The flags that take a value, and where it goes (serve.go:38-93); an empty value of `--diff-with` is refused. -/
def setFlag (s : Serve) (arg v : Str) : Option Serve :=
  if arg = "--bind".toList then some { s with bind := v }
  else if arg = "--port".toList then some { s with port := v }
  else if arg = "--project-dir".toList then some { s with dir := v }
  else if arg = "--include".toList then some { s with include_ := s.include_ ++ [v] }
  else if arg = "--exclude".toList then some { s with exclude := s.exclude ++ [v] }
  else if arg = "--build-arg".toList ∨ arg = "--build-args".toList then some { s with buildArgs := s.buildArgs ++ [v] }
  else if v = [] then none else some { s with diffWith := v }

def valueFlags : List Str :=
  ["--bind", "--port", "--project-dir", "--include", "--exclude", "--build-arg", "--build-args", "--diff-with"].map String.toList

/-- How the reading of the command line ends: with the options, with an error, or with an index out of range. -/
inductive Parsed
  | ok (s : Serve)
  | err
  | panic
  deriving DecidableEq

/-- `handleServe` (serve.go:20-112) up to the options: `i+1 > n` never holds, so that `args[i+1]` of the last argument is out of range. -/
def parseServe (s : Serve) : List Str → Parsed
  | [] => if s.profiles = [] then .err else .ok (if s.diffWith = [] then { s with diffWith := "origin/master".toList } else s)
  | arg :: rest =>
    if arg = "--".toList then
      let s := { s with profiles := s.profiles ++ rest }
      if s.profiles = [] then .err else .ok (if s.diffWith = [] then { s with diffWith := "origin/master".toList } else s)
    else if valueFlags.contains arg then
      match rest with
      | [] => .panic
      | v :: rest => match setFlag s arg v with
        | none => .err
        | some s => parseServe s rest
    else if arg = "--full".toList then parseServe { s with full := true } rest
    else if arg.head? ≠ some '-' then parseServe { s with profiles := s.profiles ++ [arg] } rest
    else .err

end Verif.Cmd.CovMerge
