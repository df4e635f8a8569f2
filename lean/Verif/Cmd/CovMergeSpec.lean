/-
Specification for `xgo tool coverage merge`: profiles as the go command writes them, and command lines.
-/
import Verif.Cmd.CovMerge
import Verif.Support.CoverageSpec

namespace Verif.Cmd.CovMerge.Spec
open Verif.Support.Coverage Verif.Cmd.CovMerge

/-- The text of a profile: the line with the mode, and a line for each block with its count, each line ended. -/
def profile (mode : Str) (lines : List CovLine) : Str :=
  "mode: ".toList ++ mode ++ '\n' :: (lines.map fun l => l.pfx ++ ' ' :: Verif.Support.GoVersion.itoa l.count.toInt ++ ['\n']).flatten

/-- One thing on a command line. -/
inductive Item
  | file (f : Str)
  | out (f : Str)
  | exclude (p : Str)

def Item.args : Item → List Str
  | .file f => [f]
  | .out f => ["-o".toList, f]
  | .exclude p => ["--exclude-prefix".toList, p]

/-- Files do not look like flags, prefixes are not empty. -/
def Item.Good : Item → Prop
  | .file f => f.head? ≠ some '-'
  | .out _ => True
  | .exclude p => p ≠ []

def filesOf (l : List Item) : List Str := l.filterMap fun | .file f => some f | _ => none
def excludesOf (l : List Item) : List Str := l.filterMap fun | .exclude p => some p | _ => none
/-- The last `-o` counts. -/
def outOf (l : List Item) : Str := ((l.filterMap fun | .out f => some f | _ => none).getLast?).getD []

/-- The command line `merge …`, and files with any names behind `--`. -/
def line (l : List Item) (more : List Str) : List Str :=
  "merge".toList :: (l.map Item.args).flatten ++ (if more = [] then [] else "--".toList :: more)

/-- All files that are named. -/
def named (l : List Item) (more : List Str) : List Str := filesOf l ++ more

/-! ### serve and load -/

/-- The settings of `serve` that have one value, and those that collect. -/
inductive One
  | bind | port | dir | diffWith
  deriving DecidableEq
inductive Many
  | include_ | exclude | buildArg | buildArgs
  deriving DecidableEq

def One.flag : One → Str
  | .bind => "--bind".toList
  | .port => "--port".toList
  | .dir => "--project-dir".toList
  | .diffWith => "--diff-with".toList
def Many.flag : Many → Str
  | .include_ => "--include".toList
  | .exclude => "--exclude".toList
  | .buildArg => "--build-arg".toList
  | .buildArgs => "--build-args".toList

/-- One thing on a command line of `serve`. -/
inductive SItem
  | profile (f : Str)
  | one (k : One) (v : Str)
  | many (k : Many) (v : Str)
  | full

def SItem.args : SItem → List Str
  | .profile f => [f]
  | .one k v => [k.flag, v]
  | .many k v => [k.flag, v]
  | .full => ["--full".toList]

def SItem.Good : SItem → Prop
  | .profile f => f.head? ≠ some '-'
  | .one k v => k = .diffWith → v ≠ []
  | _ => True

/-- The last value given for a setting, or the default. -/
def lastOf (l : List SItem) (k : One) (dflt : Str) : Str :=
  ((l.filterMap fun | .one k' v => if k' = k then some v else none | _ => none).getLast?).getD dflt
/-- All values given for some settings, in order. -/
def allOf (l : List SItem) (ks : List Many) : List Str :=
  l.filterMap fun | .many k v => if k ∈ ks then some v else none | _ => none
def profilesOf (l : List SItem) : List Str := l.filterMap fun | .profile f => some f | _ => none

def sline (l : List SItem) : List Str := (l.map SItem.args).flatten

end Verif.Cmd.CovMerge.Spec
