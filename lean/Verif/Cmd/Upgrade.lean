/-
C107: `xgo upgrade`.
Sources: cmd/xgo/upgrade.go:7-19 (`handleUpgrade`), cmd/xgo/upgrade/upgrade.go:23-49 (`Upgrade`: the rest of it is not reached), 158-182
(`cmdXgoVersion`, `cmdInstallXgo`, `cmdOutput`), cmd/xgo/main.go:64-67 (`xgo version`).

Simplifications: a directory has at most one file named xgo, which can be executed; it prints something and ends well, or it does not.
`go install` of the newest version either fails and changes nothing, or puts the program into one directory. Nothing else happens meanwhile.
-/
import Verif.Text.Cut

namespace Verif.Cmd.Upgrade
open Verif.Text

/-- What `xgo version` does. -/
inductive Program
  | prints (out : Str)
  | fails
  deriving DecidableEq, Repr

/-- The directories by number: which of them have a program xgo. -/
structure World where
  /-- PATH -/
  path : List Nat
  /-- where `go install` puts programs -/
  gobin : Nat
  /-- the version that `go install …@latest` finds, if it works -/
  latest : Option Str
  xgo : Nat → Option Program

/-- The program that the command `xgo` runs (`exec.LookPath`). -/
def lookup (xgo : Nat → Option Program) : List Nat → Option Program
  | [] => none
  | d :: path => match xgo d with
    | some p => some p
    | none => lookup xgo path

/-- strings.TrimSuffix(…, "\n") (upgrade.go:182). -/
def trimLine (s : Str) : Str := if s.getLast? = some '\n' then s.dropLast else s

/-- `cmdXgoVersion` (upgrade.go:159-165): empty if there is no xgo, an error if it fails. -/
def cmdXgoVersion (w : World) : Option Str :=
  match lookup w.xgo w.path with
  | none => some []
  | some (.prints out) => some (trimLine out)
  | some .fails => none

/-- `cmdInstallXgo` (upgrade.go:166-171). -/
def cmdInstallXgo (w : World) : Option World :=
  w.latest.map fun v => { w with xgo := fun d => if d = w.gobin then some (.prints (v ++ "\n".toList)) else w.xgo d }

/-- How it ends: with the standard output and the standard error. -/
inductive Result
  | ok (out err : Str)
  | error
  | crash
  deriving DecidableEq, Repr

/-- `Upgrade` (upgrade.go:26-49). -/
def upgrade (w : World) : World × Result :=
  match cmdXgoVersion w with
  | none => (w, .error)
  | some cur =>
    match cmdInstallXgo w with
    | none => (w, .error)
    | some w' =>
      match cmdXgoVersion w' with
      | none => (w', .error)
      | some after =>
        if after = [] then (w', .ok [] "command 'xgo' not found, you may need to add $GOPATH/bin to your PATH\n".toList)
        else if cur = after then (w', .ok ("upgraded xgo v".toList ++ after ++ "\n".toList) [])
        else (w', .ok ("upgraded xgo v".toList ++ cur ++ " -> v".toList ++ after ++ "\n".toList) [])

/-- The loop of `handleUpgrade` (upgrade.go:10-17): the directory; an index out of range is a crash. -/
def parseArgs (dir : Str) : List Str → Option Str
  | [] => some dir
  | a :: args =>
    if a = "--install-dir".toList then
      match args with
      | [] => none
      | d :: args => parseArgs d args
    else parseArgs dir args

/-- `handleUpgrade`: the directory is passed on, and not used there (upgrade.go:23). -/
def handleUpgrade (args : List Str) (w : World) : World × Result :=
  match parseArgs [] args with
  | none => (w, .crash)
  | some _ => upgrade w

end Verif.Cmd.Upgrade
