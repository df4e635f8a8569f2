/-
Model of support/cmd: how xgo runs other programs, and how it shows what it runs.

Source: support/cmd/quote.go, support/cmd/cmd.go.

Simplifications: a text is a list of characters; the program that is run is a function of its arguments, environment and directory
(`World`); writing to standard output or to a given writer is one case each; `os/exec` adds `PWD` to an inherited environment when a
directory is given, which is left out.
-/
namespace Verif.Support.CmdLine

abbrev Str := List Char

/-- The characters that make `Quote` quote (quote.go:13). -/
def triggers : Str := "\t \n;<>\\${}()&!*".toList

/-- `strings.ReplaceAll(s, "'", "'\\''")` (quote.go:14). -/
def escape : Str → Str
  | [] => []
  | c :: s => if c = '\'' then '\'' :: '\\' :: '\'' :: '\'' :: escape s else c :: escape s

/-- `Quote` (quote.go:9-18). -/
def quote (s : Str) : Str :=
  if s = [] then ['"', '"']
  else if s.any (fun c => triggers.contains c) then '\'' :: escape s ++ ['\'']
  else s

/-- `CmdBuilder` (cmd.go:19-28), with the setters applied; `out` says where the output goes if it was set. -/
structure Builder where
  env : List Str
  noInherit : Bool
  dir : Str
  debug : Bool
  ignoreError : Bool
  /-- `Stdout(w)` was called -/
  stdout : Bool

def Builder.new : Builder := ⟨[], false, [], false, false, false⟩

/-- `strings.Join(l, " ")`. -/
def join : List Str → Str
  | [] => []
  | [a] => a
  | a :: l => a ++ ' ' :: join l

/-- The lines that are printed with `Debug` (cmd.go:121-140). -/
def debugLines (env : List Str) (dir cmd : Str) (args : List Str) : List Str :=
  env.map (fun e => '#' :: ' ' :: e) ++ (if dir = [] then [] else ["# cd ".toList ++ quote dir]) ++ [join (cmd :: args.map quote)]

/-- `fmt.Fprintln` of each. -/
def debugText (env : List Str) (dir cmd : Str) (args : List Str) : Str :=
  ((debugLines env dir cmd args).map fun l => l ++ ['\n']).flatten

/-- What a program does: it prints, and ends with an error or not. -/
structure Result where
  output : Str
  failed : Bool

/-- A program is given its arguments, its environment and its directory (empty: that of xgo). -/
abbrev World := Str → List Str → List Str → Str → Result

/-- The environment of the command (cmd.go:147-161), `inherited` being that of xgo (cmd.go:111-113 for `c == nil`). -/
def environ (inherited : List Str) (noInherit : Bool) (env : List Str) : List Str :=
  if env ≠ [] then (if noInherit then [] else inherited) ++ env
  else if noInherit then [] else inherited

/-- `strings.TrimSuffix(s, string(c))`. -/
def trimSuffix (s : Str) (c : Char) : Str := if s.getLast? = some c then s.dropLast else s

/-- What comes back to the caller, and what is printed. -/
structure Outcome where
  /-- the value returned: the text and whether there is an error -/
  value : Str
  error : Bool
  /-- what was shown on standard error before the run -/
  shown : Str
  /-- what the program printed to the standard output of xgo, or to the given writer -/
  passed : Str
  deriving DecidableEq

/-- `cmdExecEnv` (cmd.go:114-186); `c` is `nil` for `cmd.Output` and `cmd.Run`. -/
def exec (w : World) (inherited : List Str) (c : Option Builder) (cmd : Str) (args : List Str) (useStdout : Bool) : Outcome :=
  let b := c.getD Builder.new
  let shown := if c.isSome && b.debug then debugText b.env b.dir cmd args else []
  let r := w cmd args (environ inherited b.noInherit b.env) b.dir
  if c.isSome && b.stdout then ⟨[], r.failed, shown, r.output⟩
  else if useStdout then ⟨[], r.failed, shown, r.output⟩
  else
    let out := trimSuffix (trimSuffix r.output '\r') '\n'
    if r.failed && (c.isSome && !b.ignoreError) then ⟨out, true, shown, []⟩ else ⟨out, false, shown, []⟩

/-- `cmd.Output` and `cmd.Run` (cmd.go:11-17), `c.Output` and `c.Run` (cmd.go:101-108). -/
def output (w : World) (inherited : List Str) (c : Option Builder) (cmd : Str) (args : List Str) : Outcome :=
  exec w inherited c cmd args false

def run (w : World) (inherited : List Str) (c : Option Builder) (cmd : Str) (args : List Str) : Outcome :=
  exec w inherited c cmd args true

end Verif.Support.CmdLine
