/-
Specification for the commands xgo shows: how a POSIX shell reads a text that is pasted into it. Where the meaning of the text depends on
anything but the text (files, variables, other commands), the answer is `none`.
-/
import Verif.Support.CmdLine

namespace Verif.Support.CmdLine.Spec


/-- A character that stands for itself in a word. -/
def ordinary (c : Char) : Bool := !"|&;<>()$`\\\"' \t\n*?[{}!".toList.contains c

/-- Words that are not the names of commands. -/
def reserved : List Str :=
  ["if", "then", "else", "elif", "fi", "do", "done", "case", "esac", "while", "until", "for", "in"].map String.toList

/-- A command: the first word is the name of a program. -/
def isCommand : List Str → Bool
  | [] => false
  | w :: _ => !reserved.contains w && !w.contains '='

inductive Mode
  /-- between words, in one, in single quotes, in double quotes, behind a backslash, in a comment -/
  | blank | word | single | double | escaped | comment
  deriving DecidableEq

/-- A command ends: it is added to those that have been read, if it has a word. -/
def close (ws : List Str) (cs : List (List Str)) : Option (List (List Str)) :=
  if ws = [] then some cs else if isCommand ws then some (cs ++ [ws]) else none

/-- Reading: `cur` is the word so far, `ws` the words of the command before it, `cs` the commands before that. -/
def scan : Mode → Str → List Str → List (List Str) → Str → Option (List (List Str))
  | .blank, _, ws, cs, [] => close ws cs
  | .comment, _, ws, cs, [] => close ws cs
  | .word, cur, ws, cs, [] => close (ws ++ [cur]) cs
  | _, _, _, _, [] => none
  | .comment, _, ws, cs, c :: s =>
    if c = '\n' then (close ws cs).bind fun cs => scan .blank [] [] cs s else scan .comment [] ws cs s
  | .single, cur, ws, cs, c :: s => if c = '\'' then scan .word cur ws cs s else scan .single (cur ++ [c]) ws cs s
  | .double, cur, ws, cs, c :: s =>
    if c = '"' then scan .word cur ws cs s
    else if "$`\\!".toList.contains c then none else scan .double (cur ++ [c]) ws cs s
  | .escaped, cur, ws, cs, c :: s => if c = '\n' then none else scan .word (cur ++ [c]) ws cs s
  | .blank, _, ws, cs, c :: s =>
    if c = ' ' ∨ c = '\t' then scan .blank [] ws cs s
    else if c = '\n' then (close ws cs).bind fun cs => scan .blank [] [] cs s
    else if c = '#' then scan .comment [] ws cs s
    else if c = '~' then none
    else if c = '\'' then scan .single [] ws cs s
    else if c = '"' then scan .double [] ws cs s
    else if c = '\\' then scan .escaped [] ws cs s
    else if ordinary c then scan .word [c] ws cs s else none
  | .word, cur, ws, cs, c :: s =>
    if c = ' ' ∨ c = '\t' then scan .blank [] (ws ++ [cur]) cs s
    else if c = '\n' then (close (ws ++ [cur]) cs).bind fun cs => scan .blank [] [] cs s
    else if c = '\'' then scan .single cur ws cs s
    else if c = '"' then scan .double cur ws cs s
    else if c = '\\' then scan .escaped cur ws cs s
    else if ordinary c then scan .word (cur ++ [c]) ws cs s else none

/-- The commands that a shell runs when a text is pasted into it. -/
def shell (text : Str) : Option (List (List Str)) := scan .blank [] [] [] text

/-- A process with this environment sees the value `v` of the name `k`: the last entry counts. -/
def Sees (env : List Str) (k v : Str) : Prop :=
  ∃ a b, env = a ++ (k ++ '=' :: v) :: b ∧ ∀ e ∈ b, ¬ (k ++ ['=']) <+: e

end Verif.Support.CmdLine.Spec
