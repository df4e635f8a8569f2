/-
What a patch file looks like: blocks `<patch NAME> … </patch>` with one command per line, comments and blank lines.
-/
import Verif.Instrument.PatchApply

namespace Verif.Instrument.PatchParse.Spec
open Verif.Text
open Verif.Instrument.PatchApply

/-- How a command is written. -/
inductive Written : Command → Str → Prop
  | opening : Written (.goto "opening {".toList) "goto opening {".toList
  | closing : Written (.goto "closing }".toList) "goto closing }".toList
  | field (n : Str) : Written (.goto ("field ".toList ++ n)) ("goto field ".toList ++ n)
  | struct (n : Str) : Written (.goto ("struct ".toList ++ n)) ("goto struct ".toList ++ n)
  | iface (n : Str) : Written (.goto ("interface ".toList ++ n)) ("goto interface ".toList ++ n)
  | func (n : Str) : Written (.goto ("func ".toList ++ n)) ("goto func ".toList ++ n)
  | search (t : Str) : Written (.search t) ("match ".toList ++ t)
  | find (t : Str) : Written (.findForReplace t) ("find_for_replace ".toList ++ t)
  | insertBefore (t : Str) : Written (.insertBefore t) ("insert_before ".toList ++ t)
  | insertAfter (t : Str) : Written (.insertAfter t) ("insert_after ".toList ++ t)
  | insertAfterLine (t : Str) : Written (.insertAfterLine t) ("insert_after_line ".toList ++ t)
  | replace (t : Str) : Written (.replace t) ("replace ".toList ++ t)
  | newline : Written .newline "newline".toList
  | copyFunc (a b : Str) (ha : NotBefore " as ".toList a) (hs : ∃ c x, a = c :: x ∧ isSpace c = false) :
      Written (.copyFunc a b) ("copy_func ".toList ++ a ++ " as ".toList ++ b ++ " append to file end".toList)
  | replaceDirective (o n : Str) (ho : NotBefore " with ".toList o) (hs : ∃ c x, o = c :: x ∧ isSpace c = false) :
      Written (.replaceDirective o n) ("replace_directive ".toList ++ o ++ " with ".toList ++ n)

/-- White space in a line. -/
def White (s : Str) : Prop := ∀ c ∈ s, c = ' ' ∨ c = '\t'

/-- White space at the end of a line: also the carriage return of a Windows line end. -/
def Trail (s : Str) : Prop := ∀ c ∈ s, c = ' ' ∨ c = '\t' ∨ c = '\r'

/-- A line does not end in white space and is one line. -/
def OneLine (s : Str) : Prop := '\n' ∉ s ∧ ∃ x c, s = x ++ [c] ∧ isSpace c = false

/-- The lines of a block. -/
inductive Line
  | blank (w : Str)
  | comment (t : Str)
  | command (indent : Str) (c : Command) (text trail : Str)

def Line.text : Line → Str
  | blank w => w
  | comment t => '#' :: t
  | command i _ t w => i ++ t ++ w

def Line.command? : Line → List Command
  | command _ c _ _ => [c]
  | _ => []

/-- Lines as they may stand in a patch file: `</patch>` ends the block. -/
def Line.Ok (l : Line) : Prop :=
  ¬ "</patch>".toList <:+: l.text ∧ match l with
  | blank w => Trail w
  | comment t => '\n' ∉ t
  | command i c t w => White i ∧ Trail w ∧ Written c t ∧ OneLine t

/-- A block: free text before it, its name, its lines. -/
structure Section where
  before : Str
  name : Str
  lines : List Line

/-- The lines of a block, each ended by a newline. -/
def linesText : List Line → Str
  | [] => []
  | l :: ls => l.text ++ ['\n'] ++ linesText ls

def Section.text (s : Section) : Str :=
  s.before ++ "<patch".toList ++ (' ' :: s.name) ++ ['>'] ++ (['\n'] ++ linesText s.lines) ++ "</patch>".toList

def fileText : List Section → Str → Str
  | [], r => r
  | s :: l, r => s.text ++ fileText l r

/-- The block that is meant. -/
def Section.block (s : Section) : Block := ⟨s.name, s.lines.flatMap Line.command?⟩

/-- Names have no `>` and no space around them. -/
structure Section.Ok (s : Section) : Prop where
  before : ¬ "<patch".toList <:+: s.before
  gt : '>' ∉ s.name
  trimmed : s.name = [] ∨ (∃ c x, s.name = c :: x ∧ isSpace c = false) ∧ ∃ x c, s.name = x ++ [c] ∧ isSpace c = false
  lines : ∀ l ∈ s.lines, l.Ok

/-- The command words. -/
def words : List Str := ["goto", "match", "find_for_replace", "insert_before", "insert_after_line", "insert_after", "replace",
  "newline", "copy_func", "replace_directive"].map String.toList

/-- Lines (without their indentation) that are no commands: an unknown word, a goto to nothing known, an edit without
    text, a copy without `as`, a directive replacement without `with`. -/
inductive NoCommand : Str → Prop
  | word (w : Str) (hw : ' ' ∉ w) (h : w ∉ words) : NoCommand w
  | wordArg (w arg : Str) (hw : ' ' ∉ w) (h : w ∉ words) : NoCommand (w ++ " ".toList ++ arg)
  | goto (t : Str) (h1 : t ≠ "opening {".toList) (h2 : t ≠ "closing }".toList)
      (h3 : ∀ k ∈ ["field ", "struct ", "interface ", "func "].map String.toList, ¬ k <+: t) : NoCommand ("goto ".toList ++ t)
  | noText (w : Str) (h : w ∈ ["insert_before", "insert_after_line", "insert_after", "replace", "copy_func",
      "replace_directive"].map String.toList) : NoCommand w
  | copyFunc (t : Str) (h : ¬ " as ".toList <:+: t) : NoCommand ("copy_func ".toList ++ t)
  | directive (t : Str) (h : ¬ " with ".toList <:+: t) : NoCommand ("replace_directive ".toList ++ t)

end Verif.Instrument.PatchParse.Spec
