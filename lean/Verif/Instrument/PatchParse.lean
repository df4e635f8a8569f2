/-
Model of the parser of `.xgo.patch` files.

Source: instrument/patch/apply_parse.go, instrument/patch/apply_types.go:49-74. Errors are `none`.
-/
import Verif.Instrument.PatchApply

namespace Verif.Instrument.PatchParse
open Verif.Text
open Verif.Instrument.PatchApply

/-- The characters removed at the end of a line (apply_parse.go:65, 122). -/
def isTrail (c : Char) : Bool := c = ' ' || c = '\t' || c = '\r'
/-- The characters removed at the start of a line (apply_parse.go:123). -/
def isIndent (c : Char) : Bool := c = ' ' || c = '\t'

/-- `strings.TrimRight(line, " \t\r")`. -/
def trimRight (s : Str) : Str := (s.reverse.dropWhile isTrail).reverse

/-- `strings.Split(s, "\n")`. -/
def lines : Str → List Str
  | [] => [[]]
  | c :: s =>
    if c = '\n' then [] :: lines s
    else match lines s with
      | [] => [[c]]
      | l :: ls => (c :: l) :: ls

/-- `splitCommand` (apply_parse.go:121-132). -/
def splitCommand (line : Str) : Str × Str :=
  let trimmed := (trimRight line).dropWhile isIndent
  match cut [' '] trimmed with
  | none => (trimmed, [])
  | some (cmd, rest) => (cmd, rest)

/-- `parseGotoTarget` (apply_parse.go:139-161). -/
def parseGoto (target : Str) : Option Command :=
  if target = "opening {".toList ∨ target = "closing }".toList ∨ "field ".toList.isPrefixOf target ∨
      "struct ".toList.isPrefixOf target ∨ "interface ".toList.isPrefixOf target ∨ "func ".toList.isPrefixOf target then
    some (.goto target)
  else none

/-- ` append to file end` -/
def appendSuffix : Str := " append to file end".toList

/-- `strings.TrimSuffix`. -/
def trimSuffix (s suf : Str) : Str := if suf.isSuffixOf s then s.take (s.length - suf.length) else s

/-- `parseCopyFuncLine` (apply_parse.go:163-176). -/
def parseCopyFunc (rest : Str) : Option Command :=
  (cut " as ".toList (trimSpace rest)).map fun p => .copyFunc p.1 (trimSuffix p.2 appendSuffix)

/-- `parseReplaceDirectiveLine` (apply_parse.go:178-191). -/
def parseReplaceDirective (rest : Str) : Option Command :=
  (cut " with ".toList (trimSpace rest)).map fun p => .replaceDirective p.1 p.2

/-- A command that needs a text. -/
def withText (c : Str → Command) (rest : Str) : Option Command := if rest = [] then none else some (c rest)

/-- `parseLine` (apply_parse.go:81-119). -/
def parseLine (line : Str) : Option Command :=
  let (cmd, rest) := splitCommand line
  if cmd = "goto".toList then parseGoto rest
  else if cmd = "match".toList then some (.search rest)
  else if cmd = "find_for_replace".toList then some (.findForReplace rest)
  else if cmd = "insert_before".toList then withText .insertBefore rest
  else if cmd = "insert_after_line".toList then withText .insertAfterLine rest
  else if cmd = "insert_after".toList then withText .insertAfter rest
  else if cmd = "replace".toList then withText .replace rest
  else if cmd = "newline".toList then some .newline
  else if cmd = "copy_func".toList then parseCopyFunc rest
  else if cmd = "replace_directive".toList then parseReplaceDirective rest
  else none

/-- The loop over the lines of a block (apply_parse.go:63-76). -/
def parseLines : List Str → Option (List Command)
  | [] => some []
  | l :: ls =>
    let line := trimRight l
    if line = [] ∨ line.head? = some '#' then parseLines ls
    else (parseLine line).bind fun c => (parseLines ls).map (c :: ·)

/-- `parseBlock` (apply_parse.go:50-79), with the tag and the body already found by the caller (32-37, 51-59 find the
    same). -/
def parseBlock (tag body : Str) : Option Block := (parseLines (lines body)).map fun cs => ⟨trimSpace tag, cs⟩

set_option linter.unusedVariables false

/-- `parseBlocks` (apply_parse.go:17-48), `ParseXgoPatch` (9-15). -/
def parseBlocks (content : Str) : Option (List Block) :=
  match h : cut "<patch".toList content with
  | none => some []
  | some (_, r) =>
    match h1 : cut ['>'] r with
    | none => none
    | some (tag, r1) =>
      match h2 : cut "</patch>".toList r1 with
      | none => none
      | some (body, r2) => (parseBlock tag body).bind fun b => (parseBlocks r2).map (b :: ·)
termination_by content.length
decreasing_by
  have h := cut_length h
  have h1 := cut_length h1
  have h2 := cut_length h2
  have : 0 < "<patch".toList.length := by decide
  omega

/-- `Command.String` (apply_types.go:49-74). -/
def commandString : Command → Str
  | .goto t => "goto ".toList ++ t
  | .search t => "match ".toList ++ t
  | .findForReplace t => "find_for_replace ".toList ++ t
  | .insertBefore t => "insert_before ".toList ++ t
  | .insertAfter t => "insert_after ".toList ++ t
  | .insertAfterLine t => "insert_after_line ".toList ++ t
  | .replace t => "replace ".toList ++ t
  | .newline => "newline".toList
  | .copyFunc a b => "copy_func ".toList ++ a ++ " as ".toList ++ b ++ appendSuffix
  | .replaceDirective o n => "replace_directive ".toList ++ o ++ " with ".toList ++ n

/-- `ApplyXgoPatchContent` (apply.go:211-234). -/
def applyPatchContent (parse : Str → Option File) (source patch : Str) : Option Str :=
  (parseBlocks patch).bind (applyBlocks parse source)

end Verif.Instrument.PatchParse
