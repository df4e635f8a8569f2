/-
Model of the marked edits with which xgo changes source files of the Go installation: adding, replacing and removing the
regions between `/*<begin L>*/` and `/*<end L>*/`. Texts are lists of bytes.

Source: instrument/patch/clean_patch.go, instrument/patch/patch.go, instrument/patch/apply.go (clearPatch),
instrument/patch/remove_marker.go, instrument/patch/import.go, support/strutil/strutil.go
-/
import Verif.Text.Cut

namespace Verif.Instrument.PatchText
open Verif.Text

/-! ### Removing edits -/

/-- `extractOldContent` (clean_patch.go:79-92). -/
def extractOld (content : Str) : Str :=
  match cut "/*old:".toList content with
  | none => []
  | some (_, r) =>
    match cut "*/".toList r with
    | none => []
    | some (o, _) => o

/-- The text from the end of the next line on (clean_patch.go:31-46, apply.go:256-268): the rest of this line and the
    next line, up to its newline, are dropped. -/
def dropNextLine (after : Str) : Str :=
  match cut ['\n'] after with
  | none => []
  | some (_, r) =>
    match cut ['\n'] r with
    | none => []
    | some (_, r) => '\n' :: r

theorem extractOld_le (s : Str) : (extractOld s).length ≤ s.length := by
  unfold extractOld
  split
  · simp
  · rename_i h
    have h1 := cut_length h
    split
    · simp
    · rename_i h
      have h2 := cut_length h
      omega

theorem dropNextLine_le (s : Str) : (dropNextLine s).length ≤ s.length := by
  unfold dropNextLine
  split
  · simp
  · rename_i h
    have h1 := cut_length h
    split
    · simp
    · rename_i h
      have h2 := cut_length h
      simp only [List.length_cons, List.length_nil] at *
      omega

/-- `</next-line-original>*/` -/
def annotEnd : Str := "</next-line-original>*/".toList

set_option linter.unusedVariables false

/-- `cleanNextLineOriginal` (clean_patch.go:14-50). -/
def cleanNextLine (content : Str) : Str :=
  match h : cut "/*<next-line-original ".toList content with
  | none => content
  | some (a, r) =>
    match h2 : cut ['>'] r with
    | none => content
    | some (_, r2) =>
      match h3 : cut annotEnd r2 with
      | none => content
      | some (old, after) => cleanNextLine (a ++ old ++ dropNextLine after)
termination_by content.length
decreasing_by
  have h1 := cut_length h
  have h2 := cut_length h2
  have h3 := cut_length h3
  have h4 := dropNextLine_le after
  have : 0 < "/*<next-line-original ".toList.length := by decide
  simp only [List.length_append]
  omega

/-- `CleanPatchMarkers` (clean_patch.go:57-77) with `findStartEnd` (94-112) and `findMarker` (118-133): `sb`, `se` are
    the beginning and end of the start marker, `eb`, `ee` of the end marker. All four are not empty (otherwise there is a
    panic, line 58-60); the text from position `i` on is `s`. -/
def cleanMarkers (sb se eb ee : Str) (s : Str) : Str :=
  match h : cut sb s with
  | none => s
  | some (a, r) =>
    match h1 : cut se r with
    | none => s
    | some (label, r1) =>
      match h2 : cut (eb ++ label) r1 with
      | none => s
      | some (body, r2) =>
        match h3 : cut ee r2 with
        | none => s
        | some (_, r3) =>
          if sb = [] ∧ se = [] then s
          else a ++ extractOld body ++ cleanMarkers sb se eb ee r3
termination_by s.length
decreasing_by
  rename_i hn
  have h := cut_length h
  have h1 := cut_length h1
  have h2 := cut_length h2
  have h3 := cut_length h3
  have : 0 < sb.length + se.length := by
    cases sb with
    | cons => simp; omega
    | nil => cases se with
      | nil => exact absurd ⟨rfl, rfl⟩ hn
      | cons => simp
  simp only [List.length_append] at *
  omega

/-- `CleanPatch` (clean_patch.go:9-12). -/
def cleanPatch (content : Str) : Str :=
  cleanMarkers "/*<begin".toList ">*/".toList "/*<end".toList ">*/".toList (cleanNextLine content)

/-- `/*<next-line-original NAME>` -/
def annotStart (name : Str) : Str := "/*<next-line-original ".toList ++ name ++ ['>']
/-- `/*<begin NAME>` -/
def beginMarker (name : Str) : Str := "/*<begin ".toList ++ name ++ ['>']
/-- `/*<end NAME>*/` -/
def endMarker (name : Str) : Str := "/*<end ".toList ++ name ++ ['>', '*', '/']

theorem annotStart_ne (n : Str) : annotStart n ≠ [] := List.append_ne_nil_of_right_ne_nil _ (List.cons_ne_nil _ _)
theorem beginMarker_ne (n : Str) : beginMarker n ≠ [] := List.append_ne_nil_of_right_ne_nil _ (List.cons_ne_nil _ _)
theorem endMarker_ne (n : Str) : endMarker n ≠ [] := List.append_ne_nil_of_right_ne_nil _ (List.cons_ne_nil _ _)

/-- The first loop of `clearPatch` (apply.go:239-270). -/
def clearAnnots (name : Str) (content : Str) : Str :=
  match h : cut (annotStart name) content with
  | none => content
  | some (a, r) =>
    match h2 : cut annotEnd r with
    | none => content
    | some (old, after) => clearAnnots name (a ++ old ++ dropNextLine after)
termination_by content.length
decreasing_by
  have h1 := cut_length h
  have h2 := cut_length h2
  have h4 := dropNextLine_le after
  have : 0 < (annotStart name).length := List.length_pos_iff.2 (annotStart_ne name)
  simp only [List.length_append]
  omega

/-- The second loop of `clearPatch` (apply.go:272-308). The end of the start comment is searched from the beginning of
    the marker on (line 283). -/
def clearMarks (name : Str) (content : Str) : Str :=
  match h : cut (beginMarker name) content with
  | none => content
  | some (a, r) =>
    match h1 : cut "*/".toList (beginMarker name ++ r) with
    | none => content
    | some (_, r1) =>
      match h2 : cut (endMarker name) r1 with
      | none => content
      | some (body, after) => clearMarks name (a ++ extractOld body ++ after)
termination_by content.length
decreasing_by
  have h := cut_length h
  have h1 := cut_length h1
  have h2 := cut_length h2
  have h3 := extractOld_le body
  have : 0 < (endMarker name).length := List.length_pos_iff.2 (endMarker_ne name)
  simp only [List.length_append] at *
  omega

/-- `clearPatch` (apply.go:237-311). -/
def clearPatch (content name : Str) : Str := clearMarks name (clearAnnots name content)

/-! ### Adding edits -/

/-- `indexSequence` (strutil/strutil.go:32-60), the loop: `i` is the number of anchors still to be found before the one
    that is recorded (negative when it has been passed), `cursor` the offset of `s`, `recd` what was recorded. The result
    is the offset, the length of the anchor, and the end of the last anchor; `none` for not found. -/
def indexSeqLoop (begin : Bool) : List Str → Int → Nat → Nat × Nat → Str → Option (Nat × Nat × Nat)
  | [], _, cursor, recd, _ => some (recd.1, recd.2, cursor)
  | a :: rest, i, cursor, recd, s =>
    match cut a s with
    | none => none
    | some (before, after) =>
      let cursor := cursor + before.length + a.length
      let recd := if i = 0 then (if begin then cursor - a.length else cursor, a.length) else recd
      indexSeqLoop begin rest (i - 1) cursor recd after

/-- `indexSequence`/`SequenceOffset` (strutil.go:14-21, 29-60): the outer `none` is a panic. -/
def sequenceOffset (s : Str) (seq : List Str) (i : Int) (begin : Bool) : Option (Option (Nat × Nat × Nat)) :=
  if seq = [] then some none
  else if i = -1 then some (indexSeqLoop begin seq (seq.length - 1 : Int) 0 (0, 0) s)
  else if i < 0 ∨ (seq.length : Int) ≤ i then none
  else some (indexSeqLoop begin seq i 0 (0, 0) s)

/-- `tryReplaceWithMark` (patch.go:200-219); the outer `none` is a panic (an empty mark, or the end mark before the begin
    mark), the inner one means that there is no such mark. The separator is always empty (patch.go:116, 120, 169). -/
def tryReplaceWithMark (content bm em patchContent : Str) : Option (Option Str) :=
  if bm = [] ∨ em = [] then none
  else match cut bm content with
    | none => some none
    | some (a, _) =>
      match cut em content with
      | none => some none
      | some (ea, after) =>
        if ea.length < a.length + bm.length then none
        else
          let old := extractOld ((content.take ea.length).drop (a.length + bm.length))
          some (some (a ++ bm ++ (old ++ patchContent) ++ em ++ after))

/-- `insertOrReplaceContentNoDuplicate` (patch.go:185-201): `none` is a panic. -/
def insertOrReplace (content : Str) (replace : Bool) (replaceLen : Nat) (bm em : Str) (idx : Nat) (ins : Str) :
    Option Str :=
  if ins = [] then some content
  else match tryReplaceWithMark content bm em ins with
    | none => none
    | some (some c) => some c
    | some none =>
      if replace then
        some (content.take idx ++ bm ++ "/*old:".toList ++ (content.drop idx).take replaceLen ++ "*/".toList ++ ins ++ em ++
          content.drop (idx + replaceLen))
      else if contains content (bm ++ ins ++ em) then some content
      else some (content.take idx ++ (bm ++ ins ++ em) ++ content.drop idx)

/-- `UpdatePosition` (patch.go:104-110). -/
inductive Position
  | after | before | replace
  deriving DecidableEq

/-- The second part of `updateContent` (patch.go:131-153). -/
def updateAtAnchor (content bm em : Str) (seq : List Str) (i : Int) (pos : Position) (patchContent : Str) : Option Str :=
  match sequenceOffset content seq i (pos = .before || pos = .replace) with
  | none => none
  | some none => none
  | some (some (offset, anchorLen, endOffset)) =>
    match sequenceOffset (content.drop endOffset) seq i false with
    | none => none
    | some (some _) => none
    | some none => insertOrReplace content (pos = .replace) anchorLen bm em offset patchContent

/-- `UpdateContent` and `UpdateContentLines` (patch.go:114-154); `none` is a panic, which `EditFile` turns into an
    error. -/
def updateContent (content bm em : Str) (seq : List Str) (i : Int) (pos : Position) (patchContent : Str) : Option Str :=
  if pos = .replace then
    match tryReplaceWithMark content bm em patchContent with
    | none => none
    | some (some c) => some c
    | some none => updateAtAnchor content bm em seq i pos patchContent
  else updateAtAnchor content bm em seq i pos patchContent

/-- `ReplaceContentAfter` (patch.go:156-177): `none` is a panic. -/
def replaceContentAfter (content bm em : Str) (seq : List Str) (target replaceContent : Str) : Option Str :=
  if replaceContent = [] then some content
  else match sequenceOffset content seq (-1) false with
    | none => none
    | some none => none
    | some (some (idx, _, _)) =>
      if contains content (bm ++ replaceContent ++ em) then some content
      else match tryReplaceWithMark content bm em replaceContent with
        | none => none
        | some (some c) => some c
        | some none =>
          match cut target (content.drop idx) with
          | none => none
          | some (a, b) => some (content.take idx ++ a ++ (bm ++ replaceContent ++ em) ++ b)

/-- The characters of names (patch.go:81-83). Simplification: letters and digits are ASCII (the argument is a byte; of the
    other bytes Latin-1 letters count as letters too). -/
def isToken (c : Char) : Bool := c = '_' || c.isAlpha || c.isDigit

/-- `mustFindPackageName` (patch.go:49-79): the text up to the end of the package name and the text after; `none` is a
    panic. -/
def splitPackageName (code : Str) : Option (Str × Str) :=
  match cut "package ".toList code with
  | none => none
  | some (a, r) =>
    match r.dropWhile (fun c => c = ' ' || c = '\t') with
    | [] => none
    | c :: cs =>
      if isToken c then
        some (a ++ "package ".toList ++ r.takeWhile (fun c => c = ' ' || c = '\t') ++ (c :: cs.takeWhile isToken),
          cs.dropWhile isToken)
      else none

/-- `AddContentAfterName` (import.go:16-23): `none` is a panic. -/
def addContentAfterName (code bm em ins : Str) : Option Str :=
  match splitPackageName code with
  | none => none
  | some (a, b) =>
    match tryReplaceWithMark code bm em ins with
    | none => none
    | some (some c) => some c
    | some none => some (a ++ bm ++ ins ++ em ++ b)

/-- `RemoveMarker` (remove_marker.go:14-27): `none` is an error. -/
def removeMarker (content marker : Str) : Option Str :=
  (cut marker content).map fun p =>
    p.1 ++ match p.2 with
      | '\r' :: '\n' :: r => r
      | '\r' :: r => r
      | '\n' :: r => r
      | r => r

/-- `EditFile` (patch.go:12-36): the content of the file afterwards; an error of the callback leaves the file as it is.
    Simplification: reading and writing succeed. -/
def editFile (file : Str) (callback : Str → Option Str) : Str × Bool :=
  let content := cleanPatch file
  match callback content with
  | none => (file, false)
  | some newContent => if newContent = content then (file, true) else (newContent, true)

end Verif.Instrument.PatchText
