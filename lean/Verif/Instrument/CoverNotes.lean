import Verif.Text.EditBuffer
/-
Model of how xgo and `go tool cover` work on the same file.

Models `AddEditsNotes` (/repo/instrument/instrument_go/go_tool_cover.go:87-112), the file that xgo adds to cmd/cover
(/repo/instrument/instrument_go/xgo_cover_template.go), the two statements it adds to `annotateFile` of cmd/cover
(go_tool_cover.go:55-81), the test for `-cover` (/repo/cmd/xgo/main.go:782-790) and the writing of an instrumented file
(/repo/cmd/xgo/instrument.go:390-418), with the parts of strconv and encoding/json they use.

Texts are lists of characters: sources are valid UTF-8, as Go requires, and offsets count characters, not bytes.
-/
namespace Verif.Instrument.CoverNotes
open Verif.Text

abbrev Str := List Char

/-! ### strconv and encoding/json -/

/-- A digit of `lowerhex`. -/
def hexDigit (n : Nat) : Char := if n < 10 then Char.ofNat (48 + n) else Char.ofNat (87 + n)

/-- `n` in `k` hexadecimal digits. -/
def hex : Nat → Nat → Str
  | 0, _ => []
  | k + 1, n => hexDigit (n / 16 ^ k % 16) :: hex k n

/-- The escape of one rune by `strconv.Quote` (appendEscapedRune). `isPrint` is `strconv.IsPrint`. -/
def escape (isPrint : Char → Bool) (c : Char) : Str :=
  if c = '"' ∨ c = '\\' then ['\\', c]
  else if isPrint c then [c]
  else if c = Char.ofNat 7 then ['\\', 'a'] else if c = Char.ofNat 8 then ['\\', 'b'] else if c = Char.ofNat 12 then ['\\', 'f']
  else if c = '\n' then ['\\', 'n'] else if c = '\r' then ['\\', 'r'] else if c = '\t' then ['\\', 't']
  else if c = Char.ofNat 11 then ['\\', 'v']
  else if c.toNat < 0x20 ∨ c.toNat = 0x7f then '\\' :: 'x' :: hex 2 c.toNat
  else if c.toNat < 0x10000 then '\\' :: 'u' :: hex 4 c.toNat
  else '\\' :: 'U' :: hex 8 c.toNat

/-- `strconv.Quote`. -/
def quote (isPrint : Char → Bool) (s : Str) : Str := '"' :: s.flatMap (escape isPrint) ++ ['"']

def unhex (c : Char) : Option Nat :=
  if '0' ≤ c ∧ c ≤ '9' then some (c.toNat - 48)
  else if 'a' ≤ c ∧ c ≤ 'f' then some (c.toNat - 87)
  else if 'A' ≤ c ∧ c ≤ 'F' then some (c.toNat - 55)
  else none

/-- The next `k` characters as hexadecimal digits, added to `v`, and the rest. -/
def hexes : Nat → Nat → Str → Option (Nat × Str)
  | 0, v, s => some (v, s)
  | _ + 1, _, [] => none
  | k + 1, v, c :: s => match unhex c with
    | none => none
    | some d => hexes k (16 * v + d) s

/-- The rune of a `\u` or `\U` escape. -/
def rune : Option (Nat × Str) → Option (Char × Str)
  | some (v, s) => if v.isValidChar then some (Char.ofNat v, s) else none
  | none => none

/-- `strconv.UnquoteChar` after a backslash. Not modelled: `\x` of a byte above 7f and octal escapes, which `Quote` writes for
    no valid text. -/
def unescape : Str → Option (Char × Str)
  | [] => none
  | e :: s =>
    if e = 'a' then some (Char.ofNat 7, s) else if e = 'b' then some (Char.ofNat 8, s) else if e = 'f' then some (Char.ofNat 12, s)
    else if e = 'n' then some ('\n', s) else if e = 'r' then some ('\r', s) else if e = 't' then some ('\t', s)
    else if e = 'v' then some (Char.ofNat 11, s)
    else if e = 'x' then match hexes 2 0 s with
      | some (v, s) => if v < 0x80 then some (Char.ofNat v, s) else none
      | none => none
    else if e = 'u' then rune (hexes 4 0 s) else if e = 'U' then rune (hexes 8 0 s)
    else if e = '\\' then some ('\\', s) else if e = '"' then some ('"', s)
    else none

/-- The text up to the closing quote, and the rest. -/
def unquoteFrom (unescape : Str → Option (Char × Str)) (bad : Char → Bool) : Nat → Str → Option (Str × Str)
  | 0, _ => none
  | _ + 1, [] => none
  | n + 1, c :: s =>
    if c = '"' then some ([], s)
    else if bad c then none
    else if c = '\\' then
      match unescape s with
      | none => none
      | some (d, s) => (unquoteFrom unescape bad n s).map fun p => (d :: p.1, p.2)
    else (unquoteFrom unescape bad n s).map fun p => (c :: p.1, p.2)

/-- `strconv.Unquote` for double quotes; the empty text is an error or an empty text, which the callers do not distinguish
    (xgo_cover_template.go:66-68, 77-79). -/
def unquote : Str → Str
  | '"' :: s => match unquoteFrom unescape (· == '\n') (s.length + 1) s with
    | some (t, []) => t
    | _ => []
  | _ => []

/-- One rune of a JSON string as `json.Marshal` writes it, with HTML escapes (appendString of Go 1.22 and later; before, `\b`
    and `\f` were written as `\u0008` and `\u000c`). -/
def jsonEscape (c : Char) : Str :=
  if c = '"' ∨ c = '\\' then ['\\', c]
  else if c = Char.ofNat 8 then ['\\', 'b'] else if c = Char.ofNat 12 then ['\\', 'f']
  else if c = '\n' then ['\\', 'n'] else if c = '\r' then ['\\', 'r'] else if c = '\t' then ['\\', 't']
  else if c.toNat < 0x20 ∨ c = '<' ∨ c = '>' ∨ c = '&' ∨ c.toNat = 0x2028 ∨ c.toNat = 0x2029 then '\\' :: 'u' :: hex 4 c.toNat
  else [c]

def jsonString (s : Str) : Str := '"' :: s.flatMap jsonEscape ++ ['"']

/-- A member of an object, left out if it is empty (`omitempty`). -/
def member (key : Str) (empty : Bool) (value : Str) : List Str := if empty then [] else [jsonString key ++ ':' :: value]

def commas : List Str → Str
  | [] => []
  | [x] => x
  | x :: y :: r => x ++ ',' :: commas (y :: r)

/-- `json.Marshal` of an `Edit` (go_tool_cover.go:91-95). -/
def jsonEdit (e : Edit Char) : Str :=
  '{' :: commas (member "start".toList (e.start == 0) (Nat.toDigits 10 e.start) ++ member "end".toList (e.stop == 0) (Nat.toDigits 10 e.stop) ++
    member "new".toList e.new.isEmpty (jsonString e.new)) ++ ['}']

/-- `json.Marshal(edits)` (go_tool_cover.go:100). A nil slice is `null`. -/
def jsonEdits (es : List (Edit Char)) : Str :=
  if es = [] then "null".toList else '[' :: commas (es.map jsonEdit) ++ [']']

/-- The escapes of a JSON string. Not modelled: surrogate pairs, which `json.Marshal` does not write. -/
def jsonUnescape : Str → Option (Char × Str)
  | [] => none
  | e :: s =>
    if e = '"' ∨ e = '\\' ∨ e = '/' then some (e, s)
    else if e = 'b' then some (Char.ofNat 8, s) else if e = 'f' then some (Char.ofNat 12, s)
    else if e = 'n' then some ('\n', s) else if e = 'r' then some ('\r', s) else if e = 't' then some ('\t', s)
    else if e = 'u' then rune (hexes 4 0 s)
    else none

/-- A JSON string, and the rest of the text. -/
def parseString : Str → Option (Str × Str)
  | '"' :: s => unquoteFrom jsonUnescape (fun c => c.toNat < 0x20) (s.length + 1) s
  | _ => none

/-- A JSON number that is not negative and has no fraction. -/
def parseNumber (s : Str) : Option (Nat × Str) :=
  let d := s.takeWhile Char.isDigit
  if d = [] then none else some (Nat.ofDigitChars 10 d 0, s.dropWhile Char.isDigit)

/-- `key:value` of an object. -/
def parseMember (e : Edit Char) (s : Str) : Option (Edit Char × Str) :=
  match parseString s with
  | some (key, ':' :: s) =>
    if key = "start".toList then (parseNumber s).map fun p => ({ e with start := p.1 }, p.2)
    else if key = "end".toList then (parseNumber s).map fun p => ({ e with stop := p.1 }, p.2)
    else if key = "new".toList then (parseString s).map fun p => ({ e with new := p.1 }, p.2)
    else none
  | _ => none

/-- The members of an object up to its `}`. -/
def parseMembers : Nat → Edit Char → Str → Option (Edit Char × Str)
  | 0, _, _ => none
  | n + 1, e, s => match parseMember e s with
    | some (e, '}' :: s) => some (e, s)
    | some (e, ',' :: s) => parseMembers n e s
    | _ => none

def parseEdit (n : Nat) : Str → Option (Edit Char × Str)
  | '{' :: '}' :: s => some (⟨0, 0, []⟩, s)
  | '{' :: s => parseMembers n ⟨0, 0, []⟩ s
  | _ => none

/-- The elements of an array up to its `]`. -/
def parseList : Nat → Str → Option (List (Edit Char) × Str)
  | 0, _ => none
  | n + 1, s => match parseEdit n s with
    | some (e, ']' :: s) => some ([e], s)
    | some (e, ',' :: s) => (parseList n s).map fun p => (e :: p.1, p.2)
    | _ => none

/-- `json.Unmarshal(editsJSON, &edits)` with its error ignored (xgo_cover_template.go:71-72). Simplification: only JSON as
    `json.Marshal` writes it, without blanks and with these keys, is accepted. -/
def unmarshal : Str → List (Edit Char)
  | '[' :: s => match parseList (s.length + 1) s with
    | some (es, []) => es
    | _ => []
  | _ => []

/-! ### The notes -/

/-- `AddEditsNotes` (go_tool_cover.go:90-112). -/
def addEditsNotes (isPrint : Char → Bool) (edits : List (Edit Char)) (file original content : Str) : Str :=
  let sep := if content.getLast? = some '\n' then [] else ['\n']
  content ++ sep ++ "// __xgo_file: ".toList ++ quote isPrint file ++ "\n".toList ++
    "// __xgo_edits: ".toList ++ jsonEdits edits ++ "\n".toList ++
    "// __xgo_original: ".toList ++ quote isPrint original

/-- The loop of `xgoFindLinesFromEnd` (xgo_cover_template.go:99-108), over the text read backwards: `cur` is the line read so
    far, `res` the lines found, already in the order of the text (the reversal in 110-112). -/
def linesBack (max : Nat) : Str → Str → List Str → List Str
  | [], _, res => res
  | c :: s, cur, res =>
    if c = '\n' then
      let res := cur :: res
      if res.length ≥ max then res else linesBack max s [] res
    else linesBack max s (c :: cur) res

/-- `xgoFindLinesFromEnd` (xgo_cover_template.go:83-114). -/
def findLinesFromEnd (content : Str) (max : Nat) : List Str :=
  if max = 0 then []
  else match content.reverse with
    | [] => []
    | '\n' :: s => linesBack max s [] []
    | s => linesBack max s [] []

/-- `bytes.TrimSpace`, for the blanks of ASCII. -/
def trimSpace (s : Str) : Str :=
  let b := fun c : Char => c = ' ' || c = '\t' || c = '\n' || c = '\r' || c = Char.ofNat 11 || c = Char.ofNat 12
  ((s.dropWhile b).reverse.dropWhile b).reverse

/-- `xgoCutPrefixAndSpace` (xgo_cover_template.go:118-135); `none` for an empty prefix. -/
def cutPrefixAndSpace (content : Str) : Option (Str × Str) :=
  if "// __xgo_".toList.isPrefixOf content then
    let rest := content.drop "// __xgo_".toList.length
    let name := rest.takeWhile (· != ':')
    match rest.dropWhile (· != ':') with
    | [] => none
    | c :: value => some ("// __xgo_".toList ++ name ++ [c], trimSpace value)
  else none

/-- The three values found so far (xgo_cover_template.go:40-42). -/
structure Notes where
  file : Str := []
  edits : Str := []
  original : Str := []

/-- The loop over the last lines (xgo_cover_template.go:44-61). -/
def readNotes : List Str → Notes → Option Notes
  | [], n => some n
  | line :: rest, n => match cutPrefixAndSpace line with
    | none => none
    | some (prefix_, value) =>
      if prefix_ = "// __xgo_file:".toList then readNotes rest { n with file := value }
      else if prefix_ = "// __xgo_edits:".toList then readNotes rest { n with edits := value }
      else if prefix_ = "// __xgo_original:".toList then readNotes rest { n with original := value }
      else none

/-- `xgoParseEdit` (xgo_cover_template.go:34-81). -/
def parseNotes (content : Str) : Option (Str × List (Edit Char) × Str) :=
  let lastLines := findLinesFromEnd content 3
  if lastLines.length < 3 then none
  else match readNotes lastLines {} with
    | none => none
    | some n =>
      if n.file = [] ∨ n.edits = [] ∨ n.original = [] then none
      else
        let file := unquote n.file
        let edits := unmarshal n.edits
        let original := unquote n.original
        if file = [] ∨ edits = [] ∨ original = [] then none else some (file, edits, original)

/-- `xgoParseApply` (xgo_cover_template.go:20-27): name, content and edits that cover goes on with. -/
def parseApply (name content : Str) : Str × Str × List (Edit Char) :=
  match parseNotes content with
  | some (file, edits, original) => (file, original, edits)
  | none => (name, content, [])

/-! ### The cover tool -/

/-- The insertions of the cover tool itself into its buffer; `none` is a panic. -/
def addCounters : List (Nat × Str) → Buffer Char → Option (Buffer Char)
  | [], b => some b
  | (pos, new) :: r, b => match b.insert pos new with
    | none => none
    | some b => addCounters r b

/-- `for _, e := range __xgo_edits { file.edit.Replace(e.Start, e.End, e.New); }` (go_tool_cover.go:77). -/
def addEdits : List (Edit Char) → Buffer Char → Option (Buffer Char)
  | [], b => some b
  | e :: r, b => match b.replace e.start e.stop e.new with
    | none => none
    | some b => addEdits r b

/-- `annotateFile` of cmd/cover: `counters` is what the tool inserts into a file of that name and text, as a function of its
    syntax. Its buffer (cmd/internal/edit) is the same as xgo's. What it prints after the edited text is left out. -/
def cover (counters : Str → Str → List (Nat × Str)) (name content : Str) : Option Str :=
  let p := parseApply name content
  match addCounters (counters p.1 p.2.1) (Buffer.mk' p.2.1) with
  | none => none
  | some b => match addEdits p.2.2 b with
    | none => none
    | some b => b.bytes.1

/-- `mayHaveCover` (main.go:782-790). -/
def mayHaveCover (args : List Str) : Bool := args.any fun a => "-cover".toList.isPrefixOf a

/-- What xgo writes for a file with edits (instrument.go:394-404). `Bytes` sorts the edits before they are noted. -/
def instrumented (isPrint : Char → Bool) (args : List Str) (file original : Str) (b : Buffer Char) : Option Str :=
  match b.bytes with
  | (none, _) => none
  | (some content, b) => some (if mayHaveCover args then addEditsNotes isPrint b.q file original content else content)

end Verif.Instrument.CoverNotes
