/-
Model of the patch engine that changes files of the Go installation according to `.xgo.patch` files.

Source: instrument/patch/apply_engine.go, instrument/patch/apply_types.go, instrument/patch/apply.go:211-234.

Simplifications: the Go parser is a parameter; it gives the declarations of a text with their offsets, or fails. Offsets
are byte offsets, texts lists of bytes. Error messages are left out: `none` is an error.
-/
import Verif.Instrument.PatchText

namespace Verif.Instrument.PatchApply
open Verif.Text
open Verif.Instrument.PatchText

/-! ### The syntax tree -/

/-- The offsets `Pos()` and `End()` of a node. -/
structure Span where
  pos : Nat
  fin : Nat
  deriving DecidableEq, Repr

/-- The type of a type declaration, `ast.Expr`. `lbrace` and `rbrace` are `Fields.Opening` and `Fields.Closing`, `names`
    the field names with their offsets, in source order. In a file that parses they are there. -/
inductive TypeExpr
  | struct (span : Span) (lbrace rbrace : Nat) (names : List (Str × Nat))
  | iface (span : Span) (lbrace rbrace : Nat)
  | other (span : Span)
  deriving DecidableEq, Repr

def TypeExpr.span : TypeExpr → Span
  | struct s .. => s
  | iface s .. => s
  | other s => s

/-- `ast.TypeSpec`. -/
structure TypeSpec where
  span : Span
  name : Str
  type : TypeExpr
  deriving DecidableEq, Repr

/-- `ast.FuncDecl`: `recv` is the receiver list in parentheses and whether there is a receiver in it, `body` the
    braces. -/
structure FuncDecl where
  span : Span
  name : Str
  recv : Option (Span × Bool)
  body : Option (Nat × Nat)
  deriving DecidableEq, Repr

/-- Declarations: `types` is a `type` declaration with its specs, `values` an `import`, `const` or `var` declaration with
    the spans of its specs. -/
inductive Decl
  | types (span : Span) (specs : List TypeSpec)
  | values (span : Span) (specs : List Span)
  | func (f : FuncDecl)
  deriving DecidableEq, Repr

def Decl.span : Decl → Span
  | types s _ => s
  | values s _ => s
  | func f => f.span

/-- `ast.File`. -/
abbrev File := List Decl

/-- Nodes of the tree as `cursorNode` returns them. -/
inductive Node
  | file
  | decl (d : Decl)
  | typeSpec (t : TypeSpec)
  | valueSpec (s : Span)
  | type (t : TypeExpr)
  deriving DecidableEq, Repr

/-! ### Commands -/

/-- `Command` (apply_types.go:15-46, the kinds and the struct). -/
inductive Command
  | goto (target : Str)
  | search (text : Str)
  | findForReplace (text : Str)
  | insertBefore (text : Str)
  | insertAfter (text : Str)
  | replace (text : Str)
  | newline
  | copyFunc (source target : Str)
  | replaceDirective (old new : Str)
  | insertAfterLine (text : Str)
  deriving DecidableEq, Repr

/-- `PatchBlock` (apply_types.go:9-12). -/
structure Block where
  name : Str
  commands : List Command
  deriving DecidableEq, Repr

/-- `cursor` (apply_engine.go:12-16). -/
structure Cursor where
  offset : Nat
  endOffset : Nat
  isReplace : Bool
  deriving DecidableEq, Repr

/-- `insertMode` (apply_engine.go:141-146). -/
inductive Mode
  | before | after
  deriving DecidableEq, Repr

/-- `editGroup` (apply_engine.go:29-36); the number is the key in the map of groups. -/
structure Group where
  offset : Nat
  insertEnd : Nat
  segments : List Str
  isReplace : Bool
  oldText : Str
  deriving DecidableEq, Repr

/-- `applyState` (apply_engine.go:148-159) without the constant fields. -/
structure State where
  cursor : Cursor
  seq : Nat
  mode : Mode
  groups : Nat → Option Group
  append : Str
  directive : Option (Str × Str)

/-- The state at the start (apply_engine.go:46-51). -/
def State.init : State := ⟨⟨0, 0, false⟩, 0, .before, fun _ => none, [], none⟩

/-! ### Positions -/

/-- The text between two offsets. -/
def slice (s : Str) (a b : Nat) : Str := (s.take b).drop a

/-- `strings.LastIndex`. -/
def lastIndex (t : Str) : Str → Option Nat
  | [] => if t = [] then some 0 else none
  | c :: s =>
    match lastIndex t s with
    | some i => some (i + 1)
    | none => if t.isPrefixOf (c :: s) then some 0 else none

/-- `strings.Index`. -/
def index (t s : Str) : Option Nat := (cut t s).map (·.1.length)

/-- `strings.TrimSpace`, of ASCII white space. -/
def isSpace (c : Char) : Bool := c = ' ' || c = '\t' || c = '\n' || c = '\r' || c = '\x0b' || c = '\x0c'

def trimSpace (s : Str) : Str := ((s.dropWhile isSpace).reverse.dropWhile isSpace).reverse

/-- Whether an offset is in a node, its end included (apply_engine.go:481, 492). -/
def Span.has (s : Span) (pos : Nat) : Bool := decide (s.pos ≤ pos ∧ pos ≤ s.fin)

/-- `findNodeAt` of a type spec (apply_engine.go:488-495, 504-507): its type, if the position is there. -/
def nodeOfTypeSpec (t : TypeSpec) (pos : Nat) : Node :=
  if t.type.span.has pos then .type t.type else .typeSpec t

/-- `findNodeAt` of a declaration that has the position (apply_engine.go:488-514). -/
def nodeOfDecl (pos : Nat) : Decl → Node
  | .types sp specs =>
    match specs.find? (fun t => t.span.has pos) with
    | some t => nodeOfTypeSpec t pos
    | none => .decl (.types sp specs)
  | .values sp specs =>
    match specs.find? (fun s => s.has pos) with
    | some s => .valueSpec s
    | none => .decl (.values sp specs)
  | .func f => .decl (.func f)

/-- `cursorNode` (apply_engine.go:478-486). -/
def cursorNode (file : File) (pos : Nat) : Node :=
  match file.find? (fun d => d.span.has pos) with
  | some d => nodeOfDecl pos d
  | none => .file

/-- The scope of a search (apply_engine.go:524-532): the node at the cursor, or the whole file. -/
def scopeOf (s : Str) : Node → Nat × Nat
  | .file => (0, s.length)
  | .decl d => (d.span.pos, d.span.fin)
  | .typeSpec t => (t.span.pos, t.span.fin)
  | .valueSpec sp => (sp.pos, sp.fin)
  | .type t => (t.span.pos, t.span.fin)

/-- `evalMatch` (apply_engine.go:523-560). -/
def evalMatch (s : Str) (file : File) (c : Cursor) (t : Str) (forReplace : Bool) : Option Cursor :=
  let (a, b) := scopeOf s (cursorNode file c.offset)
  let first := (index t (slice s a b)).map fun i => (⟨a + i, a + i + t.length, forReplace⟩ : Cursor)
  if forReplace ∧ a < c.offset ∧ c.offset ≤ b then
    match lastIndex t (slice s a c.offset) with
    | some i => some ⟨a + i, a + i + t.length, true⟩
    | none => first
  else first

/-- The type specs of a file, in source order (apply_engine.go:338-347). -/
def typeSpecs (file : File) : List TypeSpec :=
  file.flatMap fun d => match d with
    | .types _ specs => specs
    | _ => []

/-- The functions of a file, in source order (apply_engine.go:373-377). -/
def funcs (file : File) : List FuncDecl :=
  file.filterMap fun d => match d with
    | .func f => some f
    | _ => none

def TypeSpec.isStruct (t : TypeSpec) : Bool := match t.type with
  | .struct .. => true
  | _ => false

def TypeSpec.isInterface (t : TypeSpec) : Bool := match t.type with
  | .iface .. => true
  | _ => false

/-- `evalGotoDecl` (apply_engine.go:337-355). -/
def evalGotoDecl (file : File) (name : Str) (check : TypeSpec → Bool) : Option Cursor :=
  ((typeSpecs file).find? fun t => decide (t.name = name) && check t).map fun t => ⟨t.span.pos, t.span.pos, false⟩

/-- Whether the receiver of a function is the one asked for (apply_engine.go:381-394): the text between the parentheses
    asked for must occur in the text of the receiver list. `none`: no receiver asked for. -/
def recvMatches (s : Str) (want : Option Str) (f : FuncDecl) : Bool :=
  match want, f.recv with
  | none, none => true
  | none, some (_, nonempty) => !nonempty
  | some _, none => false
  | some w, some (sp, nonempty) => nonempty && contains (trimSpace (slice s sp.pos sp.fin)) w

/-- `evalGotoFunc` (apply_engine.go:357-401): a function name, or a receiver in parentheses and a name. -/
def evalGotoFunc (s : Str) (file : File) (target : Str) : Option Cursor :=
  let find := fun (want : Option Str) (name : Str) =>
    ((funcs file).find? fun f => decide (f.name = name) && recvMatches s want f).map fun f =>
      (⟨f.span.pos, f.span.pos, false⟩ : Cursor)
  match target with
  | '(' :: r =>
    match cut [')'] r with
    | none => none
    | some (want, name) => find (some want) (trimSpace name)
  | name => find none name

/-- The braces of a node (apply_engine.go:411-441). -/
def bracesOf : Node → Option (Nat × Nat)
  | .typeSpec t =>
    match t.type with
    | .struct _ l r _ => some (l, r)
    | .iface _ l r => some (l, r)
    | .other _ => none
  | .decl (.func f) => f.body
  | _ => none

/-- `evalGotoBrace` (apply_engine.go:403-450). -/
def evalGotoBrace (file : File) (c : Cursor) (opening : Bool) : Option Cursor :=
  (bracesOf (cursorNode file c.offset)).map fun (l, r) =>
    let p := if opening then l else r
    ⟨p, p + 1, false⟩

/-- `evalGotoField` (apply_engine.go:452-475). -/
def evalGotoField (file : File) (c : Cursor) (name : Str) : Option Cursor :=
  match cursorNode file c.offset with
  | .typeSpec t =>
    match t.type with
    | .struct _ _ _ names => (names.find? fun n => decide (n.1 = name)).map fun n => ⟨n.2, n.2, false⟩
    | _ => none
  | _ => none

/-- The rest of a text after a prefix. -/
def after? (p s : Str) : Option Str := if p.isPrefixOf s then some (s.drop p.length) else none

/-- `evalGoto` (apply_engine.go:298-325). -/
def evalGoto (s : Str) (file : File) (c : Cursor) (target : Str) : Option Cursor :=
  if target = "opening {".toList then evalGotoBrace file c true
  else if target = "closing }".toList then evalGotoBrace file c false
  else match after? "field ".toList target with
    | some n => evalGotoField file c (trimSpace n)
    | none =>
      match after? "struct ".toList target with
      | some n => evalGotoDecl file (trimSpace n) TypeSpec.isStruct
      | none =>
        match after? "interface ".toList target with
        | some n => evalGotoDecl file (trimSpace n) TypeSpec.isInterface
        | none =>
          match after? "func ".toList target with
          | some n => evalGotoFunc s file (trimSpace n)
          | none => none

/-- `evalCopyFunc` (apply_engine.go:562-578). -/
def evalCopyFunc (s : Str) (file : File) (source target : Str) : Option Str :=
  ((funcs file).find? fun f => decide (f.name = source)).map fun f =>
    let src := slice s f.span.pos f.span.fin
    match cut ("func ".toList ++ source ++ ['(']) src with
    | none => src
    | some (a, b) => a ++ ("func ".toList ++ target ++ ['(']) ++ b

/-! ### Collecting edits -/

/-- `getGroup` (apply_engine.go:166-181), without storing it. -/
def getGroup (st : State) : Group :=
  match st.groups st.seq with
  | some g => g
  | none => ⟨st.cursor.offset, max st.cursor.offset st.cursor.endOffset, [], false, []⟩

def setGroup (st : State) (g : Group) : State :=
  { st with groups := fun n => if n = st.seq then some g else st.groups n }

/-- `addSegment` (apply_engine.go:183-186). -/
def addSegment (st : State) (t : Str) : State :=
  let g := getGroup st
  setGroup st { g with segments := g.segments ++ [t] }

/-- `addReplace` (apply_engine.go:188-193). -/
def addReplace (st : State) (new old : Str) : State :=
  let g := getGroup st
  setGroup st { g with segments := g.segments ++ [new], isReplace := true, oldText := old }

/-- The last segment gets a newline. -/
def newlineLast : List Str → List Str
  | [] => []
  | [x] => [x ++ ['\n']]
  | x :: y :: l => x :: newlineLast (y :: l)

/-- `addNewline` (apply_engine.go:195-201). -/
def addNewline (st : State) : State :=
  let g := getGroup st
  setGroup st { g with segments := newlineLast g.segments }

/-- A positioning command (apply_engine.go:55-80). -/
def moveTo (st : State) (c : Cursor) : State := { st with cursor := c, seq := st.seq + 1, mode := .before }

/-- `strings.TrimSuffix(s, "\n")`. -/
def trimNewline (s : Str) : Str := if s.getLast? = some '\n' then s.dropLast else s

/-- The cursor after `insert_after_line` (apply_engine.go:100-102). -/
def skipNewline (s : Str) (c : Cursor) : Cursor :=
  if s[c.endOffset]? = some '\n' then { c with endOffset := c.endOffset + 1 } else c

/-- One command (apply_engine.go:53-136). -/
def step (s : Str) (file : File) (st : State) : Command → Option State
  | .goto t => (evalGoto s file st.cursor t).map (moveTo st)
  | .search t => (evalMatch s file st.cursor t false).map (moveTo st)
  | .findForReplace t => (evalMatch s file st.cursor t true).map (moveTo st)
  | .insertBefore t => if t = [] then none else some (addSegment { st with mode := .before } t)
  | .insertAfter t => if t = [] then none else some (addSegment { st with mode := .after } t)
  | .insertAfterLine t =>
    if t = [] then none
    else some (addSegment { st with cursor := skipNewline s st.cursor, mode := .after } t)
  | .replace t =>
    if t = [] then none
    else if st.cursor.isReplace = false then none
    else some (addReplace { st with mode := .before } t (slice s st.cursor.offset st.cursor.endOffset))
  | .newline => some (addNewline st)
  | .copyFunc source target => (evalCopyFunc s file source target).map fun c => { st with append := trimNewline c }
  | .replaceDirective old new => if old = [] ∨ new = [] then none else some { st with directive := some (old, new) }

/-- The loop over the commands of a block. -/
def steps (s : Str) (file : File) : State → List Command → Option State
  | st, [] => some st
  | st, c :: cs => (step s file st c).bind fun st => steps s file st cs

/-! ### Making the edits -/

/-- `combineSegments` (apply_engine.go:209-230): the mode is that of the last command of the block. -/
def combine (mode : Mode) (g : Group) : Str :=
  if g.isReplace then g.segments.flatten
  else match mode with
    | .before => g.segments.reverse.flatten
    | .after => g.segments.flatten

/-- `/*<begin NAME>*/` -/
def beginMark (name : Str) : Str := "/*<begin ".toList ++ name ++ ">*/".toList
/-- `/*<end NAME>*/` -/
def endMark (name : Str) : Str := "/*<end ".toList ++ name ++ ">*/".toList
/-- `/*old:TEXT*/`, or nothing if there is no text (apply_engine.go:252-254). -/
def oldMark (old : Str) : Str := if old = [] then [] else "/*old:".toList ++ old ++ "*/".toList

/-- The edit of one group (apply_engine.go:240-273); `last` says whether its number is the last one. -/
def applyGroup (name : Str) (mode : Mode) (last : Bool) (g : Group) (r : Str) : Str :=
  let ins := combine mode g
  if ins = [] ∧ g.isReplace = false then r
  else if g.isReplace then
    r.take g.offset ++ (beginMark name ++ oldMark g.oldText ++ ins ++ endMark name) ++ r.drop (g.offset + g.oldText.length)
  else
    let at_ := if mode = .before ∨ last = false then g.offset else g.insertEnd
    r.take at_ ++ (beginMark name ++ ins ++ endMark name) ++ r.drop at_

/-- The loop over the groups (apply_engine.go:239-274), from number `n` down to 1. -/
def applyGroups (name : Str) (st : State) : Nat → Str → Str
  | 0, r => r
  | n + 1, r =>
    applyGroups name st n (match st.groups (n + 1) with
      | none => r
      | some g => applyGroup name st.mode (decide (n + 1 = st.seq)) g r)

/-- The copied function at the end of the file (apply_engine.go:276-283). -/
def applyAppend (name append r : Str) : Str :=
  if append = [] then r
  else (if r.getLast? = some '\n' then r else r ++ ['\n']) ++ (beginMark name ++ append ++ endMark name)

/-- The replaced directive (apply_engine.go:285-292). -/
def applyDirective (name : Str) (d : Option (Str × Str)) (r : Str) : Str :=
  match d with
  | none => r
  | some (old, new) =>
    match cut old r with
    | none => r
    | some (a, b) =>
      a ++ ("/*<next-line-original ".toList ++ name ++ ['>'] ++ old ++ annotEnd) ++ ['\n'] ++ new ++ b

/-- `applyEdits` (apply_engine.go:233-295). -/
def applyEdits (name s : Str) (st : State) : Str :=
  applyDirective name st.directive (applyAppend name st.append (applyGroups name st st.seq s))

/-- `applyPatch` (apply_engine.go:39-139). -/
def applyPatch (parse : Str → Option File) (s : Str) (b : Block) : Option Str :=
  (parse s).bind fun file => (steps s file State.init b.commands).map (applyEdits b.name s)

/-- The loop of `ApplyXgoPatchContent` (apply.go:220-233) after the patch file has been parsed. -/
def applyBlocks (parse : Str → Option File) : Str → List Block → Option Str
  | s, [] => some s
  | s, b :: bs =>
    (applyPatch parse (if b.name = [] then s else clearPatch s b.name) b).bind fun r => applyBlocks parse r bs

end Verif.Instrument.PatchApply
