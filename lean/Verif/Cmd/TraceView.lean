import Verif.Runtime.TraceJson
/-
Model of `xgo tool trace`, the viewer of trace files: cmd/xgo/trace/main.go:112-140, cmd/xgo/trace/convert.go and
cmd/xgo/trace/render/*.go.

Simplifications: a string is the list of its runes (and stray bytes), JSON is read as in `Verif.Runtime.TraceJson`; what `encoding/json`
makes of a well-formed value for a Go struct is a parameter; the fixed parts of the page are single lines; the costs are computed
exactly, while format.go:48-58 divides in floating point; integers do not overflow.
-/
namespace Verif.Cmd.TraceView
open Verif.Runtime.TraceJson

/-! ### The stacks (render/stack_model/stack_model.go:8-63) -/

/-- stack_model.go:38-63. `argNames` and `resNames` are `none` for a nil slice. -/
structure FuncInfo where
  kind : Str
  pkg : Str
  name : Str
  recvType : Str
  recvPtr : Bool
  interface : Bool
  generic : Bool
  closure : Bool
  stdlib : Bool
  file : Str
  line : Int
  recvName : Str
  argNames : Option (List Str)
  resNames : Option (List Str)
  firstArgCtx : Bool
  lastResultErr : Bool

/-- stack_model.go:21-36, without `Children`. -/
structure Entry where
  info : Option FuncInfo
  beginNs : Int
  endNs : Int
  args : Json
  results : Json
  panic : Bool
  panicLine : Int
  error : Str

/-- The addresses of entries: those that RenderStacks makes (render.go:123-129), and those it is given. -/
inductive Ptr
  | top (i : Nat)
  | given (n : Nat)
deriving DecidableEq

/-- A list of entries with their children (stack_model.go:18, 35): `null` is a nil pointer in the list. -/
inductive Forest
  | nil
  | null (rest : Forest)
  | node (p : Ptr) (e : Entry) (kids rest : Forest)

/-- stack_model.go:15-19. -/
structure Stack where
  format : Str
  begin : Str
  children : Forest

/-! ### Writing JSON (encoding/json, with the escapes for HTML that `json.Marshal` makes) -/

/-- `appendString` of encoding/json. -/
def escCh : Ch → Str
  | .bad _ => lit "\\ufffd"
  | .rune c =>
    if c = '"' then lit "\\\""
    else if c = '\\' then lit "\\\\"
    else if c = '\x08' then lit "\\b"
    else if c = '\x0c' then lit "\\f"
    else if c = '\n' then lit "\\n"
    else if c = '\r' then lit "\\r"
    else if c = '\t' then lit "\\t"
    else if c.toNat < 32 ∨ c = '<' ∨ c = '>' ∨ c = '&' ∨ c.toNat = 0x2028 ∨ c.toNat = 0x2029 then lit "\\u" ++ hex 4 c.toNat
    else [.rune c]

def encStr (s : Str) : Str := .rune '"' :: (s.flatMap escCh ++ [.rune '"'])

mutual
def enc : Json → Str
  | .null => lit "null"
  | .bool b => if b then lit "true" else lit "false"
  | .num t => t.map .rune
  | .str s => encStr s
  | .arr l => .rune '[' :: encElems l
  | .obj l => .rune '{' :: encMembers l
def encElems : List Json → Str
  | [] => [.rune ']']
  | [x] => enc x ++ [.rune ']']
  | x :: y :: l => enc x ++ .rune ',' :: encElems (y :: l)
def encMember : Str × Json → Str
  | (k, v) => encStr k ++ .rune ':' :: enc v
def encMembers : List (Str × Json) → Str
  | [] => [.rune '}']
  | [x] => encMember x ++ [.rune '}']
  | x :: y :: l => encMember x ++ .rune ',' :: encMembers (y :: l)
end

def ofInt (i : Int) : Json := .num (toString i).toList
def ofNames : Option (List Str) → Json
  | none => .null
  | some l => .arr (l.map .str)

/-- A FuncInfo as JSON: the exported fields in order (stack_model.go:38-63). -/
def infoJson : Option FuncInfo → Json
  | none => .null
  | some f => .obj [(lit "Kind", .str f.kind), (lit "Pkg", .str f.pkg), (lit "Name", .str f.name), (lit "RecvType", .str f.recvType),
      (lit "RecvPtr", .bool f.recvPtr), (lit "Interface", .bool f.interface), (lit "Generic", .bool f.generic), (lit "Closure", .bool f.closure),
      (lit "Stdlib", .bool f.stdlib), (lit "File", .str f.file), (lit "Line", ofInt f.line), (lit "RecvName", .str f.recvName),
      (lit "ArgNames", ofNames f.argNames), (lit "ResNames", ofNames f.resNames), (lit "FirstArgCtx", .bool f.firstArgCtx),
      (lit "LastResultErr", .bool f.lastResultErr)]

/-- `marshalStackWithoutChildren` (render/format.go:13-20): the children are taken off for the time of the call. -/
def entryJson (e : Entry) : Json :=
  .obj [(lit "FuncInfo", infoJson e.info), (lit "BeginNs", ofInt e.beginNs), (lit "EndNs", ofInt e.endNs), (lit "Args", e.args),
    (lit "Results", e.results), (lit "Panic", .bool e.panic), (lit "PanicLine", ofInt e.panicLine), (lit "Error", .str e.error),
    (lit "Children", .null)]

/-! ### Costs (render/format.go:30-65) -/

/-- The loop over the units (format.go:51-58): `f` is the number of units reached, kept exact by truncation. -/
def scale : Nat → String → List (String × Nat) → Nat × String
  | f, u, [] => (f, u)
  | f, u, (v, x) :: us => if f < x then (f, u) else scale (f / x) v us

/-- format.go:41-49. -/
def units : List (String × Nat) := [("μs", 1000), ("ms", 1000), ("s", 1000), ("m", 60), ("h", 60), ("d", 24)]

/-- `formatCost` (format.go:30-65). -/
def formatCost (b e : Int) : String :=
  if e = 0 ∧ b = 0 then ""
  else
    let p := scale (e - b).natAbs "ns" units
    (if e - b < 0 then "-" else "") ++ toString p.1 ++ p.2

/-! ### The page (render/render.go:72-194, render/render_item.go) -/

/-- What the page says of an entry in the list: render_item.go:11-53. -/
structure Label where
  name : Str
  panic : Bool
  error : Bool
  cost : String
  toggle : Bool
deriving DecidableEq

/-- The lines of the page that depend on the stacks. -/
inductive Line
  | title (file : Str)
  | data (id : Nat) (e : Entry)
  | push (id : Nat)
  | head (id : Nat) (l : Label)
  | openList (id : Nat)
  | li
  | endLi
  | endList

structure Walk where
  lines : List Line
  ids : List (Ptr × Nat)
  next : Nat

/-- `walk` over a list of entries (render.go:105-120). The second component is `false` if it panicked: the nil entry is dereferenced by
    marshalStackWithoutChildren (format.go:14). -/
def walk : Forest → Walk → Walk × Bool
  | .nil, w => (w, true)
  | .null _, w => (w, false)
  | .node p e kids rest, w =>
    let r := walk kids { lines := w.lines ++ [.data w.next e, .push w.next], ids := (p, w.next) :: w.ids, next := w.next + 1 }
    if r.2 then walk rest r.1 else r

/-- render.go:122-130: one top entry for each stack. -/
def root (name : String) : Entry where
  info := some { kind := [], pkg := [], name := lit name, recvType := [], recvPtr := false, interface := false, generic := false,
                 closure := false, stdlib := false, file := [], line := 0, recvName := [], argNames := none, resNames := none,
                 firstArgCtx := false, lastResultErr := false }
  beginNs := 0
  endNs := 0
  args := .null
  results := .null
  panic := false
  panicLine := 0
  error := []

def tops (name : Nat → String) : Nat → List Stack → Forest
  | _, [] => .nil
  | i, s :: r => .node (.top i) (root (name i)) s.children (tops name (i + 1) r)

/-- render.go:132-136: the names in the list, if there are several stacks; the data has been written before. -/
def rootName (n : Nat) (i : Nat) : String := if n > 1 then s!"<root_{i}>" else "<root>"

/-- render_item.go:11-17 (`allowPkgName` is false, format.go:11). -/
def infoName : Option FuncInfo → Str
  | some f => f.name
  | none => []

/-- The name shown (render_item.go:11-20). -/
def shownName (e : Entry) : Str := if infoName e.info = [] then lit "<unknown>" else infoName e.info

def Forest.isEmpty : Forest → Bool
  | .nil => true
  | _ => false

/-- render_item.go:24-53. -/
def label (e : Entry) (kids : Forest) : Label where
  name := shownName e
  panic := e.panic
  error := e.error != []
  cost := formatCost e.beginNs e.endNs
  toggle := !kids.isEmpty

/-- `traceIDMapping[stack]` (render_item.go:21): 0 if there is none. -/
def idOf (ids : List (Ptr × Nat)) (p : Ptr) : Nat := (ids.lookup p).getD 0

/-- `renderItem` for the entries of a list (render_item.go:10-69; render.go:149-151): `sub` for those within `<li>`. A nil entry has
    stopped the page before. -/
def items (ids : List (Ptr × Nat)) (sub : Bool) : Forest → List Line
  | .nil => []
  | .null rest => items ids sub rest
  | .node p e kids rest =>
    (if sub then [.li] else [])
      ++ (.head (idOf ids p) (label e kids)
        :: (if kids.isEmpty then [] else .openList (idOf ids p) :: (items ids true kids ++ [.endList])))
      ++ (if sub then [.endLi] else []) ++ items ids sub rest

structure Page where
  lines : List Line
  complete : Bool

/-- `RenderStacks` (render.go:72-194). -/
def page (stacks : List Stack) (file : Str) : Page :=
  let w := walk (tops (fun _ => "<root>") 0 stacks) { lines := [.title file], ids := [], next := 1 }
  if w.2 then { lines := w.1.lines ++ items w.1.ids false (tops (rootName stacks.length) 0 stacks), complete := true }
  else { lines := w.1.lines, complete := false }

/-! ### The lines as text -/

/-- `html.EscapeString`. -/
def escHtml : Ch → Str
  | .rune c =>
    if c = '&' then lit "&amp;"
    else if c = '\'' then lit "&#39;"
    else if c = '<' then lit "&lt;"
    else if c = '>' then lit "&gt;"
    else if c = '"' then lit "&#34;"
    else [.rune c]
  | b => [b]

/-- The text of what a line takes from the trace: render.go:92 (the name of the file), render.go:115, render_item.go:51. -/
def Line.value : Line → Str
  | .title file => file
  | .data _ e => enc (entryJson e)
  | .head _ l => l.name.flatMap escHtml
  | _ => []

/-! ### The script of the page (render/script.js:19-75) -/

/-- `traces[id]`: the last line that sets it. -/
def clicked (lines : List Line) (id : Nat) : Option Entry :=
  lines.reverse.findSome? fun
    | .data i e => if i = id then some e else none
    | _ => none

/-! ### Reading the file (render/render.go:25-60) -/

/-- One call of `Decoder.Decode`, as far as the text goes: the end of the file, an error of syntax (a cut file among them), after which
    the decoder stays where it is and fails forever, or a value. -/
inductive Next
  | eof
  | broken
  | val (j : Json) (rest : Str)

def next (s : Str) : Next :=
  if skip s = [] then .eof
  else match value ((skip s).length + 1) (skip s) with
    | none => .broken
    | some (j, r) => .val j r

/-- render.go:41-59: the rounds of the loop, `none` if it is not done after so many. `dec` is what the decoder makes of a value, `bad` the
    stack that stands for an error. -/
def rounds (dec : Json → Option Stack) (bad : Stack) : Nat → Str → List Stack → Option (List Stack)
  | 0, _, _ => none
  | n + 1, s, acc => match next s with
    | .eof => some acc
    | .broken => rounds dec bad n s (acc ++ [bad])
    | .val j r => rounds dec bad n r (acc ++ [(dec j).getD bad])

inductive Read
  | failed
  | other
  | stacks (l : List Stack)

/-- `ReadStacks` (render.go:13-60, with `force` false): `none` if it is not done after so many rounds. -/
def readStacks (dec : Json → Option Stack) (bad : Stack) (n : Nat) (s : Str) : Option Read :=
  match next s with
  | .eof => some (.stacks [])
  | .broken => some .failed
  | .val j r => match dec j with
    | none => some .failed
    | some st => if st.format ≠ lit "stack" then some .other else (rounds dec bad n r [st]).map .stacks

/-! ### The older format (stack_export.go, convert.go) -/

/-- stack_export.go:40-66, the part that is carried over, with the name that is shown. -/
structure OldInfo where
  identityName : Str
  shared : FuncInfo

/-- stack_export.go:22-38, without `Children`. -/
structure OldEntry where
  info : Option OldInfo
  begin : Int
  stop : Int
  args : Json
  results : Json
  snapshot : Bool
  panic : Bool
  error : Str

inductive OldForest
  | nil
  | null (rest : OldForest)
  | node (p : Nat) (e : OldEntry) (kids rest : OldForest)

/-- `convertFuncInfo` (convert.go:36-59). -/
def convertInfo (o : OldInfo) : FuncInfo := { o.shared with name := o.identityName }

/-- `convertStackEntries` (convert.go:16-34): `none` for the panic on a nil entry or one without function. -/
def convert : OldForest → Option Forest
  | .nil => some .nil
  | .null _ => none
  | .node p e kids rest => do
    let f ← e.info
    let k ← convert kids
    let r ← convert rest
    pure (.node (.given p)
      { info := some (convertInfo f), beginNs := e.begin, endNs := e.stop, args := e.args, results := e.results, panic := e.panic,
        panicLine := 0, error := e.error } k r)

/-! ### The server (main.go:121-148) -/

inductive Answer
  | page (p : Page)
  | error
  | panic

/-- The handler of "/": `old` is what `json.Unmarshal` makes of the whole file in the older format (main.go:200-211), `none` for its
    error, `some none` for `null`. -/
def serve (dec : Json → Option Stack) (bad : Stack) (old : Json → Option (Option OldForest)) (file : Str) (n : Nat) (s : Str) : Option Answer :=
  (readStacks dec bad n s).map fun
    | .failed => .error
    | .stacks l => .page (page l file)
    | .other => match parse s with
      | none => .error
      | some j => match old j with
        | none => .error
        | some none => .panic
        | some (some f) => match convert f with
          | none => .panic
          | some c => .page (page [{ format := [], begin := [], children := c }] file)

end Verif.Cmd.TraceView
