/-
Specification: reading the registration code as Go reads it, and what it does when the program starts.
-/
import Verif.Instrument.RegCode

namespace Verif.Instrument.RegRead.Spec
open Verif.Instrument.CoverNotes (unquote)

abbrev Str := List Char

/-! ### Statements -/

/-- Where the reader is: in code, in a string, or behind a backslash in a string. -/
inductive Mode
  | code | str | esc
deriving DecidableEq

/-- One character; the number is how many brackets are open. `none`: a closing bracket that closes nothing. -/
def step (d : Nat) : Mode → Char → Option (Nat × Mode)
  | .esc, _ => some (d, .str)
  | .str, c => some (d, if c = '\\' then .esc else if c = '"' then .code else .str)
  | .code, c =>
    if c = '"' then some (d, .str)
    else if c = '(' ∨ c = '[' ∨ c = '{' then some (d + 1, .code)
    else if c = ')' ∨ c = ']' ∨ c = '}' then if d = 0 then none else some (d - 1, .code)
    else some (d, .code)

/-- The parts of a text between separators that are outside of brackets and strings; `cur` is the part read so far, backwards. `none`:
    brackets do not match, or a string has no end. -/
def split (sep : Char) (d : Nat) (m : Mode) (cur : Str) : Str → Option (List Str)
  | [] => if d = 0 ∧ m = .code then some [cur.reverse] else none
  | c :: r =>
    if c = sep ∧ d = 0 ∧ m = .code then (split sep 0 .code [] r).map (cur.reverse :: ·)
    else (step d m c).bind fun x => split sep x.1 x.2 (c :: cur) r

/-- The parts that are not empty. -/
def parts (sep : Char) (s : Str) : Option (List Str) := (split sep 0 .code [] s).map (·.filter (· ≠ []))

/-- The text behind a prefix. -/
def after (p s : Str) : Option Str := if p.isPrefixOf s then some (s.drop p.length) else none

/-- The text between a prefix and a suffix. -/
def between (p q s : Str) : Option Str :=
  (after p s).bind fun r => if q.isSuffixOf r then some (r.take (r.length - q.length)) else none

/-- The text before the first `c`, and behind it. -/
def cut (c : Char) (s : Str) : Option (Str × Str) :=
  if c ∈ s then some (s.takeWhile (· ≠ c), (s.dropWhile (· ≠ c)).drop 1) else none

/-- Without spaces in front. -/
def trimLeft (s : Str) : Str := s.dropWhile (· = ' ')

/-- Without spaces at both ends. -/
def trim (s : Str) : Str := (trimLeft (trimLeft s).reverse).reverse

/-! ### Declarations -/

/-- The declarations of the generated code: struct types with the names of their fields, variables with the text of their values, and the
    statements of the `init` functions. -/
structure Prog where
  types : List (Str × List Str) := []
  vars : List (Str × Str) := []
  inits : List (List Str) := []

/-- One declaration. -/
def decl (p : Prog) (s : Str) : Option Prog :=
  if "var ".toList.isPrefixOf s then
    (cut '=' (s.drop 4)).map fun x => { p with vars := p.vars ++ [(trim x.1, trim x.2)] }
  else if "type ".toList.isPrefixOf s then
    (cut ' ' (s.drop 5)).bind fun x => (between "struct{".toList "}".toList x.2).bind fun b => (parts ';' b).map fun fs =>
      { p with types := p.types ++ [(x.1, fs.map fun f => f.takeWhile (· ≠ ' '))] }
  else (between "func init(){".toList "}".toList s).bind fun b => (parts ';' b).map fun l => { p with inits := p.inits ++ [l] }

/-- All declarations of a text. -/
def prog (s : Str) : Option Prog := (parts ';' s).bind fun l => l.foldlM decl {}

/-! ### Values -/

/-- What the runtime is told about a function, variable or interface: the fields of the literal, and the expressions that `Func` and `Var`
    stand for. -/
structure Entry where
  kind : Nat := 0
  pkg : Str := []
  name : Str := []
  identity : Str := []
  file : Str := []
  line : Nat := 0
  recvPtr : Bool := false
  recvType : Str := []
  recvName : Str := []
  generic : Bool := false
  interface : Bool := false
  stdlib : Bool := false
  args : List Str := []
  results : List Str := []
  var : Option Str := none
  func : Option Str := none
deriving DecidableEq

/-- A string: a literal, or a variable declared with a literal. -/
def string (vars : List (Str × Str)) (t : Str) : Option Str :=
  if t.head? = some '"' then some (unquote t) else (vars.lookup t).bind fun e => if e.head? = some '"' then some (unquote e) else none

/-- A number. -/
def number (t : Str) : Option Nat :=
  if t ≠ [] ∧ t.all Char.isDigit then some (t.foldl (fun n c => 10 * n + (c.toNat - 48)) 0) else none

/-- A truth value. -/
def boolean (t : Str) : Option Bool := if t = "true".toList then some true else if t = "false".toList then some false else none

/-- A list of strings. -/
def strings (vars : List (Str × Str)) (t : Str) : Option (List Str) :=
  (between "[]string{".toList "}".toList t).bind fun b => (parts ',' b).bind fun l => l.mapM (string vars)

/-- One `Key:value` of a literal. -/
def field (vars : List (Str × Str)) (e : Entry) (key value : Str) : Option Entry :=
  if key = "Kind".toList then (number value).map fun n => { e with kind := n }
  else if key = "Pkg".toList then (string vars value).map fun s => { e with pkg := s }
  else if key = "Name".toList then (string vars value).map fun s => { e with name := s }
  else if key = "IdentityName".toList then (string vars value).map fun s => { e with identity := s }
  else if key = "File".toList then (string vars value).map fun s => { e with file := s }
  else if key = "Line".toList then (number value).map fun n => { e with line := n }
  else if key = "RecvPtr".toList then (boolean value).map fun b => { e with recvPtr := b }
  else if key = "RecvType".toList then (string vars value).map fun s => { e with recvType := s }
  else if key = "RecvName".toList then (string vars value).map fun s => { e with recvName := s }
  else if key = "Generic".toList then (boolean value).map fun b => { e with generic := b }
  else if key = "Interface".toList then (boolean value).map fun b => { e with interface := b }
  else if key = "Stdlib".toList then (boolean value).map fun b => { e with stdlib := b }
  else if key = "ArgNames".toList then (strings vars value).map fun l => { e with args := l }
  else if key = "ResNames".toList then (strings vars value).map fun l => { e with results := l }
  else if key = "Var".toList then (after "&".toList value).map fun v => { e with var := some v }
  else none

/-- A literal `&T{Key:value,...}`: `T` must be a declared type, each key one of its fields, and no key may occur twice. -/
def literal (p : Prog) (t : Str) : Option Entry :=
  (after "&".toList t).bind fun r => (cut '{' r).bind fun x => (p.types.lookup x.1).bind fun fields =>
    if x.2.getLast? ≠ some '}' then none
    else (parts ',' x.2.dropLast).bind fun l => (l.mapM (cut ':')).bind fun kvs =>
      if (kvs.map (·.1)).all (fun k => fields.contains k) ∧ (kvs.map (·.1)).Nodup then
        kvs.foldlM (fun e kv => field p.vars e kv.1 (trim kv.2)) {}
      else none

/-! ### Running -/

/-- What the `init` functions do that others see: they call a function without arguments, or with a
    variable, whose entry is what it is at that time. -/
inductive Event
  | call (f : Str)
  | register (f x : Str) (e : Entry)
deriving DecidableEq

/-- One statement: `x.Func=e`, `f()` or `f(x)`. -/
def exec (st : List (Str × Entry) × List Event) (s : Str) : Option (List (Str × Entry) × List Event) :=
  match cut '=' s with
  | some (l, r) => (cut '.' l).bind fun x =>
    if x.2 = "Func".toList then
      (st.1.lookup x.1).map fun e => (st.1.map fun y => if y.1 = x.1 then (y.1, { e with func := some r }) else y, st.2)
    else none
  | none => (cut '(' s).bind fun x =>
    if x.2 = ")".toList then some (st.1, st.2 ++ [.call x.1])
    else if x.2.getLast? = some ')' then (st.1.lookup x.2.dropLast).map fun e => (st.1, st.2 ++ [.register x.1 x.2.dropLast e])
    else none

/-- The events of the start of the program: variables get their values, then the `init` functions run in order. -/
def events (s : Str) : Option (List Event) :=
  (prog s).bind fun p =>
    ((p.vars.filter fun v => v.2.head? = some '&').mapM fun v => (literal p v.2).map fun e => (v.1, e)).bind fun infos =>
      (p.inits.flatten.foldlM exec (infos, [])).map (·.2)

/-! ### What is to be registered -/

/-- A name, as Go has them (and some more). -/
def Ident (s : Str) : Prop := s ≠ [] ∧ ∀ c ∈ s, c.isAlphanum = true ∨ c = '_' ∨ 128 ≤ c.toNat

/-- How a function or method is written as a value: `F`, `T.M` or `(*T).M`. -/
inductive FuncExpr : Str → Prop
  | func {f : Str} : Ident f → FuncExpr f
  | method {t m : Str} : Ident t → Ident m → FuncExpr (t ++ '.' :: m)
  | ptrMethod {t m : Str} : Ident t → Ident m → FuncExpr ('(' :: '*' :: t ++ ')' :: '.' :: m)

/-- The names in the declarations of a file are names, and each declaration has a variable of its own. -/
structure Named (d : RegCode.Decls) : Prop where
  vars : ∀ v ∈ d.vars, Ident v.name
  funcs : ∀ f ∈ d.funcs, FuncExpr f.identity
  infos : ∀ x ∈ d.vars.map (·.infoVar) ++ d.funcs.map (·.infoVar) ++ d.intfs.map (·.infoVar), Ident x
  nodup : (d.vars.map (·.infoVar) ++ d.funcs.map (·.infoVar) ++ d.intfs.map (·.infoVar)).Nodup

/-- What is to be told about a variable. -/
def varEntry (pkg file : Str) (stdlib : Bool) (v : RegCode.Named) : Entry where
  kind := 1
  pkg := pkg
  name := v.name
  identity := v.name
  file := file
  line := v.line
  stdlib := stdlib
  var := some v.name
  results := [v.name]

/-- What is to be told about a function or method: a generic one has no value. -/
def funcEntry (pkg file : Str) (stdlib : Bool) (f : RegCode.Func) : Entry where
  pkg := pkg
  name := f.name
  identity := f.identity
  file := file
  line := f.line
  stdlib := stdlib
  recvPtr := match f.recv with
    | none => false
    | some r => r.ptr
  recvType := match f.recv with
    | none => []
    | some r => r.typeName
  recvName := match f.recv with
    | none => []
    | some r => r.name
  generic := f.recvGeneric || f.genericParams
  args := f.params
  results := f.results
  func := if f.recvGeneric = true ∨ f.genericParams = true then none else some f.identity

/-- What is to be told about an interface. -/
def intfEntry (pkg file : Str) (stdlib : Bool) (t : RegCode.Named) : Entry where
  pkg := pkg
  name := t.name
  identity := t.name
  file := file
  line := t.line
  stdlib := stdlib
  interface := true
  recvType := t.name

end Verif.Instrument.RegRead.Spec
