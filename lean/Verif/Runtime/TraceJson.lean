/-
Model of what a trace records of the arguments and results of a call: runtime/internal/trap/object.go:61-126,
runtime/internal/runtime/marshal.go:9-38 and the places in trap.go where they are used (trap.go:308-330, 397-420).

Simplifications: a Go string is the list of its runes, and of the bytes that belong to no rune; what `json.Marshal` does with a value
of the user (which may run methods of the user) is one of three outcomes; the compaction by which `encoding/json` takes over the
result of a `MarshalJSON` is the check that it is JSON (compaction keeps the meaning of a text).
-/
namespace Verif.Runtime.TraceJson

/-- A rune of a string, or a byte that is not UTF-8. -/
inductive Ch
  | rune (c : Char)
  | bad (b : Nat)
deriving DecidableEq

abbrev Str := List Ch

def lit (s : String) : Str := s.toList.map .rune

/-! ### JSON, as the scanner of encoding/json reads it -/

inductive Json
  | null
  | bool (b : Bool)
  | num (t : List Char)
  | str (s : Str)
  | arr (l : List Json)
  | obj (l : List (Str × Json))

def blank : Ch → Bool
  | .rune c => c = ' ' || c = '\t' || c = '\n' || c = '\r'
  | .bad _ => false

def skip (s : Str) : Str := s.dropWhile blank

def hexVal (c : Char) : Option Nat :=
  if '0' ≤ c ∧ c ≤ '9' then some (c.toNat - 48)
  else if 'a' ≤ c ∧ c ≤ 'f' then some (c.toNat - 87)
  else if 'A' ≤ c ∧ c ≤ 'F' then some (c.toNat - 55)
  else none

def hex4 : Ch → Ch → Ch → Ch → Option Nat
  | .rune a, .rune b, .rune c, .rune d => do
    let a ← hexVal a
    let b ← hexVal b
    let c ← hexVal c
    let d ← hexVal d
    pure (((a * 16 + b) * 16 + c) * 16 + d)
  | _, _, _, _ => none

/-- The rune of `\uXXXX`; the halves of surrogate pairs are kept apart. -/
def ofCode (n : Nat) : Ch := if n.isValidChar then .rune (Char.ofNat n) else .bad n

/-- What stands behind a backslash, but for `u`. -/
def simpleEscape : Char → Option Char
  | '"' => some '"'
  | '\\' => some '\\'
  | '/' => some '/'
  | 'b' => some '\x08'
  | 'f' => some '\x0c'
  | 'n' => some '\n'
  | 'r' => some '\r'
  | 't' => some '\t'
  | _ => none

/-- A string behind its opening quote. -/
def string : Str → Option (Str × Str)
  | [] => none
  | .bad b :: r => (string r).map fun p => (.bad b :: p.1, p.2)
  | .rune c :: r =>
    if c = '"' then some ([], r)
    else if c = '\\' then match r with
      | .rune e :: r' =>
        if e = 'u' then match r' with
          | x1 :: x2 :: x3 :: x4 :: r'' => (hex4 x1 x2 x3 x4).bind fun n => (string r'').map fun p => (ofCode n :: p.1, p.2)
          | _ => none
        else (simpleEscape e).bind fun d => (string r').map fun p => (.rune d :: p.1, p.2)
      | _ => none
    else if c.toNat < 32 then none
    else (string r).map fun p => (.rune c :: p.1, p.2)

def numeric : Ch → Bool
  | .rune c => c.isDigit || c = '-' || c = '+' || c = '.' || c = 'e' || c = 'E'
  | .bad _ => false

def chars (s : Str) : List Char := s.filterMap fun | .rune c => some c | .bad _ => none

def keyword (w : String) (v : Json) (s : Str) : Option (Json × Str) :=
  if (lit w).isPrefixOf s then some (v, s.drop (lit w).length) else none

mutual
/-- A value and what follows it. The grammar of numbers is taken wider: any run of their characters. -/
def value : Nat → Str → Option (Json × Str)
  | 0, _ => none
  | n + 1, s => match skip s with
    | [] => none
    | c :: r =>
      if c = .rune '"' then (string r).map fun p => (.str p.1, p.2)
      else if c = .rune '{' then
        if (skip r).head? = some (.rune '}') then some (.obj [], (skip r).tail)
        else (members n r).map fun p => (.obj p.1, p.2)
      else if c = .rune '[' then
        if (skip r).head? = some (.rune ']') then some (.arr [], (skip r).tail)
        else (elements n r).map fun p => (.arr p.1, p.2)
      else if c = .rune 't' then keyword "true" (.bool true) (c :: r)
      else if c = .rune 'f' then keyword "false" (.bool false) (c :: r)
      else if c = .rune 'n' then keyword "null" .null (c :: r)
      else if numeric c then some (.num (chars ((c :: r).takeWhile numeric)), (c :: r).dropWhile numeric)
      else none

def members : Nat → Str → Option (List (Str × Json) × Str)
  | 0, _ => none
  | n + 1, s => match skip s with
    | [] => none
    | q :: r =>
      if q = .rune '"' then (string r).bind fun k => match skip k.2 with
        | [] => none
        | c :: r1 =>
          if c = .rune ':' then (value n r1).bind fun v => match skip v.2 with
            | [] => none
            | d :: r2 =>
              if d = .rune ',' then (members n r2).map fun p => ((k.1, v.1) :: p.1, p.2)
              else if d = .rune '}' then some ([(k.1, v.1)], r2)
              else none
          else none
      else none

def elements : Nat → Str → Option (List Json × Str)
  | 0, _ => none
  | n + 1, s => (value n s).bind fun v => match skip v.2 with
    | [] => none
    | d :: r2 =>
      if d = .rune ',' then (elements n r2).map fun p => (v.1 :: p.1, p.2)
      else if d = .rune ']' then some ([v.1], r2)
      else none
end

/-- The value of a JSON text. -/
def parse (s : Str) : Option Json := (value (s.length + 1) s).bind fun p => if skip p.2 = [] then some p.1 else none

/-! ### `%q` -/

def hexDigit (n : Nat) : Char := if n < 10 then Char.ofNat (48 + n) else Char.ofNat (87 + n)

/-- `n` in hexadecimal, with so many digits. -/
def hex : Nat → Nat → Str
  | 0, _ => []
  | k + 1, n => hex k (n / 16) ++ [.rune (hexDigit (n % 16))]

/-- One rune or stray byte in `strconv.Quote`; `pr` is `strconv.IsPrint`. -/
def quoteCh (pr : Char → Bool) : Ch → Str
  | .bad b => lit "\\x" ++ hex 2 b
  | .rune c =>
    if c = '"' ∨ c = '\\' then [.rune '\\', .rune c]
    else if pr c then [.rune c]
    else if c = '\x07' then lit "\\a"
    else if c = '\x08' then lit "\\b"
    else if c = '\x0c' then lit "\\f"
    else if c = '\n' then lit "\\n"
    else if c = '\r' then lit "\\r"
    else if c = '\t' then lit "\\t"
    else if c = '\x0b' then lit "\\v"
    else if c.toNat < 32 ∨ c.toNat = 127 then lit "\\x" ++ hex 2 c.toNat
    else if c.toNat < 65536 then lit "\\u" ++ hex 4 c.toNat
    else lit "\\U" ++ hex 8 c.toNat

/-- `fmt.Sprintf("%q", s)` -/
def quote (pr : Char → Bool) (s : Str) : Str := .rune '"' :: (s.flatMap (quoteCh pr) ++ [.rune '"'])

/-! ### Marshalling -/

/-- What `json.Marshal` does with a value: it returns a text, or an error, or a method of the value panics. -/
inductive Outcome
  | ok (text : Str)
  | err (msg : Str)
  /-- with the text of `debug.Stack()` -/
  | panic (msg : Str) (stack : Str)

/-- `MarshalNoError` (marshal.go:9-38) -/
def marshalNoError (pr : Char → Bool) : Outcome → Str
  | .ok t => t
  | .err m => lit "{" ++ quote pr (lit "error") ++ lit ": " ++ quote pr m ++ lit "}"
  | .panic m st => lit "{" ++ quote pr (lit "error") ++ lit ": " ++ quote pr m ++ lit ", " ++ quote pr (lit "stackTrace") ++ lit ": " ++ quote pr st ++ lit "}"

/-- The bytes of a string. -/
def size (s : Str) : Nat := (s.map fun | .rune c => c.utf8Size | .bad _ => 1).sum

/-- `s[:n]`, by bytes: a rune cut in two leaves stray bytes. (Which bytes they are is not modelled.) -/
def take : Nat → Str → Str
  | 0, _ => []
  | _, [] => []
  | n + 1, .bad b :: s => .bad b :: take n s
  | n + 1, .rune c :: s => if c.utf8Size ≤ n + 1 then .rune c :: take (n + 1 - c.utf8Size) s else List.replicate (n + 1) (.bad 255)

/-- The value of one field (object.go:113-118); the limit is `DEFAULT_SIZE_LIMIT`. -/
def fieldValue (pr : Char → Bool) (limit : Nat) (v : Outcome) : Str :=
  let res := marshalNoError pr v
  if size res > limit then quote pr (take limit res) else res

/-- `fieldName` (object.go:109-112) -/
def fieldName (i : Nat) (name : Str) : Str := if name = [] then lit "__field_" ++ lit (toString i) else name

/-- The fields (object.go:107-120), from index `i`. -/
def fieldTexts (pr : Char → Bool) (limit : Nat) : Nat → List (Str × Outcome) → List Str
  | _, [] => []
  | i, (name, v) :: r => (quote pr (fieldName i name) ++ lit ": " ++ fieldValue pr limit v) :: fieldTexts pr limit (i + 1) r

/-- `strings.Join(fields, ",")` -/
def join : List Str → Str
  | [] => []
  | [a] => a
  | a :: b :: r => a ++ lit "," ++ join (b :: r)

/-- `structValue.MarshalJSON` (object.go:105-122) -/
def structText (pr : Char → Bool) (limit : Nat) (fields : List (Str × Outcome)) : Str :=
  lit "{" ++ join (fieldTexts pr limit 0 fields) ++ lit "}"

/-- `MarshalNoError(newStructValue(names, values))` (trap.go:322, 400): `json.Marshal` refuses a result of `MarshalJSON` that is no
    JSON; `complaint` is its error then. -/
def record (pr : Char → Bool) (limit : Nat) (complaint : Str) (fields : List (Str × Outcome)) : Str :=
  marshalNoError pr (if (parse (structText pr limit fields)).isSome then .ok (structText pr limit fields) else .err complaint)

/-! ### What is recorded of a call -/

/-- An argument or result: its name, what marshalling does with it, and whether its type is `context.Context`, and whether it is
    `error`. -/
structure Arg where
  name : Str
  out : Outcome
  isCtx : Bool := false
  isErr : Bool := false

/-- The fields recorded of the arguments (trap.go:309-321, `tryRemoveFirstCtx` object.go:61-69). -/
def argFields (recv : Option Arg) (args : List Arg) : List (Str × Outcome) :=
  let rest := match args with
    | [] => []
    | a :: r => if a.isCtx then r else a :: r
  match recv with
  | some v => (v.name, v.out) :: rest.map fun a => (a.name, a.out)
  | none => rest.map fun a => (a.name, a.out)

/-- The fields recorded of the results (trap.go:399, `trySplitLastError` object.go:71-88). -/
def resultFields (results : List Arg) : List (Str × Outcome) :=
  match results.getLast? with
  | some a => if a.isErr then results.dropLast.map fun a => (a.name, a.out) else results.map fun a => (a.name, a.out)
  | none => []

/-- What the call returns as error, as the post hook sees it: `resErr.Error()` returns a text, or panics (as that of a nil pointer may). -/
inductive ErrText
  | none
  | text (s : Str)
  | panics

/-- What becomes of a call that is traced: it returns as it would, recorded with an error text, or it panics (trap.go:401-403; there
    is no `recover` around it). -/
inductive After
  | returns (error : Str)
  | panics
deriving DecidableEq

/-- The error recorded with a call (trap.go:360-403, 413-415). `hasPanic` is the text of the panic under way. -/
def errorOf (hasPanic : Option Str) (e : ErrText) : After :=
  match hasPanic with
  | some s => .returns s
  | none => match e with
    | .none => .returns []
    | .text s => .returns s
    | .panics => .panics

end Verif.Runtime.TraceJson
