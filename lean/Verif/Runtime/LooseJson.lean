/-
Model of how values are marshalled for a trace: /repo/runtime/internal/runtime/marshal.go:9-38 (`MarshalNoError`), the patch of
`encoding/json` (/repo/cmd/xgo/asset/patches/go1.25/src/encoding/json/encode.go.xgo.patch, `XgoIsLooseJsonMarshaling` in
src/runtime/xgo_trap.go.txt:223-226), the `MarshalJSON` of the arguments of a call (/repo/runtime/internal/trap/object.go:105-122) and
the places that use them (/repo/runtime/internal/trap/trap.go:62-63, 322, 334-335, 400, var.go:28-29, 153).

The text of JSON is C75's; here a JSON value is a tree. A value of Go is what `encoding/json` makes of it (its kinds and tags are not
modelled), and a `MarshalJSON` method is a small program: it may marshal values itself, look at the outcome, call traced functions, read
traced variables, start goroutines, and return, fail, panic or end its goroutine (`runtime.Goexit`, `t.FailNow`).

Simplifications: the message that `encoding/json` puts before the error of a method is left out; the limit on the size of an argument
is C75's; a trace is being recorded all the time, and every function and variable is traced; of a goroutine that a method starts only
the outcome of its `json.Marshal` is kept.
-/
namespace Verif.Runtime.LooseJson

abbrev Str := List Char

inductive Json
  | atom (text : Str)
  | str (s : Str)
  | arr (l : List Json)
  | obj (l : List (Str × Json))

mutual
/-- An error, by what its `Error` method does: it has a message, or it panics, or it panics with itself. -/
inductive Err
  | says (m : Str)
  | panics (p : Pan)
  | again
/-- What a panic is about: a value that is no error, or an error. -/
inductive Pan
  | text (m : Str)
  | error (e : Err)
end

mutual
/-- A value, as `encoding/json` sees it. -/
inductive Val
  /-- a number, a string, nil … -/
  | plain (j : Json)
  /-- a value that is refused though its type is not: NaN, a cycle -/
  | bad (e : Err)
  /-- a func, a chan, a complex number, a map with keys of other kinds: `unsupportedTypeEncoder` -/
  | odd (type : Str)
  | arr (vs : Vals)
  | obj (fs : Fields)
  /-- it has a `MarshalJSON` method -/
  | method (c : Code)

inductive Vals
  | nil
  | cons (v : Val) (vs : Vals)

inductive Fields
  | nil
  | cons (name : Str) (v : Val) (fs : Fields)

/-- What a `MarshalJSON` method does. -/
inductive Code
  /-- return a text -/
  | ret (j : Json)
  /-- return an error (or a text that is not JSON) -/
  | fail (e : Err)
  | panics (p : Pan)
  /-- `runtime.Goexit()` -/
  | exits
  /-- `return json.Marshal(v)` -/
  | tail (v : Val)
  /-- `_, err := json.Marshal(v)`, and go on depending on `err` -/
  | marshal (v : Val) (onOk onErr : Code)
  /-- call a traced function with these arguments, then go on -/
  | call (args : Fields) (k : Code)
  /-- read a traced variable, then go on -/
  | load (v : Val) (k : Code)
  /-- `go json.Marshal(v)`, then go on -/
  | spawn (v : Val) (k : Code)
end

/-- How marshalling ends. -/
inductive Res (α : Type)
  | ok (a : α)
  | err (e : Err)
  | panic (p : Pan)
  | exit

/-- What the program sees: the outcome of a `json.Marshal` of its own, on this goroutine or on one it has started, and whether this
    was in a method that the tracer called. -/
inductive Seen
  | own (traced : Bool) (r : Res Json)
  | other (traced : Bool) (r : Res Json)

/-- A goroutine: `looseJsonMarshaling`, `trappingDepth > 0` (g.go:6-14), what the program has seen, what the trace shows. -/
structure St where
  loose : Bool := false
  trapping : Bool := false
  seen : List Seen := []
  shown : List Json := []

/-- What stands for a value that has no JSON form (encode.go.xgo.patch:16). -/
def mark (type : Str) : Json := .obj [(type, .str ['?'])]

/-- Fields of the text for an error (marshal.go:23-33). -/
def trouble (m : Str) (stack : Bool) : Json :=
  .obj (("error".toList, .str m) :: if stack then [("stackTrace".toList, .atom "…".toList)] else [])

/-- `err.Error()` in the deferred function (marshal.go:33): a panic of it is caught by nobody there. -/
def say (e : Err) (stack : Bool) : Res Json :=
  match e with
  | .says m => .ok (trouble m stack)
  | .panics p => .panic p
  | .again => .panic (.error .again)

/-- The deferred function of `MarshalNoError` (marshal.go:18-35). -/
def settle : Res Json → Res Json
  | .ok j => .ok j
  | .err e => say e false
  | .panic (.text m) => .ok (trouble ("panic: ".toList ++ m) true)
  | .panic (.error e) => say e true
  | .exit => .exit

/-- `Res.map`, and what is done with several values: the first that does not succeed ends it. -/
def Res.bind {α β : Type} (r : Res α) (f : α → Res β) : Res β :=
  match r with
  | .ok a => f a
  | .err e => .err e
  | .panic p => .panic p
  | .exit => .exit

def Res.map {α β : Type} (f : α → β) (r : Res α) : Res β := r.bind fun a => .ok (f a)

/-- One more value. -/
def more {α β : Type} (a : Res α × St) (k : α → St → Res β × St) : Res β × St :=
  match a.1 with
  | .ok j => k j a.2
  | .err e => (.err e, a.2)
  | .panic p => (.panic p, a.2)
  | .exit => (.exit, a.2)

/-- The program has the outcome of a `json.Marshal` of its own. -/
def St.saw (s : St) (traced : Bool) (r : Res Json) : St := { s with seen := s.seen ++ [.own traced r] }

/-- The flag is set (marshal.go:11-12). -/
def St.begin (s : St) : St := { s with loose := true }

/-- The flag is cleared by the call that has set it, however it ends (marshal.go:13-15). -/
def St.back (before s : St) : St := if before.loose then s else { s with loose := false }

/-- The end of a traced event: what it shows is added to the trace, or it ends the caller too. -/
def shows (r : Res Json) (s : St) (k : St → Res Json × St) : Res Json × St :=
  match r with
  | .ok j => k { s with shown := s.shown ++ [j] }
  | .err e => (.err e, s)
  | .panic p => (.panic p, s)
  | .exit => (.exit, s)

mutual
/-- `json.Marshal` on the state of its goroutine (encode.go with the patch). -/
def enc : Val → St → Res Json × St
  | .plain j, s => (.ok j, s)
  | .bad e, s => (.err e, s)
  | .odd t, s => (if s.loose then .ok (mark t) else .err (.says ("json: unsupported type: ".toList ++ t)), s)
  | .arr vs, s => more (encVals vs s) fun l s => (.ok (.arr l), s)
  | .obj fs, s => more (encFields fs s) fun l s => (.ok (.obj l), s)
  | .method c, s => exec c s

def encVals : Vals → St → Res (List Json) × St
  | .nil, s => (.ok [], s)
  | .cons v vs, s => more (enc v s) fun j s => more (encVals vs s) fun l s => (.ok (j :: l), s)

def encFields : Fields → St → Res (List (Str × Json)) × St
  | .nil, s => (.ok [], s)
  | .cons n v fs, s => more (enc v s) fun j s => more (encFields fs s) fun l s => (.ok ((n, j) :: l), s)

/-- `structValue.MarshalJSON` (object.go:105-122): `MarshalNoError` for each. -/
def encArgs : Fields → St → Res (List (Str × Json)) × St
  | .nil, s => (.ok [], s)
  | .cons n v fs, s =>
    more (settle (enc v s.begin).1, s.back (enc v s.begin).2) fun j s => more (encArgs fs s) fun l s => (.ok ((n, j) :: l), s)

def exec : Code → St → Res Json × St
  | .ret j, s => (.ok j, s)
  | .fail e, s => (.err e, s)
  | .panics p, s => (.panic p, s)
  | .exits, s => (.exit, s)
  | .tail v, s => ((enc v s).1, (enc v s).2.saw s.trapping (enc v s).1)
  | .marshal v a b, s =>
    let r := enc v s
    let s' := r.2.saw s.trapping r.1
    match r.1 with
    | .ok _ => exec a s'
    | .err _ => exec b s'
    | .panic p => (.panic p, s')
    | .exit => (.exit, s')
  -- trap.go:226-238: nothing is traced while something is; 62-63: the depth goes back however it ends
  | .call args k, s =>
    if s.trapping then exec k s
    else
      let r := encArgs args { s.begin with trapping := true }
      shows (settle (r.1.map .obj)) { s.back r.2 with trapping := false } (exec k)
  | .load v k, s =>
    if s.trapping then exec k s
    else
      let r := enc v { s.begin with trapping := true }
      shows (settle r.1) { s.back r.2 with trapping := false } (exec k)
  -- a goroutine has its own flags
  | .spawn v k, s =>
    let r := enc v {}
    exec k { s with seen := s.seen ++ [.other s.trapping r.1] }
end

/-- `MarshalNoError` (marshal.go:9-38). -/
def marshalNoError (v : Val) (s : St) : Res Json × St :=
  (settle (enc v s.begin).1, s.back (enc v s.begin).2)

/-- A call of a traced function on a goroutine (trap.go:322). -/
def trace (args : Fields) (s : St) : Res Json × St := exec (.call args (.ret (.atom []))) s

end Verif.Runtime.LooseJson
