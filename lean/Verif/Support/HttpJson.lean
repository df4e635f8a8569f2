/-
C101: the answers of xgo's HTTP servers. Sources: support/netutil/http.go:11-81 (`HandleJSON`, `ParamErrorf`, `SetCORSHeaders`),
cmd/xgo/test-explorer/main.go:437-446 (page), 492-525 (`/detail`), 569-581 (`parseBody`), 775-806 (`getDetail`),
cmd/xgo/test-explorer/run_session.go:106-153 (`/session/pollStatus`, `/session/destroy`), cmd/xgo/test-explorer/poll.go:74-118 (the same
under `/debug` and `/run`), support/session/session.go:62-90.

Simplifications: a text is a list of characters; what a handler returns is a value of any type, encoding/json is a parameter (`Codec`), as
are the parser of Go files and the kind of document `net/http` guesses from the first bytes; of the log only the answers are kept; an
error is its text and, if it implements `HttpStatusErr`, its code.
-/
namespace Verif.Support.HttpJson

abbrev Str := List Char

/-! ### net/http -/

/-- What is sent. -/
structure Resp where
  status : Nat
  headers : List (String × String)
  body : Str
  deriving DecidableEq, Repr

/-- `http.ResponseWriter`: the header map, what `WriteHeader` has fixed, the body. -/
structure Writer where
  header : List (String × String) := []
  sent : Option (Nat × List (String × String)) := none
  body : Str := []

/-- `w.Header().Set`. -/
def Writer.setHeader (w : Writer) (k v : String) : Writer := { w with header := w.header.filter (fun p => p.1 ≠ k) ++ [(k, v)] }

/-- `w.WriteHeader`: the header as it is now; later calls have no effect. -/
def Writer.writeHeader (w : Writer) (code : Nat) : Writer :=
  match w.sent with
  | some _ => w
  | none => { w with sent := some (code, w.header) }

/-- `w.Write`. -/
def Writer.write (w : Writer) (b : Str) : Writer := { w.writeHeader 200 with body := w.body ++ b }

/-- The handler returns: what goes out. A body without a content type gets one by `guess` (`http.DetectContentType`). -/
def Writer.finish (guess : Str → String) (w : Writer) : Resp :=
  let s := (w.writeHeader 200).sent.getD (200, [])
  { status := s.1,
    headers := if w.body = [] ∨ s.2.any (fun p => p.1 = "Content-Type") then s.2 else s.2 ++ [("Content-Type", guess w.body)],
    body := w.body }

/-! ### netutil/http.go -/

/-- An error; `code` if it is an `HttpStatusErr` (http.go:12-15). -/
structure Err where
  text : Str
  code : Option Nat := none
  deriving DecidableEq, Repr

/-- `ParamErrorf` (http.go:17-31). -/
def paramErr (text : Str) : Err := ⟨text, some 400⟩

/-- How a handler ends. -/
inductive Outcome (V : Type)
  | ret (v : Option V) (err : Option Err)
  /-- a panic with a value that is an `error`, such as those of the Go runtime -/
  | panicErr (e : Err)
  /-- a panic with any other value, as `%v` prints it -/
  | panicVal (text : Str)

/-- `json.Marshal`. -/
abbrev Marshal (V : Type) := V → Except Str Str

/-- `json.Marshal(respData)` where `nil` is `null`. -/
def marshalNil {V : Type} (m : Marshal V) : Option V → Except Str Str
  | none => .ok "null".toList
  | some v => m v

/-- `SetCORSHeaders` (http.go:77-81). -/
def setCORS (w : Writer) : Writer :=
  (w.setHeader "Access-Control-Allow-Origin" "*").setHeader "Access-Control-Allow-Headers" "*"

/-- `respData` and `err` when the deferred function looks at them, after its `recover` (http.go:40-49): for a panic with an error it
    is `e` that is assigned. -/
def recovered {V : Type} : Outcome V → Option V × Option Err
  | .ret v none => (v, none)
  | .ret v (some e) => (v, some e)
  | .panicErr _ => (none, none)
  | .panicVal t => (none, some ⟨"panic: ".toList ++ t, none⟩)

/-- The rest of the deferred function (http.go:50-69). -/
def reply {V : Type} (m : Marshal V) (w : Writer) (r : Option V × Option Err) : Writer :=
  match (match r.2 with
    | some e => Except.error e
    | none =>
      match marshalNil m r.1 with
      | .ok j => Except.ok j
      | .error t => Except.error ⟨t, none⟩) with
  | .error (e : Err) => ((w.writeHeader (e.code.getD 500)).setHeader "Content-Type" "text/plain").write e.text
  | .ok j => (w.setHeader "Content-Type" "application/json").write j

/-- `HandleJSON` (http.go:33-75); `h` is the outcome of the handler. -/
def handleJSON {V : Type} (m : Marshal V) (method : String) (h : Outcome V) (w : Writer) : Writer :=
  if method = "OPTIONS" then w else reply m w (recovered h)

/-- `SetCORSHeaders` and `HandleJSON`, as in every endpoint. -/
def serve {V : Type} (guess : Str → String) (m : Marshal V) (method : String) (h : Outcome V) : Resp :=
  (handleJSON m method h (setCORS {})).finish guess

/-! ### Requests -/

/-- `parseBody` (main.go:569-581) into a pointer: `none` is a nil pointer. The body is `none` if it cannot be read. -/
def parseBody {R : Type} (decode : Str → Except Str (Option R)) (readErr : Str) : Option Str → Except Err (Option R)
  | none => .error ⟨readErr, none⟩
  | some [] => .ok none
  | some b =>
    match decode b with
    | .error t => .error ⟨t, none⟩
    | .ok r => .ok r

/-- The panic of `req.ID` for a nil `req`. -/
def nilPointer : Err := ⟨"runtime error: invalid memory address or nil pointer dereference".toList, none⟩

/-- `pollStatus` (run_session.go:106-131, poll.go:74-97): `ids` are the sessions of the manager, `events` what polling gives. -/
def poll {V : Type} (events : Str → V) (ids : List Str) : Except Err (Option Str) → Outcome V
  | .error e => .ret none (some e)
  | .ok none => .panicErr nilPointer
  | .ok (some id) =>
    if id = [] then .ret none (some (paramErr "requires id".toList))
    else if id ∈ ids then .ret (some (events id)) none
    else .ret none (some (paramErr ("session ".toList ++ id ++ " does not exist or has been removed".toList)))

/-- `destroy` (run_session.go:133-153, poll.go:99-118): the answer. -/
def destroy {V : Type} : Except Err (Option Str) → Outcome V
  | .error e => .ret none (some e)
  | .ok none => .panicErr nilPointer
  | .ok (some id) => if id = [] then .ret none (some (paramErr "requires id".toList)) else .ret none none

/-- `mapping.Delete` (session.go:87-90), if it comes to that. -/
def destroyed (ids : List Str) : Except Err (Option Str) → List Str
  | .ok (some id) => if id = [] then ids else ids.filter (· ≠ id)
  | _ => ids

/-- The prefixes under which there is a session manager. -/
inductive Prefix
  | session | debug | run
  deriving DecidableEq, Repr

/-- The managers: how many sessions were started, which are there. -/
structure State where
  next : Prefix → Nat := fun _ => 0
  ids : Prefix → List Str := fun _ => []

/-- What comes in. `start`: a request to start a run that gets as far as `sessionManager.Start`, at the time `stamp`. -/
inductive Req
  | start (p : Prefix) (stamp : Str)
  | poll (p : Prefix) (method : String) (body : Option Str)
  | destroy (p : Prefix) (method : String) (body : Option Str)

/-- `fmt.Sprintf("session_%s_%d", …)` (session.go:70-71). -/
def sessionId (stamp : Str) (n : Nat) : Str := "session_".toList ++ stamp ++ "_".toList ++ Nat.toDigits 10 n

variable (decode : Str → Except Str (Option Str)) (readErr : Str)

/-- What a request changes (run_session.go:106-153, session.go:62-90). -/
def step (s : State) : Req → State
  | .start p stamp =>
    { next := fun q => if q = p then s.next p + 1 else s.next q,
      ids := fun q => if q = p then s.ids p ++ [sessionId stamp (s.next p + 1)] else s.ids q }
  | .poll _ _ _ => s
  | .destroy p method body =>
    if method = "OPTIONS" then s
    else { s with ids := fun q => if q = p then destroyed (s.ids p) (parseBody decode readErr body) else s.ids q }

/-- The managers after these requests. -/
def run (h : List Req) : State := h.foldl (step decode readErr) {}

/-! ### `/detail` -/

/-- `DetailRequest` (main.go:311-319), as decoded; the embedded pointer is nil if the body has neither name nor file. -/
structure Detail where
  base : Option (Str × Str)  -- name, file
  line : Int := 0

/-- The test functions of a file: name, first and last position. -/
abbrev Parser := Str → Except Str (List (Str × Nat × Nat))

/-- `getDetail` (main.go:775-806). `disk1` is the file when it is parsed, `disk2` when it is read. -/
def getDetail (parse : Parser) (disk1 disk2 : Str → Except Str Str) (name file : Str) : Outcome Str :=
  if file = [] then .ret none (some (paramErr "requires file".toList))
  else if name = [] then .ret none (some (paramErr "requires name".toList))
  else match disk1 file with
    | .error t => .ret none (some ⟨t, none⟩)
    | .ok c1 =>
      match parse c1 with
      | .error t => .ret none (some ⟨t, none⟩)
      | .ok fs =>
        match fs.find? fun f => f.1 = name with
        | none => .ret none (some (paramErr ("not found: ".toList ++ name)))
        | some (_, i, j) =>
          match disk2 file with
          | .error t => .ret none (some ⟨t, none⟩)
          | .ok c2 =>
            if i ≤ j ∧ j ≤ c2.length then .ret (some ((c2.take j).drop i)) none
            else .panicErr ⟨"runtime error: slice bounds out of range".toList, none⟩

/-- The query: `q.Get` gives the empty text for what is missing. -/
structure Query where
  file : Str := []
  name : Str := []
  line : Str := []

/-- The handler of `/detail` (main.go:492-525); `atoi` is `strconv.Atoi`. -/
def detail (parse : Parser) (atoi : Str → Except Str Int) (disk1 disk2 : Str → Except Str Str) (q : Query) :
    Except Err (Option Detail) → Outcome Str
  | .error e => .ret none (some e)
  | .ok r =>
    let (name, file) := ((r.bind Detail.base).getD ([], []))
    let file := if q.file ≠ [] then q.file else file
    let name := if q.name ≠ [] then q.name else name
    match (if q.line ≠ [] then
        match atoi q.line with
        | .error t => some (paramErr ("line: ".toList ++ t))
        | .ok _ => none
      else none) with
    | some e => .ret none (some e)
    | none => getDetail parse disk1 disk2 name file

end Verif.Support.HttpJson
