/-
Model of the parallel loader of package files.

Models /repo/instrument/load/load.go (LoadPackages, readFile, parseFile).  The pool of readers and parsers, the two
bounded channels, the wait group, the `done` channel and the memory cells of the `File` objects are modelled; every
access to shared memory is a step of its own.  `go list`, the overlay, the size limit and the Go parser are parameters:
`read` says what reading a path gives (an error or the bytes), `parse` what the parser makes of them.
Memory is sequentially consistent: the model has the interleavings, not the additional behaviours that the Go memory
model allows for racy programs.
-/
namespace Verif.Instrument.Load

/-! ### Which files are loaded -/

/-- A package as listed by `go list` (goinfo.Package: /repo/support/goinfo/list.go:13-32), reduced to what the loader
reads: directory and file names. -/
structure GoPkg where
  dir : String
  goFiles : List String := []
  testGoFiles : List String := []
  xtestGoFiles : List String := []

/-- `strings.HasSuffix(file, ".go")` (load.go:152, 159, 165). -/
def isGo (f : String) : Bool := ['.', 'g', 'o'].isSuffixOf f.toList

/-- The file names of a package that are loaded, in order (load.go:149-170). -/
def wanted (includeTest : Bool) (p : GoPkg) : List String :=
  p.goFiles.filter isGo ++ (if includeTest then p.testGoFiles.filter isGo ++ p.xtestGoFiles.filter isGo else [])

/-- `AbsPath` of the files of a package (load.go:176).  `filepath.Join` of a clean directory and a file name. -/
def paths (includeTest : Bool) (p : GoPkg) : List String := (wanted includeTest p).map (fun f => p.dir ++ "/" ++ f)

/-- `bytes.ReplaceAll(content, "\r\n", "\n")` (load.go:245). -/
def normCRLF : List Char → List Char
  | [] => []
  | [c] => [c]
  | c :: d :: r => if c = '\r' ∧ d = '\n' then '\n' :: normCRLF r else c :: normCRLF (d :: r)

/-- What the loader works with.  `read` is `readFile` up to the normalisation (load.go:228-239): the error of the overlay,
of the size limit, or the bytes; `parse` is `parseFile` (load.go:249-251), which may give a partial syntax tree together
with an error. -/
structure Env (σ : Type) where
  /-- `IO_LIMIT` (load.go:96), 20 in the code -/
  nIO : Nat
  /-- `CPU_LIMIT` (load.go:97), GOMAXPROCS -/
  nCPU : Nat
  /-- the files in the order in which they are enqueued (load.go:148-187) -/
  files : List String
  read : String → Except String (List Char)
  parse : String → List Char → Option σ × Option String
  /-- `FilterErrorFile` (load.go:36) -/
  filterErr : Bool

variable {σ : Type}

/-! ### State -/

/-- The fields of a `File` object (load.go:46-52) that the pool writes. -/
structure Cell (σ : Type) where
  content : List Char := []
  err : Option String := none
  syn : Option σ := none
deriving DecidableEq

/-- Where a reader goroutine is (load.go:104-123). -/
inductive RPc where
  | idle                        -- in the select
  | reading (f : Nat)           -- received f, about to call readFile
  | failed (f : Nat) (e : String)   -- readFile failed, about to call wg.Done (line 111)
  | failed2 (f : Nat) (e : String)  -- after wg.Done, about to set f.Error (line 112)
  | push (f : Nat)              -- content set, about to send to parseChan (line 116)
  | exited
deriving DecidableEq

/-- Where a parser goroutine is (load.go:127-145). -/
inductive PPc (σ : Type) where
  | idle
  | parsing (f : Nat)
  | parsed (f : Nat) (syn : Option σ) (err : Option String)   -- about to set f.Error (line 134)
  | parsed2 (f : Nat) (syn : Option σ)                        -- about to set f.Syntax (line 135)
  | fin (f : Nat)                                             -- about to call wg.Done (line 139)
  | exited
deriving DecidableEq

/-- Where the caller is. -/
inductive MPc where
  | add (k : Nat)     -- about to enqueue file k, or past the last one (lines 148-184)
  | send (k : Nat)    -- after wg.Add, about to send to readChan (line 184)
  | wait              -- wg.Wait (line 188)
  | close             -- close(done) (line 189)
  | filter (k : Nat) (kept : List Nat)   -- the filter loop (lines 194-209)
  | ret (kept : List Nat)                -- returned
deriving DecidableEq

structure State (σ : Type) where
  main : MPc := .add 0
  wg : Nat := 0
  crashed : Bool := false     -- "sync: negative WaitGroup counter"
  done : Bool := false        -- the channel `done` is closed
  readQ : List Nat := []
  parseQ : List Nat := []
  readers : List RPc
  parsers : List (PPc σ)
  mem : Nat → Cell σ

/-- The start of LoadPackages after `go list` (load.go:80-101). -/
def init (E : Env σ) : State σ where
  readers := List.replicate E.nIO .idle
  parsers := List.replicate E.nCPU .idle
  mem := fun _ => {}

/-- `wg.Done()`. -/
def wgDone (s : State σ) : State σ := if s.wg = 0 then { s with crashed := true } else { s with wg := s.wg - 1 }

/-- A write to a file object. -/
def write (s : State σ) (f : Nat) (g : Cell σ → Cell σ) : State σ :=
  { s with mem := fun i => if i = f then g (s.mem f) else s.mem i }

def path (E : Env σ) (f : Nat) : String := E.files.getD f ""

/-! ### Steps -/

/-- Who moves.  In a `select` with both channels ready the runtime may choose either: `exit` is the choice of `<-done`. -/
inductive Actor where
  | main
  | reader (i : Nat) (exit : Bool)
  | parser (i : Nat) (exit : Bool)
deriving DecidableEq

/-- A step of the caller (load.go:148-209). -/
def stepMain (E : Env σ) (s : State σ) : Option (State σ) :=
  match s.main with
  | .add k => if k < E.files.length then some { s with wg := s.wg + 1, main := .send k } else some { s with main := .wait }
  | .send k => if s.readQ.length < E.nIO then some { s with readQ := s.readQ ++ [k], main := .add (k + 1) } else none
  | .wait => if s.wg = 0 then some { s with main := .close } else none
  | .close => some { s with done := true, main := .filter 0 [] }
  | .filter k kept =>
    if k < E.files.length then
      (if E.filterErr ∧ (s.mem k).err ≠ none then some { s with main := .filter (k + 1) kept }
       else some { s with main := .filter (k + 1) (kept ++ [k]) })
    else some { s with main := .ret kept }
  | .ret _ => none

/-- What reading f leads to (load.go:108-116, 228-247). -/
def stepRead (E : Env σ) (s : State σ) (i f : Nat) : State σ :=
  match E.read (path E f) with
  | .error e => { s with readers := s.readers.set i (.failed f e) }
  | .ok c => write { s with readers := s.readers.set i (.push f) } f (fun x => { x with content := normCRLF c })

/-- A step of reader i (load.go:104-123). -/
def stepReader (E : Env σ) (s : State σ) (i : Nat) (exit : Bool) : Option (State σ) :=
  match s.readers[i]? with
  | some .idle =>
    if exit then (if s.done then some { s with readers := s.readers.set i .exited } else none)
    else match s.readQ with
      | [] => none
      | f :: q => some { s with readQ := q, readers := s.readers.set i (.reading f) }
  | some (.reading f) => some (stepRead E s i f)
  | some (.failed f e) => some (wgDone { s with readers := s.readers.set i (.failed2 f e) })
  | some (.failed2 f e) => some (write { s with readers := s.readers.set i .idle } f (fun x => { x with err := some e }))
  | some (.push f) =>
    if s.parseQ.length < E.nCPU then some { s with parseQ := s.parseQ ++ [f], readers := s.readers.set i .idle } else none
  | _ => none

/-- A step of parser i (load.go:127-145). -/
def stepParser (E : Env σ) (s : State σ) (i : Nat) (exit : Bool) : Option (State σ) :=
  match s.parsers[i]? with
  | some .idle =>
    if exit then (if s.done then some { s with parsers := s.parsers.set i .exited } else none)
    else match s.parseQ with
      | [] => none
      | f :: q => some { s with parseQ := q, parsers := s.parsers.set i (.parsing f) }
  | some (.parsing f) =>
    let r := E.parse (path E f) (s.mem f).content
    some { s with parsers := s.parsers.set i (.parsed f r.1 r.2) }
  | some (.parsed f syn err) => some (write { s with parsers := s.parsers.set i (.parsed2 f syn) } f (fun x => { x with err := err }))
  | some (.parsed2 f syn) => some (write { s with parsers := s.parsers.set i (.fin f) } f (fun x => { x with syn := syn }))
  | some (.fin _) => some (wgDone { s with parsers := s.parsers.set i .idle })
  | _ => none

def step (E : Env σ) (s : State σ) : Actor → Option (State σ)
  | .main => stepMain E s
  | .reader i x => stepReader E s i x
  | .parser i x => stepParser E s i x

/-- A run: any interleaving of the goroutines. -/
inductive Reach (E : Env σ) : State σ → Prop where
  | init : Reach E (init E)
  | step {s s' : State σ} {a : Actor} : Reach E s → step E s a = some s' → Reach E s'

/-- A run along a given schedule. -/
def exec (E : Env σ) (s : State σ) : List Actor → Option (State σ)
  | [] => some s
  | a :: r => (step E s a).bind (fun s' => exec E s' r)

/-! ### The packages that are returned -/

/-- `Files` of the packages after the filter loop (load.go:194-209): the objects of a package have consecutive numbers,
starting at `off`. -/
def group (kept : List Nat) : Nat → List (List String) → List (List Nat)
  | _, [] => []
  | off, p :: ps => kept.filter (fun i => off ≤ i ∧ i < off + p.length) :: group kept (off + p.length) ps

/-- LoadPackages for listed packages: the environment it runs in. -/
def envOf (nIO nCPU : Nat) (includeTest filterErr : Bool) (read : String → Except String (List Char))
    (parse : String → List Char → Option σ × Option String) (pkgs : List GoPkg) : Env σ where
  nIO := nIO
  nCPU := nCPU
  files := pkgs.flatMap (paths includeTest)
  read := read
  parse := parse
  filterErr := filterErr

end Verif.Instrument.Load
