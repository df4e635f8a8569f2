/-
Model of how the test explorer follows a run of `go test -json`: from the lines of its output to the events that the page
gets, with the statuses of the items.

Source: cmd/xgo/test-explorer/run_session.go (Start: 209-427, pathMapping: 498-556, consumeTestEvent and
jsonTestEventBuilder: 585-658), run_event.go, run.go (getCaseItemPath: 178-184, makeMergeTree: 249-271).
-/
import Verif.Support.Decimal

namespace Verif.Cmd.Status
open Verif.Support (Str)

abbrev Path := List Str

/-- `RunStatus` (main.go:217-226); no status is `none` below. -/
inductive Status where
  | notRun
  | success
  | fail
  | error
  | running
  | skip
  deriving DecidableEq, Repr

/-! ### The record of statuses -/

mutual
/-- `pathMapping` (run_session.go:498-505). -/
inductive Trie where
  | node (record : Option Status) (subs : Subs)
/-- The map `m`. -/
inductive Subs where
  | nil
  | cons (key : Str) (t : Trie) (rest : Subs)
end

def Trie.empty : Trie := .node none .nil
def Trie.record : Trie → Option Status
  | .node r _ => r
def Trie.subs : Trie → Subs
  | .node _ s => s

def Subs.find (k : Str) : Subs → Option Trie
  | .nil => none
  | .cons k' t rest => if k' = k then some t else rest.find k

def Subs.put (k : Str) (t : Trie) : Subs → Subs
  | .nil => .cons k t .nil
  | .cons k' t' rest => if k' = k then .cons k' t rest else .cons k' t' (rest.put k t)

/-- `Get` (run_session.go:507-519). -/
def Trie.get (t : Trie) : Path → Option Status
  | [] => t.record
  | k :: p => match t.subs.find k with
    | none => none
    | some u => u.get p

/-- `Set` (run_session.go:521-541). -/
def Trie.set (t : Trie) (s : Status) : Path → Trie
  | [] => .node (some s) t.subs
  | k :: p => .node t.record (t.subs.put k (((t.subs.find k).getD .empty).set s p))

mutual
/-- `traverse` (run_session.go:543-556), in one of the orders in which the maps may be iterated. -/
def Trie.range (pre : Path) : Trie → List (Path × Status)
  | .node r subs => (match r with | some s => [(pre, s)] | none => []) ++ subs.range pre
def Subs.range (pre : Path) : Subs → List (Path × Status)
  | .nil => []
  | .cons k t rest => t.range (pre ++ [k]) ++ rest.range pre
end

/-! ### Events -/

/-- `TestEvent` (run.go:217-239) of test2json, as far as it is used. -/
inductive Action where
  | run
  | pass
  | fail
  | skip
  | other
  deriving DecidableEq, Repr

structure TestEvent where
  action : Action
  pkg : Str
  test : Str
  output : Str
  deriving DecidableEq, Repr

/-- A line of the output of `go test -json`: a JSON event, a line `FAIL pkg ...`, another line, a line that begins with `{`
    and is not an event. -/
inductive Line where
  | json (e : TestEvent)
  | failed (pkg : Str) (text : Str)
  | text (s : Str)
  | bad (msg : Str)
  deriving DecidableEq, Repr

/-- The chain of items of a `merge_tree` event: key and name under the package of each. -/
abbrev Chain := List (Str × Str)

/-- `TestingItemEvent` (run.go:36-44), the kinds that are sent. -/
inductive Event where
  | testStart
  | item (path : Path) (status : Option Status) (msg : Str)
  | merge (path : Path) (chain : Chain)
  | error (path : Path) (msg : Str)
  | testEnd
  deriving DecidableEq, Repr

/-- `switch testEvent.Action` (run_event.go:13-22) -/
def Action.status : Action → Option Status
  | .run => some .running
  | .pass => some .success
  | .fail => some .fail
  | .skip => some .skip
  | .other => none

/-- `strings.Split(s, "/")` -/
def splitSlash : Str → List Str
  | [] => [[]]
  | c :: s =>
    if c = '/' then [] :: splitSlash s
    else match splitSlash s with
      | [] => [[c]]
      | x :: l => (c :: x) :: l

/-- `makeMergeTree` (run.go:249-271): the chain of items, with the item for the last key. -/
def mergeChain (item : Str × Str) (prefixName : Str) : List Str → Chain
  | [] => [item]
  | key :: sub => (key, prefixName ++ '/' :: key) :: mergeChain item (prefixName ++ '/' :: key) sub

/-- Where the test functions of a package are: `resolveTestingItem` (run_session.go:185-196), giving the path of the file. -/
abbrev Resolver := Str → Str → Option Path

/-- The test files of a package directory in the order they are read: path, and the names of the functions that are taken
    for tests (`listed` in `TestExplorer.lean`), `none` if the file cannot be parsed. -/
abbrev PkgFiles := List (Path × Option (List Str))

/-- `resolveTests` (parse.go:14-36): all tests with their files; no result if one file cannot be parsed. -/
def resolveTests : PkgFiles → Option (List (Path × Str))
  | [] => some []
  | (f, names) :: rest =>
    match names, resolveTests rest with
    | some ns, some l => some (ns.map (fun n => (f, n)) ++ l)
    | _, _ => none

/-- `resolveTestingItem` (run_session.go:185-196) with `resolvePkgTestsCached` (run_session.go:158-183): the first test of
    that name. The error is ignored by the caller (run_event.go:41). -/
def resolveIn (pkgs : Str → PkgFiles) : Resolver := fun pkg name =>
  match resolveTests (pkgs pkg) with
  | none => none
  | some l => (l.find? fun x => x.2 = name).map Prod.fst

/-- What is fixed in a run. -/
structure Config where
  pathPrefix : Path
  modPath : Str
  resolve : Resolver

/-- `getPkgSubPath` (run.go:241-247). -/
def pkgSubPath (modPath pkgPath : Str) : Str :=
  if modPath.isPrefixOf pkgPath then
    match pkgPath.drop modPath.length with
    | '/' :: s => s
    | s => s
  else []

/-- The path of an event's item (run_event.go:28-40, 77-83), and that of the test it is a subtest of. -/
def eventPath (c : Config) (e : TestEvent) : Path × Path :=
  if e.pkg = [] then ([], [])
  else if e.test = [] then
    (c.pathPrefix ++ (if pkgSubPath c.modPath e.pkg = [] then [] else splitSlash (pkgSubPath c.modPath e.pkg)), [])
  else
    match splitSlash e.test with
    | [] => ([], [])
    | base :: suffix =>
      match c.resolve e.pkg base with
      | none => ([], [])
      | some file =>
        let basePath := c.pathPrefix ++ file ++ [base]
        if suffix = [] ∨ suffix = [[]] then (basePath, []) else (basePath ++ suffix, basePath)

/-- The events for a subtest that is not in the tree yet (run_event.go:46-75). -/
def newSubtest (e : TestEvent) (path basePath : Path) : List Event :=
  let suffix := path.drop basePath.length
  let base := basePath.getLast?.getD []
  .merge basePath (mergeChain (suffix.getLast?.getD [], e.test) base suffix.dropLast) ::
    (List.range suffix.length).map fun i => .item (basePath ++ suffix.take (i + 1)) (some .running) []

/-- `buildEvent` (run_event.go:9-105). -/
def buildEvent (c : Config) (pm : Trie) (e : TestEvent) : List Event :=
  let (path, basePath) := eventPath c e
  (if basePath ≠ [] && pm.get path = none then newSubtest e path basePath else []) ++
  .item path e.action.status e.output ::
  (if basePath ≠ [] then [.item basePath none e.output] else [])

/-- `sendEvent` (run_session.go:226-234): the record follows the events. -/
def send (pm : Trie) : Event → Trie
  | .item path (some s) _ => pm.set s path
  | _ => pm

/-- State of the run: the record and what has been sent. -/
structure State where
  pm : Trie
  sent : List Event

def State.emit (s : State) (evs : List Event) : State :=
  { pm := evs.foldl send s.pm, sent := s.sent ++ evs }

/-- What has happened with the output so far. -/
inductive Outcome where
  /-- reading goes on -/
  | reading (s : State)
  /-- nil pointer dereference: the test explorer has crashed -/
  | crashed (s : State)
  /-- reading has stopped after an error (run_session.go:591-598) -/
  | stopped (s : State)
  /-- reading has stopped and the command waits for ever to write the rest of its output -/
  | blocked (s : State)

/-- `jsonTestEventBuilder.build` for a line (run_session.go:617-658) in `consumeTestEvent` (run_session.go:585-603).
    `prefix` is set to nil before it is used (run_session.go:650-652): the output is an empty line and the line itself. -/
def step (c : Config) (o : Outcome) (root : Path) (l : Line) : Outcome :=
  match o with
  | .reading s =>
    match l with
    | .json e => .reading (s.emit (buildEvent c s.pm e))
    | .failed pkg text =>
      .reading (s.emit (buildEvent c s.pm { action := .fail, pkg := pkg, test := [], output := '\n' :: text }))
    | .text _ => .crashed s
    | .bad msg => .stopped (s.emit [.error root msg])
  | .stopped s => .blocked s
  | o => o

/-- The events at the end (run_session.go:384-420): the error of the command, success for all that have no result, and the
    end. `order` is the order of iteration. -/
def finish (s : State) (root : Path) (err : Option Str) (order : List (Path × Status) → List (Path × Status)) : List Event :=
  let s := match err with
    | some msg => s.emit [.item root (some .fail) msg]
    | none => s
  let done := ((order (s.pm.range [])).filter fun x => x.2 = .running ∨ x.2 = .notRun).map fun x =>
    Event.item x.1 (some .success) []
  s.sent ++ done ++ [.testEnd]

/-- The start (run_session.go:236-246): the items to be run are recorded as running. -/
def begin (items : List Path) : State :=
  { pm := items.foldl (fun t p => t.set .running p) .empty, sent := [.testStart] }

/-- `runSession.Start` for a directory or file: the events that are sent, and whether the run comes to an end.
    Simplification: the command writes one line at a time and waits until it is read, so that if reading stops before the end
    of the output the end is not reached; stderr (run_session.go:372-381) is left out. -/
def session (c : Config) (items : List Path) (root : Path) (lines : List Line) (err : Option Str)
    (order : List (Path × Status) → List (Path × Status)) : List Event :=
  match lines.foldl (fun o l => step c o root l) (.reading (begin items)) with
  | .reading s => finish s root err order
  | .crashed s => s.sent
  | .stopped s => finish s root err order
  | .blocked s => s.sent

/-- A single case (run_session.go:260-270): its output, then the end. -/
def singleSession (items : List Path) (root : Path) (lines : List Str) (err : Option Str)
    (order : List (Path × Status) → List (Path × Status)) : List Event :=
  finish ((begin items).emit (lines.map fun l => .item root none l)) root err order

end Verif.Cmd.Status
