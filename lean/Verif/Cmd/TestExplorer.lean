/-
Model of the test explorer: the tree of tests it shows, and the `go test` command it runs for an item of the tree.

Source: cmd/xgo/test-explorer/{main,parse,run}.go. The part of `go test` that is used, the selection by `-run`, is
modelled after package testing of Go (match.go). Paths are lists of names, names are lists of characters.
-/
import Verif.Support.Decimal

namespace Verif.Cmd.Explorer
open Verif.Support (Str)

/-! ### The files -/

/-- Of a function declaration: name, whether it has a receiver, a body, the number of parameter declarations, whether the
    only parameter is of type `*testing.T`. -/
structure Decl where
  name : Str
  recv : Bool := false
  body : Bool := true
  params : Nat := 1
  testingT : Bool := true
  deriving DecidableEq, Repr

mutual
/-- A directory entry; `decls` is `none` if the file cannot be parsed. -/
inductive Node where
  | file (name : Str) (decls : Option (List Decl))
  | dir (name : Str) (goMod : Bool) (entries : Nodes)
inductive Nodes where
  | nil
  | cons (n : Node) (rest : Nodes)
end

/-- `parseTestFuncsCode` (parse.go:97-124): the functions that are shown. -/
def listed (d : Decl) : Bool := "Test".toList.isPrefixOf d.name && d.body && decide (d.params = 1)

/-! ### The tree -/

inductive Kind where
  | dir
  | file
  | case
  deriving DecidableEq, Repr

mutual
/-- `TestingItem` (main.go:231-257): kind, `Name`, `NameUnderPkg`, `RelPath`, `HasTestCases`, `Children`. -/
inductive Item where
  | mk (kind : Kind) (name under : Str) (rel : List Str) (hasCases : Bool) (children : Items)
inductive Items where
  | nil
  | cons (i : Item) (rest : Items)
end

def Items.ofList : List Item → Items
  | [] => .nil
  | i :: l => .cons i (Items.ofList l)

def Items.toList : Items → List Item
  | .nil => []
  | .cons i l => i :: l.toList

def Item.kind : Item → Kind
  | .mk k _ _ _ _ _ => k
def Item.rel : Item → List Str
  | .mk _ _ _ r _ _ => r
def Item.children : Item → Items
  | .mk _ _ _ _ _ c => c

/-- `parseTests` (parse.go:67-91) with the `RelPath` that `scanTests` sets (main.go:699-701). -/
def cases (rel : List Str) (decls : List Decl) : List Item :=
  (decls.filter listed).map fun d => .mk .case d.name d.name rel false .nil

def isTestFile (name : Str) : Bool := "_test.go".toList.isSuffixOf name

/-- The item of a test file (main.go:680-710). -/
def fileItem (rel : List Str) (name : Str) (decls : Option (List Decl)) : Item :=
  let cs := match decls with
    | some ds => cases (rel ++ [name]) ds
    | none => []
  .mk .file name [] (rel ++ [name]) (!cs.isEmpty) (.ofList cs)

mutual
/-- The entries of the directory `rel` (main.go:625-714), `excluded` says which paths are excluded. Result: the children of
    the directory's item, and whether a test file has cases (`HasTestCases`). Simplification: run for the root of the
    project (no `subPath`), so that the path relative to the root is `RelPath`; sorting (main.go:729-748) is left out. -/
def scan (excluded : List Str → Bool) (rel : List Str) : Nodes → Items × Bool
  | .nil => (.nil, false)
  | .cons n rest =>
    let r := scan excluded rel rest
    match scanNode excluded rel n with
    | some (i, b) => (.cons i r.1, b || r.2)
    | none => r
/-- One entry: its item, and whether it is a test file with cases. -/
def scanNode (excluded : List Str → Bool) (rel : List Str) : Node → Option (Item × Bool)
  | .dir name goMod es =>
    if excluded (rel ++ [name]) then none
    else if rel ++ [name] = ["vendor".toList] then none
    else if goMod then none
    else
      let r := scan excluded (rel ++ [name]) es
      some (.mk .dir name [] (rel ++ [name]) r.2 r.1, false)
  | .file name decls =>
    if excluded (rel ++ [name]) then none
    else if !isTestFile name then none
    else
      let i := fileItem rel name decls
      some (i, match i with | .mk _ _ _ _ h _ => h)
end

mutual
/-- `filterItem` with `withCases` (parse.go:38-65). -/
def filterItem : Item → Option Item
  | .mk k n u r h cs =>
    match filterItems cs with
    | .nil => if k = .case then some (.mk k n u r h .nil) else none
    | c => some (.mk k n u r h c)
def filterItems : Items → Items
  | .nil => .nil
  | .cons i rest =>
    match filterItem i with
    | some i' => .cons i' (filterItems rest)
    | none => filterItems rest
end

/-- `scanTests` (main.go:588-727). The result of `filterItem(root)` is not used: the root is there even without tests. -/
def scanTests (excluded : List Str → Bool) (rootName : Str) (root : Nodes) : Item :=
  let r := scan excluded [] root
  .mk .dir rootName [] [] r.2 (filterItems r.1)

/-! ### The command -/

/-- `replacer` (run.go:105-112). -/
def escapeName : Str → Str
  | [] => []
  | c :: s => if c ∈ "{}[]|".toList then '\\' :: c :: escapeName s else c :: escapeName s

/-- `strings.Join(names, "|")` -/
def joinBar : List Str → Str
  | [] => []
  | [n] => n
  | n :: m :: l => n ++ '|' :: joinBar (m :: l)

/-- `formatRunNames` (run.go:90-95) for names that are not nil. -/
def formatRunNames (names : List Str) : Str := '^' :: joinBar (names.map escapeName) ++ ['$']

mutual
/-- `getAllSubRelPaths` (run.go:187-203), the paths. -/
def subPaths : Item → List (List Str)
  | .mk k _ _ rel h cs => (if h && k ≠ .file && k ≠ .case then [rel] else []) ++ subPathsL cs
def subPathsL : Items → List (List Str)
  | .nil => []
  | .cons i rest => subPaths i ++ subPathsL rest
end

/-- `getTestPaths` and `getFileSubCases` (run.go:127-158, 205-214): the directories and the names; no names if there is to be no `-run`. -/
def testPaths : Item → List (List Str) × Option (List Str)
  | .mk .case name under rel _ _ => ([rel.dropLast], some [if under = [] then name else under])
  | .mk .file _ _ rel _ cs =>
    ([rel.dropLast], some (cs.toList.filterMap fun i => match i with | .mk .case n _ _ _ _ => some n | _ => none))
  | i => (subPaths i, none)

/-! ### `go test` -/

/-- Regular expressions without groups and classes: what is repeated how. -/
inductive Tok where
  | one (c : Option Char)
  | star (c : Option Char)
  | plus (c : Option Char)
  | opt (c : Option Char)
  | bol
  | eol
  deriving DecidableEq, Repr

/-- `none` is `.`. -/
def accepts (p : Option Char) (c : Char) : Bool := match p with
  | none => true
  | some d => c = d

/-- Characters with a meaning that this model leaves out; `parseRe` gives no expression for them. -/
def unsupported (c : Char) : Bool := c ∈ "()[]{}|*+?".toList

/-- The rest of the expression after one character, and how often it is repeated. -/
def quantify (p : Option Char) : Str → Tok × Nat
  | '*' :: _ => (.star p, 1)
  | '+' :: _ => (.plus p, 1)
  | '?' :: _ => (.opt p, 1)
  | _ => (.one p, 0)

/-- A small part of Go's regexp syntax. `skip` characters have been dealt with already. -/
def parseRe : Nat → Str → Option (List Tok)
  | _, [] => some []
  | n + 1, _ :: s => parseRe n s
  | 0, '^' :: s => (parseRe 0 s).map (.bol :: ·)
  | 0, '$' :: s => (parseRe 0 s).map (.eol :: ·)
  | 0, '\\' :: s =>
    match s with
    | [] => none
    | c :: s' => if c.isAlphanum then none
        else let q := quantify (some c) s'; (parseRe (q.2 + 1) s).map (q.1 :: ·)
  | 0, c :: s =>
    if unsupported c then none
    else let q := quantify (if c = '.' then none else some c) s; (parseRe q.2 s).map (q.1 :: ·)

/-- A position: whether it is the start of the text, and the rest of the text. -/
abbrev Pos := Bool × Str

def oneEnds (p : Option Char) : Str → List Pos
  | [] => []
  | c :: s => if accepts p c then [(false, s)] else []

def starEnds (p : Option Char) (b : Bool) : Str → List Pos
  | [] => [(b, [])]
  | c :: s => (b, c :: s) :: if accepts p c then starEnds p false s else []

/-- Where a match may end. -/
def Tok.ends (t : Tok) (x : Pos) : List Pos := match t with
  | .one p => oneEnds p x.2
  | .star p => starEnds p x.1 x.2
  | .plus p => (oneEnds p x.2).flatMap fun y => starEnds p y.1 y.2
  | .opt p => x :: oneEnds p x.2
  | .bol => if x.1 then [x] else []
  | .eol => if x.2 = [] then [x] else []

def matchAt : List Tok → Pos → Bool
  | [], _ => true
  | t :: ts, x => (t.ends x).any (matchAt ts)

def suffixes (b : Bool) : Str → List Pos
  | [] => [(b, [])]
  | c :: s => (b, c :: s) :: suffixes false s

/-- `regexp.MatchString`: somewhere in the text. An expression that is not supported matches nothing. -/
def matchString (re : Str) (s : Str) : Bool :=
  match parseRe 0 re with
  | none => false
  | some ts => (suffixes true s).any (matchAt ts)

/-- `splitRegexp` of package testing: at `|` and `/` outside of brackets. `cs`, `cp` count brackets, `cur` is the part being
    read, `a` the parts of this alternative. -/
def splitRe (cs : Nat) (cp : Int) (cur : Str) (a : List Str) : Str → List (List Str)
  | [] => [a ++ [cur]]
  | '\\' :: [] => [a ++ [cur ++ ['\\']]]
  | '\\' :: c :: s => splitRe cs cp (cur ++ ['\\', c]) a s
  | c :: s =>
    if c = '[' then splitRe (cs + 1) cp (cur ++ [c]) a s
    else if c = ']' then splitRe (cs - 1) cp (cur ++ [c]) a s
    else if c = '(' then splitRe cs (if cs = 0 then cp + 1 else cp) (cur ++ [c]) a s
    else if c = ')' then splitRe cs (if cs = 0 then cp - 1 else cp) (cur ++ [c]) a s
    else if c = '/' && cs = 0 && cp = 0 then splitRe cs cp [] (a ++ [cur]) s
    else if c = '|' && cs = 0 && cp = 0 then (a ++ [cur]) :: splitRe cs cp [] [] s
    else splitRe cs cp (cur ++ [c]) a s

/-- `simpleMatch.matches`: the elements of the name as far as there are expressions. -/
def simpleMatch : List Str → List Str → Bool
  | r :: rs, n :: ns => matchString r n && simpleMatch rs ns
  | _, _ => true

/-- Whether `-run` selects the test or subtest with the elements of its name. -/
def selected (run : Str) (elems : List Str) : Bool := (splitRe 0 0 [] [] run).any fun m => simpleMatch m elems

/-- The tests of a package. `go test` takes functions without receiver named `TestXxx` where `Xxx` does not begin with a
    lower case letter, with a parameter `*testing.T`. -/
def goTest (d : Decl) : Bool :=
  "Test".toList.isPrefixOf d.name && !(d.name.drop 4).head?.any Char.isLower && !d.recv && d.body && decide (d.params = 1) && d.testingT

/-- The tests in the test files of a directory. -/
def pkgTests : Nodes → List Str
  | .nil => []
  | .cons (.file n (some ds)) rest =>
    (if isTestFile n then (ds.filter goTest).map Decl.name else []) ++ pkgTests rest
  | .cons _ rest => pkgTests rest

/-- The entries of the directory at a path. -/
def find : Nodes → List Str → Option Nodes
  | ns, [] => some ns
  | .nil, _ :: _ => none
  | .cons (.dir n _ es) rest, m :: p => if n = m then find es p else find rest (m :: p)
  | .cons (.file _ _) rest, m :: p => find rest (m :: p)

/-- What `go test -v [-run names] dirs` runs in the project: directory and name of the tests. Without directories it runs
    those of the current one, the root. -/
def goTestRun (root : Nodes) (dirs : List (List Str)) (run : Option Str) : List (List Str × Str) :=
  (if dirs = [] then [[]] else dirs).flatMap fun p =>
    match find root p with
    | none => []
    | some es => ((pkgTests es).filter fun n => match run with
        | none => true
        | some r => selected r [n]).map fun n => (p, n)

/-- Running an item (run_session.go:345-362). -/
def runItem (root : Nodes) (i : Item) : List (List Str × Str) :=
  let (dirs, names) := testPaths i
  goTestRun root dirs (names.map formatRunNames)

end Verif.Cmd.Explorer
