/-
Model of the trace that the test explorer shows for a case: where a session has it written, and what it reads when the run has ended.

Source: cmd/xgo/test-explorer/run_session.go:305-336 (the directory), 395-425 (after the run), 429-483 (`trimPrefix`, `readTrace`), 660-681
(`getConsistentTraceDir`), support/goinfo/find.go:22-53 (`FindGoModDirSubPath`).

Simplifications: Unix, `/tmp` is a directory; an absolute path is the list of its names, names of directories and elements of test names are
ordinary (not empty, `.`, `..` or with `/`); a file holds a trace that can be read; `sum` is `pathsum.PathSum` (Cmd/GorootDir). Of a single
case, only the path of the case itself gets a status (run_session.go:266-276), so only its own trace is read. What the program writes, for
each test that ended, is C95 (Runtime/TestTrace): the file of the test `TestA/sub` is `TestA/sub.json` in the directory. Sessions do not
overlap.
-/
namespace Verif.Cmd.CaseTrace

abbrev Str := List Char
abbrev Path := List Str
abbrev Trace := Nat

/-- `FindGoModDirSubPath` (find.go:22-53), on the reversed path: the names below the module's directory, innermost first, and the directory
    (reversed). `isMod` says whether there is a file go.mod in a directory. -/
def findMod (isMod : Path → Bool) : List Str → Option (List Str × List Str)
  | [] => if isMod [] then some ([], []) else none
  | x :: r => if isMod (x :: r).reverse then some ([], x :: r)
    else match findMod isMod r with
      | none => none
      | some (sub, root) => some (x :: sub, root)

/-- A session that traces a case: the project's directory, the directory of the case's package in it (`filepath.Dir(item.RelPath)`), the
    elements of the name, and the traces that the run writes, in order: those of the tests that ended. -/
structure Session where
  dir : Path
  itemDir : List Str
  case : List Str
  wrote : List (List Str × Trace)

/-- `getConsistentTraceDir` (run_session.go:660-681). -/
def consistentDir (sum : Path → Str) (root : Path) (sub : List Str) : Path :=
  ["tmp".toList, "xgo".toList, "test-explorer".toList, "trace".toList, sum root] ++ sub

/-- The directory of the traces (run_session.go:322-334). -/
def traceDir (isMod : Path → Bool) (sum : Path → Str) (s : Session) : Option Path :=
  match findMod isMod s.dir.reverse with
  | none => none
  | some (sub, root) => some (consistentDir sum root.reverse (sub ++ s.itemDir))

/-- The file of a test (run_session.go:441-442). -/
def fileOf (d : Path) : List Str → Path
  | [] => match d.reverse with
    | [] => [".json".toList]
    | x :: r => ((x ++ ".json".toList) :: r).reverse
  | [x] => d ++ [x ++ ".json".toList]
  | x :: y :: l => fileOf (d ++ [x]) (y :: l)

abbrev Disk := Path → Option Trace

def put (k : Disk) (p : Path) (t : Trace) : Disk := fun q => if q = p then some t else k q

/-- The run of a session: every test that ends writes its trace. -/
def writeAll (d : Path) : Disk → List (List Str × Trace) → Disk
  | k, [] => k
  | k, (n, t) :: l => writeAll d (put k (fileOf d n) t) l

/-- A session: the disk after it, and the trace it shows. One outside of a module does not start (run_session.go:323-326). -/
def session (isMod : Path → Bool) (sum : Path → Str) (k : Disk) (s : Session) : Disk × Option Trace :=
  match traceDir isMod sum s with
  | none => (k, none)
  | some d => let k' := writeAll d k s.wrote; (k', k' (fileOf d s.case))

/-- The disk after sessions. -/
def sessions (isMod : Path → Bool) (sum : Path → Str) (k : Disk) (h : List Session) : Disk :=
  h.foldl (fun k s => (session isMod sum k s).1) k

end Verif.Cmd.CaseTrace
