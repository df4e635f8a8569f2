/-
Model of the coverage view (`xgo tool coverage serve`, `load`): which lines are shown, which of them as covered, which as changed, and the
summary.

Source (below cmd/xgo/internal/vendir/github.com/xhd2015): lines-annotation/load/loadcov/load_all.go:32-117, load_profile.go:43-159,
lines-annotation/load/blocks.go:19-78, lines-annotation/path/trim.go:20-34, lines-annotation/merge/{file,block}.go,
lines-annotation/compute/{block_id_for_line,exec_labels_block2line,uncoverable_for_line,changed_for_line_from_changes}.go,
go-coverage/diff/vscode/mapping.go:47-108, lines-annotation/filter/reserve_for_line_view.go:24-89,
lines-annotation/compute/coverage/coverage.go:20-175; which files have changed: gitops/git/diff_commit.go:11-107, list_*.go, cat_file.go,
lines-annotation/load/git/load_files.go:14-93. Caller: cmd/xgo/coverage/serve.go, cmd/xgo/coverage/serve/serve.go.

Simplifications: the blocks of a file and its lines without code (go/ast) and the comparison of two texts (a JavaScript program) are
parameters; so is what git says about the repository. Numbers of the profile are not negative. A map is a list of its entries in the order
of an iteration; the theorems hold for every order.
-/
import Verif.Support.Coverage
import Verif.Instrument.FuncTrap

namespace Verif.Cmd.CovView

abbrev Str := List Char

/-! ### The profile -/

/-- `Block` (model/block.go:14-19). -/
structure Block where
  sl : Nat
  sc : Nat
  el : Nat
  ec : Nat
deriving DecidableEq

open Instrument.FuncTrap (dec)

/-- `Block.ID` (model/block.go:29-32), the key of a block in the maps. -/
def Block.id (b : Block) : Str := dec b.sl ++ ':' :: dec b.sc ++ '-' :: dec b.el ++ ':' :: dec b.ec

/-- `Block.Before` (model/block.go:40-69). -/
def Block.before (a b : Block) : Bool :=
  if a.sl ≠ b.sl then a.sl < b.sl
  else if a.sc ≠ b.sc then a.sc < b.sc
  else if a.el ≠ b.el then a.el < b.el
  else a.ec < b.ec

/-- `CoverageBlock` (load_profile.go:96-101). -/
structure Entry where
  file : Str
  block : Block
  stmts : Nat
  count : Nat
deriving DecidableEq

/-- `(\d+)` and `ParseInt` (load_profile.go:104-147). -/
def number (s : Str) : Option (Nat × Str) :=
  let d := s.takeWhile Char.isDigit
  if d = [] then none
  else if Nat.ofDigitChars 10 d 0 < 2 ^ 63 then some (Nat.ofDigitChars 10 d 0, s.drop d.length) else none

/-- A character of the regular expression. -/
def expect (c : Char) : Str → Option Str
  | [] => none
  | x :: t => if x = c then some t else none

/-- `parseBlock` (load_profile.go:103-159): `^([^:]+):(\d+)\.(\d+),(\d+)\.(\d+) (\d+) (\d+)`; `none`: an error, and nothing is shown. -/
def parseBlock (s : Str) : Option Entry :=
  let file := s.takeWhile (· != ':')
  if file = [] then none
  else do
    let s ← expect ':' (s.drop file.length)
    let (sl, s) ← number s
    let s ← expect '.' s
    let (sc, s) ← number s
    let s ← expect ',' s
    let (el, s) ← number s
    let s ← expect '.' s
    let (ec, s) ← number s
    let s ← expect ' ' s
    let (stmts, s) ← number s
    let s ← expect ' ' s
    let (count, _) ← number s
    some ⟨file, ⟨sl, sc, el, ec⟩, stmts, count⟩

/-- `ConvertToBinaryProfile` (load_profile.go:72-94), of the lines that `coverage.Merge` gives (C31); negative counts are errors. -/
def convert (lines : List Support.Coverage.CovLine) : Option (List Entry) :=
  lines.mapM fun l => parseBlock (l.pfx ++ ' ' :: Support.GoVersion.itoa l.count.toInt)

/-- `TrimModPrefixOrEmpty` (path/trim.go:20-34); `none`: left out (blocks.go:39-43). -/
def rel (mod file : Str) : Option Str :=
  if mod.isPrefixOf file then
    let r := file.drop mod.length
    let r := match r with
      | '/' :: r => r
      | r => r
    if r = [] then none else some r
  else none

/-! ### Lines and blocks -/

/-- Does the block reach over line `l`? -/
def Block.has (b : Block) (l : Nat) : Bool := b.sl ≤ l && l ≤ b.el

/-- `BlockID_ForLine` (block_id_for_line.go:16-38): one round of the loop over the blocks, for line `l`. -/
def lineStep (l : Nat) (prev : Option Block) (b : Block) : Option Block :=
  if b.has l then
    match prev with
    | none => some b
    | some p => if p.before b then some p else some b
  else prev

/-- The block that line `l` belongs to. -/
def lineBlock (bs : List Block) (l : Nat) : Option Block := bs.foldl (lineStep l) none

/-- `BlockStatsToAnnotationMapping` (blocks.go:57-78) and `MergeBlocks` (merge/block.go): was the block executed? -/
def executed (es : List Entry) (b : Block) : Bool :=
  match es.reverse.find? fun e => e.block = b with
  | none => false
  | some e => 0 < e.count

/-! ### Changed lines -/

/-- `LineChange` (vscode/diff.go:223-228). -/
structure Change where
  os : Nat
  oe : Nat
  ms : Nat
  me : Nat

/-- `LineChanges` (go-coverage/model). -/
structure Changes where
  old : Nat
  new : Nat
  list : List Change

/-- What `ForeachLineMapping` tells of lines. -/
structure Span where
  oldS : Nat
  newS : Nat
  newE : Nat
  /-- unchanged, or updated or inserted; nothing is done for deletions -/
  changed : Bool

/-- `ForeachLineMapping` (mapping.go:47-108), from the lines `oldS` and `newS` on; the error is ignored by the caller
    (changed_for_line_from_changes.go:28). -/
def spans (old new : Nat) : (oldS newS : Nat) → List Change → List Span
  | oldS, newS, [] =>
    if (new + 1) + oldS ≠ (old + 1) + newS then [] else [⟨oldS, newS, new + 1, false⟩]
  | oldS, newS, c :: cs =>
    let oldE := if c.oe = 0 then c.os + 1 else c.os
    let oldN := if c.oe = 0 then c.os + 1 else c.oe + 1
    let newE := if c.me = 0 then c.ms + 1 else c.ms
    let newN := if c.me = 0 then c.ms + 1 else c.me + 1
    if newE + oldS ≠ oldE + newS then []
    else
      ⟨oldS, newS, newE, false⟩ :: (if c.me = 0 then [] else [⟨oldE, newE, newN, true⟩]) ++ spans old new oldN newN cs

/-- `Changed_ForLineFromChanges` (changed_for_line_from_changes.go:28-53): `Line.Changed`. -/
def changedLine (c : Option Changes) (l : Nat) : Bool :=
  match c with
  | none => false
  | some c => (spans c.old c.new 1 1 c.list).any fun s => s.changed && s.newS ≤ l && l < s.newE

/-- `Line.OldLine`; 0: not set. -/
def oldLine (c : Option Changes) (l : Nat) : Nat :=
  match c with
  | none => 0
  | some c =>
    match (spans c.old c.new 1 1 c.list).reverse.find? fun s => !s.changed && s.newS ≤ l && l < s.newE with
    | none => 0
    | some s => s.oldS + (l - s.newS)

/-! ### What git says -/

/-- `FileDetail` (gitops/model). -/
structure Detail where
  isNew : Bool := false
  deleted : Bool := false
  changed : Bool := false
deriving DecidableEq

/-- The repository: the directory of the module in it (`""` or with a slash behind), the texts of the commit compared with and of the
    working directory (without what git ignores), what is tracked; all by paths from the top of the repository. -/
structure Repo where
  dir : Str
  base : Str → Option Str
  work : Str → Option Str
  tracked : Str → Bool
  /-- the file is recognised as the renaming of another one (`diff.renames`) -/
  renamed : Str → Bool

/-- `git ls-files --exclude-standard -co` (list_file.go:15-35): names are relative to the directory. -/
def Repo.inNew (r : Repo) (f : Str) : Bool := r.tracked (r.dir ++ f) || (r.work (r.dir ++ f)).isSome

/-- `git ls-files --with-tree base`. -/
def Repo.inOld (r : Repo) (f : Str) : Bool := r.tracked (r.dir ++ f) || (r.base (r.dir ++ f)).isSome

/-- `git ls-files --others --full-name` (list_untracked_files.go:17): names are from the top. -/
def Repo.untracked (r : Repo) (f : Str) : Bool := r.dir.isPrefixOf f && (r.work f).isSome && !r.tracked f

/-- `git diff --relative --diff-filter=A --name-only` (list_added_file.go). -/
def Repo.added (r : Repo) (f : Str) : Bool :=
  r.tracked (r.dir ++ f) && (r.base (r.dir ++ f)).isNone && (r.work (r.dir ++ f)).isSome && !r.renamed (r.dir ++ f)

/-- `git diff --relative --diff-filter=M --name-only` (list_modified_files.go). -/
def Repo.modified (r : Repo) (f : Str) : Bool :=
  r.tracked (r.dir ++ f) && (r.base (r.dir ++ f)).isSome && (r.work (r.dir ++ f)).isSome && r.base (r.dir ++ f) != r.work (r.dir ++ f)

/-- `DiffCommitFiles` (diff_commit.go:52-107) for one file. The listing of renamed files is made with `--summary --name-only`
    (list_renamed_files.go:10; list_file.go:51-53), which prints names only; `parseRenames` (diff_commit.go:321-336) finds no line that
    starts with `rename ` there. -/
def Repo.detail (r : Repo) (f : Str) : Option Detail :=
  let d : Option Detail := if r.inNew f then some {} else if r.inOld f then some { deleted := true } else none
  let d : Option Detail :=
    if r.untracked f then
      match d with
      | some d => if d.deleted then some { d with deleted := false, changed := true } else some { d with isNew := true }
      | none => some { isNew := true }
    else d
  let d := if r.added f then d.map fun d => { d with isNew := true } else d
  if r.modified f then d.map fun d => { d with changed := true } else d

/-- `diffFile` (load_files.go:64-89): `CatFile` reads the working file in the directory of the module, but the other one from the top of
    the tree (cat_file.go:33-49). `diff` compares the texts. -/
def Repo.diffFile (r : Repo) (diff : Str → Str → Changes) (f : Str) : Option Changes :=
  match r.work (r.dir ++ f), r.base f with
  | some new, some old =>
    if Support.Coverage.trimSpace new = Support.Coverage.trimSpace old then none else some (diff old new)
  | _, _ => none

/-- What is known of a file. -/
structure Info where
  isNew : Bool
  changed : Bool
  changes : Option Changes

/-- `LoadFiles` (load_files.go:20-57) for a listed file. -/
def Repo.info (r : Repo) (diff : Str → Str → Changes) (f : Str) : Option Info :=
  match r.detail f with
  | none => none
  | some d =>
    if d.deleted then none
    else some ⟨d.isNew, d.changed, if !d.isNew && d.changed then r.diffFile diff f else none⟩

/-! ### The view -/

/-- What the view is made of. -/
structure Input where
  mod : Str
  /-- the Go files of the packages asked for (goinfo/list.go:109-170), test files included -/
  listed : List Str
  /-- `--include`, `--exclude` -/
  keep : Str → Bool
  /-- the blocks of the files, as in the source now -/
  static : Str → List Block
  /-- lines on which nothing begins or ends -/
  empty : Str → List Nat
  /-- the merged profile -/
  profile : List Entry
  info : Str → Option Info
  /-- only changed files (the default; `--full` switches it off) -/
  only : Bool

/-- The entries of the profile for a file of the module. Simplification: if the names of several files of the profile are cut to the same
    name, Go keeps the entries of one of them, whichever comes last. -/
def Input.entries (i : Input) (f : Str) : List Entry := i.profile.filter fun e => rel i.mod e.file = some f

/-- The files (load_all.go:45-100). -/
def Input.files (i : Input) : List Str :=
  ((i.listed ++ i.profile.filterMap fun e => rel i.mod e.file).filter i.keep).eraseDups

/-- The blocks of a file. -/
def Input.blocks (i : Input) (f : Str) : List Block :=
  (if f ∈ i.listed then i.static f else []) ++ (i.entries f).map (·.block)

/-- `FileAnnotation` of git. -/
def Input.fileInfo (i : Input) (f : Str) : Option Info := if f ∈ i.listed then i.info f else none

/-- `fileChanged` (reserve_for_line_view.go:44-56). -/
def Input.fileChanged (i : Input) (f : Str) : Bool :=
  match i.fileInfo f with
  | none => false
  | some d => d.isNew || d.changed

/-- The files shown (reserve_for_line_view.go:57-59). -/
def Input.shown (i : Input) : List Str := i.files.filter fun f => !i.only || i.fileChanged f

/-- `Uncoverable` (uncoverable_for_line.go:24-26), the other way round. -/
def Input.coverable (i : Input) (f : Str) (l : Nat) : Bool :=
  !((f ∈ i.listed : Bool) && (l ∈ i.empty f : Bool)) && (lineBlock (i.blocks f) l).isSome

/-- `CoverageLabels[""]` (exec_labels_block2line.go:15-33; coverage_labels_for_line.go:30-67). -/
def Input.covered (i : Input) (f : Str) (l : Nat) : Bool :=
  match lineBlock (i.blocks f) l with
  | none => false
  | some b => executed (i.entries f) b

/-- `LineChanged` (coverage.go:136-141). -/
def Input.changed (i : Input) (f : Str) (l : Nat) : Bool :=
  match i.fileInfo f with
  | none => false
  | some d => d.isNew || changedLine d.changes l

/-- The last line of the blocks. -/
def lastLine (bs : List Block) : Nat := (bs.map (·.el)).foldr max 0

/-- The lines that count: (file, line). -/
def Input.counted (i : Input) : List (Str × Nat) :=
  (i.shown.map fun f => ((List.range (lastLine (i.blocks f) + 1)).filter (i.coverable f)).map fun l => (f, l)).flatten

/-- `Item` (model/coverage): covered and total. -/
structure Item where
  total : Nat
  covered : Nat
deriving DecidableEq

/-- `UpdateCoverageDetail` (coverage.go:147-175): total and incremental. -/
def addLine (s : Item × Item) (covered changed : Bool) : Item × Item :=
  let one (c : Bool) (x : Item) : Item := ⟨x.total + 1, if c then x.covered + 1 else x.covered⟩
  (one covered s.1, if changed then one covered s.2 else s.2)

/-- `ComputeCoverageSummary` with `compulteLineCoverage` (coverage.go:20-76, 118-135), for the label `""`. -/
def Input.summary (i : Input) : Item × Item :=
  i.counted.foldl (fun s x => addLine s (i.covered x.1 x.2) (i.changed x.1 x.2)) (⟨0, 0⟩, ⟨0, 0⟩)

end Verif.Cmd.CovView
