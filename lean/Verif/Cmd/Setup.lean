/-
Model of the setup of the instrumented GOROOT: processes that run `xgo`, the files they keep, interruptions at any point.

Source: cmd/xgo/main.go:350-440, 500-600 (handleBuild), cmd/xgo/patch.go:41-263. Modelled is the released xgo
(`isDevelopment` is false) for a GOROOT that is not instrumented itself, without `--patch-goroot-in-place`, `--no-setup` and
`--no-instrument`. Left out: the build cache and the directories for logs and package data.
-/

namespace Verif.Cmd.Setup

abbrev Str := List Char

/-- What is in the original GOROOT, and what patching does. The parts of a GOROOT: the sources (`src`), the programs that are
    built from them (`bin/go`, `compile`, `cover`), the rest. -/
structure World where
  Src : Type
  Tools : Type
  Rest : Type
  src : Src
  tools : Tools
  rest : Rest
  /-- patching of sources by a version of xgo, file based or not (patch.go:55-155) -/
  patch : Str → Bool → Src → Src
  /-- building the programs from the sources (instrument/build/build.go:71-86, always with `-a`) -/
  build : Src → Tools
  /-- the programs can build programs: the `go` that builds is that of the instrumented GOROOT (build.go:21, 30-37) -/
  works : Tools → Bool

/-- An instrumented GOROOT; a part that is missing is `none`, one that is damaged any value. -/
structure Root (w : World) where
  src : Option w.Src
  tools : Option w.Tools
  rest : Option w.Rest

/-- The directory of the instrumented GOROOT: the GOROOT, `full-sync-record.txt`, `xgo-revision.txt`. -/
structure Disk (w : World) where
  root : Option (Root w) := none
  record : Bool := false
  revision : Option Str := none

/-- Options of a run: `--reset-instrument`, `--build-compiler`, `--use-file-patches` (after `resolveUseFilePatches`),
    `setup --skip-rebuild-compiler-and-go`, `setup --delete`. -/
structure Flags where
  reset : Bool := false
  buildCompiler : Bool := false
  filePatches : Bool := false
  skip : Bool := false
  delete : Bool := false
  deriving DecidableEq, Repr

/-- What a process has to do. -/
inductive Op (w : World) where
  /-- `os.RemoveAll(instrumentDir)` (main.go:417, 518) -/
  | rmDir
  /-- `syncGoroot` (patch.go:189-258), before it has decided what to copy -/
  | sync
  /-- `os.Remove(fullSyncRecordFile)` (patch.go:233) -/
  | rmRecord
  /-- `CopyReplaceDir(goroot, instrumentGoroot)` (patch.go:242-247), with one worker -/
  | copyAll
  /-- `os.WriteFile(fullSyncRecordFile, ..)` (patch.go:251) -/
  | writeRecord
  /-- `copyGorootSrc` (patch.go:226, 260-262) -/
  | copySrc
  /-- `patchRuntime` (patch.go:41-159) -/
  | patch (version : Str) (filePatches skip : Bool)
  /-- it has begun; the sources are going to be these -/
  | patching (src : w.Src) (skip : Bool)
  /-- `os.WriteFile(revisionFile, ..)` (main.go:574): the file is emptied, then written -/
  | truncate
  | write (version : Str)
  /-- the setup is over, the GOROOT is used; `did` says whether this run has set it up -/
  | use (version : Str) (flags : Flags) (did : Bool)

/-- `checkRevisionChanged` (patch.go:161-171). Simplification: line ends at the end of the file are not considered, xgo
    writes none. -/
def changed (revision : Option Str) (version : Str) : Bool := revision.getD [] = [] || revision.getD [] ≠ version

/-- What a run does (main.go:413-430, 433-438, 500-580), from what is there when it starts. -/
def plan {w : World} (f : Flags) (v : Str) (d : Disk w) : List (Op w) :=
  if f.delete then [.rmDir]
  else
    (if f.reset then [.rmDir] else []) ++
    if f.reset || f.buildCompiler || changed d.revision v || d.root.isNone then
      [.sync, .patch v f.filePatches f.skip, .truncate, .write v, .use v f true]
    else [.use v f false]

/-- A GOROOT in use: version and flags of the run that uses it, whether this run has set it up, and the GOROOT as it is when
    the use begins. -/
structure Use (w : World) where
  version : Str
  flags : Flags
  did : Bool
  root : Option (Root w)

/-- `procs` are the running processes, each with what it has still to do; `log` are the runs that were started. -/
structure State (w : World) where
  disk : Disk w := {}
  procs : List (List (Op w)) := []
  log : List (Flags × Str) := []
  used : List (Use w) := []

/-- The original GOROOT, copied. -/
def World.copied (w : World) : Root w := { src := some w.src, tools := some w.tools, rest := some w.rest }

/-- Interleaved steps. An operation may be half done (`..Part`): then the part of the disk it works on may be anything. -/
inductive Step {w : World} : State w → State w → Prop where
  /-- xgo is started -/
  | spawn {s} (f : Flags) (v : Str) :
      Step s { s with procs := s.procs ++ [plan f v s.disk], log := s.log ++ [(f, v)] }
  /-- a process ends: it has nothing more to do, it is interrupted, or it returns an error -/
  | kill {s l r t} : s.procs = l ++ t :: r → Step s { s with procs := l ++ r }
  | rmDirPart {s l r t} (root : Option (Root w)) (record : Bool) (revision : Option Str) :
      s.procs = l ++ (.rmDir :: t) :: r → (record = true → s.disk.record = true) →
      (revision = none ∨ revision = s.disk.revision) →
      Step s { s with disk := { root := root, record := record, revision := revision } }
  | rmDir {s l r t} : s.procs = l ++ (.rmDir :: t) :: r →
      Step s { s with disk := {}, procs := l ++ t :: r }
  /-- the go command is there and so is the record: only the sources are copied (patch.go:218-230) -/
  | syncSrc {s l r t root} : s.procs = l ++ (.sync :: t) :: r → s.disk.root = some root → root.tools.isSome = true →
      s.disk.record = true → Step s { s with procs := l ++ (.copySrc :: t) :: r }
  | syncAll {s l r t} : s.procs = l ++ (.sync :: t) :: r →
      (s.disk.record = false ∨ s.disk.root = none ∨ ∃ root, s.disk.root = some root ∧ root.tools = none) →
      Step s { s with procs := l ++ (.rmRecord :: .copyAll :: .writeRecord :: t) :: r }
  | rmRecord {s l r t} : s.procs = l ++ (.rmRecord :: t) :: r →
      Step s { s with disk := { s.disk with record := false }, procs := l ++ t :: r }
  | copyAllPart {s l r t} (root : Option (Root w)) : s.procs = l ++ (.copyAll :: t) :: r →
      Step s { s with disk := { s.disk with root := root } }
  | copyAll {s l r t} : s.procs = l ++ (.copyAll :: t) :: r →
      Step s { s with disk := { s.disk with root := some w.copied }, procs := l ++ t :: r }
  | writeRecord {s l r t} : s.procs = l ++ (.writeRecord :: t) :: r →
      Step s { s with disk := { s.disk with record := true }, procs := l ++ t :: r }
  | copySrcPart {s l r t root} (src : Option w.Src) : s.procs = l ++ (.copySrc :: t) :: r → s.disk.root = some root →
      Step s { s with disk := { s.disk with root := some { root with src := src } } }
  | copySrc {s l r t root} : s.procs = l ++ (.copySrc :: t) :: r → s.disk.root = some root →
      Step s { s with disk := { s.disk with root := some { root with src := some w.src } }, procs := l ++ t :: r }
  /-- without sources or working programs there is an error (`kill`) -/
  | patchStart {s l r t v fp skip root src tools} : s.procs = l ++ (.patch v fp skip :: t) :: r → s.disk.root = some root →
      root.src = some src → root.tools = some tools → w.works tools = true →
      Step s { s with procs := l ++ (.patching (w.patch v fp src) skip :: t) :: r }
  /-- the sources may be anything; a program that has been built is moved to its place when it is complete (`go build -o`),
      so that there are programs that work -/
  | patchPart {s l r t new skip root} (src : Option w.Src) (tools : w.Tools) :
      s.procs = l ++ (.patching new skip :: t) :: r → s.disk.root = some root → w.works tools = true →
      Step s { s with disk := { s.disk with root := some { root with src := src, tools := some tools } } }
  | patch {s l r t new skip root} : s.procs = l ++ (.patching new skip :: t) :: r → s.disk.root = some root →
      Step s { s with
        disk := { s.disk with root := some { root with
          src := some new, tools := if skip then root.tools else some (w.build new) } },
        procs := l ++ t :: r }
  | truncate {s l r t} : s.procs = l ++ (.truncate :: t) :: r →
      Step s { s with disk := { s.disk with revision := some [] }, procs := l ++ t :: r }
  | write {s l r t v} : s.procs = l ++ (.write v :: t) :: r →
      Step s { s with disk := { s.disk with revision := some v }, procs := l ++ t :: r }
  | use {s l r t v f did} : s.procs = l ++ (.use v f did :: t) :: r →
      Step s { s with used := s.used ++ [{ version := v, flags := f, did := did, root := s.disk.root }], procs := l ++ t :: r }

inductive Steps {w : World} : State w → State w → Prop where
  | refl {s} : Steps s s
  | step {s t u} : Steps s t → Step t u → Steps s u

end Verif.Cmd.Setup
