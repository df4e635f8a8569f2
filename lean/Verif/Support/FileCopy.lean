/-
Model of copying a directory: which entries are copied, the sequential copy, and the concurrent copy with worker
goroutines.

Source: support/filecopy/copy.go. Paths are lists of characters relative to the copied directory, with `/` as separator.
-/

namespace Verif.Support.FileCopy

abbrev Path := List Char

mutual
/-- An entry of the source directory. `other` is neither regular file, directory nor symbolic link. -/
inductive Node where
  | file (name : Path) (content : Path)
  | link (name : Path) (target : Path)
  | other (name : Path)
  | dir (name : Path) (children : Nodes)
/-- The entries of a directory, in the order in which `filepath.WalkDir` gives them. -/
inductive Nodes where
  | nil
  | cons (n : Node) (rest : Nodes)
end

/-- `Options` (copy.go:14-22), the fields that choose what is copied. -/
structure Options where
  ignoreSubPaths : List Path := []
  ignoreSuffix : List Path := []
  includeSuffix : List Path := []

/-- `filterSubPath` (copy.go:89-120). The code leaves it nil if all three lists are empty; it would accept everything
    then. -/
def Options.filter (o : Options) (sub : Path) (isDir : Bool) : Bool :=
  if o.ignoreSubPaths.any (fun p => p ≠ [] && p = sub) then false
  else if isDir then true
  else if o.includeSuffix ≠ [] && !o.includeSuffix.any (fun s => s ≠ [] && s.isSuffixOf sub) then false
  else if o.ignoreSuffix.any (fun s => s ≠ [] && s.isSuffixOf sub) then false
  else true

/-- What is done for an entry (copy.go:283-306). -/
inductive Action where
  | mkdir (path : Path)
  | symlink (path : Path) (target : Path)
  | copy (path : Path) (content : Path)
  deriving DecidableEq, Repr

/-- The path of an entry of a directory: `path[prefixLen:]` (copy.go:279) without the leading separator at the top. -/
def sub (parent name : Path) : Path := if parent = [] then name else parent ++ '/' :: name

mutual
/-- The callback of the walk for one entry (copy.go:271-307): refused directories are not entered (`filepath.SkipDir`).
    Simplification: the root's own `MkdirAll` (copy.go:276-278) is left out. -/
def walkNode (o : Options) (parent : Path) : Node → List Action
  | .file n c => if o.filter (sub parent n) false then [.copy (sub parent n) c] else []
  | .link n t => if o.filter (sub parent n) false then [.symlink (sub parent n) t] else []
  | .other _ => []
  | .dir n cs => if o.filter (sub parent n) true then .mkdir (sub parent n) :: walk o (sub parent n) cs else []
/-- `filepath.WalkDir` over a directory's entries. -/
def walk (o : Options) (parent : Path) : Nodes → List Action
  | .nil => []
  | .cons n rest => walkNode o parent n ++ walk o parent rest
end

/-! ### The target -/

inductive Entry where
  | dir
  | file (content : Path)
  | link (target : Path)
  deriving DecidableEq, Repr

/-- The target directory: what is at a path. Simplification: that a parent directory exists is not checked; the walk makes
    it before its entries. -/
abbrev Target := Path → Option Entry

def Target.set (t : Target) (p : Path) (e : Entry) : Target := fun q => if q = p then some e else t q

/-- One action; `none` is an error. `os.MkdirAll` (copy.go:289) accepts a directory that exists, `os.Symlink`
    (copy.go:302) nothing that exists, `copyFile` (copy.go:319-350) replaces the content of a file.
    Simplification: where there is a symbolic link, `MkdirAll` and `copyFile` follow it; the model counts this as an
    error, and no theorem is about it. -/
def act (t : Target) : Action → Option Target
  | .mkdir p =>
    match t p with
    | none => some (t.set p .dir)
    | some .dir => some t
    | some _ => none
  | .symlink p l =>
    match t p with
    | none => some (t.set p (.link l))
    | some _ => none
  | .copy p c =>
    match t p with
    | none => some (t.set p (.file c))
    | some (.file _) => some (t.set p (.file c))
    | some _ => none

/-- The walk with the copying done by the walk itself (copy.go:150-156): it stops at the first error. -/
def run (t : Target) : List Action → Target × Bool
  | [] => (t, true)
  | a :: as =>
    match act t a with
    | some t' => run t' as
    | none => (t, false)

/-- `Copy` for `concurrent <= 1` without `useLink` (copy.go:52-62, 78-156): `rm` says whether the target is removed first.
    The result says whether the error is nil. -/
def copyDir (o : Options) (rm : Bool) (src : Nodes) (t : Target) : Target × Bool :=
  run (if rm then fun _ => none else t) (walk o [] src)

/-! ### The concurrent copy (copy.go:158-223) -/

/-- What the walk has still to do: `own a` an action it does itself, `send f` a file it hands to the workers. -/
inductive Todo (α : Type) where
  | own (a : α)
  | send (f : α)
  deriving DecidableEq, Repr

/-- A worker goroutine (copy.go:173-203): waiting at `range ch`, copying, ended after an error, ended because the channel
    is closed and empty. -/
inductive Worker (α : Type) where
  | idle
  | busy (f : α)
  | failed
  | ended
  deriving DecidableEq, Repr

/-- The calling goroutine: in the walk, at `wg.Wait()` (the channel is closed), returned. An error is the action or file
    that failed. -/
inductive Main (α : Type) where
  | walking
  | waiting (err : Option α)
  | returned (err : Option α)
  deriving DecidableEq, Repr

/-- `queue` and `errs` are the channels `ch` and `errCh`. `done`, `bad` and `ownBad` record what has been copied, which
    copies and which own actions failed. -/
structure State (α : Type) where
  todo : List (Todo α)
  main : Main α := .walking
  queue : List α := []
  errs : List α := []
  workers : List (Worker α)
  done : List α := []
  bad : List α := []
  ownBad : List α := []
  deriving DecidableEq, Repr

/-- Interleaved steps; which of several possible steps happens, and which copies fail, is arbitrary. `cap` is the capacity
    of `ch` (10000); that of `errCh` is the number of workers. -/
inductive Step {α : Type} (cap : Nat) : State α → State α → Prop where
  /-- an own action of the walk succeeds (copy.go:289, 302) -/
  | own {s a t} : s.main = .walking → s.todo = .own a :: t → Step cap s { s with todo := t }
  /-- an own action fails and ends the walk (copy.go:218-221) -/
  | ownFail {s a t} : s.main = .walking → s.todo = .own a :: t →
      Step cap s { s with todo := t, main := .waiting (some a), ownBad := a :: s.ownBad }
  /-- `ch <- srcDstPair{src, dst}` (copy.go:207) -/
  | send {s f t} : s.main = .walking → s.todo = .send f :: t → s.queue.length < cap →
      Step cap s { s with todo := t, queue := s.queue ++ [f] }
  /-- `err := <-errCh` (copy.go:209-211) ends the walk -/
  | recvErr {s f t e es} : s.main = .walking → s.todo = .send f :: t → s.errs = e :: es →
      Step cap s { s with main := .waiting (some e), errs := es }
  /-- the walk ends (copy.go:216-217) -/
  | walked {s} : s.main = .walking → s.todo = [] → Step cap s { s with main := .waiting none }
  /-- a worker takes a file (copy.go:180) -/
  | take {s f q l r} : s.queue = f :: q → s.workers = l ++ .idle :: r →
      Step cap s { s with queue := q, workers := l ++ .busy f :: r }
  /-- a worker ends at the end of the channel -/
  | finish {s l r} : s.main ≠ .walking → s.queue = [] → s.workers = l ++ .idle :: r →
      Step cap s { s with workers := l ++ .ended :: r }
  /-- a file is copied (copy.go:194) -/
  | copied {s f l r} : s.workers = l ++ .busy f :: r →
      Step cap s { s with workers := l ++ .idle :: r, done := f :: s.done }
  /-- copying fails (copy.go:196-200); `errCh <- err` waits while the channel is full -/
  | copyFail {s f l r} : s.workers = l ++ .busy f :: r → s.errs.length < s.workers.length →
      Step cap s { s with workers := l ++ .failed :: r, errs := s.errs ++ [f], bad := f :: s.bad }
  /-- `wg.Wait()` (copy.go:219), `return err` -/
  | ret {s e} : s.main = .waiting e → (∀ w ∈ s.workers, w = .failed ∨ w = .ended) →
      Step cap s { s with main := .returned e }

/-- Any number of steps. -/
inductive Steps {α : Type} (cap : Nat) : State α → State α → Prop where
  | refl {s} : Steps cap s s
  | step {s t u} : Steps cap s t → Step cap t u → Steps cap s u

/-- The state when the walk starts. -/
def start {α : Type} (todo : List (Todo α)) (numGo : Nat) : State α :=
  { todo := todo, workers := List.replicate numGo .idle }

end Verif.Support.FileCopy
