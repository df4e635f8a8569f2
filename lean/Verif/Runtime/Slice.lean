/-
The handler loops of `trap` iterate over a slice that may share its backing array with the registry. Hooks
running inside the loop may register and cancel. This file models slices with their backing arrays.

Sources: runtime/internal/trap/trap.go:139,157-175; trap/stack_data.go:126-196; trap/record.go:140-170
-/
namespace Verif.Runtime.Slice

/-- A Go slice of handler pointers: backing array and length. The capacity is the length of the backing
    array. (All slices here start at index 0 of their array.) -/
structure Slice where
  arr : Nat
  len : Nat
  deriving DecidableEq, Repr

/-- Memory of backing arrays; handlers are named by numbers. -/
structure Mem where
  arrays : Nat → List Nat
  next : Nat

def Mem.write (m : Mem) (a : Nat) (l : List Nat) : Mem :=
  { m with arrays := fun b => if b = a then l else m.arrays b }

/-- The contents of a slice. -/
def Mem.read (m : Mem) (s : Slice) : List Nat := (m.arrays s.arr).take s.len

/-- `append(s, x)`: in place if there is capacity, else into a new array whose spare room is
    given by `spare` (decided by the Go runtime). -/
def append (m : Mem) (s : Slice) (x spare : Nat) : Mem × Slice :=
  if s.len < (m.arrays s.arr).length then
    (m.write s.arr ((m.arrays s.arr).set s.len x), { s with len := s.len + 1 })
  else
    ({ m.write m.next (m.read s ++ x :: List.replicate spare 0) with next := m.next + 1 },
     ⟨m.next, s.len + 1⟩)

/-- `append(list[:i], list[i+1:]...)` (trap/record.go:164): shifts the tail one to the left, in place;
    the last cell keeps its old value. -/
def removeAt (m : Mem) (s : Slice) (i : Nat) : Mem × Slice :=
  let a := m.arrays s.arr
  let content := a.take s.len
  let shifted := content.take i ++ content.drop (i + 1)
  (m.write s.arr (shifted ++ a.drop (s.len - 1)), { s with len := s.len - 1 })

/-- What a hook does to the registry slice it is being iterated from: register a handler
    (`PushRecordHandler`, trap/record.go:150) or call the cancel function of one (155-168). -/
inductive Act where
  | push (h spare : Nat)
  | cancel (h : Nat)
  deriving DecidableEq, Repr

/-- Effect of an action on the memory and on the registry's slice `holder.recorder[pc]`. A cancel of something
    not registered panics; the model lets it do nothing. -/
def act (m : Mem) (reg : Slice) : Act → Mem × Slice
  | .push h spare => append m reg h spare
  | .cancel h =>
    let list := m.read reg
    if list.getLast? = some h then (m, { reg with len := reg.len - 1 })
    else
      match list.findIdx? (· == h) with
      | some i => removeAt m reg i
      | none => (m, reg)

def acts (m : Mem) (reg : Slice) (as : List Act) : Mem × Slice :=
  as.foldl (fun (p : Mem × Slice) a => act p.1 p.2 a) (m, reg)

/-- `for _, h := range recordHandlers` (trap/trap.go:157): the slice header is evaluated once, the
    elements are read when their turn comes. `beh h` is what the hook of `h` does to the
    registry. Returns the handlers visited. -/
def loop (beh : Nat → List Act) (s : Slice) : Nat → Nat → Mem → Slice → List Nat
  | _, 0, _, _ => []
  | i, fuel + 1, m, reg =>
    match (m.arrays s.arr)[i]? with
    | none => []
    | some h =>
      let (m', reg') := acts m reg (beh h)
      h :: loop beh s (i + 1) fuel m' reg'

/-- `getRecordHandlers` (trap/stack_data.go:126-142): a fresh copy if both goroutine-local and init-time
    handlers exist, else the registry's own slice. -/
def getHandlers (m : Mem) (loc glob : Slice) : Mem × Slice :=
  if glob.len > 0 && loc.len > 0 then
    ({ m.write m.next (m.read loc ++ m.read glob) with next := m.next + 1 }, ⟨m.next, loc.len + glob.len⟩)
  else if loc.len > 0 then (m, loc)
  else (m, glob)

/-- One call: which handlers get their turn. Hooks act on the goroutine's registry `loc`. -/
def visited (beh : Nat → List Act) (m : Mem) (loc glob : Slice) : List Nat :=
  let (m, s) := getHandlers m loc glob
  loop beh s 0 s.len m loc

end Verif.Runtime.Slice
