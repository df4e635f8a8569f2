/-
Model of coverage profiles: parsing, printing, merging.

Source: support/coverage/parse.go, format.go, merge.go
-/
import Verif.Support.GoVersion

namespace Verif.Support.Coverage
open GoVersion (parseInt64 splitOn itoa)

/-- `CovLine` (parse.go:8-11). -/
structure CovLine where
  pfx : Str
  count : Int64
  deriving DecidableEq

/-- `unicode.IsSpace`, used by `strings.TrimSpace`. -/
def isSpace (c : Char) : Bool :=
  let n := c.toNat
  (9 ≤ n && n ≤ 13) || n == 32 || n == 0x85 || n == 0xA0 || n == 0x1680 || (0x2000 ≤ n && n ≤ 0x200a) ||
    n == 0x2028 || n == 0x2029 || n == 0x202f || n == 0x205f || n == 0x3000

/-- `strings.TrimSpace`. -/
def trimSpace (s : Str) : Str := ((s.dropWhile isSpace).reverse.dropWhile isSpace).reverse

/-- `ParseCovLine` (parse.go:32-45): cut at the last space; a count that is not a number is read as 0. -/
def parseCovLine (line : Str) : Option CovLine :=
  if ' ' ∉ line then none
  else
    let count := (line.reverse.takeWhile (· != ' ')).reverse
    let pfx := ((line.reverse.dropWhile (· != ' ')).drop 1).reverse
    some ⟨pfx, match parseInt64 count with | none => 0 | some n => Int64.ofInt n⟩

/-- `Parse` (parse.go:15-30). -/
def parse (content : Str) : Str × List CovLine :=
  match splitOn '\n' [] content with
  | [] => ([], [])
  | first :: rest =>
    if ("mode:".toList).isPrefixOf first then
      (trimSpace (first.drop 5), rest.filterMap parseCovLine)
    else ([], (first :: rest).filterMap parseCovLine)

/-- `strings.Join(l, "\n")`. -/
def joinLines : List Str → Str
  | [] => []
  | [s] => s
  | s :: l => s ++ '\n' :: joinLines l

/-- `Format` (format.go:15-22). -/
def format (mode : Str) (lines : List CovLine) : Str :=
  joinLines (("mode: ".toList ++ mode) :: lines.map fun l => l.pfx ++ ' ' :: itoa l.count.toInt)

/-! Merging works on pointers: the model has a heap of lines. -/

/-- The memory: what each `*CovLine` points to. -/
abbrev Heap := Nat → CovLine

/-- State of a merge: memory, the map `lineByPrefix`, the result slice. -/
structure St where
  heap : Heap
  byPfx : List (Str × Nat)
  dst : List Nat

/-- One round of the loops of `compact` (parse.go:58-69) and `doMerge` (merge.go:34-43), which do the same.
    Simplification: slices are values. (`compact` and the appends of `doMerge` reuse the array of the first
    argument, so the caller's first slice may change; this is not modelled.) -/
def step (s : St) (ptr : Nat) : St :=
  match s.byPfx.lookup (s.heap ptr).pfx with
  | some prev =>
    { s with heap := fun q => if q = prev then { s.heap prev with count := (s.heap prev).count + (s.heap ptr).count } else s.heap q }
  | none => { s with byPfx := ((s.heap ptr).pfx, ptr) :: s.byPfx, dst := s.dst ++ [ptr] }

/-- `Compact` (parse.go:50-52): the memory afterwards and the result. -/
def compact (heap : Heap) (lines : List Nat) : Heap × List Nat :=
  let s := lines.foldl step ⟨heap, [], []⟩
  (s.heap, s.dst)

/-- `Merge` (merge.go:5-19). -/
def merge (heap : Heap) : List (List Nat) → Heap × List Nat
  | [] => (heap, [])
  | [c] => compact heap c
  | c :: cs =>
    let s := cs.foldl (fun s src => src.foldl step s) (c.foldl step ⟨heap, [], []⟩)
    (s.heap, s.dst)

/-- `Filter` (merge.go:21-31). Simplification as above: slices are values. -/
def filter (covs : List CovLine) (check : CovLine → Bool) : List CovLine := covs.filter check

end Verif.Support.Coverage
