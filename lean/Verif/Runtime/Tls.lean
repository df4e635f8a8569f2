/-
Model of goroutine-local storage (package tls) and of the part of the patched Go runtime it rests on: the `__xgo_g` field
of the runtime's goroutine structs, which are reused.

Source: runtime/tls/tls.go, runtime/tls/hook.go, runtime/internal/runtime/g.go,
runtime/internal/runtime/xgo_trap_template.go
-/

namespace Verif.Runtime.Tls

/-- Goroutines, as seen by the program; never reused. -/
abbrev Gid := Nat
/-- The runtime's `g` structs; taken from a free list when a goroutine starts. -/
abbrev Slot := Nat
/-- Keys: the `n`-th key that was declared. -/
abbrev Key := Nat

/-- The map `gls` in a `__xgo_g` (g.go:8): `none` for a missing key. Simplification: a nil map and an empty one are the
    same (`Set` makes the map on demand, g.go:26-31). -/
abbrev Gls (V : Type) := Key → Option V

/-- The zero value `__xgo_g{}`. -/
def Gls.zero (V : Type) : Gls V := fun _ => none

/-- `Set` (g.go:26-31). -/
def Gls.set {V : Type} (m : Gls V) (k : Key) (v : V) : Gls V := fun x => if x = k then some v else m x

/-- The state: `keys` are the `inherit` flags of the declared keys (tls.go:14, 24-27), `hooked` is set when the package
    has registered its callback (hook.go:9-28), `slotOf` is the `g` struct of a goroutine. -/
structure St (V : Type) where
  keys : List Bool := []
  hooked : Bool := false
  slots : Slot → Gls V := fun _ => Gls.zero V
  slotOf : Gid → Slot := fun _ => 0

/-- What happens in a program. -/
inductive Ev (V : Type)
  /-- package tls is initialised -/
  | init
  /-- `Declare`, `DeclareInherit`, or `New()...Declare()` -/
  | declare (inherit : Bool)
  /-- `Set`, called in goroutine `g` -/
  | set (g : Gid) (k : Key) (v : V)
  /-- goroutine `child` is created by `parent` (none: by the runtime itself), in the struct `slot` -/
  | spawn (parent : Option Gid) (child : Gid) (slot : Slot)
  /-- goroutine `g` ends -/
  | exit (g : Gid)

/-- The loop of the callback (hook.go:15-26): `loc` is the number of the next key. -/
def inheritLoop {V : Type} (g1 : Gls V) : List Bool → Key → Gls V → Gls V
  | [], _, g2 => g2
  | inh :: rest, loc, g2 =>
    if !inh then inheritLoop g1 rest (loc + 1) g2
    else match g1 loc with
      | none => inheritLoop g1 rest (loc + 1) g2
      | some v => inheritLoop g1 rest (loc + 1) (g2.set loc v)

/-- `__xgo_callback_on_create_g` (xgo_trap_template.go:257-279) with the callback of hook.go:10-27. Simplification: other
    callbacks do not touch keys of this package. -/
def onCreate {V : Type} (s : St V) (parent : Option Gid) (slot : Slot) : Gls V :=
  match parent with
  | none => Gls.zero V
  | some p => if s.hooked then inheritLoop (s.slots (s.slotOf p)) s.keys 0 (Gls.zero V) else Gls.zero V

/-- One event. `Declare` (tls.go:63-72), `Set` (tls.go:82-84), goroutine creation, and
    `__xgo_callback_on_exit_g` (xgo_trap_template.go:237-255). -/
def step {V : Type} (s : St V) : Ev V → St V
  | .init => { s with hooked := true }
  | .declare inherit => { s with keys := s.keys ++ [inherit] }
  | .set g k v => { s with slots := fun x => if x = s.slotOf g then (s.slots x).set k v else s.slots x }
  | .spawn parent child slot =>
    { s with
      slots := fun x => if x = slot then onCreate s parent slot else s.slots x
      slotOf := fun g => if g = child then slot else s.slotOf g }
  | .exit g => { s with slots := fun x => if x = s.slotOf g then Gls.zero V else s.slots x }

/-- A program run; events in the order in which they happen. -/
def run {V : Type} (h : List (Ev V)) : St V := h.foldl step {}

/-- `GetOK` (tls.go:78-80), called in goroutine `g`; `Get` (tls.go:74-76) gives nil for a missing key. -/
def getOK {V : Type} (s : St V) (g : Gid) (k : Key) : Option V := s.slots (s.slotOf g) k

end Verif.Runtime.Tls
