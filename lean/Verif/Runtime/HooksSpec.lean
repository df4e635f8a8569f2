/-
What is expected of the hooks (C78), in terms of the history only.
-/
import Verif.Runtime.Hooks

namespace Verif.Runtime.Hooks

variable {G : Type}

/-! ### Registration -/

/-- The functions registered, in order. -/
def registered : List (Ev G) → List Nat
  | [] => []
  | .register f :: h => f :: registered h
  | _ :: h => registered h

/-- The first handler set. -/
def firstHandler : List (Ev G) → Option Nat
  | [] => none
  | .setup x :: _ => some x
  | _ :: h => firstHandler h

/-- The calls of handlers. -/
def handlings : List Eff → List (Nat × Nat)
  | [] => []
  | .handled h f :: l => (h, f) :: handlings l
  | _ :: l => handlings l

/-! ### The end of initialisation -/

/-- The functions given to `OnInitFinished`, in order. -/
def initHooks : List (Ev G) → List Nat
  | [] => []
  | .onInit cb :: h => cb.id :: initHooks h
  | _ :: h => initHooks h

def isDone : Ev G → Bool
  | .initDone => true
  | _ => false

/-- The callbacks run, with what `InitFinished` returns in them. -/
def inits : List Eff → List (Nat × Bool)
  | [] => []
  | .ran c b :: l => (c, b) :: inits l
  | _ :: l => inits l

/-! ### Traps -/

/-- The first trap set of a kind. -/
def firstTrap (k : Kind) : List (Ev G) → Option Nat
  | [] => none
  | .setTrap k' t :: h => if k' = k then some t else firstTrap k h
  | _ :: h => firstTrap k h

/-! ### Goroutines -/

/-- The callbacks for new goroutines, in order. -/
def createHooks : List (Ev G) → List Nat
  | [] => []
  | .onCreate c :: h => c :: createHooks h
  | _ :: h => createHooks h

def exitHooks : List (Ev G) → List Nat
  | [] => []
  | .onExit c :: h => c :: exitHooks h
  | _ :: h => exitHooks h

/-- What a list of callbacks makes of the states of the creator and of the new goroutine. -/
def applyHooks (E : Env G) : List Nat → G × G → G × G
  | [], x => x
  | c :: cs, x => applyHooks E cs (E.create c x.1 x.2)

/-- The intended semantics: every goroutine has a state of its own, which is empty when the goroutine is made, before the
    callbacks of `XgoOnCreateG` run; no `g` structs. -/
structure Ideal (G : Type) where
  hooks : List Nat
  val : Gid → G

def Ideal.step (E : Env G) (i : Ideal G) : Ev G → Ideal G
  | .onCreate c => { i with hooks := i.hooks ++ [c] }
  | .create none g _ => { i with val := upd i.val g E.zero }
  | .create (some p) g _ =>
    { i with val := upd (upd i.val p (applyHooks E i.hooks (i.val p, E.zero)).1) g
                      (applyHooks E i.hooks (i.val p, E.zero)).2 }
  | .bare g _ => { i with val := upd i.val g E.zero }
  | .write g v => { i with val := upd i.val g v }
  | _ => i

def ideal (E : Env G) (h : List (Ev G)) : Ideal G := h.foldl (Ideal.step E) { hooks := [], val := fun _ => E.zero }

/-- Which goroutines exist, and in which struct: the latest creation of the goroutine, unless it has ended. -/
def place : List (Ev G) → Gid → Option Slot :=
  fun h g => h.foldl (fun r e =>
    match e with
    | .create _ g' s => if g' = g then some s else r
    | .bare g' s => if g' = g then some s else r
    | .exit g' => if g' = g then none else r
    | .vanish g' => if g' = g then none else r
    | _ => r) none

/-- Whether some goroutine left the struct without `goexit1` (and no goroutine made by `go` used it since). -/
def stale : List (Ev G) → Slot → Bool :=
  fun h s => (h.foldl (fun (r : (Gid → Option Slot) × Bool) e =>
    match e with
    | .create _ g' s' => (upd r.1 g' (some s'), if s' = s then false else r.2)
    | .bare g' s' => (upd r.1 g' (some s'), r.2)
    | .exit g' => (upd r.1 g' none, if r.1 g' = some s then false else r.2)
    | .vanish g' => (upd r.1 g' none, if r.1 g' = some s then true else r.2)
    | _ => r) ((fun _ => none), false)).2

/-- A history the Go scheduler can produce: only a goroutine that exists starts others, writes, or ends; a new goroutine has
    a new name and gets a struct that no other goroutine occupies. -/
def Sensible (h : List (Ev G)) : Prop :=
  ∀ pre e post, h = pre ++ e :: post →
    match e with
    | .create p g s =>
      (∀ q, p = some q → place pre q ≠ none) ∧ place pre g = none ∧ ∀ g', place pre g' ≠ some s
    | .bare g s => place pre g = none ∧ ∀ g', place pre g' ≠ some s
    | .exit g => place pre g ≠ none
    | .vanish g => place pre g ≠ none
    | .write g _ => place pre g ≠ none
    | _ => True

/-- All goroutines are made by `go`, or in a struct that was left through `goexit1`. -/
def CleanStarts (h : List (Ev G)) : Prop :=
  ∀ pre g s post, h = pre ++ .bare g s :: post → stale pre s = false

end Verif.Runtime.Hooks
