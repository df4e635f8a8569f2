/-
Specification of trapped functions: hooks that watch and replace functions, what they should see, and what a program with replaced
functions is.
-/
import Verif.Runtime.Defer

namespace Verif.Runtime.Defer

variable {S F V P H : Type}

/-- Code that a user writes: without traps. -/
inductive Plain : Code S F V P → Prop
  | done : Plain .done
  | prim {g rest} : Plain rest → Plain (.prim g rest)
  | ite {b t e rest} : Plain t → Plain e → Plain rest → Plain (.ite b t e rest)
  | loop {b body rest} : Plain body → Plain rest → Plain (.loop b body rest)
  | call {f x k rest} : Plain rest → Plain (.call f x k rest)
  | deferLit {d rest} : Plain d → Plain rest → Plain (.deferLit d rest)
  | deferCall {f x rest} : Plain rest → Plain (.deferCall f x rest)
  | recover {k rest} : Plain rest → Plain (.recover k rest)
  | ret : Plain .ret
  | goexit : Plain .goexit

/-- Hooks of the functions: `on` says which functions have recorders, interceptors or are traced; `enter` and `leave` is what these do with
    their own memory, the second is told whether a panic is seen; `mock` is what replaces a function. -/
structure Hooks (S F V H : Type) where
  on : Nat → Bool
  enter : Nat → S → F → H → H
  leave : Nat → S → F → Bool → H → H
  mock : Nat → Option (S → F → S × F × Option V)

/-- What the trap does with such hooks (trap.go:153-205, 233-263, 338-449): the pre hooks run first, then the mock, which makes the call
    stop; post hooks and tracing are done in the post function. -/
def Hooks.trap (W : Hooks S F V H) : Trap S F V Nat H where
  trap f s fr h :=
    let h := if W.on f then W.enter f s fr h else h
    let post := if W.on f then some f else none
    match W.mock f with
    | none => (s, fr, h, .inr (post, false))
    | some m =>
      match m s fr with
      | (s, fr, none) => (s, fr, h, .inr (post, true))
      | (s, fr, some v) => (s, fr, h, .inl v)
  post f panicking s fr h := (s, fr, W.leave f s fr panicking h, none)

/-- The program in which replaced functions have the body of what replaces them. -/
def replaced (sel : Nat → Bool) (W : Hooks S F V H) (prog : Nat → Code S F V P) (f : Nat) : Code S F V P :=
  match if sel f then W.mock f else none with
  | none => prog f
  | some m => .prim m .done

/-- Who sees each call of the selected functions from outside: at the very begin, and after all that the function deferred has run.
    `panicking`: it is left by a panic, or a panic is on already. -/
def watching (sel : Nat → Bool) (W : Hooks S F V H) : Observer S F V H where
  enter f s fr h := if sel f && W.on f then W.enter f s fr h else h
  leave f s fr st on h := if sel f && W.on f then W.leave f s fr (st.panic.isSome || (!st.exit && on)) h else h

/-- What a call did to the program. -/
def view (r : Res S F V H) : S × F × Bool × Status V := (r.s, r.f, r.recovered, r.status)

/-! ### Logs -/

/-- What is logged: a call begins with this frame, a call ends with that frame. -/
inductive Ev (F : Type)
  | enter (f : Nat) (x : F)
  | leave (f : Nat) (x : F) (panicked : Bool)
deriving DecidableEq

/-- Hooks that log the calls. -/
def logging (on : Nat → Bool) (mock : Nat → Option (S → F → S × F × Option V)) : Hooks S F V (List (Ev F)) where
  on := on
  enter f _ x l := l ++ [.enter f x]
  leave f _ x p l := l ++ [.leave f x p]
  mock := mock

/-- Logs in which each call that begins ends, the inner ones before the outer ones. -/
inductive Nested : List (Ev F) → Prop
  | nil : Nested []
  | call {f x inner y p rest} : Nested inner → Nested rest → Nested (.enter f x :: inner ++ .leave f y p :: rest)

end Verif.Runtime.Defer
