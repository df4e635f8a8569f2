/-
Specification vocabulary for C07, C08, C10-C14: predicates on the observable event log only.
-/
import Verif.Runtime.Exec

namespace Verif.Runtime.Exec

/-- a user hook (pre hook, mock or post hook) begins -/
def Ev.isOpen : Ev → Bool
  | .pre .. | .mock .. | .post .. => true
  | _ => false

/-- a user hook ends, normally or by a panic -/
def Ev.isClose : Ev → Bool
  | .preEnd .. | .mockEnd .. | .postEnd .. | .hookPanic .. => true
  | _ => false

/-- number of hooks begun and not ended after the events `l` -/
def openHooks (l : List Ev) : Int := l.countP Ev.isOpen - l.countP Ev.isClose

/-- a hook of a general interceptor begins -/
def Ev.isGeneral : Ev → Bool
  | .pre _ g _ _ | .post _ g _ _ => g
  | _ => false

/-- some implementation of call `c` is chosen: the original body, a mock, or an abort by a pre hook -/
def Ev.isImpl (c : Nat) : Ev → Bool
  | .orig c' | .mock c' _ | .abort c' _ => c' == c
  | _ => false

/-- number of implementations of call `c` that were run -/
def implCount (c : Nat) (l : List Ev) : Nat := l.countP (Ev.isImpl c)

def Ev.isPreOf (c : Nat) : Ev → Bool
  | .pre c' _ _ _ => c' == c
  | _ => false

def Ev.isPostOf (c : Nat) : Ev → Bool
  | .post c' _ _ _ => c' == c
  | _ => false

/-- The post hook that a well behaved framework owes to a handler whose pre hook returned `d`. -/
def owed (c : Nat) (g : Bool) (h : Handler) (d : Option Nat) : List Ev :=
  if h.hasPost then [.post c g h.id d] else []

/-- `Onion c A pres posts`: `pres` are the pre hooks of call `c` for the applicable handlers `A` in
    order, up to the one that aborts the call if any, and `posts` is the list of post hooks owed to the handlers
    that did not abort, in the same order, each with its own data. -/
inductive Onion (c : Nat) : List (Bool × Handler) → List Ev → List Ev → Prop where
  | nil : Onion c [] [] []
  | noPre {g h A es ps} : h.hasPre = false → Onion c A es ps → Onion c ((g, h) :: A) es (owed c g h none ++ ps)
  | pre {g h A es ps} (d : Nat) : h.hasPre = true → Onion c A es ps →
      Onion c ((g, h) :: A) (.pre c g h.id d :: es) (owed c g h (some d) ++ ps)
  | abort {g h A} (d : Nat) : h.hasPre = true → Onion c ((g, h) :: A) [.pre c g h.id d] []

/-- The handlers applicable to a call of `fn` on `recv`: recorders of `fn` that are unbound or bound to this very
    receiver, then, if no hook is running, the general interceptors. -/
def applicable (E : Env) (fn : Nat) (recv : Option Nat) (inHook : Bool) : List (Bool × Handler) :=
  ((E.recorders fn).filter fun h => h.want = none ∨ h.want = recv).map (fun h => (false, h)) ++
  (if inHook then [] else E.interceptors.map fun h => (true, h))

/-- An open call while scanning a log: its id, whether it has a trace entry, and whether that entry has been finished (with
    which panic flag). -/
structure Frame where
  cid : Nat
  traced : Bool
  finished : Option Bool
  deriving DecidableEq, Repr

/-- id of the innermost traced call among the open calls -/
def nearest : List Frame → Option Nat
  | [] => none
  | f :: fs => if f.traced then some f.cid else nearest fs

/-- Scan of a log with the stack of open calls: every trace entry must belong to the innermost open call, be the only
    one, and have the innermost traced enclosing call as parent; every traced call must be finished before it returns,
    and be marked as panicked iff it returns by panicking. `none` = the log does not describe the call tree. -/
def scan : List Frame → List Ev → Option (List Frame)
  | fs, [] => some fs
  | fs, .call c _ _ :: l => scan (⟨c, false, none⟩ :: fs) l
  | f :: fs, .entry c p :: l =>
    if f.cid = c ∧ f.traced = false ∧ p = nearest fs then scan (⟨c, true, none⟩ :: fs) l else none
  | f :: fs, .finish c b :: l =>
    if f.cid = c ∧ f.traced = true ∧ f.finished = none then scan (⟨c, true, some b⟩ :: fs) l else none
  | f :: fs, .callEnd c b :: l =>
    if f.cid = c ∧ (f.traced = true → f.finished = some b) then scan fs l else none
  | [], .entry .. :: _ | [], .finish .. :: _ | [], .callEnd .. :: _ => none
  | fs, .pre .. :: l | fs, .preEnd .. :: l | fs, .abort .. :: l | fs, .mock .. :: l | fs, .mockEnd .. :: l
  | fs, .orig .. :: l | fs, .post .. :: l | fs, .postEnd .. :: l | fs, .nilPost .. :: l
  | fs, .hookPanic .. :: l => scan fs l

end Verif.Runtime.Exec
