/-
Model of the hooks that xgo adds to the `runtime` package of the instrumented GOROOT: the traps, the registration of
instrumented functions, the callbacks on the end of initialisation and on the creation and the end of goroutines, and the
state xgo keeps in every `g` struct.

Source: patches/go1.24/src/runtime/xgo_trap.go (the files for go1.25, go1.26 and go1.27 are equal to it; for older releases
runtime/internal/runtime/xgo_trap_template.go is copied), patches/go1.24/src/runtime/proc.go.xgo.patch.
-/

namespace Verif.Runtime.Hooks

/-- Goroutines, `g` structs, callbacks, functions, handlers and traps are named by numbers. -/
abbrev Gid := Nat
abbrev Slot := Nat

/-- A function given to `OnInitFinished`: its name, and the functions that it gives to `OnInitFinished` when it runs. -/
inductive Cb where
  | mk (id : Nat) (body : List Cb)

def Cb.id : Cb → Nat
  | .mk i _ => i

def Cb.body : Cb → List Cb
  | .mk _ b => b

/-- The three traps (xgo_trap.go:26-29). -/
inductive Kind where
  | func | var | varPtr
  deriving DecidableEq

/-- What happens. `G` is the content of the `__xgo_g` of a goroutine (xgo_trap.go:79-83). -/
inductive Ev (G : Type) where
  /-- `XgoRegister` -/
  | register (f : Nat)
  /-- `XgoSetupRegisterHandler` -/
  | setup (h : Nat)
  /-- `XgoOnInitFinished`, outside of a callback of the same kind -/
  | onInit (cb : Cb)
  /-- `runtime.main` has run the package initialisers (patch `set_init_finished_mark`) -/
  | initDone
  /-- `XgoOnCreateG` -/
  | onCreate (c : Nat)
  /-- `XgoOnExitG` -/
  | onExit (c : Nat)
  /-- `go f()`: `newproc` (patch `add_go_newproc_callback_v2`); `p` is `m.curg`, `s` the struct `newproc1` allocated -/
  | create (p : Option Gid) (g : Gid) (s : Slot)
  /-- a goroutine made by another caller of `newproc1` than `newproc` -/
  | bare (g : Gid) (s : Slot)
  /-- a goroutine ends in `goexit1` (patch `add_go_exit1_callback`) -/
  | exit (g : Gid)
  /-- a goroutine ends without `goexit1` -/
  | vanish (g : Gid)
  /-- code run by `g` changes its own `__xgo_g` -/
  | write (g : Gid) (v : G)
  /-- `XgoSetTrap`, `XgoSetVarTrap`, `XgoSetVarPtrTrap` -/
  | setTrap (k : Kind) (t : Nat)
  /-- an instrumented function is called or an instrumented variable read: `XgoTrap`, `XgoTrapVar`, `XgoTrapVarPtr` -/
  | call (k : Kind) (f : Nat)

/-- What can be observed. -/
inductive Eff where
  /-- handler `h` is called for function `f` -/
  | handled (h f : Nat)
  /-- callback `c` runs; `finished` is what `InitFinished` returns to it -/
  | ran (c : Nat) (finished : Bool)
  | created (c : Nat) (p g : Gid)
  | exited (c : Nat) (g : Gid)
  | trapped (k : Kind) (t f : Nat)
  | plain (k : Kind) (f : Nat)
  /-- a panic -/
  | panic
  deriving DecidableEq

structure St (G : Type) where
  handler : Option Nat
  staging : List Nat
  onInit : List Cb
  finished : Bool
  onCreate : List Nat
  onExit : List Nat
  trap : Kind → Option Nat
  /-- the `__xgo_g` of every struct -/
  slots : Slot → G
  /-- the struct of every goroutine -/
  slotOf : Gid → Slot
  log : List Eff

/-- What callbacks do to the states of the two goroutines, and what the exit callbacks do to the state of the goroutine
    that ends. -/
structure Env (G : Type) where
  zero : G
  create : Nat → G → G → G × G
  exit : Nat → G → G

variable {G : Type}

/-- The package variables before the program starts. -/
def St.init (E : Env G) : St G where
  handler := none
  staging := []
  onInit := []
  finished := false
  onCreate := []
  onExit := []
  trap := fun _ => none
  slots := fun _ => E.zero
  slotOf := fun _ => 0
  log := []

def upd {A : Type} (f : Nat → A) (n : Nat) (v : A) : Nat → A := fun x => if x = n then v else f x

/-- `XgoRegister` (xgo_trap.go:211-217). -/
def St.register (s : St G) (f : Nat) : St G :=
  match s.handler with
  | some h => { s with log := s.log ++ [.handled h f] }
  | none => { s with staging := s.staging ++ [f] }

/-- `XgoSetupRegisterHandler` (xgo_trap.go:199-209). -/
def St.setup (s : St G) (h : Nat) : St G :=
  match s.handler with
  | some _ => { s with log := s.log ++ [.panic] }
  | none => { s with handler := some h, staging := [], log := s.log ++ s.staging.map (fun f => .handled h f) }

/-- The loop of `__xgo_callback_on_init_finished` (xgo_trap.go:232-234): a callback runs and gives its own functions to
    `XgoOnInitFinished` (xgo_trap.go:128-130). -/
def St.runInit : List Cb → St G → St G
  | [], s => s
  | cb :: rest, s =>
    St.runInit rest { s with onInit := s.onInit ++ cb.body, log := s.log ++ [.ran cb.id s.finished] }

/-- `__xgo_callback_on_init_finished` (xgo_trap.go:228-235). -/
def St.initDone (s : St G) : St G := St.runInit s.onInit { s with finished := true, onInit := [] }

/-- The loop of `__xgo_callback_on_create_g` (xgo_trap.go:275-277), with the pointers to the states of the two goroutines,
    which are two different structs. -/
def runCreate (E : Env G) (p g : Gid) (sp sg : Slot) : List Nat → St G → St G
  | [], s => s
  | c :: rest, s =>
    let r := E.create c (s.slots sp) (s.slots sg)
    runCreate E p g sp sg rest
      { s with slots := upd (upd s.slots sp r.1) sg r.2, log := s.log ++ [.created c p g] }

/-- `newproc` with `__xgo_callback_on_create_g` (xgo_trap.go:256-278). -/
def St.create (E : Env G) (s : St G) (p : Option Gid) (g : Gid) (sl : Slot) : St G :=
  let s1 := { s with slotOf := upd s.slotOf g sl, slots := upd s.slots sl E.zero }
  match p with
  | none => s1
  | some p => runCreate E p g (s.slotOf p) sl s.onCreate s1

/-- The loop of `__xgo_callback_on_exit_g` (xgo_trap.go:238-240). -/
def runExit (E : Env G) (g : Gid) (sg : Slot) : List Nat → St G → St G
  | [], s => s
  | c :: rest, s =>
    runExit E g sg rest { s with slots := upd s.slots sg (E.exit c (s.slots sg)), log := s.log ++ [.exited c g] }

/-- `goexit1` with `__xgo_callback_on_exit_g` (xgo_trap.go:237-254). -/
def St.exit (E : Env G) (s : St G) (g : Gid) : St G :=
  let s1 := runExit E g (s.slotOf g) s.onExit s
  { s1 with slots := upd s1.slots (s.slotOf g) E.zero }

/-- `XgoSetTrap` and the like (xgo_trap.go:52-71). -/
def St.setTrap (s : St G) (k : Kind) (t : Nat) : St G :=
  match s.trap k with
  | some _ => { s with log := s.log ++ [.panic] }
  | none => { s with trap := fun x => if x = k then some t else s.trap x }

/-- `XgoTrap` and the like (xgo_trap.go:31-50). -/
def St.call (s : St G) (k : Kind) (f : Nat) : St G :=
  match s.trap k with
  | some t => { s with log := s.log ++ [.trapped k t f] }
  | none => { s with log := s.log ++ [.plain k f] }

def step (E : Env G) (s : St G) : Ev G → St G
  | .register f => s.register f
  | .setup h => s.setup h
  | .onInit cb => { s with onInit := s.onInit ++ [cb] }
  | .initDone => s.initDone
  | .onCreate c => { s with onCreate := s.onCreate ++ [c] }
  | .onExit c => { s with onExit := s.onExit ++ [c] }
  | .create p g sl => s.create E p g sl
  | .bare g sl => { s with slotOf := upd s.slotOf g sl }
  | .exit g => s.exit E g
  | .vanish _ => s
  | .write g v => { s with slots := upd s.slots (s.slotOf g) v }
  | .setTrap k t => s.setTrap k t
  | .call k f => s.call k f

/-- A history, oldest event first. -/
def run (E : Env G) (h : List (Ev G)) : St G := h.foldl (step E) (St.init E)

/-- What the goroutine finds in its `__xgo_g` (`XgoGetCurG`, xgo_trap.go:85-93). -/
def stateOf (s : St G) (g : Gid) : G := s.slots (s.slotOf g)

end Verif.Runtime.Hooks
