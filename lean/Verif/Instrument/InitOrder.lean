/-
Model of what instrumentation does to the start of a package: which package-level variables and `init` functions it adds, where, and what
refers to them.

Source: instrument/compiler_extra/register.go:30-225 (what is declared); instrument/instrument_reg/instrument_reg.go:14-48 and
instrument/patch/init.go:13-41 (where); instrument/instrument_func/func_template.go:4 and instrument/instrument_var/var_template.go:10-33
(what refers to it); patch/link/link_ir.go:16-90 (what the runtime puts in).

Simplifications: `var a, b = f()` is one variable; a package is given by what its declarations refer to. Uses of variables say whether they
are rewritten, and to which getter (C59, C60).
-/
import Verif.Instrument.RegCode

namespace Verif.Instrument.InitOrder

/-- The variables declared for a file (register.go:194-215). -/
inductive Stub
  | register | trap | trapVar | trapVarPtr | pkg | file | fileForVar
deriving DecidableEq

/-- Package-level variables and functions: the user's, and those that are added. -/
inductive Name
  | var (v : Nat)
  | func (f : Nat)
  /-- `v_xgo_get` and `v_xgo_get_addr` (var_template.go:10-33) -/
  | getter (v : Nat) (addr : Bool)
  | stub (file : Nat) (k : Stub)
  /-- `__xgo_var_info_i_j` -/
  | infoVar (v : Nat)
  /-- `__xgo_func_info_i_j` -/
  | infoFunc (f : Nat)
  /-- `__xgo_intf_info_i_j` -/
  | infoIntf (t : Nat)
deriving DecidableEq

/-- What a declaration refers to: a function, or a variable; a use of a variable is left, or replaced by one of the getters. -/
inductive Ref
  | func (f : Nat)
  | var (v : Nat) (getter : Option Bool)

/-- A declaration that is not an import. -/
inductive Decl
  | vars (l : List Nat)
  | func (f : Nat)
  | init (k : Nat)
  | intf (t : Nat)
  | other

/-- A package: its files in the order in which they are compiled, what initial values and functions refer to, what is intercepted, and in
    which file things are declared. -/
structure Pkg where
  files : List (List Decl)
  varRefs : Nat → List Ref
  funcRefs : Nat → List Ref
  trapped : Nat → Bool
  intercepted : Nat → Bool
  homeFunc : Nat → Nat
  homeVar : Nat → Nat
  homeIntf : Nat → Nat

/-- The variables of a declaration. -/
def Decl.names : Decl → List Nat
  | .vars l => l
  | _ => []

/-- The variables of declarations, in order. -/
def names (ds : List Decl) : List Nat := (ds.map Decl.names).flatten

/-- The user's variables in the order of their declarations. -/
def Pkg.order (p : Pkg) : List Nat := (p.files.map names).flatten

/-- What is registered for a file (register.go:30-58). -/
def Pkg.infos (p : Pkg) (ds : List Decl) : List Name :=
  ((names ds).filter p.intercepted).map .infoVar ++
  (ds.filterMap fun d => match d with
    | .func f => if p.trapped f then some (.infoFunc f) else none
    | _ => none) ++
  (ds.filterMap fun d => match d with
    | .intf t => some (.infoIntf t)
    | _ => none)

/-- The variables added to file `i` (instrument_reg.go:14-41). -/
def Pkg.added (p : Pkg) (i : Nat) (ds : List Decl) : List Name :=
  if p.infos ds = [] then []
  else [Stub.register, .trap, .trapVar, .trapVarPtr, .pkg, .file, .fileForVar].map (.stub i) ++ p.infos ds

/-- The variables of an instrumented file: what is added comes behind the first declaration (init.go:13-41; instrument_reg.go:43-47). -/
def Pkg.fileOrder (p : Pkg) (i : Nat) (ds : List Decl) : List Name :=
  (names (ds.take 1)).map .var ++ p.added i ds ++ (names (ds.drop 1)).map .var

/-- The variables of the instrumented package in the order of their declarations. -/
def Pkg.order' (p : Pkg) : List Name := (p.files.zipIdx.map fun x => p.fileOrder x.2 x.1).flatten

/-- What a use refers to in the source. -/
def Ref.plain : Ref → Name
  | .func f => .func f
  | .var v _ => .var v

/-- What a use refers to when instrumented (trap_var.go:121-138). -/
def Pkg.use (p : Pkg) : Ref → Name
  | .func f => .func f
  | .var v g =>
    match if p.intercepted v then g else none with
    | none => .var v
    | some a => .getter v a

/-- What a variable or function refers to in the source. -/
def Pkg.refs (p : Pkg) : Name → List Name
  | .var v => (p.varRefs v).map Ref.plain
  | .func f => (p.funcRefs f).map Ref.plain
  | _ => []

/-- What a variable or function refers to when instrumented: a trapped function refers to the trap of its file and to its own info
    (func_template.go:4), getters to the trap, the info and the variable (var_template.go:10-33), an info to package and file and, for a
    variable, to that variable (register.go:76-180); the value of a function is set in an `init` function (register.go:148-160). -/
def Pkg.refs' (p : Pkg) : Name → List Name
  | .var v => (p.varRefs v).map p.use
  | .func f => (p.funcRefs f).map p.use ++ (if p.trapped f then [.stub (p.homeFunc f) .trap, .infoFunc f] else [])
  | .getter v a => [.stub (p.homeVar v) (if a then .trapVarPtr else .trapVar), .infoVar v, .var v]
  | .stub _ _ => []
  | .infoVar v => [.stub (p.homeVar v) .pkg, .stub (p.homeVar v) .fileForVar, .var v]
  | .infoFunc f => [.stub (p.homeFunc f) .pkg, .stub (p.homeFunc f) .file]
  | .infoIntf t => [.stub (p.homeIntf t) .pkg, .stub (p.homeIntf t) .file]

/-! ### `init` functions -/

/-- An `init` function: the user's, or those added to a file (register.go:61-74). -/
inductive Init
  | user (k : Nat)
  /-- sets the values of functions in the infos -/
  | values (file : Nat)
  /-- calls `__xgo_init_i()` and registers -/
  | register (file : Nat)
deriving DecidableEq

/-- The user's `init` functions among declarations. -/
def inits (ds : List Decl) : List Init := ds.filterMap fun d => match d with
  | .init k => some (.user k)
  | _ => none

/-- Whether a function of the file has a value in its info; `generic` says which have none (register.go:76-112). -/
def Pkg.hasValues (p : Pkg) (generic : Nat → Bool) (ds : List Decl) : Bool := ds.any fun d => match d with
  | .func f => p.trapped f && !generic f
  | _ => false

/-- The `init` functions of an instrumented file. -/
def Pkg.fileInits (p : Pkg) (generic : Nat → Bool) (i : Nat) (ds : List Decl) : List Init :=
  inits (ds.take 1) ++
  (if p.infos ds = [] then [] else (if p.hasValues generic ds then [.values i] else []) ++ [.register i]) ++
  inits (ds.drop 1)

/-- The `init` functions of the instrumented package in the order in which they run. -/
def Pkg.inits' (p : Pkg) (generic : Nat → Bool) : List Init := (p.files.zipIdx.map fun x => p.fileInits generic x.2 x.1).flatten

/-! ### Links -/

abbrev Str := List Char

/-- `links` (link_ir.go:16-33). -/
def links : List (Str × Str) :=
  [("trap_var_", "XgoTrapVar"), ("trap_varptr_", "XgoTrapVarPtr"), ("trap_", "XgoTrap"), ("register_", "XgoRegister")].map fun x =>
    (x.1.toList, x.2.toList)

/-- `findLink` (link_ir.go:35-42). -/
def findLink (name : Str) : Option Str := (links.find? fun l => l.1.isPrefixOf name).map (·.2)

/-- What `linkStmts` assigns to a variable in `__xgo_init_i` (link_ir.go:56-90); `none`: what stands there. -/
def link (var : Str) : Option Str :=
  if "__xgo_".toList.isPrefixOf var then findLink (var.drop 6) else none

/-- `LinkXgoInit` (link_ir.go:44-54): is this function looked at? -/
def linked (fn : Str) : Bool := "__xgo_init_".toList.isPrefixOf fn

end Verif.Instrument.InitOrder
