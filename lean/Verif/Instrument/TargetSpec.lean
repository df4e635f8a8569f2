import Verif.Instrument.Target
/-
Specification for C67: which function, method or variable an expression of Go names, in which function bodies the question is
asked (the calls of `mock.Patch` etc. under Go's scoping rules), and the programs the theorems are about.
-/
namespace Verif.Instrument.Target

/-! ### Scopes of Go -/

/-- What a local name stands for. -/
inductive Bind
  /-- declared by `x := e` -/
  | short (e : Expr)
  /-- declared by `var x = e` -/
  | init (e : Expr)
  /-- parameter, or declared by `var x t` -/
  | typed (t : Expr)
  /-- any other local name: its type is not described here (range variables, variables of a multi-valued `:=`, local types) -/
  | opaque

abbrev Locals := List (List (String × Bind))

/-- Local names, one group per declaration, innermost first.  An expression in a group is evaluated outside of it. -/
structure Env where
  pkg : String
  imports : Imports
  locals : Locals := []

/-- the innermost declaration of a name, and what is visible in it -/
def look : Locals → String → Option (Bind × Locals)
  | [], _ => none
  | g :: rest, x => match g.lookup x with
    | some b => some (b, rest)
    | none => look rest x

/-- the predeclared names of Go -/
def predeclared : List String :=
  ["any", "bool", "byte", "comparable", "complex64", "complex128", "error", "float32", "float64", "int", "int8", "int16",
   "int32", "int64", "rune", "string", "uint", "uint8", "uint16", "uint32", "uint64", "uintptr", "true", "false", "iota",
   "nil", "append", "cap", "clear", "close", "complex", "copy", "delete", "imag", "len", "make", "max", "min", "new",
   "panic", "print", "println", "real", "recover"]

def Decl.env (p : String) (d : Decl) : Env := { pkg := p, imports := d.imports }

def Env.outer (env : Env) (l : Locals) : Env := { env with locals := l }

/-! ### Types and meanings -/

/-- Types: defined types are told apart by name, type literals by where they are written. -/
inductive GType
  | named (p n : String)
  | ptr (t : GType)
  | basic (n : String)
  | lit (env : Env) (e : Expr)

inductive Kind
  | type | value

/-- What can be said about an expression. -/
inductive Fact
  /-- it denotes the type, or a value of the type -/
  | is (k : Kind) (t : GType)
  /-- it is the package-level variable (or constant) `p.n` -/
  | var (p n : String)
  /-- it is the address of that variable -/
  | addr (p n : String)
  | func (p n : String)
  /-- the method `m` of the type `p.n`, of whatever receiver -/
  | method (p n m : String)
  | pkg (path : String)
  | builtin (n : String)

/-- name of an embedded field -/
def embedded : Expr → Option String
  | .ident x => some x
  | .sel _ f => some f
  | .star t => embedded t
  | .index t _ => embedded t
  | _ => none

inductive HasField : Fields → String → Expr → Prop
  | named {ns t rest f} : f ∈ ns → HasField (.cons ns t rest) f t
  | embedded {t rest f} : embedded t = some f → HasField (.cons [] t rest) f t
  | rest {ns t rest f t'} : HasField rest f t' → HasField (.cons ns t rest) f t'

/-- an untyped literal -/
def isLit : Expr → Bool
  | .lit _ => true
  | .paren x => isLit x
  | _ => false

mutual
/-- The rules of Go, as far as they are needed.  Selectors find what is declared for the type itself, not what is promoted from
    embedded fields. -/
inductive Is (P : Prog) : Env → Expr → Fact → Prop
  -- names
  | short {env x e l t} : look env.locals x = some (.short e, l) → Is P (env.outer l) e (.is .value t) →
      Is P env (.ident x) (.is .value t)
  | init {env x e l t} : look env.locals x = some (.init e, l) → Is P (env.outer l) e (.is .value t) →
      Is P env (.ident x) (.is .value t)
  | typed {env x e l t} : look env.locals x = some (.typed e, l) → Is P (env.outer l) e (.is .type t) →
      Is P env (.ident x) (.is .value t)
  | alias {env x e ms im t} : look env.locals x = none → P env.pkg x = some ⟨.typ true e ms, im⟩ →
      Is P { pkg := env.pkg, imports := im } e (.is .type t) → Is P env (.ident x) (.is .type t)
  | defined {env x e ms im} : look env.locals x = none → P env.pkg x = some ⟨.typ false e ms, im⟩ →
      Is P env (.ident x) (.is .type (.named env.pkg x))
  | var {env x e v im} : look env.locals x = none → P env.pkg x = some ⟨.var e v, im⟩ →
      Is P env (.ident x) (.var env.pkg x)
  | varType {env x e v im t} : look env.locals x = none → P env.pkg x = some ⟨.var (some e) v, im⟩ →
      Is P { pkg := env.pkg, imports := im } e (.is .type t) → Is P env (.ident x) (.is .value t)
  | varValue {env x v im t} : look env.locals x = none → P env.pkg x = some ⟨.var none (some v), im⟩ →
      Is P { pkg := env.pkg, imports := im } v (.is .value t) → Is P env (.ident x) (.is .value t)
  | func {env x ps rs im} : look env.locals x = none → P env.pkg x = some ⟨.func ps rs, im⟩ →
      Is P env (.ident x) (.func env.pkg x)
  | funcType {env x ps rs im} : look env.locals x = none → P env.pkg x = some ⟨.func ps rs, im⟩ →
      Is P env (.ident x) (.is .value (.lit { pkg := env.pkg, imports := im } (.funcT ps rs)))
  | imported {env x q} : look env.locals x = none → P env.pkg x = none → env.imports.lookup x = some q →
      Is P env (.ident x) (.pkg q)
  | builtin {env x} : look env.locals x = none → P env.pkg x = none → env.imports.lookup x = none →
      x ∈ predeclared → Is P env (.ident x) (.builtin x)
  -- selectors
  | qualified {env x q n d f} : Is P env x (.pkg q) → P q n = some d → Is P (d.env q) (.ident n) f → Is P env (.sel x n) f
  | method {env x k p n a e ms im m} : Is P env x (.is k (.named p n)) → P p n = some ⟨.typ a e ms, im⟩ →
      (ms.lookup m).isSome = true → Is P env (.sel x m) (.method p n m)
  | methodPtr {env x k p n a e ms im m} : Is P env x (.is k (.ptr (.named p n))) → P p n = some ⟨.typ a e ms, im⟩ →
      (ms.lookup m).isSome = true → Is P env (.sel x m) (.method p n m)
  | field {env x k t env' fs f e u} : Is P env x (.is k t) → Under P t (.lit env' (.structT fs)) → HasField fs f e →
      Is P env' e (.is .type u) → Is P env (.sel x f) (.is .value u)
  | fieldPtr {env x k t t' env' fs f e u} : Is P env x (.is k t) → Under P t (.ptr t') →
      Under P t' (.lit env' (.structT fs)) → HasField fs f e → Is P env' e (.is .type u) →
      Is P env (.sel x f) (.is .value u)
  -- operators
  | starType {env x t} : Is P env x (.is .type t) → Is P env (.star x) (.is .type (.ptr t))
  | starValue {env x t} : Is P env x (.is .value (.ptr t)) → Is P env (.star x) (.is .value t)
  | addr {env x t} : Is P env x (.is .value t) → Is P env (.addr x) (.is .value (.ptr t))
  | addrVar {env x p n} : Is P env x (.var p n) → Is P env (.addr x) (.addr p n)
  | neg {env x t} : Is P env x (.is .value t) → Is P env (.neg x) (.is .value t)
  | paren {env x f} : Is P env x f → Is P env (.paren x) f
  | arith {env x y t} : Is P env x (.is .value t) → Is P env (.binary .arith x y) (.is .value t)
  | arithLit {env x y t} : isLit x = true → Is P env y (.is .value t) → Is P env (.binary .arith x y) (.is .value t)
  | shift {env x y t} : Is P env x (.is .value t) → Is P env (.binary .shift x y) (.is .value t)
  -- calls, literals, instances
  | convert {env f args t} : Is P env f (.is .type t) → Is P env (.call f args) (.is .value t)
  | call {env f args t env' ps rs ns e u} : Is P env f (.is .value t) → Under P t (.lit env' (.funcT ps rs)) →
      rs = .cons ns e .nil → Is P env' e (.is .type u) → Is P env (.call f args) (.is .value u)
  | new {env f a t} : Is P env f (.builtin "new") → Is P env a (.is .type t) →
      Is P env (.call f (.cons a .nil)) (.is .value (.ptr t))
  | make {env f a args t} : Is P env f (.builtin "make") → Is P env a (.is .type t) →
      Is P env (.call f (.cons a args)) (.is .value t)
  | append {env f a args t} : Is P env f (.builtin "append") → Is P env a (.is .value t) →
      Is P env (.call f (.cons a args)) (.is .value t)
  | comp {env e elts t} : Is P env e (.is .type t) → Is P env (.comp e elts) (.is .value t)
  | funcLit {env ps rs body} : Is P env (.func ps rs body) (.is .value (.lit env (.funcT ps rs)))
  | instType {env x i t} : Is P env x (.is .type t) → Is P env (.index x i) (.is .type t)
  | instFunc {env x i p n} : Is P env x (.func p n) → Is P env (.index x i) (.func p n)
  | instFuncType {env x i p n t} : Is P env x (.func p n) → Is P env x (.is .value t) → Is P env (.index x i) (.is .value t)
  | instMethod {env x i p n m} : Is P env x (.method p n m) → Is P env (.index x i) (.method p n m)
  -- type literals
  | struct {env fs} : Is P env (.structT fs) (.is .type (.lit env (.structT fs)))
  | sig {env ps rs} : Is P env (.funcT ps rs) (.is .type (.lit env (.funcT ps rs)))
  | array {env b e} : Is P env (.arrayT b e) (.is .type (.lit env (.arrayT b e)))
  | map {env k v} : Is P env (.mapT k v) (.is .type (.lit env (.mapT k v)))
  | chan {env e} : Is P env (.chanT e) (.is .type (.lit env (.chanT e)))
  | iface {env} : Is P env .ifaceT (.is .type (.lit env .ifaceT))
/-- the underlying type -/
inductive Under (P : Prog) : GType → GType → Prop
  | named {p n e ms im t u} : P p n = some ⟨.typ false e ms, im⟩ → Is P { pkg := p, imports := im } e (.is .type t) →
      Under P t u → Under P (.named p n) u
  | ptr {t} : Under P (.ptr t) (.ptr t)
  | lit {env e} : Under P (.lit env e) (.lit env e)
  | basic {n} : Under P (.basic n) (.basic n)
end

/-- The expression names the target. -/
def Names (P : Prog) (env : Env) (e : Expr) : Target → Prop
  | .func p n => Is P env e (.func p n)
  | .method p n m => Is P env e (.method p n m)
  | .var p n => Is P env e (.addr p n)

/-! ### Where targets are named -/

/-- The functions of the runtime whose first argument is a target. -/
def hooks : List (String × String) :=
  [("github.com/xhd2015/xgo/runtime/mock", "Patch"), ("github.com/xhd2015/xgo/runtime/mock", "Mock"),
   ("github.com/xhd2015/xgo/runtime/trap", "AddFuncInterceptor"), ("github.com/xhd2015/xgo/runtime/trap", "MarkIntercept"),
   ("github.com/xhd2015/xgo/runtime/trace", "Record"), ("github.com/xhd2015/xgo/runtime/trace", "RecordCall"),
   ("github.com/xhd2015/xgo/runtime/trace", "RecordResult"), ("github.com/xhd2015/xgo/runtime/functab", "InfoFunc"),
   ("github.com/xhd2015/xgo/runtime/functab", "InfoVar")]

/-- The functions that ask for all functions to be intercepted. -/
def hooksAll : List (String × String) :=
  [("github.com/xhd2015/xgo/runtime/trap", "AddInterceptor"), ("github.com/xhd2015/xgo/runtime/trap", "MarkInterceptAll")]

/-- the package and the name of a qualified callee -/
def callee (P : Prog) (env : Env) : Expr → Option (String × String)
  | .sel (.ident x) m =>
    if (look env.locals x).isSome ∨ (P env.pkg x).isSome then none
    else (env.imports.lookup x).map fun q => (q, m)
  | _ => none

/-- A call of interest: one that names a target, with its scope and the expression; or one that asks for all (with arguments or
    not). -/
inductive Occ
  | target (env : Env) (e : Expr)
  | all (args : Bool)

def callOcc (P : Prog) (env : Env) (f : Expr) (args : Exprs) : List Occ :=
  match callee P env f with
  | none => []
  | some h =>
    if h ∈ hooksAll then [.all (match args with | .nil => false | .cons .. => true)]
    else if h ∈ hooks then match args with
      | .cons a _ => [.target env a]
      | .nil => []
    else []

/-- add a group of local names -/
def Env.bind (env : Env) (g : List (String × Bind)) : Env := { env with locals := g :: env.locals }

/-- the names of a `:=`, a `var` declaration or a parameter list that are declared: not the blank name -/
def blank (x : String) : Bool := x = "_" || x = ""

def bindParams : Fields → List (String × Bind)
  | .nil => []
  | .cons ns t rest => ((ns.filter fun x => !blank x).map fun x => (x, .typed t)) ++ bindParams rest

/-- `lhs := rhs` declares those names on the left that are not declared in the same block already. -/
def bindDefine (cur : List String) (lhs : List String) (rhs : Exprs) : List (String × Bind) :=
  (if lhs.length = rhs.length then (lhs.zip rhs.toList).map fun (x, e) => (x, Bind.short e)
   else lhs.map fun x => (x, Bind.opaque)).filter fun (x, _) => !blank x && !cur.contains x

def bindVar (names : List String) (t : Option Expr) (vals : Exprs) : List (String × Bind) :=
  (match t with
   | some t => names.map fun x => (x, Bind.typed t)
   | none => if names.length = vals.length then (names.zip vals.toList).map fun (x, e) => (x, Bind.init e)
     else names.map fun x => (x, Bind.opaque)).filter fun (x, _) => !blank x

def bindOpaque (names : List String) : List (String × Bind) := (names.filter fun x => !blank x).map fun x => (x, .opaque)

/-- The scope after a statement, with the names declared in the block so far. -/
def envS (env : Env) (cur : List String) : Stmt → Env × List String
  | .define _ lhs rhs => (env.bind (bindDefine cur lhs rhs), lhs ++ cur)
  | .varDecl names t vals => (env.bind (bindVar names t vals), names ++ cur)
  | .typeDecl n _ _ => (env.bind (bindOpaque [n]), n :: cur)
  | _ => (env, cur)

def envSs (env : Env) (cur : List String) : Stmts → Env × List String
  | .nil => (env, cur)
  | .cons s ss => let r := envS env cur s
    envSs r.1 r.2 ss

mutual
/-- the calls of interest in an expression -/
def occE (P : Prog) (env : Env) : Expr → List Occ
  | .sel x _ => occE P env x
  | .star x => occE P env x
  | .addr x => occE P env x
  | .neg x => occE P env x
  | .paren x => occE P env x
  | .binary _ x y => occE P env x ++ occE P env y
  | .call f args => occE P env f ++ (callOcc P env f args ++ occEs P env args)
  | .comp _ elts => occEs P env elts
  | .index x i => occE P env x ++ occE P env i
  | .func ps rs body => occSs P (env.bind (bindParams ps ++ bindParams rs)) (ps.names ++ rs.names) body
  | .other es => occEs P env es
  | .ident _ => []
  | .lit _ => []
  | .funcT _ _ => []
  | .structT _ => []
  | .arrayT _ _ => []
  | .mapT _ _ => []
  | .chanT _ => []
  | .ifaceT => []
def occEs (P : Prog) (env : Env) : Exprs → List Occ
  | .nil => []
  | .cons e es => occE P env e ++ occEs P env es
def occS (P : Prog) (env : Env) : Stmt → List Occ
  | .exprs es => occEs P env es
  | .define _ _ rhs => occEs P env rhs
  | .varDecl _ _ vals => occEs P env vals
  | .typeDecl _ _ _ => []
  | .block body => occSs P env [] body
  | .ctl init es post body els =>
    let e1 := envSs env [] init
    occSs P env [] init ++ (occEs P e1.1 es ++ (occSs P e1.1 e1.2 post ++ (occSs P e1.1 [] body ++ occSs P e1.1 [] els)))
  | .range names x body => occE P env x ++ occSs P (env.bind (bindOpaque names)) [] body
  | .clause names es body => occEs P env es ++ occSs P (env.bind (bindOpaque names)) [] body
def occSs (P : Prog) (env : Env) (cur : List String) : Stmts → List Occ
  | .nil => []
  | .cons s ss => occS P env s ++ occSs P (envS env cur s).1 (envS env cur s).2 ss
end

/-- the scope of a function's body -/
def Func.env (f : Func) : Env :=
  ({ pkg := f.pkg, imports := f.imports : Env }).bind (bindParams f.recv ++ bindParams f.ps ++ bindParams f.rs)

/-- the calls of interest in a function -/
def occs (P : Prog) (f : Func) : List Occ := occSs P f.env (f.recv.names ++ f.ps.names ++ f.rs.names) f.body

/-! ### The programs the theorems are about -/

mutual
/-- the names an expression uses, as far as its type depends on them -/
def used : Expr → List String
  | .ident x => [x]
  | .sel x _ => used x
  | .star x => used x
  | .addr x => used x
  | .neg x => used x
  | .paren x => used x
  | .binary _ x y => used x ++ used y
  | .call f args => used f ++ usedEs args
  | .comp t _ => used t
  | .index x i => used x ++ used i
  | .lit _ => []
  | .func _ rs _ => usedF rs
  | .funcT _ rs => usedF rs
  | .structT fs => usedF fs
  | .arrayT _ e => used e
  | .mapT _ _ => []
  | .chanT _ => []
  | .ifaceT => []
  | .other _ => []
def usedEs : Exprs → List String
  | .nil => []
  | .cons e es => used e ++ usedEs es
def usedF : Fields → List String
  | .nil => []
  | .cons _ t rest => used t ++ usedF rest
end

/-- Every name in it is declared (a program that compiles). -/
def Scoped (P : Prog) (env : Env) (names : List String) : Prop :=
  ∀ x ∈ names, (look env.locals x).isSome = true ∨ (P env.pkg x).isSome = true ∨ (env.imports.lookup x).isSome = true ∨
    x ∈ predeclared

/-- The name means something at package level: declared in the package, imported by one of its files, or predeclared. -/
def Global (P : Prog) (p : String) (im : Imports) (x : String) : Prop :=
  (P p x).isSome = true ∨ (im.lookup x).isSome = true ∨ x ∈ predeclared ∨
    ∃ n d, P p n = some d ∧ (d.imports.lookup x).isSome = true

/-- A file's imports: their names are not blank, not otherwise declared in the package (Go demands it) or predeclared, and stand for the
    same packages as in the other files of the package. -/
structure FileOk (P : Prog) (p : String) (im : Imports) : Prop where
  fresh : ∀ x q, im.lookup x = some q → blank x = false ∧ P p x = none ∧ x ∉ predeclared
  agree : ∀ n d, P p n = some d → ∀ x q q', im.lookup x = some q → d.imports.lookup x = some q' → q = q'

/-- a type literal -/
def typeLit : Expr → Bool
  | .star _ | .arrayT _ _ | .mapT _ _ | .chanT _ | .ifaceT | .funcT _ _ | .structT _ => true
  | _ => false

/-- A declaration: the names in it are declared, a defined type is defined by a type literal (not `type A B`), and methods are
    not declared by way of an alias of their type. -/
def DeclOk (P : Prog) (p : String) (d : Decl) : Prop :=
  match d.kind with
  | .typ a t ms => Scoped P (d.env p) (used t) ∧ if a then ms = [] else typeLit t = true
  | .var t v => (∀ e, t = some e → Scoped P (d.env p) (used e)) ∧ (∀ e, v = some e → Scoped P (d.env p) (used e))
  | .func _ rs => Scoped P (d.env p) (usedF rs)

structure ProgOk (P : Prog) : Prop where
  name : ∀ p n d, P p n = some d → blank n = false
  file : ∀ p n d, P p n = some d → FileOk P p d.imports
  decl : ∀ p n d, P p n = some d → DeclOk P p d

/-- some local variable of this name, visible or shadowed, was declared by a `:=` -/
def shortIn (l : Locals) (x : String) : Prop := ∃ g ∈ l, ∃ e, (x, Bind.short e) ∈ g

/-- there is a local name like that, visible or shadowed -/
def boundIn (l : Locals) (x : String) : Prop := ∃ g ∈ l, ∃ b, (x, b) ∈ g

/-- the names `:=` declares one by one -/
def shortNames : Stmts → List String
  | .nil => []
  | .cons (.define _ lhs rhs) ss => (if lhs.length = rhs.length then lhs else []) ++ shortNames ss
  | .cons _ ss => shortNames ss

mutual
/-- the names that `if`, `for` and `switch` statements declare for themselves by `:=` -/
def leaks : Stmt → List String
  | .ctl init _ post _ els =>
    (shortNames init ++ leaksSs init) ++ (shortNames post ++ leaksSs post) ++ (shortNames els ++ leaksSs els)
  | _ => []
def leaksSs : Stmts → List String
  | .nil => []
  | .cons s ss => leaks s ++ leaksSs ss
end

/-- A parameter, `var`, range variable or local type: its name is not global, and it shadows no variable that was declared by
    `:=`, not even one of an `if`, `for` or `switch` statement that is over (`lk`). -/
def Fresh (P : Prog) (env : Env) (lk : List String) (names : List String) : Prop :=
  ∀ x ∈ names, blank x = false → ¬ Global P env.pkg env.imports x ∧ ¬ shortIn env.locals x ∧ x ∉ lk

/-- `lhs := rhs`: the names are not global; if it is not multi-valued then either they are new, shadowing nothing, or it is
    `x := x` with a variable that was not declared by `:=`. -/
def DefineOk (P : Prog) (env : Env) (lk : List String) (lhs : List String) (rhs : Exprs) : Prop :=
  (∀ x ∈ lhs, blank x = false → ¬ Global P env.pkg env.imports x) ∧
  ((lhs.length ≠ rhs.length ∧ rhs.length ≠ 0) ∨
   (lhs.length = rhs.length ∧ (lhs.filter fun x => !blank x).Nodup ∧ (∀ x ∈ lhs, blank x = false → ¬ boundIn env.locals x) ∧
     Scoped P env (usedEs rhs)) ∨
   ∃ x, blank x = false ∧ lhs = [x] ∧ rhs = .cons (.ident x) .nil ∧ ¬ shortIn env.locals x ∧ x ∉ lk)

/-- the expression of a call that names a target uses declared names -/
def CallOk (P : Prog) (env : Env) (f : Expr) (args : Exprs) : Prop :=
  ∀ e', .target env e' ∈ callOcc P env f args → Scoped P env (used e')

mutual
def SafeE (P : Prog) (env : Env) (lk : List String) : Expr → Prop
  | .sel x _ => SafeE P env lk x
  | .star x => SafeE P env lk x
  | .addr x => SafeE P env lk x
  | .neg x => SafeE P env lk x
  | .paren x => SafeE P env lk x
  | .binary _ x y => SafeE P env lk x ∧ SafeE P env lk y
  | .call f args => SafeE P env lk f ∧ CallOk P env f args ∧ SafeEs P env lk args
  | .comp _ elts => SafeEs P env lk elts
  | .index x i => SafeE P env lk x ∧ SafeE P env lk i
  | .func ps rs body => Fresh P env lk (ps.names ++ rs.names) ∧
      SafeSs P (env.bind (bindParams ps ++ bindParams rs)) (ps.names ++ rs.names) lk body
  | .other es => SafeEs P env lk es
  | .ident _ => True
  | .lit _ => True
  | .funcT _ _ => True
  | .structT _ => True
  | .arrayT _ _ => True
  | .mapT _ _ => True
  | .chanT _ => True
  | .ifaceT => True
def SafeEs (P : Prog) (env : Env) (lk : List String) : Exprs → Prop
  | .nil => True
  | .cons e es => SafeE P env lk e ∧ SafeEs P env lk es
def SafeS (P : Prog) (env : Env) (lk : List String) : Stmt → Prop
  | .exprs es => SafeEs P env lk es
  | .define _ lhs rhs => SafeEs P env lk rhs ∧ DefineOk P env lk lhs rhs
  | .varDecl names _ vals => SafeEs P env lk vals ∧ Fresh P env lk names
  | .typeDecl n _ _ => Fresh P env lk [n]
  | .block body => SafeSs P env [] lk body
  | .ctl init es post body els =>
    let e1 := envSs env [] init
    let l1 := lk ++ leaksSs init
    let l2 := l1 ++ shortNames post ++ leaksSs post
    SafeSs P env [] lk init ∧ SafeEs P e1.1 l1 es ∧ SafeSs P e1.1 e1.2 l1 post ∧ SafeSs P e1.1 [] l2 body ∧
      SafeSs P e1.1 [] l2 els
  | .range names x body => Fresh P env lk names ∧ SafeE P env lk x ∧ SafeSs P (env.bind (bindOpaque names)) [] lk body
  | .clause names es body => Fresh P env lk names ∧ occEs P env es = [] ∧ SafeSs P (env.bind (bindOpaque names)) [] lk body
def SafeSs (P : Prog) (env : Env) (cur : List String) (lk : List String) : Stmts → Prop
  | .nil => True
  | .cons s ss => SafeS P env lk s ∧ SafeSs P (envS env cur s).1 (envS env cur s).2 (lk ++ leaks s) ss
end

/-- is it a multi-valued `:=`, or `x := x`? -/
def multiDefine (lhs : List String) (rhs : Exprs) : Bool :=
  lhs.length != rhs.length || match lhs, rhs with
    | [x], .cons (.ident y) .nil => x == y
    | _, _ => false

mutual
/-- the names that a multi-valued `:=` or an `x := x` declares, anywhere -/
def multiE : Expr → List String
  | .sel x _ => multiE x
  | .star x => multiE x
  | .addr x => multiE x
  | .neg x => multiE x
  | .paren x => multiE x
  | .binary _ x y => multiE x ++ multiE y
  | .call f args => multiE f ++ multiEs args
  | .comp _ elts => multiEs elts
  | .index x i => multiE x ++ multiE i
  | .func _ _ body => multiSs body
  | .other es => multiEs es
  | .ident _ => []
  | .lit _ => []
  | .funcT _ _ => []
  | .structT _ => []
  | .arrayT _ _ => []
  | .mapT _ _ => []
  | .chanT _ => []
  | .ifaceT => []
def multiEs : Exprs → List String
  | .nil => []
  | .cons e es => multiE e ++ multiEs es
def multiS : Stmt → List String
  | .exprs es => multiEs es
  | .define _ lhs rhs => multiEs rhs ++ if multiDefine lhs rhs then lhs else []
  | .varDecl _ _ vals => multiEs vals
  | .typeDecl _ _ _ => []
  | .block body => multiSs body
  | .ctl init es post body els => multiSs init ++ (multiEs es ++ (multiSs post ++ (multiSs body ++ multiSs els)))
  | .range _ x body => multiE x ++ multiSs body
  | .clause _ es body => multiEs es ++ multiSs body
def multiSs : Stmts → List String
  | .nil => []
  | .cons s ss => multiS s ++ multiSs ss
end

/-- A function the theorems apply to: no local name is the name of something at package level, variables declared by `:=`
    neither shadow nor are shadowed (a variable of an `if`, `for` or `switch` statement counts for the rest of the block), and
    there are no calls of interest in the expressions of `case`. -/
structure Safe (P : Prog) (f : Func) : Prop where
  file : FileOk P f.pkg f.imports
  params : Fresh P { pkg := f.pkg, imports := f.imports } [] (f.recv.names ++ f.ps.names ++ f.rs.names)
  body : SafeSs P f.env (f.recv.names ++ f.ps.names ++ f.rs.names) [] f.body

/-! ### Targets that are named in a plain way -/

/-- the predeclared types, without `any`, `comparable`, `error`, `rune` and `uintptr` -/
def basics : List String :=
  ["string", "bool", "byte", "int", "int8", "int16", "int32", "int64", "uint", "uint8", "uint16", "uint32", "uint64",
   "float32", "float64", "complex64", "complex128"]

/-- Type expressions in package `p` made of predeclared types, types of the package that are not recursive (other than through
    a structure, a map, a channel, a function or an interface), and type literals. -/
inductive Known (P : Prog) (p : String) : Expr → Prop
  | basic {x} : x ∈ basics → P p x = none → Known P p (.ident x)
  | named {x a e ms im} : P p x = some ⟨.typ a e ms, im⟩ → Known P p e → Known P p (.ident x)
  | ptr {e} : Known P p e → Known P p (.star e)
  | array {b e} : Known P p e → Known P p (.arrayT b e)
  | struct {fs} : Known P p (.structT fs)
  | map {k v} : Known P p (.mapT k v)
  | chan {e} : Known P p (.chanT e)
  | func {ps rs} : Known P p (.funcT ps rs)
  | iface : Known P p .ifaceT

/-- `T`, `pkg.T`, `*T`, `(*T)`: the defined type `p.n`, or (`b`) a pointer to it -/
inductive TypeRef (P : Prog) : Env → Expr → Bool → String → String → Prop
  | name {env x e ms im} : look env.locals x = none → P env.pkg x = some ⟨.typ false e ms, im⟩ → Known P env.pkg e →
      TypeRef P env (.ident x) false env.pkg x
  | qualified {env x q n e ms im} : look env.locals x = none → env.imports.lookup x = some q →
      P q n = some ⟨.typ false e ms, im⟩ → Known P q e → TypeRef P env (.sel (.ident x) n) false q n
  | star {env e p n} : TypeRef P env e false p n → TypeRef P env (.star e) true p n
  | paren {env e b p n} : TypeRef P env e b p n → TypeRef P env (.paren e) b p n

/-- `T{...}`, `&T{...}`, `new(T)` -/
inductive Literal (P : Prog) : Env → Expr → Bool → String → String → Prop
  | comp {env e elts p n} : TypeRef P env e false p n → Literal P env (.comp e elts) false p n
  | addr {env e p n} : Literal P env e false p n → Literal P env (.addr e) true p n
  | new {env e p n} : look env.locals "new" = none → P env.pkg "new" = none → TypeRef P env e false p n →
      Literal P env (.call (.ident "new") (.cons e .nil)) true p n
  | paren {env e b p n} : Literal P env e b p n → Literal P env (.paren e) b p n

/-- A package variable declared as `var v T` or as `var v = T{...}`, and the like. -/
inductive VarOf (P : Prog) (p v : String) (im : Imports) : Bool → String → String → Prop
  | typed {e o b q n} : P p v = some ⟨.var (some e) o, im⟩ → TypeRef P { pkg := p, imports := im } e b q n → VarOf P p v im b q n
  | value {e b q n} : P p v = some ⟨.var none (some e), im⟩ → Literal P { pkg := p, imports := im } e b q n → VarOf P p v im b q n

/-- Such a literal, a variable of the same file or of another package declared with one or with such a type, or a local variable
    declared by `:=` with one; none of the local names in `mu`. -/
inductive ValueOf (P : Prog) (mu : List String) : Env → Expr → Bool → String → String → Prop
  | lit {env e b p n} : Literal P env e b p n → ValueOf P mu env e b p n
  | local {env x e l b p n} : look env.locals x = some (.short e, l) → x ∉ mu → ValueOf P mu (env.outer l) e b p n →
      ValueOf P mu env (.ident x) b p n
  | var {env x b p n} : look env.locals x = none → VarOf P env.pkg x env.imports b p n → ValueOf P mu env (.ident x) b p n
  | qualified {env x q v im b p n} : look env.locals x = none → env.imports.lookup x = some q → VarOf P q v im b p n →
      ValueOf P mu env (.sel (.ident x) v) b p n
  | addr {env e p n} : ValueOf P mu env e false p n → ValueOf P mu env (.addr e) true p n
  | star {env e p n} : ValueOf P mu env e true p n → ValueOf P mu env (.star e) false p n
  | paren {env e b p n} : ValueOf P mu env e b p n → ValueOf P mu env (.paren e) b p n

def hasMethodOf (P : Prog) (p n m : String) : Prop := ∃ e ms im, P p n = some ⟨.typ false e ms, im⟩ ∧ (ms.lookup m).isSome = true

/-- a variable with a type the code understands -/
def KnownVar (P : Prog) (p v : String) : Prop :=
  (∃ e o im, P p v = some ⟨.var (some e) o, im⟩ ∧ Known P p e) ∨ (∃ b im, P p v = some ⟨.var none (some (.lit (some b))), im⟩)

/-- A target that is named in a plain way: `F`, `pkg.F`, `T.M`, `(*T).M`, `pkg.T.M`, `v.M`, `&V`, `&pkg.V`. -/
inductive Plain (P : Prog) (mu : List String) : Env → Expr → Target → Prop
  | func {env x ps rs im} : look env.locals x = none → P env.pkg x = some ⟨.func ps rs, im⟩ →
      Plain P mu env (.ident x) (.func env.pkg x)
  | funcIn {env x q n ps rs im} : look env.locals x = none → env.imports.lookup x = some q → P q n = some ⟨.func ps rs, im⟩ →
      Plain P mu env (.sel (.ident x) n) (.func q n)
  | ofType {env e b p n m} : TypeRef P env e b p n → hasMethodOf P p n m → Plain P mu env (.sel e m) (.method p n m)
  | ofValue {env e b p n m} : ValueOf P mu env e b p n → hasMethodOf P p n m → Plain P mu env (.sel e m) (.method p n m)
  | var {env x} : look env.locals x = none → KnownVar P env.pkg x → Plain P mu env (.addr (.ident x)) (.var env.pkg x)
  | varIn {env x q v} : look env.locals x = none → env.imports.lookup x = some q → KnownVar P q v →
      Plain P mu env (.addr (.sel (.ident x) v)) (.var q v)

end Verif.Instrument.Target
