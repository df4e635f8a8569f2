/-
Model of how xgo finds the functions, methods and variables that are named as targets of `mock.Patch`, `mock.Mock`,
`trace.Record`, `trap.AddFuncInterceptor`, ...: /repo/instrument/resolve, files resolve.go, scope.go, stmt.go, expr.go,
block.go, decl.go, record.go, traverse.go and types/type.go.  What is found is recorded; functions of dependencies and
variables are instrumented only if they are recorded (instrument_func/trap.go:109-147, instrument_var/trap_var.go:47).

Simplifications:
* the table of results by syntax node (`ExprInfo`, resolve.go:37-52) serves here only to cut cycles (`vis`); otherwise an
  expression is resolved again whenever it is needed, in the scope it is needed in (as the code does the first time);
* what a selector with pointer receiver stores for the nodes inside it (resolve.go:627-639) is left out: it says which
  accessor is used (property C60), not what is recorded;
* type parameters, dot imports and labels are left out; `x[i, j]` is `x[i]`;
* a closure that resolves a type later (`LazyType`) has the scope as it was when the closure was made;
* `Literal` and `Value` (types/type.go:73-79) are one thing: both only have a type.
-/
namespace Verif.Instrument.Target

/-- operators of `BinaryExpr` as resolve.go:218-251 groups them -/
inductive Op
  | arith | shift | cmp | other
deriving DecidableEq

mutual
/-- Expressions, including type expressions (go/ast). -/
inductive Expr
  | ident (x : String)
  /-- `x.f` -/
  | sel (x : Expr) (f : String)
  /-- `*x` -/
  | star (x : Expr)
  /-- `&x` -/
  | addr (x : Expr)
  /-- `!x` -/
  | neg (x : Expr)
  | paren (x : Expr)
  | binary (op : Op) (x y : Expr)
  /-- `f(args)` -/
  | call (f : Expr) (args : Exprs)
  /-- `t{elts}` -/
  | comp (t : Expr) (elts : Exprs)
  /-- `x[i]` -/
  | index (x i : Expr)
  /-- literal; its type is what `getBasicLitConstType` says (resolve.go:540-552) -/
  | lit (t : Option String)
  /-- function literal: parameters, results, body -/
  | func (ps rs : Fields) (body : Stmts)
  | funcT (ps rs : Fields)
  | structT (fs : Fields)
  | arrayT (fixed : Bool) (elem : Expr)
  | mapT (k v : Expr)
  | chanT (t : Expr)
  | ifaceT
  /-- any other expression: nothing is known about it -/
  | other (es : Exprs)
inductive Exprs
  | nil
  | cons (e : Expr) (es : Exprs)
/-- A list of struct fields, parameters or results: names (none: embedded or unnamed) and type. -/
inductive Fields
  | nil
  | cons (names : List String) (t : Expr) (rest : Fields)
/-- Statements. -/
inductive Stmt
  /-- a statement that only has expressions: expression statement, `return`, `go`, `defer`, `=`, `<-` -/
  | exprs (es : Exprs)
  /-- `lhs := rhs`; `id` stands for the right side as a syntax node -/
  | define (id : Nat) (lhs : List String) (rhs : Exprs)
  /-- `var`/`const`: names, type, values -/
  | varDecl (names : List String) (t : Option Expr) (vals : Exprs)
  | typeDecl (name : String) (alias : Bool) (t : Expr)
  | block (body : Stmts)
  /-- `if`, `for` and `switch`: init statement, condition or tag, post statement, body, else branch -/
  | ctl (init : Stmts) (es : Exprs) (post body els : Stmts)
  /-- `for names := range x` -/
  | range (names : List String) (x : Expr) (body : Stmts)
  /-- clause of a `switch` or `select`: the names it declares, its expressions, its body -/
  | clause (names : List String) (es : Exprs) (body : Stmts)
inductive Stmts
  | nil
  | cons (s : Stmt) (ss : Stmts)
end

/-- number of expressions -/
def Exprs.length : Exprs → Nat
  | .nil => 0
  | .cons _ es => es.length + 1

def Exprs.toList : Exprs → List Expr
  | .nil => []
  | .cons e es => e :: es.toList

/-- the names of a field list -/
def Fields.names : Fields → List String
  | .nil => []
  | .cons ns _ rest => ns ++ rest.names

/-- name to path (import.go:10) -/
abbrev Imports := List (String × String)

/-- Kinds of package-level declarations (instrument/edit). -/
inductive DeclKind
  /-- `type n t` (`alias`: `type n = t`; the code does not look at it, traverse.go:70-78) with the methods declared for the
      type: name and whether the receiver is a pointer -/
  | typ (alias : Bool) (t : Expr) (methods : List (String × Bool))
  /-- variable or constant -/
  | var (t : Option Expr) (v : Option Expr)
  | func (ps rs : Fields)

/-- A declaration, with the imports of its file (`edit.Decl`, `File`). -/
structure Decl where
  kind : DeclKind
  imports : Imports

/-- All packages: path, name, declaration.  A package that cannot be loaded has none. -/
abbrev Prog := String → String → Option Decl

/-- `Define` (scope.go:129-137); `multi`: the index is not -1; `id` stands for `expr` as a syntax node: the statement and the
    name. -/
structure Define where
  id : Nat × String
  expr : Expr
  multi : Bool := false
  split : Bool := false

/-- The names in one `Scope` object (scope.go:117-127). -/
structure Frame where
  defs : List (String × Define) := []
  names : List String := []

/-- A `Scope` with its parents, innermost first; the file scope has no names and is not among the frames. -/
structure Scope where
  pkg : String
  imports : Imports
  frames : List Frame := []

/-- `GetDef` (scope.go:209-218) -/
def getDef : List Frame → String → Option Define
  | [], _ => none
  | f :: rest, x => match f.defs.lookup x with
    | some d => some d
    | none => getDef rest x

/-- `Has` (scope.go:197-207) -/
def has : List Frame → String → Bool
  | [], _ => false
  | f :: rest, x => f.names.contains x || (f.defs.lookup x).isSome || has rest x

/-- `newScope` (scope.go:164-171), with names -/
def Scope.push (s : Scope) (names : List String := []) : Scope := { s with frames := { names := names } :: s.frames }

/-- `c.Parent` -/
def Scope.parent (s : Scope) : Scope := { s with frames := s.frames.tail }

/-- `Add` (scope.go:182-187) -/
def Scope.add (s : Scope) (ns : List String) : Scope :=
  match s.frames with
  | [] => s
  | f :: rest => { s with frames := { f with names := ns ++ f.names } :: rest }

/-- `AddDef` (scope.go:189-194) for several names -/
def Scope.addDefs (s : Scope) (ds : List (String × Define)) : Scope :=
  match s.frames with
  | [] => s
  | f :: rest => { s with frames := { f with defs := ds ++ f.defs } :: rest }

/-- `splitScopeWithDef` (scope.go:174-180) -/
def Scope.splitWith (s : Scope) (ds : List (String × Define)) : Scope := { s with frames := { defs := ds } :: s.frames }

/-- Types (types/type.go).  Types that a closure resolves later are `lazy`; the field types of a `struct` and the result types
    of a `sig` are such closures and are kept as syntax with their scope. -/
inductive Ty
  | unknown
  | untyped
  | basic (n : String)
  | pkg (path : String)
  | named (p n : String) (t : Ty)
  | ptr (t : Ty)
  /-- instance of a generic type -/
  | inst (t : Ty)
  | lazy (s : Scope) (e : Expr)
  | rawPtr (t : Ty)
  | sig (s : Scope) (rs : Fields)
  /-- signature without results -/
  | sig0
  | struct (s : Scope) (fs : Fields)
  | map | chan | iface | tuple
  | slice (t : Ty)
  | array (t : Ty)
  /-- the `nil` interface -/
  | null

/-- Values (types/type.go, `Object`). -/
inductive Obj
  | pkgVar (p n : String) (t : Ty)
  | pkgFunc (p n : String) (sig : Ty)
  /-- method `m` of the type `n` of package `p` -/
  | method (p n m : String)
  | tuple
  | pointer (o : Obj)
  | value (t : Ty)
  | scopeVar (o : Obj)
  | untypedLit (t : Ty)
  | untypedNil

/-- Result of the resolver (types/type.go, `Info`).  `unknown` is a type and a value as well. -/
inductive Info
  | unknown
  /-- being resolved -/
  | lazy
  | op (n : String)
  | pkg (path : String)
  | type (t : Ty)
  | obj (o : Obj)

/-- `Object.Type()` (types/type.go:246-317, 337-351) -/
def Obj.type : Obj → Ty
  | .pkgVar _ _ t => t
  | .pkgFunc _ _ s => s
  | .method .. => .sig0
  | .tuple => .tuple
  | .pointer o => .ptr o.type
  | .value t => t
  | .scopeVar o => o.type
  | .untypedLit t => t
  | .untypedNil => .untyped

/-- `info.(types.Type)` (types/type.go: `typeMark`) -/
def Info.ty? : Info → Option Ty
  | .unknown => some .unknown
  | .pkg p => some (.pkg p)
  | .type t => some t
  | _ => none

/-- `resolveType` (resolve.go:56-73), from the result of `resolveInfo` -/
def Info.asType (i : Info) : Ty := i.ty?.getD .unknown

def Ty.isUnknown : Ty → Bool
  | .unknown => true
  | _ => false

/-- a type as a result; `Unknown` is one result, whether type or value -/
def typeInfo : Ty → Info
  | .unknown => .unknown
  | t => .type t

/-- `deref` (resolve.go:533-538) -/
def deref : Ty → Ty
  | .ptr t => t
  | _ => .unknown

/-- resolve.go:171-174 -/
def operations : List String :=
  ["new", "make", "cap", "len", "copy", "append", "delete", "close", "complex", "real", "imag", "panic", "recover"]

/-- `validateBasicName` (resolve.go:469-486) -/
def basicNames : List String :=
  ["string", "byte", "int", "int8", "int16", "int32", "int64", "uint", "uint8", "uint16", "uint32", "uint64", "float32",
   "float64", "bool", "complex64", "complex128"]

/-- a name that is neither local nor declared nor imported (resolve.go:168-175) -/
def universeInfo (x : String) : Info :=
  if x = "nil" then .obj .untypedNil
  else if operations.contains x then .op x
  else if basicNames.contains x then .type (.basic x)
  else .unknown

/-- `ResolveAlias` (types/type.go:450-465) -/
def resolveAlias (p n : String) : Ty → String × String
  | .inst (.named p' n' t) => resolveAlias p' n' t
  | .named p' n' t => resolveAlias p' n' t
  | _ => (p, n)

/-- `getEmbedFieldName` (resolve.go:559-573); `none` is the empty name, which is never selected -/
def embedName : Expr → Option String
  | .star (.sel _ f) => some f
  | .star (.ident x) => some x
  | .sel _ f => some f
  | .ident x => some x
  | _ => none

/-- The type of a field (resolve.go:312-332, 705-713): of several names of one type only the last is kept. -/
def fieldType (f : String) : Fields → Option Expr
  | .nil => none
  | .cons ns t rest => if (ns.getLast? <|> embedName t) = some f then some t else fieldType f rest

/-- the types of a result list, one per entry (resolve.go:365-374) -/
def Fields.types : Fields → List Expr
  | .nil => []
  | .cons _ t rest => t :: rest.types

/-- what is being resolved: the type or value of a declaration, or the right side of a `:=` -/
inductive Key
  | decl (p n : String)
  | define (id : Nat × String)
deriving DecidableEq

def DeclKind.method? (m : String) : DeclKind → Bool
  | .typ _ _ ms => (ms.lookup m).isSome
  | _ => false

/-- is there a method `m` among those declared for the type? (resolve.go:679-684) -/
def hasMethod (P : Prog) (p n m : String) : Bool :=
  match P p n with
  | some d => d.kind.method? m
  | none => false

/-- the type behind a pointer, or the type itself (resolve.go:667-671); `go` is `ResolveLazy` -/
def derefOr (go : Ty → Ty) : Ty → Ty
  | .ptr e => go e
  | t => t

/-- the generic type of an instance (resolve.go:672-674) -/
def uninst : Ty → Ty
  | .inst t => t
  | t => t

/-- resolve.go:700-704 -/
def unraw : Ty → Ty
  | .rawPtr t => t
  | t => t

mutual
/-- `resolveInfo` (resolve.go:37-52) and `doResolveInfo` (resolve.go:93-467).  Fuel: with none the answer is `unknown`. -/
def resolve (P : Prog) : Nat → Scope → List Key → Expr → Info
  | 0, _, _, _ => .unknown
  | n + 1, s, vis, .ident x =>
    match getDef s.frames x with
    | some d =>
      -- `resolveDef` (resolve.go:575-596)
      if d.multi then .unknown
      else match (if vis.contains (.define d.id) then .lazy
          else resolve P n (if d.split then s.parent else s) (.define d.id :: vis) d.expr) with
        | .obj o => .obj (.scopeVar o)
        | _ => .unknown
    | none =>
      if has s.frames x then .unknown
      else match P s.pkg x with
        | some d =>
          let go e := if vis.contains (.decl s.pkg x) then .lazy else resolve P n s (.decl s.pkg x :: vis) e
          match d.kind with
          | .typ _ e _ =>
            let t := (go e).asType
            if t.isUnknown then .unknown else .type (.named s.pkg x t)
          | .var t v =>
            match t, v with
            | some e, _ =>
              let t := (go e).asType
              if t.isUnknown then .unknown else .obj (.pkgVar s.pkg x t)
            | none, some e =>
              match go e with
              | .unknown => .unknown
              | .obj o => if o.type.isUnknown then .unknown else .obj (.pkgVar s.pkg x o.type)
              | _ => .obj (.pkgVar s.pkg x .null)
            | none, none => .unknown
          | .func _ rs => .obj (.pkgFunc s.pkg x (.sig s rs))
        | none => match s.imports.lookup x with
          | some q => .pkg q
          | none => universeInfo x
  | n + 1, s, vis, .sel x f =>
    -- `resolveSelectorSubInfo` (resolve.go:598-647)
    match resolve P n s vis x with
    | .pkg q => match P q f with
      | some d => resolve P n { pkg := q, imports := d.imports } vis (.ident f)
      | none => .unknown
    | .obj o => field P n vis o.type f
    | .type t => field P n vis t f
    | _ => .unknown
  | n + 1, s, vis, .star x =>
    match resolve P n s vis x with
    | .unknown => .unknown
    | .obj o => let t := deref o.type
      if t.isUnknown then .unknown else .obj (.value t)
    | i => match i.ty? with
      | some t => .type (.ptr t)
      | none => .unknown
  | n + 1, s, vis, .addr x =>
    match resolve P n s vis x with
    | .obj o => .obj (.pointer o)
    | _ => .unknown
  | n + 1, s, vis, .neg x =>
    match resolve P n s vis x with
    | .obj o => .obj (.value o.type)
    | _ => .unknown
  | n + 1, s, vis, .paren x => resolve P n s vis x
  | n + 1, s, vis, .binary op x y =>
    match op with
    | .arith =>
      match resolve P n s vis x with
      | .obj (.untypedLit _) =>
        match resolve P n s vis y with
        | .obj o => .obj (.value o.type)
        | _ => .unknown
      | .obj o => .obj (.value o.type)
      | _ => .unknown
    | .shift =>
      match resolve P n s vis x with
      | .obj o => .obj (.value o.type)
      | _ => .unknown
    | .cmp => .obj (.value (.basic "bool"))
    | .other => .unknown
  | n + 1, s, vis, .comp t _ =>
    let t := (resolve P n s vis t).asType
    if t.isUnknown then .unknown else .obj (.value t)
  | n + 1, s, vis, .index x i =>
    match resolve P n s vis x with
    | .obj (.pkgFunc p f sig) => .obj (.pkgFunc p f sig)
    | .obj (.method p t m) => .obj (.method p t m)
    | info => match info.ty? with
      | some t => if (resolve P n s vis i).asType.isUnknown then .unknown else .type (.inst t)
      | none => .unknown
  | _ + 1, _, _, .lit t =>
    match t with
    | some b => .obj (.untypedLit (.basic b))
    | none => .unknown
  | _ + 1, s, _, .structT fs => .type (.struct s fs)
  | _ + 1, _, _, .mapT _ _ => .type .map
  | n + 1, s, vis, .arrayT fixed e =>
    let t := (resolve P n s vis e).asType
    if t.isUnknown then .unknown else .type (if fixed then .array t else .slice t)
  | _ + 1, _, _, .ifaceT => .type .iface
  | _ + 1, _, _, .chanT _ => .type .chan
  | _ + 1, s, _, .funcT _ rs => .type (.sig s rs)
  | _ + 1, s, _, .func _ rs _ => .obj (.value (.sig s rs))
  | n + 1, s, vis, .call f args =>
    match resolve P n s vis f with
    | .op b =>
      match args with
      | .nil => .unknown
      | .cons a rest =>
        if b = "new" then
          match rest with
          | .nil =>
            let t := (resolve P n s vis a).asType
            if t.isUnknown then .unknown else .obj (.pointer (.value t))
          | .cons .. => .unknown
        else if b = "make" then
          let t := (resolve P n s vis a).asType
          if t.isUnknown then .unknown else .obj (.value t)
        else if b = "append" then
          match resolve P n s vis a with
          | .obj o => .obj (.value o.type)
          | _ => .unknown
        else .unknown
    | .obj o =>
      match underlying P n vis o.type with
      | .sig s' rs => match rs.types with
        | [t] => .obj (.value (.lazy s' t))
        | _ => .obj .tuple
      | .sig0 => .obj .tuple
      | _ => .unknown
    | i => match i.ty? with
      | some t => .obj (.value t)
      | none => .unknown
  | _ + 1, _, _, .other _ => .unknown
/-- `ResolveLazy` (types/type.go:442-448) -/
def force (P : Prog) : Nat → List Key → Ty → Ty
  | n + 1, vis, .lazy s e => (resolve P n s vis e).asType
  | 0, _, .lazy _ _ => .unknown
  | _, _, t => t
/-- `Underlying()` (types/type.go).  Of the `nil` interface the code would panic; the caller then finds no signature. -/
def underlying (P : Prog) : Nat → List Key → Ty → Ty
  | 0, _, _ => .unknown
  | n + 1, vis, .ptr t => .rawPtr (underlying P n vis t)
  | n + 1, vis, .inst t => underlying P n vis t
  | n + 1, vis, .named _ _ t => underlying P n vis t
  | n + 1, vis, .lazy s e => underlying P n vis (resolve P n s vis e).asType
  | _, _, t => t
/-- `resolveFieldToObject` (resolve.go:663-734) -/
def field (P : Prog) : Nat → List Key → Ty → String → Info
  | 0, _, _, _ => .unknown
  | n + 1, vis, t, f =>
    let t := force P n vis t
    match uninst (derefOr (force P n vis) t) with
    | .named p x u =>
      let a := resolveAlias p x u
      if hasMethod P a.1 a.2 f then .obj (.method a.1 a.2 f)
      else match unraw (underlying P n vis t) with
        | .struct s fs => match fieldType f fs with
          | some e => .obj (.value (.lazy s e))
          | none => .unknown
        | _ => .unknown
    | _ => .unknown
end

/-- What is recorded (`NameRecorder`, scope.go:63-67). -/
inductive Target
  /-- `HasMockRef` -/
  | func (p n : String)
  /-- `NamesHavingMock` -/
  | method (p n m : String)
  /-- `HasVarTrap` -/
  | var (p n : String)
deriving DecidableEq

def Target.pkg : Target → String
  | .func p _ => p
  | .method p _ _ => p
  | .var p _ => p

/-- `recordMockRef` (record.go:49-99); `allow` is `config.CheckInstrument`. -/
def targetOf (allow : String → Bool) (i : Info) : Option Target :=
  let t := match i with
    | .obj (.method p n m) => some (Target.method p n m)
    | .obj (.pkgFunc p n _) => some (Target.func p n)
    | .obj (.pointer (.pkgVar p n _)) => some (Target.var p n)
    | _ => none
  t.filter fun t => allow t.pkg

/-- `constants.RUNTIME_..` (constants.go:11-15) -/
def mockPkg := "github.com/xhd2015/xgo/runtime/mock"
def trapPkg := "github.com/xhd2015/xgo/runtime/trap"
def tracePkg := "github.com/xhd2015/xgo/runtime/trace"
def functabPkg := "github.com/xhd2015/xgo/runtime/functab"

/-- `recordTrap` (record.go:11-41): does the call name a target, or does it make xgo trap everything? -/
inductive Hook
  | target | all
deriving DecidableEq

def hookOf (path name : String) : Option Hook :=
  if name = "Patch" ∨ name = "Mock" then if path = mockPkg then some .target else none
  else if name = "AddFuncInterceptor" ∨ name = "MarkIntercept" then if path = trapPkg then some .target else none
  else if name = "Record" ∨ name = "RecordCall" ∨ name = "RecordResult" then if path = tracePkg then some .target else none
  else if name = "InfoFunc" ∨ name = "InfoVar" then if path = functabPkg then some .target else none
  else if name = "AddInterceptor" ∨ name = "MarkInterceptAll" then if path = trapPkg then some .all else none
  else none

/-- `tryResolvePkgRef` (record.go:102-121) with `recordTrap`; the callee `x.name` -/
def calleeHook (P : Prog) (s : Scope) : Expr → Option Hook
  | .sel (.ident x) m =>
    if has s.frames x then none
    else if (P s.pkg x).isSome then none
    else match s.imports.lookup x with
      | some q => hookOf q m
      | none => none
  | _ => none

/-- A call that is of interest: `target` with the expression whose target is recorded and the scope it is resolved in. -/
inductive Site
  | target (s : Scope) (e : Expr)
  | all

/-- expr.go:31-40: only calls with arguments are looked at -/
def callSite (P : Prog) (s : Scope) (f : Expr) : Exprs → List Site
  | .nil => []
  | .cons a _ => match calleeHook P s f with
    | some .target => [.target s a]
    | some .all => [.all]
    | none => []

/-- the identifiers among the right sides (stmt.go:51-63); the blank name is not one -/
def rhsNames : Exprs → List String
  | .nil => []
  | .cons (.ident x) es => if x = "_" ∨ x = "" then rhsNames es else x :: rhsNames es
  | .cons _ es => rhsNames es

def notBlank (ns : List String) : List String := ns.filter fun n => n ≠ "_" ∧ n ≠ ""

/-- the definitions a `:=` makes (stmt.go:68-93) -/
def defines (id : Nat) (lhs : List String) (rhs : Exprs) : List (String × Define) :=
  let all := if lhs.length = rhs.length then (lhs.zip rhs.toList).map fun (x, e) => (x, { id := (id, x), expr := e : Define })
    else match rhs with
      | .nil => []
      | .cons e _ => lhs.map fun x => (x, { id := (id, x), expr := e, multi := true : Define })
  all.filter fun (x, _) => x ≠ "_" ∧ x ≠ ""

/-- A `:=` adds to the scope or, if a name on the left is also on the right, splits it (stmt.go:45-104). -/
def define (s : Scope) (id : Nat) (lhs : List String) (rhs : Exprs) : Scope :=
  let ds := defines id lhs rhs
  if ds.any fun (x, _) => (rhsNames rhs).contains x then s.splitWith (ds.map fun (x, d) => (x, { d with split := true }))
  else s.addDefs ds

mutual
/-- `traverseExpr`, `traverseCallExpr` (expr.go:16-168).  A package variable that is collected (collect_var_ref.go) is not
    entered there; it contains no call.  Type expressions are not entered. -/
def sitesE (P : Prog) (s : Scope) : Expr → List Site
  | .sel x _ => sitesE P s x
  | .star x => sitesE P s x
  | .addr x => sitesE P s x
  | .neg x => sitesE P s x
  | .paren x => sitesE P s x
  | .binary _ x y => sitesE P s x ++ sitesE P s y
  | .call f args => sitesE P s f ++ (callSite P s f args ++ sitesEs P s args)
  | .comp _ elts => sitesEs P s elts
  | .index x i => sitesE P s x ++ sitesE P s i
  | .func ps rs body => sitesSs P ((s.push (notBlank (ps.names ++ rs.names))).push) body
  | .other es => sitesEs P s es
  | .ident _ => []
  | .lit _ => []
  | .funcT _ _ => []
  | .structT _ => []
  | .arrayT _ _ => []
  | .mapT _ _ => []
  | .chanT _ => []
  | .ifaceT => []
def sitesEs (P : Prog) (s : Scope) : Exprs → List Site
  | .nil => []
  | .cons e es => sitesE P s e ++ sitesEs P s es
/-- the scope after a statement (stmt.go, decl.go) -/
def scopeS (s : Scope) : Stmt → Scope
  | .exprs _ => s
  | .define id lhs rhs => define s id lhs rhs
  | .varDecl names _ _ => s.add names
  | .typeDecl n _ _ => s.add [n]
  | .block _ => s
  | .ctl init _ post _ els => scopeSs (scopeSs (scopeSs s init) post) els
  | .range names _ _ => s.add (notBlank names)
  | .clause _ _ _ => s
def scopeSs (s : Scope) : Stmts → Scope
  | .nil => s
  | .cons t ts => scopeSs (scopeS s t) ts
/-- `traverseStmt` (stmt.go:8-155), `traverseDecl` (decl.go:5-34) -/
def sitesS (P : Prog) (s : Scope) : Stmt → List Site
  | .exprs es => sitesEs P s es
  | .define _ _ rhs => sitesEs P s rhs
  | .varDecl _ _ vals => sitesEs P s vals
  | .typeDecl _ _ _ => []
  | .block body => sitesSs P s.push body
  | .ctl init es post body els =>
    let s1 := scopeSs s init
    let s2 := scopeSs s1 post
    sitesSs P s init ++ (sitesEs P s1 es ++ (sitesSs P s1 post ++ (sitesSs P s2.push body ++ sitesSs P s2 els)))
  | .range names x body =>
    let s1 := s.add (notBlank names)
    sitesE P s1 x ++ sitesSs P s1.push body
  | .clause _ _ body => sitesSs P s.push body
def sitesSs (P : Prog) (s : Scope) : Stmts → List Site
  | .nil => []
  | .cons t ts => sitesS P s t ++ sitesSs P (scopeS s t) ts
end

/-- A function declaration that is traversed: its file (package and imports), receiver, parameters, results and body. -/
structure Func where
  pkg : String
  imports : Imports
  recv : Fields := .nil
  ps : Fields := .nil
  rs : Fields := .nil
  body : Stmts

/-- `traverseFuncDecls`, `traverseFunc` (traverse.go:178-198, block.go:15-41) -/
def sites (P : Prog) (f : Func) : List Site :=
  sitesSs P ((({ pkg := f.pkg, imports := f.imports : Scope }).push (notBlank (f.recv.names ++ f.ps.names ++ f.rs.names))).push) f.body

/-- What `Traverse` (traverse.go:132-154) records, with fuel `n`. -/
def recorded (P : Prog) (allow : String → Bool) (n : Nat) (fs : List Func) : List Target :=
  (fs.flatMap (sites P)).filterMap fun
    | .target s e => targetOf allow (resolve P n s [] e)
    | .all => none

/-- `HasTrapInterceptorRef` (record.go:34-39) -/
def trapAll (P : Prog) (fs : List Func) : Bool :=
  (fs.flatMap (sites P)).any fun
    | .all => true
    | .target .. => false

end Verif.Instrument.Target
