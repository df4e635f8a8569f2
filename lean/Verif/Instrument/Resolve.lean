/-
Model of how xgo decides which identifiers of a function body are references to a package variable
(and so are rewritten to `V_xgo_get()` / `V_xgo_get_addr()`): /repo/instrument/resolve, files
stmt.go, expr.go, block.go, decl.go, scope.go, collect_var_ref.go, and the identifier, selector,
parenthesis and address-of cases of resolve.go.

Syntax trees are go/ast trees with these simplifications, none of which drops a node that the
code looks at when it decides about a rewrite:
* every identifier and every selected name carries its position; other nodes carry none;
* expression forms the code treats alike are one constructor (`unary`: `*x`, `-x`, `!x`, `<-x`,
  `x.(T)`; `binary`: `x op y`, `x[i]`; several indices `x[i, j]` are nested `binary`s);
* type expressions (`[]T`, `map[K]V`, `func(..)`, ...) are the leaf `typ`: the code does not
  enter them (expr.go:127-136);
* a missing optional child is `Expr.none` / `Stmt.empty`.

What the *type* resolver finds out (resolve.go beyond the cases named above) is a parameter: the
fields of `Ctx` say what it answers, and every theorem holds whatever it answers.
-/
namespace Verif.Instrument.Resolve

mutual
/-- Expressions (go/ast), as traversed by instrument/resolve/expr.go:58-168. -/
inductive Expr
  | none
  | lit
  | typ
  | ident (pos : Nat) (name : String)
  /-- `x.name`; `pos` is the position of `name` -/
  | sel (x : Expr) (pos : Nat) (name : String)
  /-- `&x` -/
  | addr (x : Expr)
  | paren (x : Expr)
  | unary (x : Expr)
  | binary (x y : Expr)
  /-- `x[lo:hi:max]` -/
  | slice (x lo hi max : Expr)
  | call (f : Expr) (args : Exprs)
  /-- `T{elts}` -/
  | composite (elts : Exprs)
  /-- `key: value` in a composite literal; `field`: the key is a struct field name (the code cannot
      tell and does not use the flag, the specification does) -/
  | kv (field : Bool) (key value : Expr)
  /-- function literal: parameter and result names, body -/
  | func (params : List String) (body : Stmts)
inductive Exprs
  | nil
  | cons (x : Expr) (xs : Exprs)
/-- Statements (go/ast), as traversed by instrument/resolve/stmt.go:8-155. -/
inductive Stmt
  /-- empty, bad or branch statement, or a missing statement -/
  | empty
  | expr (x : Expr)
  /-- `go f(args)` and `defer f(args)` -/
  | goDefer (f : Expr) (args : Exprs)
  | send (ch v : Expr)
  | incDec (x : Expr)
  | ret (xs : Exprs)
  | assign (define : Bool) (lhs rhs : Exprs)
  | decl (specs : Specs)
  | block (body : Stmts)
  | ifS (init : Stmt) (cond : Expr) (body : Stmts) (els : Stmt)
  | forS (init : Stmt) (cond : Expr) (post : Stmt) (body : Stmts)
  | range (define : Bool) (key value x : Expr) (body : Stmts)
  | switchS (init : Stmt) (tag : Expr) (body : Stmts)
  | typeSwitch (init assign : Stmt) (body : Stmts)
  | select (body : Stmts)
  | label (s : Stmt)
  | caseClause (list : Exprs) (body : Stmts)
  | commClause (comm : Stmt) (body : Stmts)
inductive Stmts
  | nil
  | cons (s : Stmt) (ss : Stmts)
/-- The specs of a local declaration. -/
inductive Specs
  | nil
  | typeSpec (name : String) (rest : Specs)
  /-- `var`/`const` spec -/
  | valueSpec (names : List String) (values : Exprs) (rest : Specs)
end

/-- instrument/edit: the kind of a package-level declaration -/
inductive Kind
  | var | const | func | typ
deriving DecidableEq

/-- What `x.name` is when `x` is a value or a type: result of `resolveFieldToObject`
(resolve.go:663-734).  `ptrMethod`: a method with pointer receiver on a value that is no pointer,
which makes `x` and the expressions inside it pointers (resolve.go:627-639, 685-691). -/
inductive Field
  | unknown | value | ptrMethod
deriving DecidableEq

/-- The surroundings of a function body: the package, the imports of the file, and what the type
resolver answers. -/
structure Ctx where
  /-- path of the package the body belongs to -/
  self : String
  /-- imports of the file by local name (import.go:12-43) -/
  imports : String → Option String
  /-- package path and name to declaration; `none` also if the package cannot be loaded -/
  decls : String → String → Option Kind
  /-- the type of a package variable or constant resolves (resolve.go:124-146) -/
  known : String → String → Bool
  /-- `tryResolveDeclType` (collect_var_ref.go:131-165) -/
  typed : String → String → Bool
  /-- the variable's type is a pointer -/
  ptrVar : String → String → Bool
  /-- `config.CheckInstrument` -/
  allow : String → Bool
  /-- the local variable (by position of its use) has a resolvable type -/
  localKnown : Nat → Bool
  /-- selected field or method, by the position of the selected name -/
  field : Nat → Field

/-- `isBlankName` (name.go:35-37) -/
def isBlank (n : String) : Bool := n == "" || n == "_"

/-- One `Scope` object (scope.go:117-127): the names added by `:=` (`Defs`) and by other
declarations (`Names`). -/
structure Frame where
  defs : List String := []
  names : List String := []

/-- A scope with its parents, innermost first.  The file scope (no names) is `[]`. -/
abbrev Scope := List Frame

/-- `Scope.Has` (scope.go:197-207) -/
def Scope.has : Scope → String → Bool
  | [], _ => false
  | f :: rest, n => f.names.contains n || f.defs.contains n || Scope.has rest n

/-- `Scope.newScope` (scope.go:164-171) -/
def Scope.push (s : Scope) : Scope := {} :: s

/-- `Scope.Add` (scope.go:182-187) for several names -/
def Scope.add (s : Scope) (ns : List String) : Scope :=
  match s with
  | [] => [{ names := ns }]
  | f :: rest => { f with names := ns ++ f.names } :: rest

/-- `Scope.AddDef` (scope.go:189-194) for several names -/
def Scope.addDefs (s : Scope) (ns : List String) : Scope :=
  match s with
  | [] => [{ defs := ns }]
  | f :: rest => { f with defs := ns ++ f.defs } :: rest

/-- `Scope.splitScopeWithDef` (scope.go:174-180): the old content becomes the parent -/
def Scope.split (s : Scope) (ns : List String) : Scope := { defs := ns } :: s

/-- `types.Info`, as far as the rewriting looks at it.  `other`: any resolved object or type that is
neither a package variable, nor a pointer to one, nor a package name. -/
inductive Info
  | unknown
  | other
  | pkgVar (pkg name : String)
  | ptr (pkg name : String)
  | imp (pkg : String)
deriving DecidableEq

/-- What `pkg.name` resolves to (resolve.go:104-162 for the declaration's identifier). -/
def declInfo (c : Ctx) (pkg name : String) : Info :=
  match c.decls pkg name with
  | some .var | some .const => if c.known pkg name then .pkgVar pkg name else .unknown
  | some _ => .other
  | none => .unknown

/-- `resolveInfo` (resolve.go:37-52, 93-…), before any expression was turned into a pointer by
`forAllNestedExpr`.  Identifier: resolve.go:98-177; selector: 178-181 and 598-647; address-of:
189-209; parenthesis: 311-314.  A name that is declared nowhere in the package or the imports
(`nil`, `len`, `int`, ...: resolve.go:168-175) is `other`.  Other forms never resolve to a package variable, to a pointer to one
or to a package name, and the rewriting does not distinguish their results. -/
def resolve (c : Ctx) (s : Scope) : Expr → Info
  | .ident pos n =>
    if s.has n then (if c.localKnown pos then .other else .unknown)
    else
      match c.decls c.self n with
      | some _ => declInfo c c.self n
      | none =>
        match c.imports n with
        | some p => .imp p
        | none => .other
  | .paren x => resolve c s x
  | .addr x =>
    match resolve c s x with
    | .pkgVar p n => .ptr p n
    | .unknown => .unknown
    | .imp _ => .unknown
    | _ => .other
  | .sel x pos n =>
    match resolve c s x with
    | .unknown => .unknown
    | .imp p => declInfo c p n
    | _ => if c.field pos = .unknown then .unknown else .other
  | _ => .other

/-- The cached info of an expression after `forAllNestedExpr` made it a pointer
(resolve.go:631-638); `w` says whether that happened. -/
def wrap (w : Bool) (i : Info) : Info :=
  if w then
    match i with
    | .pkgVar p n => .ptr p n
    | .ptr _ _ => .other
    | i => i
  else i

/-- Selecting `pos` from `x` turns `x`, and the selectors and parentheses inside it, into pointers
(resolve.go:627-639). -/
def wantsPtr (c : Ctx) (s : Scope) (x : Expr) (pos : Nat) : Bool :=
  match resolve c s x with
  | .unknown => false
  | .imp _ => false
  | _ => c.field pos = .ptrMethod

/-- `deparen` (expr.go:170-182) -/
def deparen : Expr → Expr
  | .paren x => deparen x
  | e => e

/-- `edit.VarRef`: the suffix goes after `target`; `addr`: there is a `&` in front, `fieldAccess`:
which is kept; `needPtr`: the suffix is `_xgo_get_addr()`. -/
structure VarRef where
  pkg : String
  name : String
  target : Expr
  addr : Bool
  needPtr : Bool
  fieldAccess : Bool

/-- `collectVarRef` (collect_var_ref.go:50-129); `w`: the expression was made a pointer before,
`hasSel`: `originalSel != nil`. -/
def collectVarRef (c : Ctx) (s : Scope) (w : Bool) (addr : Bool) (x : Expr) (hasSel : Bool) :
    Option VarRef :=
  match wrap w (resolve c s (deparen x)) with
  | .pkgVar p n => go p n false
  | .ptr p n => go p n true
  | _ => none
where
  /-- collect_var_ref.go:72-128 -/
  go (p n : String) (isExprPtr : Bool) : Option VarRef :=
    if ¬ c.allow p then none
    else if ¬ c.typed p n then none
    else if addr && hasSel && !c.ptrVar p n then none
    else
      let fieldAccess := addr && hasSel
      some {
        pkg := p, name := n, target := deparen x, addr := addr,
        needPtr := if addr then !fieldAccess else (!c.ptrVar p n && isExprPtr)
        fieldAccess := fieldAccess }

/-- `collectIdent` (collect_var_ref.go:14-22) -/
def collectIdent (c : Ctx) (s : Scope) (w addr : Bool) (pos : Nat) (n : String) : Option VarRef :=
  if isBlank n || s.has n then none
  else collectVarRef c s w addr (.ident pos n) false

/-- `collectSelector` (collect_var_ref.go:25-48).  The identifier `sel.Sel` was given the info of the
whole selector (resolve.go:180), so `pkg.V` is resolved as such and the identifier `V` alone is the
target. -/
def collectSelector (c : Ctx) (s : Scope) (w addr : Bool) (x : Expr) (pos : Nat) (n : String) :
    Option VarRef :=
  match wrap w (resolve c s (.sel x pos n)) with
  | .unknown => none
  | .pkgVar p v =>
    (collectVarRef.go c addr (.ident pos n) false p v false)
  | _ => collectVarRef c s (w || wantsPtr c s x pos) addr x true

/-- `&x.name` where `x` is a package variable and `collectSelector` refused: not entered
(expr.go:87-101) -/
def skipAddr (c : Ctx) (s : Scope) (x : Expr) (pos : Nat) : Bool :=
  match wrap (wantsPtr c s x pos) (resolve c s x) with
  | .pkgVar _ _ => true
  | .ptr _ _ => true
  | _ => false

/-- the identifiers of a list of expressions, blanks left out (stmt.go:46-58, 64-68) -/
def identNames : Exprs → List String
  | .nil => []
  | .cons (.ident _ n) xs => if isBlank n then identNames xs else n :: identNames xs
  | .cons _ xs => identNames xs

/-- the name of an expression that is a non-blank identifier (stmt.go:19-25) -/
def identName : Expr → List String
  | .ident _ n => if isBlank n then [] else [n]
  | _ => []

/-- the key of a composite literal element that the code does not enter (expr.go:144-152) -/
def keyConflict (c : Ctx) (s : Scope) : Expr → Bool
  | .ident _ n => s.has n || (c.decls c.self n).isSome
  | _ => false

/-- the scope after a `:=` (stmt.go:34-101); the map order of `defs` does not matter -/
def define (s : Scope) (lhs rhs : Exprs) : Scope :=
  let names := identNames lhs
  if names.any (fun n => (identNames rhs).contains n) then s.split names
  else s.addDefs names

mutual
/-- `traverseExpr` (expr.go:58-168) and `traverseCallExpr` (expr.go:16-46; the selector test there
only decides which of two equal calls is made; the mock detection is not part of this model):
the references recorded, in order. -/
def exprRefs (c : Ctx) (s : Scope) (w : Bool) : Expr → List VarRef
  | .none => []
  | .lit => []
  | .typ => []
  | .ident pos n => (collectIdent c s w false pos n).toList
  | .sel x pos n =>
    match collectSelector c s w false x pos n with
    | some r => [r]
    | none => exprRefs c s (w || wantsPtr c s x pos) x
  | .addr (.ident pos n) =>
    match collectIdent c s false true pos n with
    | some r => [r]
    | none => (collectIdent c s false false pos n).toList
  | .addr (.sel x pos n) =>
    match collectSelector c s false true x pos n with
    | some r => [r]
    | none =>
      if skipAddr c s x pos then []
      else
        match collectSelector c s false false x pos n with
        | some r => [r]
        | none => exprRefs c s (wantsPtr c s x pos) x
  | .addr x => exprRefs c s false x
  | .paren x => exprRefs c s w x
  | .unary x => exprRefs c s false x
  | .binary x y => exprRefs c s false x ++ exprRefs c s false y
  | .slice x lo hi _ => exprRefs c s false x ++ exprRefs c s false lo ++ exprRefs c s false hi
  | .call f args => exprRefs c s false f ++ exprsRefs c s args
  | .composite elts => exprsRefs c s elts
  | .kv _ k v => (if keyConflict c s k then [] else exprRefs c s false k) ++ exprRefs c s false v
  | .func params body =>
    -- block.go:15-32
    (stmtsRefs c (Scope.push ({ names := params.filter (fun n => !isBlank n) } :: s)) body).2
/-- `traverseExprs` (expr.go:10-14) -/
def exprsRefs (c : Ctx) (s : Scope) : Exprs → List VarRef
  | .nil => []
  | .cons x xs => exprRefs c s false x ++ exprsRefs c s xs
/-- `traverseStmt` (stmt.go:8-155): the scope afterwards and the references recorded -/
def stmtRefs (c : Ctx) (s : Scope) : Stmt → Scope × List VarRef
  | .empty => (s, [])
  | .expr x => (s, exprRefs c s false x)
  | .goDefer f args => (s, exprRefs c s false f ++ exprsRefs c s args)
  | .send ch v => (s, exprRefs c s false ch ++ exprRefs c s false v)
  | .incDec _ => (s, [])
  | .ret xs => (s, exprsRefs c s xs)
  | .assign d lhs rhs =>
    (if d then define s lhs rhs else s, exprsRefs c s rhs)
  | .decl specs => specsRefs c s specs
  | .block body => (s, (stmtsRefs c s.push body).2)
  | .ifS init cond body els =>
    let r1 := stmtRefs c s init
    let r2 := stmtRefs c r1.1 els
    (r2.1, r1.2 ++ exprRefs c r1.1 false cond ++ (stmtsRefs c r1.1.push body).2 ++ r2.2)
  | .forS init cond post body =>
    let r1 := stmtRefs c s init
    let r2 := stmtRefs c r1.1 post
    (r2.1, r1.2 ++ exprRefs c r1.1 false cond ++ r2.2 ++ (stmtsRefs c r2.1.push body).2)
  | .range d key value x body =>
    let s1 := if d then s.add (identName key ++ identName value) else s
    (s1, exprRefs c s1 false x ++ (stmtsRefs c s1.push body).2)
  | .switchS init tag body =>
    let r1 := stmtRefs c s init
    (r1.1, r1.2 ++ exprRefs c r1.1 false tag ++ (stmtsRefs c r1.1.push body).2)
  | .typeSwitch init assign body =>
    let r1 := stmtRefs c s init
    let r2 := stmtRefs c r1.1 assign
    (r2.1, r1.2 ++ r2.2 ++ (stmtsRefs c r2.1.push body).2)
  | .select body => (s, (stmtsRefs c s.push body).2)
  | .label st => stmtRefs c s st
  | .caseClause _ body => (s, (stmtsRefs c s.push body).2)
  | .commClause _ body => (s, (stmtsRefs c s.push body).2)
/-- the loop of `traverseBlockStmt` (block.go:34-43) -/
def stmtsRefs (c : Ctx) (s : Scope) : Stmts → Scope × List VarRef
  | .nil => (s, [])
  | .cons st ss =>
    let r1 := stmtRefs c s st
    let r2 := stmtsRefs c r1.1 ss
    (r2.1, r1.2 ++ r2.2)
/-- `traverseDecl` (decl.go:5-34) -/
def specsRefs (c : Ctx) (s : Scope) : Specs → Scope × List VarRef
  | .nil => (s, [])
  | .typeSpec n rest => specsRefs c (s.add [n]) rest
  | .valueSpec names values rest =>
    let r := specsRefs c (s.add names) rest
    (r.1, exprsRefs c s values ++ r.2)
end

/-- A top-level function or method: receiver, parameter and result names, type parameter names
(of the function or of the receiver's type; not looked at, name.go:8-33) and body. -/
structure FuncDecl where
  tparams : List String
  names : List String
  body : Stmts

/-- `traverseFunc` on the file scope (traverse.go:178-198, block.go:15-32) -/
def funcRefs (c : Ctx) (f : FuncDecl) : List VarRef :=
  (stmtsRefs c (Scope.push [{ names := f.names.filter (fun n => !isBlank n) }]) f.body).2

/-- The references whose text is changed: `TrapVariables` (trap_var.go:21-56) only looks at
variables, in the main package all of them, elsewhere those some `mock.Patch(&pkg.V)` names
(`trapped`).  `rewriteVarDefAndRefs` leaves a variable alone if its type cannot be written down
(trap_var.go:73-97; `writable`). -/
def rewritten (c : Ctx) (main : String → Bool) (trapped writable : String → String → Bool)
    (rs : List VarRef) : List VarRef :=
  rs.filter fun r =>
    c.decls r.pkg r.name = some .var && (main r.pkg || trapped r.pkg r.name) && writable r.pkg r.name

end Verif.Instrument.Resolve
