import Verif.Instrument.Resolve
/-
Specification for C39: Go's block scoping, written from the language specification ("Declarations
and scope") and independent of the traversal under test.  It only uses the syntax trees of
`Resolve.lean`.
-/
namespace Verif.Instrument.Resolve

/-- An occurrence of a name in a function body. -/
inductive Occ
  /-- an identifier used as an operand; `local`: it denotes something declared inside the function -/
  | id (pos : Nat) (name : String) (isLocal : Bool)
  /-- the selected name in `q.name`, where `q` is an identifier -/
  | qual (pos : Nat) (name : String) (q : String) (isLocal : Bool)
deriving DecidableEq

/-- The names declared by a list of identifiers; the blank identifier declares nothing. -/
def declared (ns : List String) : List String := ns.filter (fun n => n ≠ "_" ∧ n ≠ "")

/-- The identifiers on the left of `:=`. -/
def lhsNames : Exprs → List String
  | .nil => []
  | .cons (.ident _ n) xs => n :: lhsNames xs
  | .cons _ xs => lhsNames xs

/-- A parenthesised name is that name. -/
def bareName : Expr → Option String
  | .ident _ n => some n
  | .paren x => bareName x
  | _ => none

/-- A key of a composite literal that is a struct field name. -/
def isFieldKey (field : Bool) : Expr → Bool
  | .ident _ _ => field
  | _ => false

def isIdent : Expr → Bool
  | .ident _ _ => true
  | _ => false

/-- The names in scope after a statement, as seen by the statements that follow it in the block.
Only declarations, `:=` and labelled ones of these have names that outlive the statement. -/
def after (env : List String) : Stmt → List String
  | .assign true lhs _ => declared (lhsNames lhs) ++ env
  | .decl specs => go env specs
  | .label s => after env s
  | _ => env
where go (env : List String) : Specs → List String
  | .nil => env
  | .typeSpec n rest => go (declared [n] ++ env) rest
  | .valueSpec names _ rest => go (declared names ++ env) rest

mutual
/-- The occurrences of names in an expression, `env` being the local names in scope.  With
`full = false`, the positions that xgo does not instrument are left out: the operands of
assignments, `++` and `--` on the left, the identifiers used as keys of composite literals, the
third index of a slice expression, the expressions of `case`, the operations of `select` clauses,
and the `x` of `&x.f`. -/
def exprOccs (full : Bool) (env : List String) : Expr → List Occ
  | .none => []
  | .lit => []
  | .typ => []
  | .ident pos n => [.id pos n (env.contains n)]
  | .sel x pos n =>
    exprOccs full env x ++
      (match bareName x with
       | some q => [.qual pos n q (env.contains q)]
       | Option.none => [])
  | .addr (.sel x pos n) =>
    (if full then exprOccs full env x else []) ++
      (match bareName x with
       | some q => [.qual pos n q (env.contains q)]
       | Option.none => [])
  | .addr x => exprOccs full env x
  | .paren x => exprOccs full env x
  | .unary x => exprOccs full env x
  | .binary x y => exprOccs full env x ++ exprOccs full env y
  | .slice x lo hi max => exprOccs full env x ++ exprOccs full env lo ++ exprOccs full env hi ++
      (if full then exprOccs full env max else [])
  | .call f args => exprOccs full env f ++ exprsOccs full env args
  | .composite elts => exprsOccs full env elts
  -- the name of a struct field is no operand
  | .kv field k v => (if isFieldKey field k || (!full && isIdent k) then [] else exprOccs full env k) ++ exprOccs full env v
  -- parameters and results are in scope in the body
  | .func params body => stmtsOccs full (declared params ++ env) body
def exprsOccs (full : Bool) (env : List String) : Exprs → List Occ
  | .nil => []
  | .cons x xs => exprOccs full env x ++ exprsOccs full env xs
/-- The occurrences in a statement. -/
def stmtOccs (full : Bool) (env : List String) : Stmt → List Occ
  | .empty => []
  | .expr x => exprOccs full env x
  | .goDefer f args => exprOccs full env f ++ exprsOccs full env args
  | .send ch v => exprOccs full env ch ++ exprOccs full env v
  | .incDec x => if full then exprOccs full env x else []
  | .ret xs => exprsOccs full env xs
  -- the names declared by `:=` are in scope only after the statement
  | .assign define lhs rhs => (if define || !full then [] else exprsOccs full env lhs) ++ exprsOccs full env rhs
  | .decl specs => specsOccs full env specs
  | .block body => stmtsOccs full env body
  -- each `if`, `for` and `switch` is a block of its own, holding what its init statement declares
  | .ifS init cond body els =>
    let env1 := after env init
    stmtOccs full env init ++ exprOccs full env1 cond ++ stmtsOccs full env1 body ++ stmtOccs full env1 els
  | .forS init cond post body =>
    let env1 := after env init
    stmtOccs full env init ++ exprOccs full env1 cond ++ stmtOccs full env1 post ++ stmtsOccs full env1 body
  | .range define key value x body =>
    let env1 := if define then
        declared (lhsNames (.cons key (.cons value .nil))) ++ env else env
    (if define || !full then [] else exprOccs full env key ++ exprOccs full env value) ++
      exprOccs full env x ++ stmtsOccs full env1 body
  | .switchS init tag body =>
    let env1 := after env init
    stmtOccs full env init ++ exprOccs full env1 tag ++ stmtsOccs full env1 body
  | .typeSwitch init assign body =>
    let env1 := after env init
    stmtOccs full env init ++ stmtOccs full env1 assign ++ stmtsOccs full (after env1 assign) body
  | .select body => stmtsOccs full env body
  | .label s => stmtOccs full env s
  -- each clause is a block; a receive statement's `:=` belongs to its clause
  | .caseClause list body => (if full then exprsOccs full env list else []) ++ stmtsOccs full env body
  | .commClause comm body => (if full then stmtOccs full env comm else []) ++ stmtsOccs full (after env comm) body
def stmtsOccs (full : Bool) (env : List String) : Stmts → List Occ
  | .nil => []
  | .cons s ss => stmtOccs full env s ++ stmtsOccs full (after env s) ss
/-- The scope of a local variable begins after its spec, that of a local type at its name. -/
def specsOccs (full : Bool) (env : List String) : Specs → List Occ
  | .nil => []
  | .typeSpec n rest => specsOccs full (declared [n] ++ env) rest
  | .valueSpec names values rest => exprsOccs full env values ++ specsOccs full (declared names ++ env) rest
end

/-- The occurrences in a function or method: type parameters, receiver, parameters and results are
in scope in its body. -/
def funcOccs (full : Bool) (f : FuncDecl) : List Occ :=
  stmtsOccs full (declared (f.names ++ f.tparams)) f.body

/-- `pkg.name` is a package-level variable or constant. -/
def IsVar (c : Ctx) (pkg name : String) : Prop :=
  c.decls pkg name = some .var ∨ c.decls pkg name = some .const

/-- The position of the identifier that ends up before the suffix. -/
def identPos : Expr → Option Nat
  | .ident pos _ => some pos
  | .sel _ pos _ => some pos
  | .addr x => identPos x
  | .paren x => identPos x
  | _ => none

/-- A recorded reference is right: its identifier is, by Go's scoping rules, the package-level
variable it is recorded for; either named directly, or qualified by an imported package's name; and
that variable's package may be instrumented. -/
def RefOk (c : Ctx) (occs : List Occ) (r : VarRef) : Prop :=
  c.allow r.pkg = true ∧ ∃ pos, identPos r.target = some pos ∧ IsVar c r.pkg r.name ∧
    ((r.pkg = c.self ∧ .id pos r.name false ∈ occs) ∨
     (∃ q, .qual pos r.name q false ∈ occs ∧ c.decls c.self q = none ∧ c.imports q = some r.pkg))

mutual
/-- Names declared in the communication clauses of `select` statements. -/
def exprComm : Expr → List String
  | .none => []
  | .lit => []
  | .typ => []
  | .ident _ _ => []
  | .sel x _ _ => exprComm x
  | .addr x => exprComm x
  | .paren x => exprComm x
  | .unary x => exprComm x
  | .binary x y => exprComm x ++ exprComm y
  | .slice x lo hi max => exprComm x ++ exprComm lo ++ exprComm hi ++ exprComm max
  | .call f args => exprComm f ++ exprsComm args
  | .composite elts => exprsComm elts
  | .kv _ k v => exprComm k ++ exprComm v
  | .func _ body => stmtsComm body
def exprsComm : Exprs → List String
  | .nil => []
  | .cons x xs => exprComm x ++ exprsComm xs
def stmtComm : Stmt → List String
  | .empty => []
  | .expr x => exprComm x
  | .goDefer f args => exprComm f ++ exprsComm args
  | .send ch v => exprComm ch ++ exprComm v
  | .incDec x => exprComm x
  | .ret xs => exprsComm xs
  | .assign _ lhs rhs => exprsComm lhs ++ exprsComm rhs
  | .decl specs => specsComm specs
  | .block body => stmtsComm body
  | .ifS init cond body els => stmtComm init ++ exprComm cond ++ stmtsComm body ++ stmtComm els
  | .forS init cond post body => stmtComm init ++ exprComm cond ++ stmtComm post ++ stmtsComm body
  | .range _ key value x body => exprComm key ++ exprComm value ++ exprComm x ++ stmtsComm body
  | .switchS init tag body => stmtComm init ++ exprComm tag ++ stmtsComm body
  | .typeSwitch init assign body => stmtComm init ++ stmtComm assign ++ stmtsComm body
  | .select body => stmtsComm body
  | .label s => stmtComm s
  | .caseClause list body => exprsComm list ++ stmtsComm body
  | .commClause comm body => after [] comm ++ stmtComm comm ++ stmtsComm body
def stmtsComm : Stmts → List String
  | .nil => []
  | .cons s ss => stmtComm s ++ stmtsComm ss
def specsComm : Specs → List String
  | .nil => []
  | .typeSpec _ rest => specsComm rest
  | .valueSpec _ values rest => exprsComm values ++ specsComm rest
end

/-- A local name that cannot be mistaken: the package declares no variable or constant of that
name, and if it declares nothing of that name, the file imports nothing under it. -/
def Harmless (c : Ctx) (n : String) : Prop :=
  ¬ IsVar c c.self n ∧ (c.decls c.self n = none → c.imports n = none)

/-! ## For the completeness and the at-most-once theorems -/

mutual
/-- The positions of all names of an expression, in source order. -/
def exprPos : Expr → List Nat
  | .none => []
  | .lit => []
  | .typ => []
  | .ident pos _ => [pos]
  | .sel x pos _ => exprPos x ++ [pos]
  | .addr x => exprPos x
  | .paren x => exprPos x
  | .unary x => exprPos x
  | .binary x y => exprPos x ++ exprPos y
  | .slice x lo hi max => exprPos x ++ exprPos lo ++ exprPos hi ++ exprPos max
  | .call f args => exprPos f ++ exprsPos args
  | .composite elts => exprsPos elts
  | .kv _ k v => exprPos k ++ exprPos v
  | .func _ body => stmtsPos body
def exprsPos : Exprs → List Nat
  | .nil => []
  | .cons x xs => exprPos x ++ exprsPos xs
def stmtPos : Stmt → List Nat
  | .empty => []
  | .expr x => exprPos x
  | .goDefer f args => exprPos f ++ exprsPos args
  | .send ch v => exprPos ch ++ exprPos v
  | .incDec x => exprPos x
  | .ret xs => exprsPos xs
  | .assign _ lhs rhs => exprsPos lhs ++ exprsPos rhs
  | .decl specs => specsPos specs
  | .block body => stmtsPos body
  | .ifS init cond body els => stmtPos init ++ exprPos cond ++ stmtsPos body ++ stmtPos els
  | .forS init cond post body => stmtPos init ++ exprPos cond ++ stmtPos post ++ stmtsPos body
  | .range _ key value x body => exprPos key ++ exprPos value ++ exprPos x ++ stmtsPos body
  | .switchS init tag body => stmtPos init ++ exprPos tag ++ stmtsPos body
  | .typeSwitch init assign body => stmtPos init ++ stmtPos assign ++ stmtsPos body
  | .select body => stmtsPos body
  | .label s => stmtPos s
  | .caseClause list body => exprsPos list ++ stmtsPos body
  | .commClause comm body => stmtPos comm ++ stmtsPos body
def stmtsPos : Stmts → List Nat
  | .nil => []
  | .cons s ss => stmtPos s ++ stmtsPos ss
def specsPos : Specs → List Nat
  | .nil => []
  | .typeSpec _ rest => specsPos rest
  | .valueSpec _ values rest => exprsPos values ++ specsPos rest
end

mutual
/-- The names declared anywhere inside an expression (by the function literals in it). -/
def exprDecls : Expr → List String
  | .none => []
  | .lit => []
  | .typ => []
  | .ident _ _ => []
  | .sel x _ _ => exprDecls x
  | .addr x => exprDecls x
  | .paren x => exprDecls x
  | .unary x => exprDecls x
  | .binary x y => exprDecls x ++ exprDecls y
  | .slice x lo hi max => exprDecls x ++ exprDecls lo ++ exprDecls hi ++ exprDecls max
  | .call f args => exprDecls f ++ exprsDecls args
  | .composite elts => exprsDecls elts
  | .kv _ k v => exprDecls k ++ exprDecls v
  | .func params body => params ++ stmtsDecls body
def exprsDecls : Exprs → List String
  | .nil => []
  | .cons x xs => exprDecls x ++ exprsDecls xs
def stmtDecls : Stmt → List String
  | .empty => []
  | .expr x => exprDecls x
  | .goDefer f args => exprDecls f ++ exprsDecls args
  | .send ch v => exprDecls ch ++ exprDecls v
  | .incDec x => exprDecls x
  | .ret xs => exprsDecls xs
  | .assign define lhs rhs => (if define then lhsNames lhs else []) ++ exprsDecls lhs ++ exprsDecls rhs
  | .decl specs => specsDecls specs
  | .block body => stmtsDecls body
  | .ifS init cond body els => stmtDecls init ++ exprDecls cond ++ stmtsDecls body ++ stmtDecls els
  | .forS init cond post body => stmtDecls init ++ exprDecls cond ++ stmtDecls post ++ stmtsDecls body
  | .range define key value x body =>
    (if define then lhsNames (.cons key (.cons value .nil)) else []) ++
      exprDecls key ++ exprDecls value ++ exprDecls x ++ stmtsDecls body
  | .switchS init tag body => stmtDecls init ++ exprDecls tag ++ stmtsDecls body
  | .typeSwitch init assign body => stmtDecls init ++ stmtDecls assign ++ stmtsDecls body
  | .select body => stmtsDecls body
  | .label s => stmtDecls s
  | .caseClause list body => exprsDecls list ++ stmtsDecls body
  | .commClause comm body => stmtDecls comm ++ stmtsDecls body
def stmtsDecls : Stmts → List String
  | .nil => []
  | .cons s ss => stmtDecls s ++ stmtsDecls ss
def specsDecls : Specs → List String
  | .nil => []
  | .typeSpec n rest => n :: specsDecls rest
  | .valueSpec names values rest => names ++ exprsDecls values ++ specsDecls rest
end

/-- The names declared anywhere inside a function. -/
def funcDecls (f : FuncDecl) : List String := f.names ++ f.tparams ++ stmtsDecls f.body

/-- The occurrence `o` at `pos` is a use of the package variable `pkg.name`, provided `key` is not
shadowed: directly, or through an import. -/
inductive UseOf (c : Ctx) : Occ → (key : String) → (pos : Nat) → (pkg name : String) → Prop
  | direct (pos n l) : UseOf c (.id pos n l) n pos c.self n
  | qualified (pos n q p l) : c.decls c.self q = none → c.imports q = some p →
      UseOf c (.qual pos n q l) q pos p n

/-- A package variable (or constant) xgo is able to instrument: in a package that may be
instrumented, with a type the resolver knows. -/
def Instrumentable (c : Ctx) (pkg name : String) : Prop :=
  IsVar c pkg name ∧ c.known pkg name = true ∧ c.typed pkg name = true ∧ c.allow pkg = true ∧
    name ≠ "" ∧ name ≠ "_"

end Verif.Instrument.Resolve
