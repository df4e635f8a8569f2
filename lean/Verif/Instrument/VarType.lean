/-
Model of the type xgo writes in the getter of an instrumented variable (`func V_xgo_get() T { ... }`) that is declared without a
type: instrument/resolve/resolve.go, collect_var_ref.go and traverse.go find the type of the value, instrument_var/trap_var.go
writes it, importing the packages it needs.

Simplifications:
* of the expressions, fields and methods of a value (`x.f`), indices, instances of generic types and type parameters are left
  out (`other`: nothing is known about it); a selector is `pkg.Name`;
* a name is a list of characters; it is exported if it begins with `A`-`Z`;
* the results are kept by syntax node (`ExprInfo`, resolve.go:37-52), so that the type or value of a package-level declaration is
  resolved once, in the scope of the first reference: which scope that is depends on the order in which the functions are
  visited, and is a parameter (`Seen`) here; cycles, which the code cuts by that table, run out of fuel here;
* for a name that a function declares (`:=`) the scope gives what its value resolves to.
-/
namespace Verif.Instrument.VarType

abbrev Str := List Char

/-- Basic literals (go/token). -/
inductive LitKind
  | int | char | float | string | imag
deriving DecidableEq

/-- Operators of `BinaryExpr`, as resolve.go:218-251 groups them: `+ - * / % && || & | ^`; `<< >>`; comparisons; `&^`. -/
inductive Op
  | arith | shift | cmp | other
deriving DecidableEq

mutual
/-- Expressions, including type expressions (go/ast). -/
inductive Expr
  | ident (x : Str)
  /-- `x.n` where `x` is a name -/
  | sel (x n : Str)
  | star (e : Expr)
  | addr (e : Expr)
  /-- `!e` -/
  | not (e : Expr)
  | paren (e : Expr)
  | binary (op : Op) (x y : Expr)
  | call (f : Expr) (args : Exprs)
  /-- `t{...}` -/
  | comp (t : Expr)
  | lit (k : LitKind)
  /-- function literal, with its results -/
  | func (rs : Exprs)
  | funcT (rs : Exprs)
  | mapT (k v : Expr)
  /-- `[]e`, or with a length (`fixed`) -/
  | arrayT (fixed : Bool) (e : Expr)
  | structT | ifaceT | chanT
  /-- any other expression -/
  | other
/-- Arguments, and result lists: the number of names of an entry and its type. -/
inductive Exprs
  | nil
  | cons (names : Nat) (e : Expr) (rest : Exprs)
end

/-- name to path (import.go:10) -/
abbrev Imports := List (Str × Str)

/-- Package-level declarations (instrument/edit; traverse.go:14-128). -/
inductive DeclKind
  /-- `type n e`, or `type n = e` -/
  | typ (alias : Bool) (e : Expr)
  /-- variable or constant: type, value; it is the name number `idx` of several that get the results of one call (`multi`) -/
  | var (const : Bool) (t v : Option Expr) (multi : Bool) (idx : Nat)
  | func (rs : Exprs)

/-- A declaration with the imports of its file. -/
structure Decl where
  kind : DeclKind
  imports : Imports

/-- All packages: path, whether it is the external test package of that path (`package p_test`), name. -/
abbrev Prog := Str → Bool → Str → Option Decl

/-- `pkg.Decls` (traverse.go:114-117): the files of the external test package come last (load/load.go:157-170) and are in the
    same table. -/
def table (P : Prog) (p x : Str) : Option Decl :=
  match P p true x with
  | some d => some d
  | none => P p false x

mutual
/-- A `Scope` (scope.go:117-127): package path, imports of the file, names declared in functions. -/
inductive Scope
  | mk (pkg : Str) (imports : Imports) (locals : Locals)
/-- Local names: with what `GetDef` and `resolveDef` find, or none. -/
inductive Locals
  | nil
  | defined (x : Str) (t : Ty) (rest : Locals)
  | name (x : Str) (rest : Locals)
/-- Types (types/type.go). -/
inductive Ty
  | unknown
  | untyped
  | basic (n : Str)
  | named (p n : Str) (t : Ty)
  | ptr (t : Ty)
  /-- a type resolved when it is needed -/
  | lazy (s : Scope) (e : Expr)
  /-- the result types are resolved when they are needed -/
  | sig (s : Scope) (rs : Exprs)
  | tuple (s : Scope) (rs : Exprs)
  | map (k v : Ty)
  | slice (t : Ty)
  | array | chan | iface | struct
  | pkg (path : Str)
  /-- no type at all (the nil interface) -/
  | null
end

def Scope.pkg : Scope → Str
  | .mk p _ _ => p

def Scope.imports : Scope → Imports
  | .mk _ im _ => im

def Scope.locals : Scope → Locals
  | .mk _ _ l => l

/-- `Has` and `GetDef` (scope.go:197-218): not local, or a local name with or without a definition. -/
def Locals.look : Locals → Str → Option (Option Ty)
  | .nil, _ => none
  | .defined x t rest, y => if x = y then some (some t) else rest.look y
  | .name x rest, y => if x = y then some none else rest.look y

/-- Values (types/type.go, `Object`), with their type. `Value`, `Literal`, `PkgVariable`, `PkgFunc`, `TupleValue`, `Pointer`,
    `ScopeVariable` and `UntypedNil` are told apart only by their type here. -/
inductive Obj
  | value (t : Ty)
  | untypedLit (t : Ty)

/-- `Object.Type()` -/
def Obj.type : Obj → Ty
  | .value t => t
  | .untypedLit t => t

/-- Result of the resolver (types/type.go, `Info`). -/
inductive Info
  | unknown
  | op (n : Str)
  | type (t : Ty)
  | obj (o : Obj)

def Ty.isUnknown : Ty → Bool
  | .unknown => true
  | _ => false

/-- `resolveType` (resolve.go:56-73), from the result of `resolveInfo`. -/
def Info.asType : Info → Ty
  | .type t => t
  | _ => .unknown

/-- `deref` (resolve.go:533-538) -/
def deref : Ty → Ty
  | .ptr t => t
  | _ => .unknown

/-- resolve.go:171-174 -/
def operations : List Str :=
  ["new", "make", "cap", "len", "copy", "append", "delete", "close", "complex", "real", "imag", "panic", "recover"].map (·.toList)

/-- `validateBasicName` (resolve.go:469-486) -/
def basicNames : List Str :=
  ["string", "byte", "int", "int8", "int16", "int32", "int64", "uint", "uint8", "uint16", "uint32", "uint64", "float32", "float64",
   "bool", "complex64", "complex128"].map (·.toList)

/-- resolve.go:168-175 -/
def universal (x : Str) : Info :=
  if x = "nil".toList then .obj (.value .untyped)
  else if operations.contains x then .op x
  else if basicNames.contains x then .type (.basic x)
  else .unknown

/-- `getBasicLitConstType` (resolve.go:540-552) -/
def litType : LitKind → Option Str
  | .int => some "int".toList
  | .string => some "string".toList
  | .char => some "byte".toList
  | .float => some "float64".toList
  | .imag => none

/-- For each package-level declaration the scope in which its type or value was resolved first (see above). -/
abbrev Seen := Str → Str → Scope

/-- `decl.Value` (traverse.go:41-44): of several names that get the results of one call, only the first has it. -/
def DeclKind.value : DeclKind → Option Expr
  | .var _ _ v _ idx => if idx = 0 then v else none
  | _ => none

mutual
/-- `resolveInfo` (resolve.go:37-52) and `doResolveInfo` (resolve.go:93-467). -/
def resolve (P : Prog) (seen : Seen) : Nat → Scope → Expr → Info
  | 0, _, _ => .unknown
  | n + 1, s, .ident x =>
    match s.locals.look x with
    | some (some t) => .obj (.value t)
    | some none => .unknown
    | none => match table P s.pkg x with
      | some d => match d.kind with
        | .typ _ e =>
          let t := (resolve P seen n (seen s.pkg x) e).asType
          if t.isUnknown then .unknown else .type (.named s.pkg x t)
        | .func rs => .obj (.value (.sig (seen s.pkg x) rs))
        | .var _ (some e) _ _ _ =>
          let t := (resolve P seen n (seen s.pkg x) e).asType
          if t.isUnknown then .unknown else .obj (.value t)
        | .var c none v m i => match (DeclKind.var c none v m i).value with
          | none => .unknown
          | some e => match resolve P seen n (seen s.pkg x) e with
            | .unknown => .unknown
            | .obj o => if o.type.isUnknown then .unknown else .obj (.value o.type)
            | _ => .obj (.value .null)
      | none => match s.imports.lookup x with
        | some q => .type (.pkg q)
        | none => universal x
  | n + 1, s, .sel x f =>
    -- resolve.go:598-627
    match resolve P seen n s (.ident x) with
    | .type (.pkg q) => match table P q f with
      | some d => resolve P seen n (.mk q d.imports .nil) (.ident f)
      | none => .unknown
    | _ => .unknown
  | n + 1, s, .star e =>
    match resolve P seen n s e with
    | .type t => .type (.ptr t)
    | .obj o => let t := deref o.type
      if t.isUnknown then .unknown else .obj (.value t)
    | _ => .unknown
  | n + 1, s, .addr e =>
    match resolve P seen n s e with
    | .obj o => .obj (.value (.ptr o.type))
    | _ => .unknown
  | n + 1, s, .not e =>
    match resolve P seen n s e with
    | .obj o => .obj (.value o.type)
    | _ => .unknown
  | n + 1, s, .paren e => resolve P seen n s e
  | n + 1, s, .binary op x y =>
    match op with
    | .arith => match resolve P seen n s x with
      | .obj (.untypedLit _) => match resolve P seen n s y with
        | .obj o => .obj (.value o.type)
        | _ => .unknown
      | .obj o => .obj (.value o.type)
      | _ => .unknown
    | .shift => match resolve P seen n s x with
      | .obj o => .obj (.value o.type)
      | _ => .unknown
    | .cmp => .obj (.value (.basic "bool".toList))
    | .other => .unknown
  | n + 1, s, .call f args =>
    -- resolve.go:383-453
    match resolve P seen n s f with
    | .op o =>
      if o = "new".toList then match args with
        | .cons _ a .nil => let t := (resolve P seen n s a).asType
          if t.isUnknown then .unknown else .obj (.value (.ptr t))
        | _ => .unknown
      else if o = "make".toList then match args with
        | .cons _ a _ => let t := (resolve P seen n s a).asType
          if t.isUnknown then .unknown else .obj (.value t)
        | .nil => .unknown
      else if o = "append".toList then match args with
        | .cons _ a _ => match resolve P seen n s a with
          | .obj o => .obj (.value o.type)
          | _ => .unknown
        | .nil => .unknown
      else .unknown
    | .unknown => .obj (.value .unknown)
    | .type t => .obj (.value t)
    | .obj o => match under P seen n o.type with
      | .sig s' (.cons _ e .nil) => .obj (.value (.lazy s' e))
      | .sig s' rs => .obj (.value (.tuple s' rs))
      | _ => .unknown
  | n + 1, s, .comp t =>
    let t := (resolve P seen n s t).asType
    if t.isUnknown then .unknown else .obj (.value t)
  | _ + 1, _, .lit k => match litType k with
    | some b => .obj (.untypedLit (.basic b))
    | none => .unknown
  | _ + 1, s, .func rs => .obj (.value (.sig s rs))
  | _ + 1, s, .funcT rs => .type (.sig s rs)
  | _ + 1, s, .mapT k v => .type (.map (.lazy s k) (.lazy s v))
  | n + 1, s, .arrayT fixed e =>
    let t := (resolve P seen n s e).asType
    if t.isUnknown then .unknown else .type (if fixed then .array else .slice t)
  | _ + 1, _, .structT => .type .struct
  | _ + 1, _, .ifaceT => .type .iface
  | _ + 1, _, .chanT => .type .chan
  | _ + 1, _, .other => .unknown
/-- `Type.Underlying()` (types/type.go), as far as functions go. -/
def under (P : Prog) (seen : Seen) : Nat → Ty → Ty
  | 0, _ => .unknown
  | n + 1, .named _ _ t => under P seen n t
  | n + 1, .lazy s e => under P seen n (resolve P seen n s e).asType
  | _ + 1, t => t
end

/-! ### Writing the type -/

/-- `token.IsExported` -/
def exported : Str → Bool
  | c :: _ => c.isUpper
  | [] => false

/-- `importRecorder` (trap_var.go:234-244) and `importEdits` (trap_var.go:148). -/
structure Recorder where
  refs : List (Str × Str) := []
  num : Nat := 0
  edits : List (Str × Str) := []

/-- `fmt.Sprintf("%d", n)` -/
def dec (n : Nat) : Str := Nat.toDigits 10 n

/-- The name asked for (trap_var.go:191-192): the position of the variable. -/
def wish (line col : Nat) : Str := "__xgo_var_ref_".toList ++ dec line ++ '_' :: dec col

/-- `RecordImport` (trap_var.go:246-263), and the edit it leads to (193-198). Paths and names are not empty. -/
def Recorder.record (r : Recorder) (path ref : Str) : Str × Recorder :=
  match r.refs.lookup path with
  | some prev => (prev, r)
  | none =>
    let ref := if 0 < r.num then ref ++ '_' :: dec r.num else ref
    (ref, { refs := (path, ref) :: r.refs, num := r.num + 1, edits := r.edits ++ [(path, ref)] })

/-- The surroundings: `pkgPath`, and the position of the variable (trap_var.go:140-149). -/
structure Use where
  pkg : Str
  line : Nat
  col : Nat

/-- `strings.Join(list, ", ")` -/
def joinComma : List Str → Str
  | [] => []
  | [a] => a
  | a :: b :: r => a ++ ", ".toList ++ joinComma (b :: r)

mutual
/-- `doUseTypeInFile` (trap_var.go:178-232); `none` is a panic. -/
def useType (P : Prog) (seen : Seen) (u : Use) : Nat → Recorder → Ty → Option Str × Recorder
  | 0, r, _ => (none, r)
  | _ + 1, r, .basic b => (some b, r)
  | _ + 1, r, .named p x _ =>
    if p = u.pkg then (some x, r)
    else if exported x = false then (none, r)
    else
      let (ref, r) := r.record p (wish u.line u.col)
      (some (ref ++ '.' :: x), r)
  | n + 1, r, .ptr t => match useType P seen u n r t with
    | (some c, r) => (some ('*' :: c), r)
    | (none, r) => (none, r)
  | n + 1, r, .tuple s rs => match rs with
    | .nil => (some [], r)
    | .cons _ e .nil => useType P seen u n r (.lazy s e)
    | rs => match useAll P seen u n r s rs with
      | (some l, r) => (some ("(".toList ++ joinComma l ++ ")".toList), r)
      | (none, r) => (none, r)
  | n + 1, r, .map k v => match useType P seen u n r k with
    | (none, r) => (none, r)
    | (some k, r) => match useType P seen u n r v with
      | (some v, r) => (some ("map[".toList ++ k ++ ']' :: v), r)
      | (none, r) => (none, r)
  | n + 1, r, .slice t => match useType P seen u n r t with
    | (some c, r) => (some ("[]".toList ++ c), r)
    | (none, r) => (none, r)
  | n + 1, r, .lazy s e => useType P seen u n r (resolve P seen n s e).asType
  | _ + 1, r, _ => (none, r)
/-- The elements of a tuple (trap_var.go:211-214). -/
def useAll (P : Prog) (seen : Seen) (u : Use) : Nat → Recorder → Scope → Exprs → Option (List Str) × Recorder
  | 0, r, _, _ => (none, r)
  | _ + 1, r, _, .nil => (some [], r)
  | n + 1, r, s, .cons _ e rest => match useType P seen u n r (.lazy s e) with
    | (none, r) => (none, r)
    | (some c, r) => match useAll P seen u n r s rest with
      | (some l, r) => (some (c :: l), r)
      | (none, r) => (none, r)
end

/-- `Remove` for each edit (trap_var.go:159-161, 265-267). -/
def Recorder.cancel (r : Recorder) : Recorder :=
  { r with refs := r.refs.filter fun x => !(r.edits.any fun e => e.1 == x.1), edits := [] }

/-- What is written as the type of the getters: a copy of source text, or new text. -/
inductive Code
  | source (e : Expr)
  | text (c : Str)

/-- A variable of the file: name and position. -/
structure Var where
  name : Str
  line : Nat
  col : Nat

/-- `tryResolveDeclType` (collect_var_ref.go:131-165): the type of the value; none: the variable is left alone. -/
def valueType (P : Prog) (seen : Seen) (n : Nat) (p : Str) (x : Str) (v : Expr) : Option Ty :=
  match resolve P seen n (seen p x) v with
  | .obj o => if o.type.isUnknown then none else some o.type
  | _ => none

/-- `rewriteVarDefAndRefs` (trap_var.go:58-119) with `useTypeInFile` (trap_var.go:151-171), for a variable that is referred to
    somewhere: the type of its getters, if it gets any, and the imports (name, path) added to the file. -/
def getter (P : Prog) (seen : Seen) (n : Nat) (p : Str) (r : Recorder) (x : Var) : Option Code × List (Str × Str) × Recorder :=
  match table P p x.name with
  | some ⟨.var false (some e) _ _ _, _⟩ => (some (.source e), [], r)
  | some ⟨.var false none v m i, _⟩ => match (DeclKind.var false none v m i).value with
    | none => (none, [], r)
    | some (.func rs) => (some (.source (.funcT rs)), [], r)
    | some v => match valueType P seen n p x.name v with
      | none => (none, [], r)
      | some t => match useType P seen ⟨p, x.line, x.col⟩ n { r with edits := [] } t with
        | (none, r) => (none, [], r.cancel)
        | (some c, r) => (if c = [] then none else some (.text c), r.edits.map fun e => (e.2, e.1), { r with edits := [] })
  | _ => (none, [], r)

/-- `TrapVariables` for one file (trap_var.go:41-55). -/
def getters (P : Prog) (seen : Seen) (n : Nat) (p : Str) : Recorder → List Var → List (Var × Option Code) × List (Str × Str)
  | _, [] => ([], [])
  | r, x :: xs =>
    let (c, im, r) := getter P seen n p r x
    let (cs, ims) := getters P seen n p r xs
    ((x, c) :: cs, im ++ ims)

end Verif.Instrument.VarType
