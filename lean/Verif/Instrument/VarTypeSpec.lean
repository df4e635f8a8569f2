import Verif.Instrument.VarType
/-
The types of Go, as far as they are needed to say what the type of a package-level variable is.
-/
namespace Verif.Instrument.VarType.Spec

/-- Where an expression stands: package (or its external test package) and imports of the file. -/
structure Env where
  pkg : Str
  xtest : Bool
  imports : Imports

/-- The predeclared types, `byte` and `rune` being other names of `uint8` and `int32`. -/
def predeclaredType (x : Str) : Option Str :=
  if x = "byte".toList then some "uint8".toList
  else if x = "rune".toList then some "int32".toList
  else if (["string", "int", "int8", "int16", "int32", "int64", "uint", "uint8", "uint16", "uint32", "uint64", "uintptr", "float32",
      "float64", "bool", "complex64", "complex128", "error", "any", "comparable"].map (·.toList)).contains x then some x
  else none

def builtins : List Str :=
  ["append", "cap", "clear", "close", "complex", "copy", "delete", "imag", "len", "make", "max", "min", "new", "panic", "print",
   "println", "real", "recover"].map (·.toList)

/-- The predeclared names. -/
def Predeclared (x : Str) : Prop :=
  (predeclaredType x).isSome = true ∨ x ∈ builtins ∨ x = "nil".toList ∨ x = "true".toList ∨ x = "false".toList

/-- Types. Defined types are told apart by name; function types and the type literals that are not needed here by where they are
    written. -/
inductive GType
  | basic (n : Str)
  | named (p : Str) (xtest : Bool) (n : Str)
  | ptr (t : GType)
  | slice (t : GType)
  | map (k v : GType)
  | func (env : Env) (rs : Exprs)
  | lit (env : Env) (e : Expr)

/-- The kinds of untyped constants. -/
inductive Const
  | bool | int | rune | float | string

/-- A value: of a type, or an untyped constant (or the untyped truth value of a comparison). -/
inductive Val
  | typed (t : GType)
  | const (k : Const)

/-- The type of a variable that is declared with the value. -/
def Val.default : Val → GType
  | .typed t => t
  | .const .bool => .basic "bool".toList
  | .const .int => .basic "int".toList
  | .const .rune => .basic "int32".toList
  | .const .float => .basic "float64".toList
  | .const .string => .basic "string".toList

/-- The kind of `x op y` for two untyped constants: the later of int, rune, float. -/
def Const.join : Const → Const → Option Const
  | .bool, .bool => some .bool
  | .string, .string => some .string
  | .int, .int => some .int
  | .int, .rune => some .rune
  | .int, .float => some .float
  | .rune, .int => some .rune
  | .rune, .rune => some .rune
  | .rune, .float => some .float
  | .float, .int => some .float
  | .float, .rune => some .float
  | .float, .float => some .float
  | _, _ => none

/-- The kind of `x << y` for untyped constants. -/
def Const.shift : Const → Option Const
  | .int => some .int
  | .rune => some .rune
  | .float => some .int
  | _ => none

/-- What can be said about an expression. -/
inductive Fact
  | type (t : GType)
  | val (v : Val)
  | pkg (path : Str)
  | builtin (n : Str)

def litConst : LitKind → Option Const
  | .int => some .int
  | .char => some .rune
  | .float => some .float
  | .string => some .string
  | .imag => none

/-- A literal, in parentheses or not. -/
def isLit : Expr → Bool
  | .lit _ => true
  | .paren e => isLit e
  | _ => false

/-- The types of a result list, one per result. -/
def results : Exprs → List Expr
  | .nil => []
  | .cons n e rest => List.replicate (max n 1) e ++ results rest

/-- The name begins with `A`-`Z`: only then may another package use it. -/
def isExported (f : Str) : Bool := f.head?.any fun c => 'A'.toNat ≤ c.toNat && c.toNat ≤ 'Z'.toNat

mutual
/-- The rules of Go. With `plain`, without those uses of untyped constants, and of several variables for one call, for which the
    claim fails:
    no character literals; an operator on two constants only if they are of one kind; a constant before the operator and a typed
    operand after it only if the constant is a literal; no floating-point constant is shifted. -/
inductive Is (P : Prog) (plain : Bool) : Env → Expr → Fact → Prop
  -- names
  | alias {env x e im T} : P env.pkg env.xtest x = some ⟨.typ true e, im⟩ → Is P plain ⟨env.pkg, env.xtest, im⟩ e (.type T) →
      Is P plain env (.ident x) (.type T)
  | defined {env x e im} : P env.pkg env.xtest x = some ⟨.typ false e, im⟩ →
      Is P plain env (.ident x) (.type (.named env.pkg env.xtest x))
  | declared {env x c e v m i im T} : P env.pkg env.xtest x = some ⟨.var c (some e) v m i, im⟩ →
      Is P plain ⟨env.pkg, env.xtest, im⟩ e (.type T) → Is P plain env (.ident x) (.val (.typed T))
  | var {env x e im w} : P env.pkg env.xtest x = some ⟨.var false none (some e) false 0, im⟩ →
      Is P plain ⟨env.pkg, env.xtest, im⟩ e (.val w) → Is P plain env (.ident x) (.val (.typed w.default))
  | vars {env x f args i im T env' rs e U} : plain = false → P env.pkg env.xtest x = some ⟨.var false none (some (.call f args)) true i, im⟩ →
      Is P plain ⟨env.pkg, env.xtest, im⟩ f (.val (.typed T)) → Under P plain T (.func env' rs) → (results rs)[i]? = some e →
      Is P plain env' e (.type U) → Is P plain env (.ident x) (.val (.typed U))
  | const {env x e im w} : P env.pkg env.xtest x = some ⟨.var true none (some e) false 0, im⟩ →
      Is P plain ⟨env.pkg, env.xtest, im⟩ e (.val w) → Is P plain env (.ident x) (.val w)
  | func {env x rs im} : P env.pkg env.xtest x = some ⟨.func rs, im⟩ →
      Is P plain env (.ident x) (.val (.typed (.func ⟨env.pkg, env.xtest, im⟩ rs)))
  | imported {env x q} : P env.pkg env.xtest x = none → env.imports.lookup x = some q → Is P plain env (.ident x) (.pkg q)
  | basic {env x b} : P env.pkg env.xtest x = none → env.imports.lookup x = none → predeclaredType x = some b →
      Is P plain env (.ident x) (.type (.basic b))
  | builtin {env x} : P env.pkg env.xtest x = none → env.imports.lookup x = none → x ∈ builtins →
      Is P plain env (.ident x) (.builtin x)
  | truth {env x} : P env.pkg env.xtest x = none → env.imports.lookup x = none → x = "true".toList ∨ x = "false".toList →
      Is P plain env (.ident x) (.val (.const .bool))
  | qualified {env x q f d F} : Is P plain env (.ident x) (.pkg q) → isExported f = true → P q false f = some d →
      Is P plain ⟨q, false, d.imports⟩ (.ident f) F → Is P plain env (.sel x f) F
  -- operators
  | starT {env e T} : Is P plain env e (.type T) → Is P plain env (.star e) (.type (.ptr T))
  | star {env e T} : Is P plain env e (.val (.typed (.ptr T))) → Is P plain env (.star e) (.val (.typed T))
  | addr {env e T} : Is P plain env e (.val (.typed T)) → Is P plain env (.addr e) (.val (.typed (.ptr T)))
  | not {env e w} : Is P plain env e (.val w) → Is P plain env (.not e) (.val w)
  | paren {env e F} : Is P plain env e F → Is P plain env (.paren e) F
  | arith {env x y T} : Is P plain env x (.val (.typed T)) → Is P plain env y (.val (.typed T)) →
      Is P plain env (.binary .arith x y) (.val (.typed T))
  | arithConst {env x y T k} : Is P plain env x (.val (.typed T)) → Is P plain env y (.val (.const k)) →
      Is P plain env (.binary .arith x y) (.val (.typed T))
  | constArith {env x y T k} : (plain = true → isLit x = true) → Is P plain env x (.val (.const k)) →
      Is P plain env y (.val (.typed T)) → Is P plain env (.binary .arith x y) (.val (.typed T))
  | consts {env x y k k' j} : (plain = true → k = k') → Is P plain env x (.val (.const k)) → Is P plain env y (.val (.const k')) →
      k.join k' = some j → Is P plain env (.binary .arith x y) (.val (.const j))
  | shift {env x y T w} : Is P plain env x (.val (.typed T)) → Is P plain env y (.val w) →
      Is P plain env (.binary .shift x y) (.val (.typed T))
  | shiftConst {env x y k k' j} : (plain = true → k ≠ .float) → Is P plain env x (.val (.const k)) → Is P plain env y (.val (.const k')) →
      k.shift = some j → Is P plain env (.binary .shift x y) (.val (.const j))
  | cmp {env x y} : Is P plain env (.binary .cmp x y) (.val (.const .bool))
  -- calls and literals
  | convert {env f args T} : Is P plain env f (.type T) → Is P plain env (.call f args) (.val (.typed T))
  | call {env f args T env' n e U} : Is P plain env f (.val (.typed T)) → Under P plain T (.func env' (.cons n e .nil)) → n ≤ 1 →
      Is P plain env' e (.type U) → Is P plain env (.call f args) (.val (.typed U))
  | new {env f n a T} : Is P plain env f (.builtin "new".toList) → Is P plain env a (.type T) →
      Is P plain env (.call f (.cons n a .nil)) (.val (.typed (.ptr T)))
  | make {env f n a args T} : Is P plain env f (.builtin "make".toList) → Is P plain env a (.type T) →
      Is P plain env (.call f (.cons n a args)) (.val (.typed T))
  | append {env f n a args T} : Is P plain env f (.builtin "append".toList) → Is P plain env a (.val (.typed T)) →
      Is P plain env (.call f (.cons n a args)) (.val (.typed T))
  | comp {env e T} : Is P plain env e (.type T) → Is P plain env (.comp e) (.val (.typed T))
  | lit {env l k} : (plain = true → l ≠ .char) → litConst l = some k → Is P plain env (.lit l) (.val (.const k))
  | funcLit {env rs} : Is P plain env (.func rs) (.val (.typed (.func env rs)))
  -- types
  | sig {env rs} : Is P plain env (.funcT rs) (.type (.func env rs))
  | map {env k v K V} : Is P plain env k (.type K) → Is P plain env v (.type V) → Is P plain env (.mapT k v) (.type (.map K V))
  | slice {env e T} : Is P plain env e (.type T) → Is P plain env (.arrayT false e) (.type (.slice T))
  | array {env e} : Is P plain env (.arrayT true e) (.type (.lit env (.arrayT true e)))
  | struct {env} : Is P plain env .structT (.type (.lit env .structT))
  | iface {env} : Is P plain env .ifaceT (.type (.lit env .ifaceT))
  | chan {env} : Is P plain env .chanT (.type (.lit env .chanT))
/-- The function type behind a type. -/
inductive Under (P : Prog) (plain : Bool) : GType → GType → Prop
  | named {p xt n e im T U} : P p xt n = some ⟨.typ false e, im⟩ → Is P plain ⟨p, xt, im⟩ e (.type T) → Under P plain T U →
      Under P plain (.named p xt n) U
  | func {env rs} : Under P plain (.func env rs) (.func env rs)
end

/-- The type of the variable `p.x`. -/
def VarIs (P : Prog) (plain : Bool) (p : Str) (xtest : Bool) (x : Str) (T : GType) : Prop :=
  ∃ im, Is P plain ⟨p, xtest, im⟩ (.ident x) (.val (.typed T))

/-! ### The text of a type -/

mutual
/-- A type as it is written. -/
inductive Form
  | name (x : Str)
  | qual (r x : Str)
  | ptr (f : Form)
  | slice (f : Form)
  | map (k v : Form)
  /-- `(a, b)`: not a type -/
  | tuple (fs : Forms)
inductive Forms
  | nil
  | cons (f : Form) (fs : Forms)
end

def commas : List Str → Str
  | [] => []
  | [a] => a
  | a :: l => a ++ ", ".toList ++ commas l

mutual
def Form.print : Form → Str
  | .name x => x
  | .qual r x => r ++ '.' :: x
  | .ptr f => '*' :: f.print
  | .slice f => "[]".toList ++ f.print
  | .map k v => "map[".toList ++ k.print ++ ']' :: v.print
  | .tuple fs => match fs with
    | .nil => []
    | fs => '(' :: commas fs.print ++ ")".toList
def Forms.print : Forms → List Str
  | .nil => []
  | .cons f fs => f.print :: fs.print
end

mutual
/-- The packages a text refers to, by the names it uses for them. -/
def Form.quals : Form → List Str
  | .name _ => []
  | .qual r _ => [r]
  | .ptr f => f.quals
  | .slice f => f.quals
  | .map k v => k.quals ++ v.quals
  | .tuple fs => fs.quals
def Forms.quals : Forms → List Str
  | .nil => []
  | .cons f fs => f.quals ++ fs.quals
end

/-- The type expression. -/
def Form.expr : Form → Expr
  | .name x => .ident x
  | .qual r x => .sel r x
  | .ptr f => .star f.expr
  | .slice f => .arrayT false f.expr
  | .map k v => .mapT k.expr v.expr
  | .tuple _ => .other

/-- The same type, some files having got the imports `added`: what is written at the same place. -/
inductive Same (added : Imports) : GType → GType → Prop
  | refl {T} : Same added T T
  | func {p xt im rs} : Same added (.func ⟨p, xt, im⟩ rs) (.func ⟨p, xt, added ++ im⟩ rs)
  | lit {p xt im e} : Same added (.lit ⟨p, xt, im⟩ e) (.lit ⟨p, xt, added ++ im⟩ e)
  | ptr {T T'} : Same added T T' → Same added (.ptr T) (.ptr T')
  | slice {T T'} : Same added T T' → Same added (.slice T) (.slice T')
  | map {K K' V V'} : Same added K K' → Same added V V' → Same added (.map K V) (.map K' V')

/-- The text, read in the file (of the package proper) with the imports `im` that has got the imports `added`, is the type `T`. -/
def Denotes (P : Prog) (p : Str) (im added : Imports) : Code → GType → Prop
  | .source e, T => ∃ T', Same added T T' ∧ Is P false ⟨p, false, added ++ im⟩ e (.type T')
  | .text c, T => ∃ f : Form, c = f.print ∧ Is P false ⟨p, false, added ++ im⟩ f.expr (.type T)

/-! ### The programs -/

mutual
/-- The names in an expression that are looked up in its scope. -/
def names : Expr → List Str
  | .ident x => [x]
  | .sel x _ => [x]
  | .star e => names e
  | .addr e => names e
  | .not e => names e
  | .paren e => names e
  | .binary _ x y => names x ++ names y
  | .call f args => names f ++ namesAll args
  | .comp t => names t
  | .lit _ => []
  | .func rs => namesAll rs
  | .funcT rs => namesAll rs
  | .mapT k v => names k ++ names v
  | .arrayT _ e => names e
  | .structT => []
  | .ifaceT => []
  | .chanT => []
  | .other => []
def namesAll : Exprs → List Str
  | .nil => []
  | .cons _ e rest => names e ++ namesAll rest
end

def optNames : Option Expr → List Str
  | none => []
  | some e => names e

def declNames : DeclKind → List Str
  | .typ _ e => names e
  | .var _ t v _ _ => optNames t ++ optNames v
  | .func rs => namesAll rs

/-- No file imports a package under the name of a declaration of its package or of something predeclared; and no name of an
    external test package is one of the package proper, or of an import of its files, or predeclared. -/
structure ProgOk (P : Prog) : Prop where
  imports : ∀ p xt x d, P p xt x = some d → ∀ y q, d.imports.lookup y = some q → ¬ Predeclared y ∧ ∀ b, P p b y = none
  xtest : ∀ p x d, P p true x = some d → P p false x = none ∧ ¬ Predeclared x

/-- Where a declaration was met first: in its package, in a function where none of the names in it has been declared by `:=`, in
    a file where these names are imported as in its own file, or not at all. -/
def SeenOk (P : Prog) (seen : Seen) : Prop :=
  ∀ p x d, P p false x = some d → (seen p x).pkg = p ∧ ∀ y ∈ declNames d.kind,
    (∀ t, (seen p x).locals.look y ≠ some (some t)) ∧
    ((seen p x).imports.lookup y = none ∨ (seen p x).imports.lookup y = d.imports.lookup y)

/-- A file of the package `p`: its declarations have its imports, the package declares none of the predeclared names, and none of
    xgo's names is declared or imported in it. -/
structure FileOk (P : Prog) (p : Str) (im : Imports) : Prop where
  types : ∀ x, Predeclared x → P p false x = none
  fresh : ∀ x, "__xgo_var_ref_".toList <+: x → P p false x = none ∧ im.lookup x = none

end Verif.Instrument.VarType.Spec
