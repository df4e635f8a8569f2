/-
Specification: the order in which Go initialises the variables of a package
(https://go.dev/ref/spec#Package_initialization).
-/
import Verif.Instrument.InitOrder

namespace Verif.Instrument.InitOrder

/-- `a` refers to `b`, directly or through others. -/
inductive Reach {α : Type} (refs : α → List α) : α → α → Prop
  | one {a b : α} : b ∈ refs a → Reach refs a b
  | more {a b c : α} : Reach refs a b → c ∈ refs b → Reach refs a c

/-- Is it a variable? -/
def Name.isVar : Name → Bool
  | .func _ => false
  | .getter _ _ => false
  | _ => true

/-- "A reference to a variable or function": `a` depends on the variable `b`. -/
def Depends (refs : Name → List Name) (a b : Name) : Prop := Reach refs a b ∧ b.isVar = true

/-- "Ready for initialisation if it has no dependencies on uninitialised variables". -/
def Ready (dep : α → α → Prop) (done : List α) (v : α) : Prop := ∀ w, dep v w → w ∈ done

/-- "Initialisation proceeds by repeatedly initialising the next variable that is earliest in declaration order and ready": from the
    variables left (in declaration order) and those done, the order in which the rest is initialised. There is none if variables depend
    on each other. -/
inductive Inits (dep : α → α → Prop) : List α → List α → List α → Prop
  | nil {done} : Inits dep [] done []
  | next {a v b done l} : (∀ u ∈ a, ¬ Ready dep done u) → Ready dep done v → Inits dep (a ++ b) (v :: done) l →
      Inits dep (a ++ v :: b) done (v :: l)

/-- The order in the source. -/
def Pkg.Source (p : Pkg) (l : List Name) : Prop := Inits (Depends p.refs) (p.order.map .var) [] l

/-- The order when instrumented. -/
def Pkg.Compiled (p : Pkg) (l : List Name) : Prop := Inits (Depends p.refs') p.order' [] l

/-- Is it the user's variable? -/
def Name.user : Name → Bool
  | .var _ => true
  | _ => false

/-- What is said about the files is so: what is intercepted, and interfaces, are declared in the files that are their homes; each variable
    is declared once. -/
structure Pkg.Declared (p : Pkg) : Prop where
  funcs : ∀ f, p.trapped f = true → ∃ ds, p.files[p.homeFunc f]? = some ds ∧ Decl.func f ∈ ds
  vars : ∀ v, p.intercepted v = true → ∃ ds, p.files[p.homeVar v]? = some ds ∧ v ∈ names ds
  nodup : p.order'.Nodup
  intfs : ∀ (i : Nat) (ds : List Decl) (t : Nat), p.files[i]? = some ds → Decl.intf t ∈ ds → p.homeIntf t = i

/-- To initialise `v`, something intercepted in file `i` is used: a trapped function, or a getter of a variable. -/
def Pkg.Uses (p : Pkg) (v i : Nat) : Prop :=
  (∃ f, Reach p.refs' (.var v) (.func f) ∧ p.trapped f = true ∧ p.homeFunc f = i) ∨
  (∃ w a, Reach p.refs' (.var v) (.getter w a) ∧ p.homeVar w = i)

/-- The variables declared before the code that is added to file `i`. -/
def Pkg.before (p : Pkg) (i : Nat) : List Nat :=
  ((p.files.take i).map names).flatten ++ names ((p.files[i]?.getD []).take 1)

/-- No variable is declared between one that uses something intercepted in a file and the code added to that file. -/
def Pkg.Tidy (p : Pkg) : Prop := ∀ v u i, [v, u].Sublist p.order → p.Uses v i → u ∉ p.before i

end Verif.Instrument.InitOrder
