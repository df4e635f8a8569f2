/-
Model of the adapters that turn user supplied functions into trap handlers, and of the type checks made
when they are registered.

Sources: runtime/internal/trap/build.go, trap/object.go, trap/record.go, trap/mock.go
-/
namespace Verif.Runtime.Build

/-! ### Go types (as far as the checks look at them) -/

/-- Go types: named/basic ones, pointers, and functions (`variadic` is part of the type's identity). -/
inductive Ty where
  | base (n : Nat)
  | ptr (t : Ty)
  | func (ins outs : List Ty) (variadic : Bool)
  deriving Repr, BEq

/-- Parameter list of a function type (`NumIn`/`In`), `[]` otherwise. -/
def Ty.ins : Ty → List Ty
  | .func i _ _ => i
  | _ => []

/-- Result list (`NumOut`/`Out`). -/
def Ty.outs : Ty → List Ty
  | .func _ o _ => o
  | _ => []

def Ty.isFunc : Ty → Bool
  | .func .. => true
  | _ => false

mutual
/-- Equality of `reflect.Type`s. -/
def Ty.same : Ty → Ty → Bool
  | .base a, .base b => a == b
  | .ptr a, .ptr b => Ty.same a b
  | .func i o v, .func i' o' v' => Ty.sameList i i' && Ty.sameList o o' && v == v'
  | _, _ => false

def Ty.sameList : List Ty → List Ty → Bool
  | [], [] => true
  | a :: as, b :: bs => Ty.same a b && Ty.sameList as bs
  | _, _ => false
end

/-- Result of code that may panic. -/
inductive Outcome (α : Type) where
  | ok (a : α)
  | panic (msg : String)
  deriving Repr

/-- `ptrType` (trap/object.go:123-128): pass the pointed-to value, or the pointer. -/
inductive PtrType where
  | value
  | ptr
  deriving DecidableEq, Repr

/-- The loop of `resolveArgTypes` (trap/object.go:142-156). -/
def resolveLoop : List Ty → List Ty → Option (List PtrType)
  | [], [] => some []
  | t :: ts, a :: as =>
    if Ty.same t a then (resolveLoop ts as).map (.value :: ·)
    else
      match t with
      | .ptr e => if Ty.same e a then (resolveLoop ts as).map (.ptr :: ·) else none
      | _ => none
  | _, _ => none

/-- `resolveArgTypes` (trap/object.go:137-156): parameter `i` must have type `argTypes[i]` or a pointer
    to it. -/
def resolveArgTypes (t : Ty) (argTypes : List Ty) : Option (List PtrType) :=
  if t.ins.length ≠ argTypes.length then none else resolveLoop t.ins argTypes

/-- `checkVarRecorderType` (trap/record.go:236-253) with `supportPtr = true`: how the argument is
    passed, and whether the recorder is one for the variable's address. `varTy` is the variable's type;
    `varPtrType` is the pointer to it. -/
def checkVarRecorderType (varTy recTy : Ty) : Outcome (List PtrType × Bool) :=
  if recTy.isFunc = false then .panic "recorder should have type"
  else
    match resolveArgTypes recTy [varTy] with
    | some r => .ok (r, false)
    | none =>
      match resolveArgTypes recTy [.ptr varTy] with
      | some r => .ok (r, true)
      | none => .panic "recorder should have type"

/-- What a successful `pushRecorder` on a variable registers: into the registry for address-of
    (`true`) or for reads (`false`), and how each hook passes its argument. -/
structure VarRecorder where
  isPtr : Bool
  pre : Option (List PtrType)
  post : Option (List PtrType)
  deriving Repr

/-- The variable branch of `pushRecorder` (trap/record.go:19-66), reached by
    `trace.Record(&v, pre, post)`; `pre`/`post` are the types of the hooks (`none` = nil).
    Not modelled: line 22, the variable being instrumented. -/
def pushVarRecorder (varTy : Ty) (pre post : Option Ty) : Outcome VarRecorder :=
  if pre.isNone && post.isNone then .panic "pre and post should not be both nil"
  else if (match pre, post with
      | some p, some q => !Ty.same p q
      | _, _ => false) then .panic "pre-recorder and post-recorder should have the same type"
  else
    let preR : Outcome (Option (List PtrType) × Bool) :=
      match pre with
      | none => .ok (none, false)
      | some p =>
        match checkVarRecorderType varTy p with
        | .ok (r, b) => .ok (some r, b)
        | .panic e => .panic e
    match preR with
    | .panic e => .panic e
    | .ok (preTypes, preIsPtr) =>
      let postR : Outcome (Option (List PtrType) × Bool) :=
        match post with
        | none => .ok (none, false)
        | some p =>
          match checkVarRecorderType varTy p with
          | .ok (r, b) => .ok (some r, b)
          | .panic e => .panic e
      match postR with
      | .panic e => .panic e
      | .ok (postTypes, postIsPtr) =>
        -- line 59
        if pre.isSome && post.isSome && preIsPtr == postIsPtr then
          .panic "pre-recorder and post-recorder should have the same type"
        -- line 63
        else .ok { isPtr := preIsPtr, pre := preTypes, post := postTypes }

/-- The type of the value a hook of a registered variable recorder is called with
    (`ptrType.get`, trap/object.go:130-135; trap/record.go:45-46, 55-56): `res` is a
    pointer to the variable's copy on reads, and a pointer to the variable's address on address-of. -/
def passedType (varTy : Ty) (isPtr : Bool) (p : PtrType) : Ty :=
  let res : Ty := if isPtr then .ptr (.ptr varTy) else .ptr varTy
  match p, res with
  | .value, .ptr e => e
  | .value, t => t
  | .ptr, t => t

/-! ### `checkFuncTypeMatch` -/

/-- The loop over parameters (trap/object.go:171-177): `i` from 0 to `na-1`, comparing `a.In(i+base)` with
    `b.In(i)`; an index out of range panics. `fuel` is the number of iterations left. -/
def matchInLoop (a b : List Ty) (base : Nat) : Nat → Nat → Outcome Bool
  | _, 0 => .ok true
  | i, fuel + 1 =>
    match a[i + base]? with
    | none => .panic "reflect: Func index out of bounds"
    | some ta =>
      match b[i]? with
      | none => .panic "reflect: Func index out of bounds"
      | some tb => if Ty.same ta tb then matchInLoop a b base (i + 1) fuel else .ok false

/-- The loop over results (trap/object.go:184-190). -/
def matchOutLoop : List Ty → List Ty → Bool
  | [], _ => true
  | _ :: _, [] => false
  | a :: as, b :: bs => Ty.same a b && matchOutLoop as bs

/-- `checkFuncTypeMatch` (trap/object.go:159-192), without the two strings used in the message. -/
def checkFuncTypeMatch (a b : Ty) (skipAFirst : Bool) : Outcome Bool :=
  let na := a.ins.length
  let nb := b.ins.length
  let base : Nat := if skipAFirst then 1 else 0
  if (na : Int) - base ≠ nb then .ok false
  else
    match matchInLoop a.ins b.ins base 0 na with
    | .panic e => .panic e
    | .ok false => .ok false
    | .ok true =>
      if a.outs.length ≠ b.outs.length then .ok false
      else .ok (matchOutLoop a.outs b.outs)

/-- The type check of `pushMockReplacerMethodByName` (trap/mock.go:308-324), reached by
    `mock.PatchMethodByName`: `method` is the type of the method expression (receiver first),
    `replacer` the type of the replacement. `getMethodByName` always returns a non-nil `recvPtr`.
    `ok ()` = accepted. -/
def patchMethodByNameCheck (method replacer : Ty) : Outcome Unit :=
  if replacer.isFunc = false then .panic "replacer should be func"
  else
    match checkFuncTypeMatch method replacer true with
    | .panic e => .panic e
    | .ok false => .panic "replacer should have type"
    | .ok true => .ok ()

/-- The type check of `pushMockReplacerByName` for a function (trap/mock.go:266-284), reached by
    `mock.PatchByName`; `getFuncByName` returns a nil `recvPtr` for functions. -/
def patchByNameCheck (fn replacer : Ty) : Outcome Unit :=
  if replacer.isFunc = false then .panic "replacer should be func"
  else
    match checkFuncTypeMatch fn replacer false with
    | .panic e => .panic e
    | .ok false => .panic "replacer should have type"
    | .ok true => .ok ()

/-! ### `buildMockHandler` -/

/-- Memory cells hold values; arguments and results are passed to handlers as addresses. -/
abbrev Mem := Nat → Nat

def Mem.set (m : Mem) (a v : Nat) : Mem := fun b => if b = a then v else m b

/-- A replacement function: its parameter count and its behaviour (`none` = panics). -/
structure Replacer where
  nIn : Nat
  run : Mem → List Nat → Option (Mem × List Nat)

/-- Fills `callArgs[callIdx:]` (trap/build.go:55-60): `args[i]` for `i < n`; `none` = index out of
    range. -/
def takeArgs (m : Mem) (args : List Nat) : Nat → Nat → Option (List Nat)
  | _, 0 => some []
  | i, n + 1 =>
    match args[i]? with
    | none => none
    | some a => (takeArgs m args (i + 1) n).map (m a :: ·)

/-- Assigns the results (trap/build.go:73-75); `none` = index out of range. -/
def setResults (m : Mem) (results : List Nat) : List Nat → Nat → Option Mem
  | [], _ => some m
  | v :: vs, i =>
    match results[i]? with
    | none => none
    | some a => setResults (m.set a v) results vs (i + 1)

/-- The handler returned by `buildMockHandler` (trap/build.go:24-77). `recvPtr` is the receiver the
    mock is bound to, `actRecv` the address of the actual receiver. Returns the memory after the call;
    `none` = panic. The handler always reports `true` (mocked).
    Simplification: values carry no types, so that `reflect`'s type errors do not arise. -/
def mockHandler (recvPtr : Option Nat) (r : Replacer) (m : Mem) (actRecv : Option Nat)
    (args results : List Nat) : Option Mem :=
  if recvPtr.isSome && actRecv.isNone then none
  else
    -- lines 39-54
    let recvArg : List Nat :=
      match actRecv with
      | none => []
      | some a => if recvPtr.isSome then [] else if r.nIn > 0 then [m a] else []
    match takeArgs m args 0 (r.nIn - recvArg.length) with
    | none => none
    | some as =>
      match r.run m (recvArg ++ as) with
      | none => none
      | some (m', res) => setResults m' results res 0

/-! ### Interceptors -/

/-- The fields of the argument object handed to an interceptor, by name (trap/build.go:224-236, 285-298):
    the receiver first unless the registration is bound to an instance. -/
def argFields (recvPtr : Option Nat) (actRecv : Option Nat) (recvName : String)
    (argNames : List String) (args : List Nat) : Option (List (String × Nat)) :=
  let recv := match recvPtr, actRecv with
    | none, some a => [(recvName, a)]
    | _, _ => []
  if args.length ≤ argNames.length then some (recv ++ argNames.zip args) else none

/-- `object.GetField` (trap/object.go:26-33): the first field with that name; `none` = panic. -/
def getField (o : List (String × Nat)) (name : String) : Option Nat :=
  match o with
  | [] => none
  | (n, v) :: o => if n = name then some v else getField o name

end Verif.Runtime.Build
