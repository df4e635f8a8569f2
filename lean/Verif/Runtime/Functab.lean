/-
Model of the table of instrumented functions: registration, lookup by address, by package and name, by the full name the
Go runtime reports, by type and method; and of the parser of full names.

Source: runtime/functab/functab.go, runtime/core/func.go, runtime/internal/runtime/xgo_trap_template.go,
runtime/internal/trap/mock.go, runtime/internal/trap/inspect.go
-/

namespace Verif.Runtime.Functab

abbrev Str := List Char

/-! ### Full names -/

/-- `strings.LastIndex` of a character. -/
def lastIndex (c : Char) : Str → Int
  | [] => -1
  | x :: xs => if 0 ≤ lastIndex c xs then lastIndex c xs + 1 else if x = c then 0 else -1

/-- What `ParseFuncName` returns. -/
structure Parsed where
  pkgPath : Str := []
  recvName : Str := []
  recvPtr : Bool := false
  typeGeneric : Str := []
  funcGeneric : Str := []
  funcName : Str := []
  deriving DecidableEq

/-- The text before the last `[` and the text between it and the final `]`; `none` if there is no `[`
    (func.go:111-118, 153-161). -/
def cutBracket (s : Str) : Option (Str × Str) :=
  if "]".toList.isSuffixOf s then
    if lastIndex '[' s < 0 then none
    else some (s.take (lastIndex '[' s).toNat, (s.drop ((lastIndex '[' s).toNat + 1)).dropLast)
  else some (s, [])

/-- The end of `ParseFuncName` (func.go:185-189). -/
def finishRecv (p : Parsed) (recv_ptr : Str) : Parsed :=
  match recv_ptr with
  | '*' :: rest => { p with recvPtr := true, recvName := rest }
  | r => { p with recvName := r }

/-- The part that splits package and receiver (func.go:164-182), if the receiver is not in parentheses; `p` has the
    results set so far, `sepIdx` is the last index of `/` in the whole name. -/
def splitRecv (p : Parsed) (sepIdx : Int) (pkg_recv : Str) : Parsed :=
  if lastIndex '.' pkg_recv < 0 then { p with pkgPath := pkg_recv }
  else if lastIndex '.' pkg_recv < sepIdx ∧
      lastIndex '.' pkg_recv < (if '/' ∈ p.typeGeneric then lastIndex '/' pkg_recv else sepIdx) then
    { p with pkgPath := pkg_recv }
  else
    finishRecv { p with pkgPath := pkg_recv.take (lastIndex '.' pkg_recv).toNat }
      (pkg_recv.drop ((lastIndex '.' pkg_recv).toNat + 1))

/-- `ParseFuncName` (func.go:106-192); `none` is a panic (index out of range, line 143). -/
def parseFuncName (fullName : Str) : Option Parsed :=
  let sepIdx := lastIndex '/' fullName
  match cutBracket fullName with
  | none => some {}
  | some (s, funcGeneric) =>
    if lastIndex '.' s < 0 then some { funcGeneric := funcGeneric, funcName := s }
    else
      let funcName := s.drop ((lastIndex '.' s).toNat + 1)
      let p : Parsed := { funcGeneric := funcGeneric, funcName := funcName }
      let paren := s.take (lastIndex '.' s).toNat
      if ")".toList.isSuffixOf paren then
        if lastIndex '(' paren < 0 then some p
        else if lastIndex '(' paren = 0 then none
        else
          let leftIdx := (lastIndex '(' paren).toNat
          let inner := (paren.drop (leftIdx + 1)).dropLast
          if paren[leftIdx - 1]? ≠ some '.' then some p
          else
            let p := { p with pkgPath := paren.take (leftIdx - 1) }
            match cutBracket inner with
            | none => some p
            | some (recv_ptr, typeGeneric) => some (finishRecv { p with typeGeneric := typeGeneric } recv_ptr)
      else
        match cutBracket paren with
        | none => some p
        | some (pkg_recv, typeGeneric) => some (splitRecv { p with typeGeneric := typeGeneric } sepIdx pkg_recv)

/-! ### Registration -/

/-- `core.Kind` (func.go:8-15). -/
inductive Kind
  | func | var | varPtr | const
  deriving DecidableEq

/-- The parts of `core.FuncInfo` (func.go:17-66) that the table uses. `func` is the entry point of the function and the
    type of its first parameter (the receiver for methods), `var` the address of a variable. `id` tells the structs
    apart. -/
structure Info where
  id : Nat
  kind : Kind := .func
  fullName : Str := []
  pkg : Str := []
  identity : Str := []
  name : Str := []
  recvType : Str := []
  isInterface : Bool := false
  generic : Bool := false
  closure : Bool := false
  func : Option (Nat × Nat) := none
  var : Option Nat := none
  deriving DecidableEq

/-- The tables (functab.go:16-22); maps are functions, and `typeMethods` is set by the first lookup. -/
structure Tab where
  infos : List Info := []
  byName : Str → Str → Option Info := fun _ _ => none
  byPC : Nat → Option Info := fun _ => none
  byAddr : Nat → Option Info := fun _ => none
  byFull : Str → Option Info := fun _ => none
  intfs : Str → Str → Option Info := fun _ _ => none
  typeMethods : Option (Nat → Str → Option Info) := none

/-- The entry point registered for a function (functab.go:244-267): 0 if there is none. -/
def pcOf (i : Info) : Nat :=
  if !i.generic && !i.isInterface then
    match i.func with
    | some f => f.1
    | none => 0
  else 0

/-- The full name computed at registration (functab.go:244-273); `sym` is `XgoGetFullPCName`. -/
def pcFullName (sym : Nat → Str) (i : Info) : Str :=
  if !i.generic && !i.isInterface then
    match i.func with
    | some f => sym f.1
    | none => if (i.closure || i.kind ≠ .func) && i.identity ≠ [] then i.pkg ++ '.' :: i.identity else []
  else []

/-- `RegisterFunc` (functab.go:39-45) with `registerIndex` (functab.go:226-313); `none` is a panic. Entry point 0 means
    none. Simplification: the fields about contexts and errors are left out. -/
def register (sym : Nat → Str) (t : Tab) (i : Info) : Option Tab :=
  if i.fullName ≠ [] ∧ i.fullName ≠ pcFullName sym i then none
  else
    let i := { i with fullName := pcFullName sym i }
    some {
      infos := t.infos ++ [i]
      byFull := fun n => if i.fullName ≠ [] ∧ n = i.fullName then some i else t.byFull n
      byPC := fun pc => if i.generic = false ∧ pcOf i ≠ 0 ∧ pc = pcOf i then some i else t.byPC pc
      byName := fun p n => if i.identity ≠ [] ∧ p = i.pkg ∧ n = i.identity then some i else t.byName p n
      intfs := fun p n => if i.isInterface ∧ i.recvType ≠ [] ∧ p = i.pkg ∧ n = i.recvType then some i else t.intfs p n
      byAddr := fun a => if i.kind = .var ∧ i.var = some a then some i else t.byAddr a
      typeMethods := t.typeMethods }

/-! ### Lookup -/

/-- `InfoFunc` and `InfoPC` (functab.go:51-59, 70-72). -/
def infoPC (t : Tab) (pc : Nat) : Option Info := t.byPC pc

/-- `InfoVar` and `InfoVarAddr` (functab.go:61-68, 74-76). -/
def infoVar (t : Tab) (addr : Nat) : Option Info := t.byAddr addr

/-- `GetFuncByPkg` (functab.go:88-111). -/
def getFuncByPkg (t : Tab) (pkg name : Str) : Option Info :=
  match t.byName pkg name with
  | some i => some i
  | none =>
    if "(".toList.isPrefixOf name then none
    else if '.' ∉ name then none
    else t.byName pkg ("(*".toList ++ name.takeWhile (· ≠ '.') ++ ").".toList ++ (name.dropWhile (· ≠ '.')).drop 1)

/-- `getInterfaceOrGenericByFullName` (functab.go:125-143); the outer `none` is a panic. -/
def getInterfaceOrGeneric (t : Tab) (fullName : Str) : Option (Option Info) :=
  (parseFuncName fullName).map fun p =>
    if p.typeGeneric ≠ [] ∨ p.funcGeneric ≠ [] then
      getFuncByPkg t p.pkgPath (if p.recvName ≠ [] then p.recvName ++ '.' :: p.funcName else p.funcName)
    else if p.recvName ≠ [] ∧ p.recvPtr = false then t.intfs p.pkgPath p.recvName
    else none

/-- `GetFuncByFullName` (functab.go:113-119); the outer `none` is a panic. -/
def getFuncByFullName (t : Tab) (fullName : Str) : Option (Option Info) :=
  match t.byFull fullName with
  | some i => some (some i)
  | none => getInterfaceOrGeneric t fullName

/-- `registerTypeMethod` (functab.go:329-348) for the functions registered so far. -/
def addTypeMethod (m : Nat → Str → Option Info) (i : Info) : Nat → Str → Option Info :=
  if i.kind ≠ .func ∨ i.generic ∨ i.isInterface ∨ i.recvType = [] ∨ i.name = [] then m
  else match i.func with
    | none => m
    | some f => fun ty n => if ty = f.2 ∧ n = i.name then some i else m ty n

/-- `GetTypeMethods` (functab.go:121-123) with `getTypeMethodMapping` (functab.go:315-327): the table is made on the
    first call. -/
def getTypeMethod (t : Tab) (ty : Nat) (method : Str) : Option Info × Tab :=
  match t.typeMethods with
  | some m => (m ty method, t)
  | none =>
    let m := t.infos.foldl addTypeMethod (fun _ _ => none)
    (m ty method, { t with typeMethods := some m })

/-- What happens when a mock is set up by name. -/
inductive Found
  | ok (i : Info)
  /-- the panic that names the function -/
  | notFound
  /-- a nil pointer dereference -/
  | crash
  deriving DecidableEq

/-- `getFuncByName` (mock.go:329-341). -/
def getFuncByName (t : Tab) (pkg name : Str) : Found :=
  let plain := match getFuncByPkg t pkg name with
    | some i => Found.ok i
    | none => .notFound
  match name with
  | '*' :: rest =>
    match getFuncByPkg t pkg rest with
    | none => .crash
    | some i => if i.kind = .var then .ok i else plain
  | _ => plain

/-- `getMethodByName` (mock.go:343-362). -/
def getMethodByName (t : Tab) (ty : Nat) (method : Str) : Found × Tab :=
  match getTypeMethod t ty method with
  | (some i, t) => (.ok i, t)
  | (none, t) => (.notFound, t)

/-- The lookup in `Inspect` (inspect.go:20-76) of a function with entry point `pc`, for the Go versions in which generic
    functions are no closures (1.20 and later). The result is the entry and whether the function is a method value. -/
def inspect (t : Tab) (sym : Nat → Str) (pc : Nat) : Option (Option (Info × Bool)) :=
  match t.byPC pc with
  | some i => some (some (i, false))
  | none =>
    let method := "-fm".toList.isSuffixOf (sym pc)
    let name := if method then (sym pc).take ((sym pc).length - 3) else sym pc
    (getFuncByFullName t name).map fun r => r.map fun i => (i, method)

/-! ### Staging -/

/-- The runtime's side (xgo_trap_template.go:183-208): functions registered before package functab is initialised are
    kept back. -/
structure Staging where
  staged : List Info := []
  tab : Option Tab := none

/-- `XgoRegister` (xgo_trap_template.go:212-218). -/
def xgoRegister (sym : Nat → Str) (s : Staging) (i : Info) : Option Staging :=
  match s.tab with
  | some t => (register sym t i).map fun t => { s with tab := some t }
  | none => some { s with staged := s.staged ++ [i] }

/-- Registering several functions one after the other. -/
def registerAll (sym : Nat → Str) : List Info → Tab → Option Tab
  | [], t => some t
  | i :: is, t => (register sym t i).bind (registerAll sym is)

/-- `XgoSetupRegisterHandler` (xgo_trap_template.go:200-210), called when package functab is initialised
    (functab.go:24-37); `none` is a panic. -/
def setup (sym : Nat → Str) (s : Staging) : Option Staging :=
  match s.tab with
  | some _ => none
  | none => (registerAll sym s.staged {}).map fun t => { staged := [], tab := some t }

end Verif.Runtime.Functab
