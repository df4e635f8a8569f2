/-
Model of the edits xgo makes in a source file of a package under test.

Source: instrument/instrument_func/trap.go:184-228, 256-385, func_template.go; instrument/instrument_var/trap_var.go:58-145,
var_template.go; instrument/instrument_reg/instrument_reg.go; instrument/patch/init.go; cmd/xgo/instrument.go:379-418.

Simplifications: a file is its text and the offsets the parser finds in it; which functions, variables and uses are edited is decided
elsewhere (FuncTrap, Resolve); the type of a variable is the text xgo writes for it (VarType); notes for the cover tool are left out
(CoverNotes).
-/
import Verif.Text.EditBufferProps
import Verif.Instrument.RegCode

namespace Verif.Instrument.SourceLines
open Verif.Text Verif.Instrument.RegCode
open Verif.Instrument.FuncTrap (dec name2 blank fieldNames recvPrefix paramPrefix resultPrefix)
open Verif.Instrument.CoverNotes (quote)

/-- A name in a parameter list, with its place. -/
structure NameAt where
  start : Nat
  stop : Nat
  name : Str

/-- A field of a parameter list: its names, and where its type begins. -/
structure Field where
  names : List NameAt
  typePos : Nat

/-- A function declaration with a body that is to be intercepted. -/
structure FuncSrc where
  name : Str
  identity : Str
  recvType : Option (Bool × Str)
  recvGeneric : Bool
  genericParams : Bool
  /-- the line of `func` -/
  line : Nat
  /-- the line of the `{` of the body -/
  bodyLine : Nat
  recv : List Field
  params : List Field
  results : List Field
  /-- the results stand in parentheses -/
  paren : Bool
  /-- behind the `)` of the parameters -/
  paramsEnd : Nat
  lbrace : Nat

/-- A use of a variable that is to be intercepted. -/
structure Ref where
  pre : Str
  nameStart : Nat
  nameEnd : Nat
  /-- the `&` before it: where it is, and where its operand begins -/
  addr : Option (Nat × Nat)
  fieldAccess : Bool
  needPtr : Bool

/-- A package-level variable that is to be intercepted, declared in this file: `typ` is the text for its type. -/
structure VarSrc where
  pre : Str
  name : Str
  line : Nat
  declEnd : Nat
  typ : Str

/-- A source file and what is to be edited in it. -/
structure Src where
  text : Str
  index : Nat
  pkgPath : Str
  absFile : Str
  stdlib : Bool
  /-- behind the name of the package -/
  nameEnd : Nat
  /-- behind the first declaration that is not an import, or `declsEnd` -/
  firstEnd : Nat
  /-- behind the last declaration -/
  declsEnd : Nat
  vars : List VarSrc
  refs : List Ref
  /-- imports added for types of variables: name and path -/
  imports : List (Str × Str)
  funcs : List FuncSrc
  /-- interface types: name and line -/
  intfs : List (Str × Nat)

abbrev Edits := List (Op Char)

/-- `processFieldNames` (trap.go:309-385): `wrap` are the two places for parentheses around a single unnamed result without them; `i` is
    `seqNum`. -/
def fieldOps (pre : Str) (wrap : Option (Nat × Nat)) : List Field → Nat → Edits
  | [], _ => []
  | f :: fs, i =>
    if f.names = [] then
      (match wrap with
        | none => []
        | some (a, b) => [Op.insert a " (".toList, Op.insert b ")".toList]) ++
      Op.insert f.typePos (pre ++ dec i ++ " ".toList) :: fieldOps pre wrap fs (i + 1)
    else
      (f.names.zipIdx i).filterMap (fun x =>
        if blank x.1.name then some (Op.replace x.1.start x.1.stop (pre ++ dec x.2)) else none) ++
      fieldOps pre wrap fs (i + f.names.length)

/-- The names a list of fields has afterwards. -/
def namesOf (pre : Str) (fs : List Field) : List Str := fieldNames pre (fs.map fun f => f.names.map (·.name)) 0

/-- `trapTemplate` (func_template.go:4) as filled in at trap.go:210-219. -/
def trapText (i line : Nat) (info recvAddr : Str) (params results : List Str) : Str :=
  "__xgo_post_".toList ++ dec line ++ ", __xgo_stop_".toList ++ dec line ++ " := __xgo_trap_".toList ++ dec i ++ '(' :: info ++
    ',' :: recvAddr ++ ",[]interface{}{".toList ++ commas (params.map ('&' :: ·)) ++ "},[]interface{}{".toList ++
    commas (results.map ('&' :: ·)) ++ "});if __xgo_post_".toList ++ dec line ++ "!=nil { defer __xgo_post_".toList ++ dec line ++
    "(); };if __xgo_stop_".toList ++ dec line ++ " { return; };".toList

/-- `toNameAddr` (trap.go:252-257). -/
def recvAddr : List Str → Str
  | [] => "nil".toList
  | n :: _ => if n = [] then "nil".toList else '&' :: n

/-- The edits for one function (trap.go:184-219), the `j`-th of the file. -/
def funcOps (i j : Nat) (f : FuncSrc) : Edits :=
  fieldOps recvPrefix none f.recv 0 ++ fieldOps paramPrefix none f.params 0 ++
  fieldOps resultPrefix (if f.paren = false ∧ f.results.length = 1 then some (f.paramsEnd, f.lbrace) else none) f.results 0 ++
  [Op.insert (f.lbrace + 1 : Nat) (trapText i f.bodyLine (name2 "__xgo_func_info".toList i j) (recvAddr (namesOf recvPrefix f.recv))
    (namesOf paramPrefix f.params) (namesOf resultPrefix f.results))]

/-- `genCode` (var_template.go:10-33). -/
def getters (i : Nat) (pre name info typ : Str) : Str :=
  "func ".toList ++ pre ++ name ++ "_xgo_get() ".toList ++ typ ++ " {__mock_res := ".toList ++ name ++ ";__xgo_trap_var_".toList ++
    dec i ++ '(' :: info ++ ",&".toList ++ name ++ ",&__mock_res);return __mock_res;};func ".toList ++ pre ++ name ++
    "_xgo_get_addr() *".toList ++ typ ++ " {__mock_res := &".toList ++ name ++ ";__xgo_trap_varptr_".toList ++ dec i ++ '(' :: info ++
    ",&".toList ++ name ++ ",&__mock_res);return __mock_res;}".toList

/-- The edits for one variable (trap_var.go:100-113), the `j`-th of the file. -/
def varOps (i j : Nat) (v : VarSrc) : Edits :=
  [Op.insert v.declEnd ";".toList, Op.insert v.declEnd (getters i v.pre v.name (name2 "__xgo_var_info".toList i j) v.typ)]

/-- `applyRewrite` (trap_var.go:121-138). -/
def refOps (r : Ref) : Edits :=
  (match r.addr with
    | some (a, b) => if r.fieldAccess then [] else [Op.delete a b]
    | none => []) ++
  (if r.pre = [] then [] else [Op.insert r.nameStart r.pre]) ++
  [Op.insert r.nameEnd (if r.needPtr then "_xgo_get_addr()".toList else "_xgo_get()".toList)]

/-- `AddImport` (init.go:49-51). -/
def importOps (nameEnd : Nat) (pr : Char → Bool) (m : Str × Str) : Op Char :=
  .insert nameEnd (";import ".toList ++ m.1 ++ ' ' :: quote pr m.2)

/-- What is registered for the file (instrument_reg.go:50-115; trap.go:209, 221-232; trap_var.go:72; instrument_intf.go:39). -/
def Src.decls (s : Src) : Decls where
  funcs := s.funcs.zipIdx.map fun x =>
    { identity := x.1.identity, name := x.1.name, genericParams := x.1.genericParams, line := x.1.line,
      infoVar := name2 "__xgo_func_info".toList s.index x.2,
      recv := (namesOf recvPrefix x.1.recv).head?.map fun n =>
        { ptr := (x.1.recvType.map (·.1)).getD false, typeName := (x.1.recvType.map (·.2)).getD [], name := n }
      recvGeneric := x.1.recvGeneric, params := namesOf paramPrefix x.1.params, results := namesOf resultPrefix x.1.results }
  vars := s.vars.zipIdx.map fun x => { name := x.1.name, line := x.1.line, infoVar := name2 "__xgo_var_info".toList s.index x.2 }
  intfs := s.intfs.zipIdx.map fun x => { name := x.1.1, line := x.1.2, infoVar := name2 "__xgo_intf_info".toList s.index x.2 }

/-- `RegisterFuncTab` (instrument_reg.go:43-47). -/
def regOps (pr : Char → Bool) (s : Src) : Edits :=
  match register pr s.index s.pkgPath s.absFile s.stdlib s.decls with
  | none => []
  | some (a, b) => [Op.insert s.firstEnd a, Op.insert s.declsEnd b]

/-- All edits of a file, in the order they are made (cmd/xgo/instrument.go:246-343). -/
def Src.ops (pr : Char → Bool) (s : Src) : Edits :=
  s.imports.map (importOps s.nameEnd pr) ++ (s.vars.zipIdx.map fun x => varOps s.index x.2 x.1).flatten ++
  (s.refs.map refOps).flatten ++ (s.funcs.zipIdx.map fun x => funcOps s.index x.2 x.1).flatten ++ regOps pr s

/-- The text that is compiled (cmd/xgo/instrument.go:393-414); `none` is a panic. -/
def instrumented (pr : Char → Bool) (s : Src) : Option Str :=
  (runOps (Buffer.mk' s.text) (s.ops pr)).bind fun b => b.bytes.1

end Verif.Instrument.SourceLines
