/-
Model of the code xgo writes into a source file so that what it intercepts there is registered.

Source: instrument/compiler_extra/register.go, decl.go; instrument/instrument_reg/instrument_reg.go;
instrument/constants/info.go, signature.go; patch/syntax/syntax.go:65-137.

Simplification: `%q` and `strconv.Quote` are `CoverNotes.quote`, with `strconv.IsPrint` a parameter; texts are valid UTF-8.
-/
import Verif.Instrument.FuncTrap
import Verif.Instrument.CoverNotes

namespace Verif.Instrument.RegCode
open Verif.Instrument.FuncTrap (dec name2)
open Verif.Instrument.CoverNotes (quote)

abbrev Str := List Char

/-- `PkgNames` (register.go:11-22). -/
structure Names where
  register : Str
  trapFunc : Str
  trapVar : Str
  trapVarPtr : Str
  infoType : Str
  pkgVar : Str
  init : Str

/-- The names of file `i` (instrument_reg.go:16-27; info.go:68-107). -/
def Names.ofFile (i : Nat) : Names where
  register := "__xgo_register_".toList ++ dec i
  trapFunc := "__xgo_trap_".toList ++ dec i
  trapVar := "__xgo_trap_var_".toList ++ dec i
  trapVarPtr := "__xgo_trap_varptr_".toList ++ dec i
  infoType := "__xgo_func_info_".toList ++ dec i
  pkgVar := "__xgo_pkg_".toList ++ dec i
  init := "__xgo_init_".toList ++ dec i

/-- `FileVar` and `FileVarForVar` (info.go:92-98). -/
def fileVar (i : Nat) : Str := "__xgo_file_".toList ++ dec i
def fileVarForVar (i : Nat) : Str := "__xgo_file_var_".toList ++ dec i

/-- The receiver of a function: `RecvPtr`, `RecvTypeName`, and `Receiver.Name` (decl.go:9-22). -/
structure Recv where
  ptr : Bool
  typeName : Str
  name : Str

/-- `FuncInfo` (decl.go:9-22). -/
structure Func where
  identity : Str
  name : Str
  genericParams : Bool
  line : Nat
  infoVar : Str
  recv : Option Recv
  recvGeneric : Bool
  params : List Str
  results : List Str

/-- `VarInfo` and `InterfaceType` (decl.go:24-34). -/
structure Named where
  name : Str
  line : Nat
  infoVar : Str

/-- `FileDecls` (decl.go:3-7). -/
structure Decls where
  funcs : List Func
  vars : List Named
  intfs : List Named

/-- `Literal` (register.go:142-146). -/
structure Literal where
  varDef : Str
  varReg : Str
  delayInit : Str

/-- `strings.Join(l, ",")`. -/
def commas : List Str → Str
  | [] => []
  | [a] => a
  | a :: l => a ++ ',' :: commas l

/-- `%v` of a bool. -/
def bool (b : Bool) : Str := if b then "true".toList else "false".toList

/-- `makeLiteral` (register.go:162-180). -/
def makeLiteral (pr : Char → Bool) (n : Names) (fileVar : Str) (kind : Nat) (name identity : Str) (line : Nat) (stdlib : Bool)
    (extra : List Str) : Str :=
  '&' :: n.infoType ++ "{Kind:".toList ++ dec kind ++ ",Pkg:".toList ++ n.pkgVar ++ ",Name:".toList ++ quote pr name ++
    ",IdentityName:".toList ++ quote pr identity ++ ",File:".toList ++ fileVar ++ ",Line:".toList ++ dec line ++
    ((if extra = [] then [] else ',' :: commas extra) ++ (if stdlib then ",Stdlib:true".toList else [])) ++ ['}']

/-- `defineLiteral` (register.go:148-160). -/
def defineLiteral (n : Names) (infoVar literal delayProp delayValue : Str) : Literal where
  varDef := "var ".toList ++ infoVar ++ '=' :: literal
  varReg := n.register ++ '(' :: infoVar ++ [')']
  delayInit := if delayProp = [] then [] else infoVar ++ '.' :: delayProp ++ '=' :: delayValue

/-- The fields that not every function has (register.go:84-107). -/
def funcExtra (pr : Char → Bool) (f : Func) : List Str :=
  (match f.recv with
    | none => []
    | some r => ["RecvPtr:".toList ++ bool r.ptr, "RecvType: ".toList ++ quote pr r.typeName,
        "RecvName:".toList ++ quote pr r.name]) ++
  (if f.recvGeneric || f.genericParams then ["Generic:true".toList] else []) ++
  (if f.params = [] then [] else ["ArgNames:[]string{".toList ++ commas (f.params.map (quote pr)) ++ ['}']]) ++
  (if f.results = [] then [] else ["ResNames:[]string{".toList ++ commas (f.results.map (quote pr)) ++ ['}']])

/-- `DefineFuncLiteral` (register.go:76-112). -/
def funcLiteral (pr : Char → Bool) (n : Names) (stdlib : Bool) (fileVar : Str) (f : Func) : Literal :=
  defineLiteral n f.infoVar (makeLiteral pr n fileVar 0 f.name f.identity f.line stdlib (funcExtra pr f))
    (if f.recvGeneric || f.genericParams then [] else "Func".toList) f.identity

/-- `DefineVarLiteral` (register.go:114-126). -/
def varLiteral (pr : Char → Bool) (n : Names) (stdlib : Bool) (fileVar : Str) (v : Named) : Literal :=
  defineLiteral n v.infoVar (makeLiteral pr n fileVar 1 v.name v.name v.line stdlib
    ["Var:&".toList ++ v.name, "ResNames:[]string{".toList ++ quote pr v.name ++ ['}']]) [] []

/-- `DefineIntfTypeLiteral` (register.go:128-139). -/
def intfLiteral (pr : Char → Bool) (n : Names) (stdlib : Bool) (fileVar : Str) (t : Named) : Literal :=
  defineLiteral n t.infoVar (makeLiteral pr n fileVar 0 t.name t.name t.line stdlib
    ["Interface:true".toList, "RecvType: ".toList ++ quote pr t.name]) [] []

/-- `GetFileRegStmts` (register.go:30-62). -/
def fileLiterals (pr : Char → Bool) (n : Names) (stdlib : Bool) (fileVar fileVarForVar : Str) (d : Decls) : List Literal :=
  d.vars.map (varLiteral pr n stdlib fileVarForVar) ++ d.funcs.map (funcLiteral pr n stdlib fileVar) ++
    d.intfs.map (intfLiteral pr n stdlib fileVar)

/-- `prevStmtNeedsSeparator` (register.go:253-259). -/
def needsSep (s : Str) : Bool :=
  match s.getLast? with
  | none => false
  | some c => c ≠ ';' && c ≠ '\n'

/-- The loop of `JoinStmts` (register.go:227-251): `last` is the last statement written. -/
def joinFrom (last : Str) : List Str → Str
  | [] => []
  | s :: l => if s = [] then joinFrom last l else (if needsSep last then [';'] else []) ++ s ++ joinFrom s l

/-- `JoinStmts`. -/
def join (l : List Str) : Str := joinFrom [] l

/-- `GenerateRegCode` (register.go:61-74). -/
def regCode (init : Str) (ls : List Literal) : Str :=
  let delay := join (ls.map (·.delayInit))
  join [join (ls.map (·.varDef)),
    if delay = [] then [] else "func init(){".toList ++ delay ++ ";}".toList,
    "func init(){".toList ++ join [init ++ "()".toList, join (ls.map (·.varReg))] ++ ";}".toList]

/-- `FUNC_INFO_FIELDS` (info.go:44-66). -/
def infoFields : List Str :=
  ["Kind int", "FullName string", "Pkg string", "IdentityName string", "Name string", "RecvType string", "RecvPtr bool",
    "Interface bool", "Generic bool", "Closure bool", "Stdlib bool", "File string", "Line int", "PC uintptr",
    "Func interface{}", "Var interface{}", "RecvName string", "ArgNames []string", "ResNames []string", "FirstArgCtx bool",
    "LastResultErr bool"].map String.toList

/-- `strings.Join(l, ";")`. -/
def semis : List Str → Str
  | [] => []
  | [a] => a
  | a :: l => a ++ ';' :: semis l

/-- `DeclarePkgStubs` (register.go:194-203). -/
def pkgStubs (pr : Char → Bool) (pkgPath : Str) (n : Names) : List Str :=
  ["type ".toList ++ n.infoType ++ " struct{".toList ++ semis infoFields ++ ['}'],
    "var ".toList ++ n.register ++ " = func(v interface{}){}".toList,
    "var ".toList ++ n.trapFunc ++
      " = func(info interface{}, recvPtr interface{}, args []interface{}, results []interface{}) (func(), bool){return nil, false;}".toList,
    "var ".toList ++ n.trapVar ++ " = func(info interface{}, varAddr interface{}, res interface{}){}".toList,
    "var ".toList ++ n.trapVarPtr ++ " = func(info interface{}, varAddr interface{}, res interface{}){}".toList,
    "var ".toList ++ n.pkgVar ++ '=' :: quote pr pkgPath]

/-- `DeclareFileStub`, `DeclareFileStubForVar` (register.go:205-211). -/
def fileStub (pr : Char → Bool) (var absFile : Str) : Str := "var ".toList ++ var ++ '=' :: quote pr absFile

/-- `DeclareInitFunc` (register.go:217-225). -/
def initFunc (n : Names) : Str :=
  "//go:noinline\nfunc ".toList ++ n.init ++ "(){".toList ++ n.register ++ '=' :: n.register ++ ';' :: n.trapFunc ++ '=' ::
    n.trapFunc ++ ';' :: n.trapVar ++ '=' :: n.trapVar ++ ';' :: n.trapVarPtr ++ '=' :: n.trapVarPtr ++ ";}".toList

/-- What `RegisterFuncTab` (instrument_reg.go:14-48) puts behind the first declaration, and at the end of the file. -/
def register (pr : Char → Bool) (i : Nat) (pkgPath absFile : Str) (stdlib : Bool) (d : Decls) : Option (Str × Str) :=
  let n := Names.ofFile i
  let ls := fileLiterals pr n stdlib (fileVar i) (fileVarForVar i) d
  if ls = [] then none
  else some (';' :: join [join (pkgStubs pr pkgPath n), fileStub pr (fileVar i) absFile, fileStub pr (fileVarForVar i) absFile,
      regCode n.init ls],
    '\n' :: initFunc n)

end Verif.Instrument.RegCode
