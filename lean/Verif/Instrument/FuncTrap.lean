/-
Model of the selection of functions to intercept: which functions of a package get a trap, in place or through the
compiler, how parameters are named for that, which identifiers are generated, and the key under which the go build
cache stores the result.

Source: instrument/instrument_func/trap.go, instrument/ast/recv.go, instrument/config/config.go, cmd/xgo/instrument.go,
instrument/compiler_extra, instrument/constants/info.go, instrument/instrument_reg, instrument/instrument_var,
patch/syntax, patch/info, patch/legacy/func_name
-/
import Verif.Instrument.Rules

namespace Verif.Instrument.FuncTrap
open Verif.Support (Str)
open Verif.Instrument.Rules (pkgWithinModule)

/-! ### Receivers -/

/-- The expressions that can be the type of a receiver (go/ast): `T`, `*X`, `X[K]` or `X[K,V]`, `pkg.T`, `(X)`. -/
inductive Expr
  | ident (name : Str)
  | star (x : Expr)
  | index (x : Expr)
  | sel (pkg name : Str)
  | paren (x : Expr)
  deriving DecidableEq

/-- What `ParseReceiverType` returns. -/
structure RecvInfo where
  ptr : Bool
  generic : Bool
  name : Str
  deriving DecidableEq

/-- The end of `ParseReceiverType` (recv.go:51-59): a selector or an identifier, anything else panics (`none`). -/
def recvName : Expr → Option Str
  | .sel _ n => some n
  | .ident n => some n
  | _ => none

/-- Taking off `*` (recv.go:36-40). -/
def unstar : Expr → Bool × Expr
  | .star x => (true, x)
  | e => (false, e)

/-- Taking off `[...]` (recv.go:41-50). Simplification: `ast.IndexExpr` and `ast.IndexListExpr` are one constructor. -/
def unindex : Expr → Bool × Expr
  | .index x => (true, x)
  | e => (false, e)

/-- `ParseReceiverType` (instrument/ast/recv.go:34-60); `none` is the panic. -/
def parseReceiverType (e : Expr) : Option RecvInfo :=
  (recvName (unindex (unstar e).2).2).map fun n =>
    { ptr := (unstar e).1, generic := (unindex (unstar e).2).1, name := n }

/-- `FormatFuncRefName` (patch/legacy/func_name/name.go:8-16) and the name built in `ParseReceiverInfo`
    (recv.go:8-17). -/
def identityOf (recv : Option RecvInfo) (fn : Str) : Str :=
  match recv with
  | none => fn
  | some r => if r.ptr then "(*".toList ++ r.name ++ ").".toList ++ fn else r.name ++ ".".toList ++ fn

/-! ### Selection -/

/-- The parts of an `ast.FuncDecl` that matter: `doc` are the lines of the doc comment. Simplification: a declaration
    has at most one receiver (others are rejected by go). -/
structure FuncDecl where
  name : Str
  recv : Option Expr := none
  hasBody : Bool := true
  doc : List Str := []
  deriving DecidableEq

/-- `InstrumentMode` (config.go:84-90). -/
inductive Mode
  | exported | all | none
  deriving DecidableEq

/-- `PkgConfig` (config.go:54-57). -/
structure PkgConfig where
  whitelist : List Str := []
  prefixes : List Str := []

/-- What the main packages refer to in `mock.Patch` and the like, as collected by `recordMockRef`
    (instrument/resolve/record.go:47-97): functions, and methods of types. -/
structure Recorder where
  funcs : List Str := []
  methods : List (Str × Str) := []

/-- `Options` (trap.go:26-40) with `pkgPath`; `upper` is `unicode.IsUpper`. -/
structure Opts where
  pkgPath : Str
  recorder : Recorder := {}
  cfg : Option PkgConfig := none
  main : Bool := false
  mode : Mode := .none
  upper : Char → Bool

/-- `token.IsExported`. -/
def exported (upper : Char → Bool) (name : Str) : Bool :=
  match name with
  | [] => false
  | c :: _ => upper c

/-- The tests made before the receiver is looked at (trap.go:72-99). -/
def eligible (pkgPath : Str) (d : FuncDecl) : Bool :=
  if !d.hasBody then false
  else if d.name = [] ∨ d.name = "_".toList then false
  else if d.recv = none ∧ d.name = "init".toList then false
  else if pkgPath = "time".toList ∧ (d.name = "XgoRealNow".toList ∨ d.name = "XgoRealSleep".toList) then false
  else !d.doc.any fun c => "//go:nosplit".toList.isPrefixOf c

/-- `matchAnyPrefix` (trap.go:243-250). -/
def matchAnyPrefix (list : List Str) (s : Str) : Bool := list.any fun p => p ≠ [] && p.isPrefixOf s

/-- `hitRecorder` (trap.go:107-126). -/
def hitRecorder (r : Recorder) (d : FuncDecl) (recv : Option RecvInfo) : Bool :=
  r.funcs.contains d.name ||
    match recv with
    | none => false
    | some i => r.methods.contains (i.name, d.name)

/-- The filter for other packages than those under test (trap.go:106-151). -/
def wanted (o : Opts) (d : FuncDecl) (recv : Option RecvInfo) : Bool :=
  if o.mode = .all then true
  else if hitRecorder o.recorder d recv then true
  else match o.cfg with
    | some c => c.whitelist.contains (identityOf recv d.name) || matchAnyPrefix c.prefixes (identityOf recv d.name)
    | none => o.mode ≠ .none && exported o.upper d.name

/-- `ParseReceiverInfo` (trap.go:235-241): `none` is a panic. -/
def parseReceiver (d : FuncDecl) : Option (Option RecvInfo) :=
  match d.recv with
  | none => some none
  | some e => (parseReceiverType e).map some

/-- `MAX_EXTRA_FUNCS_PER_FILE`, `MAX_EXTRA_FUNCS_PER_PKG` (config.go:18-19). -/
def maxPerFile : Nat := 16
def maxPerPkg : Nat := 6 * maxPerFile

/-- What `TrapFuncs` did for one file: the declarations rewritten in place, with their identity names, the identity
    names left to the compiler, and the rest of the quota. -/
structure FileTraps where
  inPlace : List (FuncDecl × Str) := []
  extra : List Str := []
  quota : Nat
  deriving DecidableEq

/-- The loop of `TrapFuncs` (trap.go:69-229), with `ForceInPlace` false as in cmd/xgo/instrument.go:282-288. -/
def trapLoop (o : Opts) : List FuncDecl → FileTraps → Option FileTraps
  | [], t => some t
  | d :: ds, t =>
    if !eligible o.pkgPath d then trapLoop o ds t
    else match parseReceiver d with
      | none => none
      | some recv =>
        if !wanted o d recv then trapLoop o ds t
        else if o.main then trapLoop o ds { t with inPlace := t.inPlace ++ [(d, identityOf recv d.name)] }
        else if o.mode = .all then trapLoop o ds { t with extra := t.extra ++ [identityOf recv d.name] }
        else if t.extra.length < maxPerFile then
          if t.quota = 0 then trapLoop o ds t
          else trapLoop o ds { t with extra := t.extra ++ [identityOf recv d.name], quota := t.quota - 1 }
        else trapLoop o ds t

/-- `TrapFuncs` (trap.go:56-231). -/
def trapFuncs (o : Opts) (ds : List FuncDecl) (quota : Nat) : Option FileTraps := trapLoop o ds { quota := quota }

/-! ### Packages -/

/-- A source file of a package: base name, function declarations, interface types. -/
structure SrcFile where
  name : Str
  decls : List FuncDecl := []
  interfaces : List Str := []

/-- A loaded package, with the flags set in cmd/xgo/instrument.go:168-193. -/
structure Pkg where
  path : Str
  stdlib : Bool := false
  main : Bool := false
  initial : Bool := false
  files : List SrcFile

/-- `CheckInstrumentMode` (config.go:92-107). -/
def checkInstrumentMode (stdlib main initial trapAll : Bool) : Mode :=
  if main || initial then .all
  else if stdlib then .none
  else if trapAll then .exported
  else .none

/-- `constants.RUNTIME_MODULE` (instrument/constants/constants.go:5). -/
def runtimeModule : Str := "github.com/xhd2015/xgo/runtime".toList

/-- `isXgoRuntimePkg` (config.go:109-118). -/
def isXgoRuntimePkg (pkgPath : Str) : Bool :=
  match pkgWithinModule pkgPath runtimeModule with
  | none => false
  | some suffix => (pkgWithinModule suffix "test".toList).isNone

/-- `neverInstrumentPkgs` (config.go:41-52). -/
def neverInstrumentPkgs : List Str :=
  ["unsafe", "runtime", "syscall", "reflect", "sync", "sync/atomic", "testing"].map String.toList

/-- `CheckInstrument` (config.go:59-82): `(isXgo, allow)`. -/
def checkInstrument (pkgPath : Str) : Bool × Bool :=
  if (pkgWithinModule pkgPath "runtime".toList).isSome then (false, false)
  else if (pkgWithinModule pkgPath "internal".toList).isSome then (false, false)
  else if (pkgWithinModule pkgPath "vendor".toList).isSome then (false, false)
  else if isXgoRuntimePkg pkgPath then (true, false)
  else if neverInstrumentPkgs.contains pkgPath then (false, false)
  else (false, true)

/-- `defaultStdPkgConfig` (config.go:128-187). -/
def stdPkgConfig : List (Str × PkgConfig) :=
  [("os".toList, { whitelist := ["OpenFile", "ReadFile", "WriteFile"].map String.toList, prefixes := ["Get".toList] }),
   ("io".toList, { whitelist := ["ReadAll".toList] }),
   ("io/ioutil".toList, { whitelist := ["ReadAll", "ReadFile", "ReadDir"].map String.toList }),
   ("time".toList, { whitelist := ["Now", "Sleep", "NewTicker", "Time.Format"].map String.toList }),
   ("os/exec".toList, { whitelist := ["Command", "(*Cmd).Run", "(*Cmd).Output", "(*Cmd).Start"].map String.toList }),
   ("net/http".toList, { whitelist := ["Get", "Head", "Post", "Serve", "Handle", "(*Client).Do",
      "(*Server).Close"].map String.toList }),
   ("net".toList, { prefixes := ["(*Dialer).Dial", "Dial"].map String.toList })]

/-- `GetPkgConfig` (config.go:120-126). -/
def getPkgConfig (pkgPath : Str) : Option PkgConfig := (stdPkgConfig.find? fun p => p.1 = pkgPath).map (·.2)

/-- The traps of one file, as handed on: in place, or for the compiler (`compiler_extra.File`). -/
structure FileResult where
  name : Str
  inPlace : List (FuncDecl × Str)
  extra : List Str
  interfaces : List Str
  deriving DecidableEq

/-- The interfaces registered through the compiler (cmd/xgo/instrument.go:292-316): none for packages whose files are
    edited in place. -/
def extraInterfaces (upper : Char → Bool) (mode : Mode) (main : Bool) (f : SrcFile) : List Str :=
  if mode = .none ∨ main then []
  else f.interfaces.filter fun n => mode = .all || exported upper n

/-- The loop over the files of a package (cmd/xgo/instrument.go:277-327); `none` is a panic. -/
def fileLoop (o : Opts) : List SrcFile → Nat → Option (List FileResult)
  | [], _ => some []
  | f :: fs, quota =>
    if !o.main && "_test.go".toList.isSuffixOf f.name then fileLoop o fs quota
    else match trapFuncs o f.decls quota with
      | none => none
      | some t => (fileLoop o fs t.quota).map
        ({ name := f.name, inPlace := t.inPlace, extra := t.extra,
           interfaces := extraInterfaces o.upper o.mode o.main f } :: ·)

/-- The options `TrapFuncs` gets for a package (cmd/xgo/instrument.go:259-288). -/
def pkgOpts (upper : Char → Bool) (recorder : Recorder) (trapAll : Bool) (p : Pkg) : Opts :=
  { pkgPath := p.path, recorder := recorder, cfg := getPkgConfig p.path, main := p.main,
    mode := checkInstrumentMode p.stdlib p.main p.initial trapAll, upper := upper }

/-- One round of the loop over the packages (cmd/xgo/instrument.go:255-337). -/
def instrumentPkg (upper : Char → Bool) (recorder : Recorder) (trapAll : Bool) (p : Pkg) : Option (List FileResult) :=
  if !(checkInstrument p.path).2 then some []
  else fileLoop (pkgOpts upper recorder trapAll p) p.files maxPerPkg

/-! ### The compiler -/

/-- A function declaration as the compiler sees it: the identifiers occurring anywhere in it are `names`. -/
structure CDecl where
  decl : FuncDecl
  names : List Str := []

/-- The receiver in `getFuncDeclInfo` (patch/syntax/decl.go:131-155): the type must be a name after taking off `*` and
    `[...]`; a failed type assertion panics. -/
def compilerRecv (d : FuncDecl) : Option (Option RecvInfo) :=
  match d.recv with
  | none => some none
  | some e =>
    match unstar e with
    | (p, x) =>
      match unindex x with
      | (g, .ident n) => some (some { ptr := p, generic := g, name := n })
      | _ => none

/-- `getFuncDeclInfo` (decl.go:109-186) for the functions listed for this file: the result is whether the function is
    taken; `none` is a panic. -/
def compilerTakes (funcs : List Str) (d : FuncDecl) : Option Bool :=
  if !d.hasBody then some false
  else if d.name = [] ∨ d.name = "_".toList ∨ d.name = "init".toList then some false
  else (compilerRecv d).map fun recv => funcs.contains (identityOf recv d.name)

/-- `getFuncDecls` and `trapFuncs` (decl.go:41-64, func_trap.go:26-166) for one file: the functions that get a trap. -/
def compilerTraps (funcs : List Str) : List CDecl → Option (List FuncDecl)
  | [] => some []
  | d :: ds =>
    match compilerTakes funcs d.decl with
    | none => none
    | some b => (compilerTraps funcs ds).map fun rest =>
      if b && !d.names.contains "__xgo_trap_0".toList then d.decl :: rest else rest

/-- `splitBatch` (patch/syntax/reg.go:16-42): `cur` is the current batch. -/
def splitLoop {α : Type} (batch : Nat) : List α → List α → List (List α)
  | [], cur => if cur.length > 0 then [cur] else []
  | x :: xs, cur =>
    if (cur ++ [x]).length ≥ batch then (cur ++ [x]) :: splitLoop batch xs []
    else splitLoop batch xs (cur ++ [x])

/-- `splitBatch` (patch/syntax/reg.go:16-42); a non-positive `batch` panics and is not modelled (it is 1024). -/
def splitBatch {α : Type} (batch : Nat) (l : List α) : List (List α) :=
  if l.length ≤ batch then [l] else splitLoop batch l []

/-! ### Names of parameters -/

/-- `strconv.Itoa` / `%d` of a natural number. -/
def dec (n : Nat) : Str := Nat.toDigits 10 n

/-- A blank name. -/
def blank (n : Str) : Bool := n = [] || n = "_".toList

/-- `processFieldNames` (trap.go:309-385), the names given: each field has a list of names, empty if it is unnamed.
    `i` is `seqNum`. -/
def fieldNames (pre : Str) : List (List Str) → Nat → List Str
  | [], _ => []
  | [] :: fs, i => (pre ++ dec i) :: fieldNames pre fs (i + 1)
  | (n :: ns) :: fs, i =>
    ((n :: ns).zipIdx i).map (fun x => if blank x.1 then pre ++ dec x.2 else x.1) ++
      fieldNames pre fs (i + (n :: ns).length)

/-- The receiver, parameters and results of a function literal or declaration. -/
structure Sig where
  recv : List (List Str) := []
  params : List (List Str) := []
  results : List (List Str) := []

/-- The three prefixes (trap.go:20-24). -/
def recvPrefix : Str := "__xgo_auto_rcv_".toList
def paramPrefix : Str := "__xgo_auto_param_".toList
def resultPrefix : Str := "__xgo_auto_res_".toList

/-- `processReceiverNames`, `processParamNames`, `processResultNames` (trap.go:284-306). -/
def sigNames (s : Sig) : List Str × List Str × List Str :=
  (fieldNames recvPrefix s.recv 0, fieldNames paramPrefix s.params 0, fieldNames resultPrefix s.results 0)

/-- `nextName` (func_trap.go:268-278): the loop, `mid` being `k` underscores; `fuel` bounds the number of rounds. -/
def nextNameLoop (pre suf : Str) (preset : List Str) : Nat → Nat → Str
  | 0, k => pre ++ List.replicate k '_' ++ suf
  | fuel + 1, k =>
    if preset.contains (pre ++ List.replicate k '_' ++ suf) then nextNameLoop pre suf preset fuel (k + 1)
    else pre ++ List.replicate k '_' ++ suf

/-- `nextName` (func_trap.go:268-278); the caller adds the name to `preset`. A name is found after at most as many
    rounds as there are names in `preset`. -/
def nextName (pre suf : Str) (preset : List Str) : Str := nextNameLoop pre suf preset preset.length 0

/-- `fillFieldNames` (func_trap.go:255-267): one name per field (package syntax splits `a, b int`), `none` for an
    unnamed one. The result are the names and the new `preset`. -/
def fillFieldNames (pre : Str) : List (Option Str) → Nat → List Str → List Str × List Str
  | [], _, preset => ([], preset)
  | f :: fs, i, preset =>
    match f with
    | some n =>
      if blank n then
        let x := nextName pre (dec i) preset
        let r := fillFieldNames pre fs (i + 1) (x :: preset)
        (x :: r.1, r.2)
      else
        let r := fillFieldNames pre fs (i + 1) preset
        (n :: r.1, r.2)
    | none =>
      let x := nextName pre (dec i) preset
      let r := fillFieldNames pre fs (i + 1) (x :: preset)
      (x :: r.1, r.2)

/-- `fillName` (patch/syntax/name.go:17-26). -/
def fillName (pre : Str) : Option Str → Option Str
  | none => some pre
  | some n => if n = "_".toList then some (pre ++ "_blank".toList) else some n

/-- The signature of a function in package syntax. -/
structure CSig where
  recv : Option (Option Str) := none
  params : List (Option Str) := []
  results : List (Option Str) := []

/-- `fillMissingArgNames` (patch/syntax/name.go:8-15). -/
def fillMissing (s : CSig) : CSig :=
  { s with
    recv := s.recv.map (fillName "__xgo_recv_auto_filled".toList)
    params := s.params.zipIdx.map fun x => fillName ("__xgo_arg_auto_filled_".toList ++ dec x.2) x.1 }

/-- The names the trap of a function uses: receiver, parameters, results, and the two variables for the results of the
    trap (func_trap.go:78-111 with name.go:67-73). `names` are the identifiers occurring in the declaration before the
    parameters are named, so `preset` also has the names filled in by `fillMissing`. -/
def compilerNames (s : CSig) (names : List Str) : Option Str × List Str × List Str × Str × Str :=
  let s := fillMissing s
  let preset := (s.recv.bind id).toList ++ s.params.filterMap id ++ names
  let r := match s.recv with
    | none => (none, preset)
    | some f => ((fillFieldNames "_x".toList [f] 0 preset).1.head?, (fillFieldNames "_x".toList [f] 0 preset).2)
  let p := fillFieldNames "_a".toList s.params 0 r.2
  let q := fillFieldNames "_r".toList s.results 0 p.2
  let preset := "__xgo_trap_0".toList :: q.2
  let post := nextName "_post".toList [] preset
  let stop := nextName "_stop".toList [] (post :: preset)
  (r.1, p.1, q.1, post, stop)

/-! ### The build cache key -/

/-- What is passed to the compiler for one file (`compiler_extra.File`). -/
structure TrapFile where
  name : Str
  funcs : List Str
  interfaces : List Str
  deriving DecidableEq

/-- The text hashed by `md5sumTraps` (cmd/xgo/instrument.go:358-377). -/
def trapText (files : List TrapFile) (hasVarTrap : Bool) : Str :=
  (files.map fun f => f.name ++ f.funcs.flatten ++ f.interfaces.flatten).flatten ++
    (if hasVarTrap then "v:1".toList else "v:0".toList)

/-- `md5sumTraps` (cmd/xgo/instrument.go:358-377); `hash` is md5 in hexadecimal. -/
def trapSum (hash : Str → Str) (files : List TrapFile) (hasVarTrap : Bool) : Str := hash (trapText files hasVarTrap)

/-! ### Generated identifiers -/

/-- Two-number names like `__xgo_func_info_<i>_<j>` (info.go:109-119, trap.go:209, trap_var.go:72,
    instrument_intf.go:39). -/
def name2 (pre : Str) (i j : Nat) : Str := pre ++ "_".toList ++ dec i ++ "_".toList ++ dec j

/-- `DeclarePkgStubs` and `DeclareInitFunc` (register.go:189-225): the identifiers declared for index `i`. -/
def stubNames (i : Nat) : List Str :=
  ["__xgo_func_info_".toList ++ dec i, "__xgo_register_".toList ++ dec i, "__xgo_trap_".toList ++ dec i,
   "__xgo_trap_var_".toList ++ dec i, "__xgo_trap_varptr_".toList ++ dec i, "__xgo_pkg_".toList ++ dec i,
   "__xgo_init_".toList ++ dec i]

/-- How many functions, variables and interfaces of a file are registered in place. -/
structure FileRegs where
  funcs : Nat := 0
  vars : Nat := 0
  intfs : Nat := 0
  deriving DecidableEq

/-- `RegisterFuncTab` (instrument/instrument_reg/instrument_reg.go:14-48): the package level identifiers it declares in
    file `i`. -/
def fileDeclares (i : Nat) (r : FileRegs) : List Str :=
  if r.funcs + r.vars + r.intfs = 0 then []
  else stubNames i ++ ["__xgo_file_".toList ++ dec i, "__xgo_file_var_".toList ++ dec i] ++
    (List.range r.vars).map (name2 "__xgo_var_info".toList i) ++
    (List.range r.funcs).map (name2 "__xgo_func_info".toList i) ++
    (List.range r.intfs).map (name2 "__xgo_intf_info".toList i)

/-- The identifiers that the code inserted into file `i` refers to: the traps in functions (func_template.go:4) and
    variables (var_template.go:11-20), the registration (register.go:62-74, 76-150). -/
def fileUses (i : Nat) (r : FileRegs) : List Str :=
  (if r.funcs = 0 then [] else ["__xgo_trap_".toList ++ dec i]) ++
  (if r.vars = 0 then [] else ["__xgo_trap_var_".toList ++ dec i, "__xgo_trap_varptr_".toList ++ dec i,
    "__xgo_file_var_".toList ++ dec i]) ++
  (if r.funcs + r.intfs = 0 then [] else ["__xgo_file_".toList ++ dec i]) ++
  (if r.funcs + r.vars + r.intfs = 0 then []
   else ["__xgo_init_".toList ++ dec i, "__xgo_register_".toList ++ dec i, "__xgo_func_info_".toList ++ dec i,
    "__xgo_pkg_".toList ++ dec i]) ++
  (List.range r.vars).map (name2 "__xgo_var_info".toList i) ++
  (List.range r.funcs).map (name2 "__xgo_func_info".toList i) ++
  (List.range r.intfs).map (name2 "__xgo_intf_info".toList i)

/-- A function or interface declaration handled by the compiler: index of the file, index of the declaration
    (decl.go:41-107). -/
structure CReg where
  file : Nat
  decl : Nat
  intf : Bool
  deriving DecidableEq

/-- `FuncInfoVarName` (patch/info/decl_info.go:122-127). -/
def CReg.infoVar (r : CReg) : Str :=
  name2 (if r.intf then "__xgo_intf_info".toList else "__xgo_func_info".toList) r.file r.decl

/-- The identifiers declared by the files that `AfterFilesParsed` adds (patch/syntax/syntax.go:49-137). -/
def compilerDeclares (files : List Nat) (regs : List CReg) (hasVarTrap : Bool) : List Str :=
  if regs = [] then []
  else files.map (fun i => "__xgo_file_gc_".toList ++ dec i) ++ (if hasVarTrap then [] else stubNames 0) ++
    regs.map CReg.infoVar

/-- The identifiers that the compiler's code refers to. -/
def compilerUses (regs : List CReg) : List Str :=
  if regs = [] then []
  else regs.map (fun r => "__xgo_file_gc_".toList ++ dec r.file) ++ regs.map CReg.infoVar ++
    ["__xgo_register_".toList ++ dec 0, "__xgo_trap_".toList ++ dec 0, "__xgo_func_info_".toList ++ dec 0,
      "__xgo_pkg_".toList ++ dec 0, "__xgo_init_".toList ++ dec 0]

/-- All xgo identifiers declared in a package whose file `i` has the registrations `regs i`. -/
def pkgDeclares (files : List FileRegs) : List Str := (files.zipIdx.map fun x => fileDeclares x.2 x.1).flatten

/-- A package that is not under test: its functions and interfaces are registered by the compiler (`regs`, in the files
    `files`), its variables in place; `vars` has the number of rewritten variables of each file (trap_var.go:40-52).
    `HasVarTrap` is set if any variable is mocked, `mockedVars` being their number (`NumVars`, record.go:88-90,
    cmd/xgo/instrument.go:268-271); a mocked variable whose type is not known is not rewritten (trap_var.go:90-92).
    The result are the identifiers declared. -/
def depDeclares (mockedVars : Nat) (vars : List Nat) (files : List Nat) (regs : List CReg) : List Str :=
  pkgDeclares (vars.map fun v => { vars := v }) ++ compilerDeclares files regs (0 < mockedVars)

/-- The names of the two getters of a variable (trap_var.go:97-101, var_template.go:10-23). -/
def getterNames (file varName : Str) : List Str :=
  let pre := if "_test.go".toList.isSuffixOf file && "Test".toList.isPrefixOf varName then "T_".toList else []
  [pre ++ varName ++ "_xgo_get".toList, pre ++ varName ++ "_xgo_get_addr".toList]

/-! ### What is registered about a function -/

/-- The receiver name registered for a function whose file is edited in place (instrument_reg.go:57-61) -/
def inPlaceRecvName (s : Sig) : Option Str := (sigNames s).1.head?

/-- ... and for one handled by the compiler (patch/syntax/syntax.go:139-165): the name of the receiver's type. -/
def compilerRecvName (recv : Option RecvInfo) : Option Str := recv.map (·.name)

end Verif.Instrument.FuncTrap
