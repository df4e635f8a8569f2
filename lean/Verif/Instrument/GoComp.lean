/-
C105: the edits of the compiler's noder.go and of its list of runtime functions, and the file xgo_nodes.go.
Sources: instrument/instrument_compiler/patch_noders.go:13-105 (`PatchNoder`), patch_noders_def.go, mkbuiltin.go:52-79
(`PrepareRuntimeDefs`), link_ir_gen.go, patch_syntax_node.go:13-32 (`PatchSyntaxNode`); the edits themselves are those of
Instrument/PatchText (`AddImportAfterName`, `UpdateContent`, `UpdateContentLines`, `EditFile`).

Simplifications: reading and writing succeed; the paths of the files (which depend on the version), Go 1.16 and before (which no other part of
the set-up accepts) and the run of mkbuiltin.go are left out.
-/
import Verif.Instrument.GoCmd

namespace Verif.Instrument.GoComp
open Verif.Text Verif.Instrument.PatchText Verif.Instrument.GoHooks

/-- A text, from its lines. -/
def text (lines : List String) : Str := lines.flatMap (fun l => l.toList ++ "\n".toList)

/-- `NoderFiles_1_17` (patch_noders_def.go:3-33): its lines. -/
def noderFiles17 : List String := ["// auto gen", "if /*os.Getenv(\"XGO_COMPILER_SYNTAX_REWRITE_ENABLE\")==\"true\"*/ true {", "\tfiles := make([]*syntax.File, 0, len(noders))", "\tfor _, n := range noders {", "\t\tfiles = append(files, n.file)", "\t}", "\txgo_syntax.AfterFilesParsed(files, func(name string, r xgo_io.Reader) *syntax.File {", "\t\tp := &noder{", "\t\t\terr: make(chan syntax.Error),", "\t\t}", "\t\tfbase := syntax.NewFileBase(name)", "\t\tfile, err := syntax.Parse(fbase, r, nil, p.pragma, syntax.CheckBranches)", "\t\tif err != nil {", "\t\t\te := err.(syntax.Error)", "\t\t\tp.error(e)", "\t\t\treturn nil", "\t\t}", "\t\tp.file = file", "\t\tnoders = append(noders, p)", "", "\t\t// move to head", "\t\tn := len(noders)", "\t\tfor i:=n-1;i>0;i--{", "\t\t\tnoders[i]=noders[i-1]", "\t\t}", "\t\tnoders[0]=p", "", "\t\treturn file", "\t})", "}"]
/-- `NoderFiles_1_20` (patch_noders_def.go:35-63): its lines. -/
def noderFiles20 : List String := ["// auto gen", "if os.Getenv(\"XGO_COMPILER_SYNTAX_REWRITE_ENABLE\")==\"true\" {", "\tfiles := make([]*syntax.File, 0, len(noders))", "\tfor _, n := range noders {", "\t\tfiles = append(files, n.file)", "\t}", "\txgo_syntax.AfterFilesParsed(files, func(name string, r xgo_io.Reader) *syntax.File {", "\t\tp := &noder{}", "\t\tfbase := syntax.NewFileBase(name)", "\t\tfile, err := syntax.Parse(fbase, r, nil, p.pragma, syntax.CheckBranches)", "\t\tif err != nil {", "\t\t\te := err.(syntax.Error)", "\t\t\tbase.ErrorfAt(p.makeXPos(e.Pos), \"%s\", e.Msg)", "\t\t\treturn nil", "\t\t}", "\t\tp.file = file", "\t\tnoders = append(noders, p)", "", "\t\t// move to head", "\t\tn := len(noders)", "\t\tfor i:=n-1;i>0;i--{", "\t\t\tnoders[i]=noders[i-1]", "\t\t}", "\t\tnoders[0]=p", "", "\t\treturn file", "\t})", "}"]
/-- `NoderFiles_1_21` (patch_noders_def.go:65-93): its lines. -/
def noderFiles21 : List String := ["// auto gen", "if os.Getenv(\"XGO_COMPILER_SYNTAX_REWRITE_ENABLE\")==\"true\" {", "\tfiles := make([]*syntax.File, 0, len(noders))", "\tfor _, n := range noders {", "\t\tfiles = append(files, n.file)", "\t}", "\txgo_syntax.AfterFilesParsed(files, func(name string, r xgo_io.Reader) *syntax.File {", "\t\tp := &noder{}", "\t\tfbase := syntax.NewFileBase(name)", "\t\tfile, err := syntax.Parse(fbase, r, nil, p.pragma, syntax.CheckBranches)", "\t\tif err != nil {", "\t\t\te := err.(syntax.Error)", "\t\t\tbase.ErrorfAt(m.makeXPos(e.Pos), 0,\"%s\", e.Msg)", "\t\t\treturn nil", "\t\t}", "\t\tp.file = file", "\t\tnoders = append(noders, p)", "", "\t\t// move to head", "\t\tn := len(noders)", "\t\tfor i:=n-1;i>0;i--{", "\t\t\tnoders[i]=noders[i-1]", "\t\t}", "\t\tnoders[0]=p", "", "\t\treturn file", "\t})", "}"]
/-- `RuntimeExtraDef` (link_ir_gen.go:4-23): its lines. -/
def extraDef : List String := ["", "// xgo", "func XgoTrap(info interface{}, recvPtr interface{}, args []interface{}, results []interface{}) (func(), bool)", "func XgoTrapVar(info interface{}, varAddr interface{}, res interface{})", "func XgoTrapVarPtr(info interface{}, varAddr interface{}, res interface{})", "func XgoRegister(fn interface{})", "", "// these are for legacy xgo/runtime v1.1.0", "func XgoSetTrap(trap func(info unsafe.Pointer, recvPtr interface{}, args []interface{}, results []interface{}) (func(), bool))", "func XgoSetVarTrap(trap func(info unsafe.Pointer, varAddr interface{}, res interface{}))", "func XgoSetVarPtrTrap(trap func(info unsafe.Pointer, varAddr interface{}, res interface{}))", "func XgoSetupRegisterHandler(register func(fn unsafe.Pointer))", "func XgoGetCurG() unsafe.Pointer", "func XgoPeekPanic() (interface{}, uintptr)", "func XgoGetFullPCName(pc uintptr) string", "func XgoOnCreateG(callback func(g unsafe.Pointer, childG unsafe.Pointer))", "func XgoOnExitG(callback func())", "func XgoOnInitFinished(callback func())", "func XgoInitFinished() bool"]

/-- patch_noders.go:15-37: the text for the version, `none` if the version is not supported. -/
def noderFiles (major minor : Nat) : Option (List String) :=
  if major = 1 then
    if minor = 17 ∨ minor = 18 ∨ minor = 19 then some noderFiles17
    else if minor = 20 then some noderFiles20
    else if minor ≥ 21 ∧ minor ≤ 27 then some noderFiles21
    else none
  else none

/-- `AddImportAfterName` (instrument/patch/import.go:6-14) with a name. `%q` is written out: the paths have no characters to be escaped. -/
def addImport (label name path : String) (content : Str) : Option Str :=
  addContentAfterName content (bm label) (em label) (";import ".toList ++ name.toList ++ " \"".toList ++ path.toList ++ "\"".toList)

/-- patch_noders.go:81-101. -/
def editExpose (major minor : Nat) : Str → Option Str :=
  if major = 1 ∧ minor ≤ 17 then
    upd "expose_abs_filename" ["func absFilename(name string) string {"] 0 .before "func init(){ xgo_syntax.AbsFilename = absFilename;};".toList
  else
    upd "expose_trim_filename" ["func trimFilename(b *syntax.PosBase) string {"] 0 .before
      "func init(){ xgo_syntax.TrimFilename = trimFilename;};".toList

/-- The callback of `PatchNoder` (patch_noders.go:38-104). -/
def editNoder (major minor : Nat) (files : List String) (content : Str) : Option Str :=
  (((addImport "import_xgo_syntax" "xgo_syntax" "cmd/compile/internal/xgo_rewrite_internal/patch/syntax" content).bind
    (addImport "import_io" "xgo_io" "io")).bind
    (upd "file_autogen" ["func LoadPackage", "for _, p := range noders {", "base.Timer.AddEvent(int64(lines), \"lines\")", "\n"] 3 .after
      (text files))).bind
    (editExpose major minor)

/-- `PatchNoder` (patch_noders.go:13-105): the text afterwards, and whether to go on. -/
def patchNoder (major minor : Nat) (text : Str) : Str × Bool :=
  match noderFiles major minor with
  | none => (text, false)
  | some files => editFile text (editNoder major minor files)

/-- The callback of `PrepareRuntimeDefs` (mkbuiltin.go:65-78). -/
def editBuiltin : Str → Option Str :=
  upd "extra_runtime_func" ["var x86HasFMA bool", "var armHasVFPv4 bool", "var arm64HasATOMICS bool"] 2 .after (text extraDef ++ "\n".toList)

/-- `PrepareRuntimeDefs` (mkbuiltin.go:52-79). -/
def prepareRuntimeDefs (text : Str) : Str × Bool := editFile text editBuiltin

/-- `PatchSyntaxNode` (patch_syntax_node.go:13-32): the text of xgo_nodes.go that is written, if any. `gen` and `inspect` are `NodesGen` and
    `Nodes_Inspect_117`. -/
def syntaxNodes (major minor : Nat) (gen inspect : Str) : Option Str :=
  if major > 1 ∨ minor ≥ 22 then none
  else
    let fragments := if major = 1 then (if minor ≤ 21 then [gen] else []) ++ (if minor ≤ 17 then [inspect] else []) else []
    match fragments with
    | [] => none
    | f :: fs => some ("package syntax\n".toList ++ fs.foldl (fun acc x => acc ++ "\n".toList ++ x) f)

end Verif.Instrument.GoComp
