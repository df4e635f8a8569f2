/-
C105: where the edits of the compiler belong. Uses only the description of patched files of Instrument/PatchSpec, not the model.
-/
import Verif.Instrument.GoHooksSpec

namespace Verif.Instrument.GoComp.Spec
open Verif.Text Verif.Instrument.PatchText.Spec
open Verif.Instrument.GoHooks.Spec (Once ins)

/-- A text, from its lines. -/
def unlines : List String → Str
  | [] => []
  | l :: ls => l.toList ++ '\n' :: unlines ls

/-- What is done with the files of a package when they have been parsed. -/
inductive Parsed : (minor : Nat) → (t : List String) → Prop
  | go17 {m} : 17 ≤ m → m ≤ 19 → Parsed m ["// auto gen", "if /*os.Getenv(\"XGO_COMPILER_SYNTAX_REWRITE_ENABLE\")==\"true\"*/ true {", "\tfiles := make([]*syntax.File, 0, len(noders))", "\tfor _, n := range noders {", "\t\tfiles = append(files, n.file)", "\t}", "\txgo_syntax.AfterFilesParsed(files, func(name string, r xgo_io.Reader) *syntax.File {", "\t\tp := &noder{", "\t\t\terr: make(chan syntax.Error),", "\t\t}", "\t\tfbase := syntax.NewFileBase(name)", "\t\tfile, err := syntax.Parse(fbase, r, nil, p.pragma, syntax.CheckBranches)", "\t\tif err != nil {", "\t\t\te := err.(syntax.Error)", "\t\t\tp.error(e)", "\t\t\treturn nil", "\t\t}", "\t\tp.file = file", "\t\tnoders = append(noders, p)", "", "\t\t// move to head", "\t\tn := len(noders)", "\t\tfor i:=n-1;i>0;i--{", "\t\t\tnoders[i]=noders[i-1]", "\t\t}", "\t\tnoders[0]=p", "", "\t\treturn file", "\t})", "}"]
  | go20 {m} : m = 20 → Parsed m ["// auto gen", "if os.Getenv(\"XGO_COMPILER_SYNTAX_REWRITE_ENABLE\")==\"true\" {", "\tfiles := make([]*syntax.File, 0, len(noders))", "\tfor _, n := range noders {", "\t\tfiles = append(files, n.file)", "\t}", "\txgo_syntax.AfterFilesParsed(files, func(name string, r xgo_io.Reader) *syntax.File {", "\t\tp := &noder{}", "\t\tfbase := syntax.NewFileBase(name)", "\t\tfile, err := syntax.Parse(fbase, r, nil, p.pragma, syntax.CheckBranches)", "\t\tif err != nil {", "\t\t\te := err.(syntax.Error)", "\t\t\tbase.ErrorfAt(p.makeXPos(e.Pos), \"%s\", e.Msg)", "\t\t\treturn nil", "\t\t}", "\t\tp.file = file", "\t\tnoders = append(noders, p)", "", "\t\t// move to head", "\t\tn := len(noders)", "\t\tfor i:=n-1;i>0;i--{", "\t\t\tnoders[i]=noders[i-1]", "\t\t}", "\t\tnoders[0]=p", "", "\t\treturn file", "\t})", "}"]
  | go21 {m} : 21 ≤ m → m ≤ 26 → Parsed m ["// auto gen", "if os.Getenv(\"XGO_COMPILER_SYNTAX_REWRITE_ENABLE\")==\"true\" {", "\tfiles := make([]*syntax.File, 0, len(noders))", "\tfor _, n := range noders {", "\t\tfiles = append(files, n.file)", "\t}", "\txgo_syntax.AfterFilesParsed(files, func(name string, r xgo_io.Reader) *syntax.File {", "\t\tp := &noder{}", "\t\tfbase := syntax.NewFileBase(name)", "\t\tfile, err := syntax.Parse(fbase, r, nil, p.pragma, syntax.CheckBranches)", "\t\tif err != nil {", "\t\t\te := err.(syntax.Error)", "\t\t\tbase.ErrorfAt(m.makeXPos(e.Pos), 0,\"%s\", e.Msg)", "\t\t\treturn nil", "\t\t}", "\t\tp.file = file", "\t\tnoders = append(noders, p)", "", "\t\t// move to head", "\t\tn := len(noders)", "\t\tfor i:=n-1;i>0;i--{", "\t\t\tnoders[i]=noders[i-1]", "\t\t}", "\t\tnoders[0]=p", "", "\t\treturn file", "\t})", "}"]

/-- The function that names files, and how xgo gets it. -/
inductive Names : (minor : Nat) → (label : String) → (fn : String) → (t : String) → Prop
  | go17 {m} : m = 17 → Names m "expose_abs_filename" "func absFilename(name string) string {" "func init(){ xgo_syntax.AbsFilename = absFilename;};"
  | go18 {m} : 18 ≤ m → Names m "expose_trim_filename" "func trimFilename(b *syntax.PosBase) string {"
      "func init(){ xgo_syntax.TrimFilename = trimFilename;};"

/-- `name` is the name of the package: nothing that follows belongs to it. -/
def Name (name rest : Str) : Prop :=
  name ≠ [] ∧ (∀ c ∈ name, c = '_' ∨ c.isAlpha = true ∨ c.isDigit = true) ∧
  ∀ c, rest.head? = some c → ¬ (c = '_' ∨ c.isAlpha = true ∨ c.isDigit = true)

/-- noder.go as it is in Go, and with the edits: the imports after the name of the package, xgo's part after the line that counts the lines of
    the parsed files, and the function that names files. -/
inductive Noder (minor : Nat) : Str → Patched → Prop
  | mk (auto : List String) (label fn init : String) (a name b c d e f g rest : Str) : Parsed minor auto → Names minor label fn init →
      rest = b ++ "func LoadPackage".toList ++ c ++ "for _, p := range noders {".toList ++ d ++ "base.Timer.AddEvent(int64(lines), \"lines\")".toList ++ e ++
        "\n".toList ++ f ++ fn.toList ++ g →
      NotBefore "package ".toList a → Name name rest →
      Once "func LoadPackage" (a ++ "package ".toList ++ name ++ b) (c ++ "for _, p := range noders {".toList ++ d ++
        "base.Timer.AddEvent(int64(lines), \"lines\")".toList ++ e ++ "\n".toList ++ f ++ fn.toList ++ g) →
      NotBefore "for _, p := range noders {".toList c → NotBefore "base.Timer.AddEvent(int64(lines), \"lines\")".toList d → '\n' ∉ e →
      Once fn (a ++ "package ".toList ++ name ++ b ++ "func LoadPackage".toList ++ c ++ "for _, p := range noders {".toList ++ d ++
        "base.Timer.AddEvent(int64(lines), \"lines\")".toList ++ e ++ "\n".toList ++ f) g →
      Noder minor (a ++ "package ".toList ++ name ++ rest)
        ⟨[(a ++ "package ".toList ++ name, ins "import_io" ";import xgo_io \"io\"".toList),
          ([], ins "import_xgo_syntax" ";import xgo_syntax \"cmd/compile/internal/xgo_rewrite_internal/patch/syntax\"".toList),
          (b ++ "func LoadPackage".toList ++ c ++ "for _, p := range noders {".toList ++ d ++ "base.Timer.AddEvent(int64(lines), \"lines\")".toList ++ e ++
            "\n".toList, ins "file_autogen" (unlines auto)),
          (f, ins label init.toList)], fn.toList ++ g⟩

/-- The functions of xgo that compiled code can call. -/
def functions : List String := ["", "// xgo", "func XgoTrap(info interface{}, recvPtr interface{}, args []interface{}, results []interface{}) (func(), bool)", "func XgoTrapVar(info interface{}, varAddr interface{}, res interface{})", "func XgoTrapVarPtr(info interface{}, varAddr interface{}, res interface{})", "func XgoRegister(fn interface{})", "", "// these are for legacy xgo/runtime v1.1.0", "func XgoSetTrap(trap func(info unsafe.Pointer, recvPtr interface{}, args []interface{}, results []interface{}) (func(), bool))", "func XgoSetVarTrap(trap func(info unsafe.Pointer, varAddr interface{}, res interface{}))", "func XgoSetVarPtrTrap(trap func(info unsafe.Pointer, varAddr interface{}, res interface{}))", "func XgoSetupRegisterHandler(register func(fn unsafe.Pointer))", "func XgoGetCurG() unsafe.Pointer", "func XgoPeekPanic() (interface{}, uintptr)", "func XgoGetFullPCName(pc uintptr) string", "func XgoOnCreateG(callback func(g unsafe.Pointer, childG unsafe.Pointer))", "func XgoOnExitG(callback func())", "func XgoOnInitFinished(callback func())", "func XgoInitFinished() bool"]

/-- The list of runtime functions, and the list with those of xgo. -/
inductive Builtin : Str → Patched → Prop
  | mk (a b c d : Str) : Once "var x86HasFMA bool" a (b ++ "var armHasVFPv4 bool".toList ++ c ++ "var arm64HasATOMICS bool".toList ++ d) →
      NotBefore "var armHasVFPv4 bool".toList b → NotBefore "var arm64HasATOMICS bool".toList c →
      Builtin (a ++ "var x86HasFMA bool".toList ++ b ++ "var armHasVFPv4 bool".toList ++ c ++ "var arm64HasATOMICS bool".toList ++ d)
        ⟨[(a ++ "var x86HasFMA bool".toList ++ b ++ "var armHasVFPv4 bool".toList ++ c ++ "var arm64HasATOMICS bool".toList,
          ins "extra_runtime_func" (unlines functions ++ "\n".toList))], d⟩

end Verif.Instrument.GoComp.Spec
