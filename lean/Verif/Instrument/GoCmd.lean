/-
C104: the edits of the sources of the go command, of the cover tool and of the compiler.
Sources: instrument/instrument_go/exec.go:15-141 (`instrumentExec`, `execAddXgoTrapSum`), go_cmd.go:91-112 (`instrumentGoMain`),
go_tool_cover.go:47-85 (`instrumentCmdCover`), instrument/instrument_compiler/patch_compiler.go:44-76 (`patchGcMain`); the edits
themselves are those of Instrument/PatchText (`UpdateContent`, `EditFile`).

Simplifications: reading and writing succeed; the files that are written as a whole (xgo_main.go, xgo_work_sum.go, xgo_cover.go), the
edits for `--debug-compile` (instrument_gc), those of `go test` (C62), of builtin/runtime.go and of the noder are left out.
-/
import Verif.Instrument.GoHooks

namespace Verif.Instrument.GoCmd
open Verif.Text Verif.Instrument.PatchText Verif.Instrument.GoHooks

/-! ### cmd/go/internal/work/exec.go -/

/-- exec.go:26, 34-39: where `build` begins with coverage. -/
def coverLine (minor : Nat) : String :=
  if minor = 20 ∨ minor = 21 then "if p.Internal.CoverMode != \"\" {"
  else if minor = 18 ∨ minor = 19 ∨ minor = 17 then "if a.Package.Internal.CoverMode != \"\" {"
  else "if p.Internal.Cover.Mode != \"\" {"

/-- exec.go:27-30: the file that replaces `sourceFile`. -/
def actualFile (minor : Nat) : Str :=
  if minor < 24 then "__xgo_overlay_source_file, _ := fsys.OverlayPath(sourceFile);".toList
  else "__xgo_overlay_source_file := sourceFile; if _actual := fsys.Actual(sourceFile); _actual != \"\" { __xgo_overlay_source_file = _actual; };".toList

/-- exec.go:31-35. -/
def coverCall (minor : Nat) : String := if minor ≥ 25 then "if newoutfiles, err := b.cover(" else "if err := b.cover("

/-- exec.go:77, 93, 107. -/
def infilesText (minor : Nat) : Str :=
  trimSuffix ";".toList (actualFile minor) ++ ";".toList ++ "infiles = append(infiles, __xgo_overlay_source_file)".toList

/-- `execAddXgoTrapSum` (exec.go:126-141). -/
def editSum : Str → Option Str :=
  upd "add_xgo_trap_sum" ["func (b *Builder) buildActionID", "fmt.Fprintf(h, \"compile\\n\")"] 1 .after
    ";if xgoSum := getXgoPackageTrapSum(p.ImportPath); xgoSum!=\"\" { fmt.Fprintf(h, \"xgo trap sum %s\\n\", xgoSum);}".toList

/-- exec.go:41-67. -/
def editCall (minor : Nat) (content : Str) : Option Str :=
  if minor < 25 then
    (upd "fix_cover_overlay_var_declare" ["func (b *Builder) build(", coverLine minor, coverCall minor] 2 .before (actualFile minor) content).bind
      (upd "fix_cover_overlay_var_replace" ["func (b *Builder) build(", coverLine minor, coverCall minor, "sourceFile,"] 3 .replace
        "__xgo_overlay_source_file,".toList)
  else some content

/-- exec.go:69-109. -/
def editInfiles (minor : Nat) (content : Str) : Option Str :=
  if minor ≥ 20 ∧ minor < 25 then
    upd "modify_infiles" ["func (b *Builder) build(", coverLine minor, "if cfg.Experiment.CoverageRedesign {",
      "infiles = append(infiles, sourceFile)"] 3 .replace (infilesText minor) content
  else if minor = 25 then
    upd "modify_infiles" ["func (b *Builder) build(", coverLine minor, "infiles = append(infiles, sourceFile)"] 2 .replace (infilesText minor) content
  else if minor ≥ 26 then
    upd "modify_infiles" ["func (b *Builder) runCover(", "infiles = append(infiles, sourceFile)"] 1 .replace (infilesText minor) content
  else some content

/-- `instrumentExec` (exec.go:23-117). -/
def editExec (minor : Nat) (content : Str) : Option Str := ((editCall minor content).bind (editInfiles minor)).bind editSum

/-! ### The other files -/

/-- `instrumentGoMain` (go_cmd.go:97-111). -/
def editMain : Str → Option Str :=
  upd "call_xgo_precheck" ["\nfunc main() {", "if args[0] =="] 1 .before "if xgoPrecheck(args[0], args[1:]) { return; };".toList

/-- go_tool_cover.go:55-58. -/
def coverFn (minor : Nat) : String :=
  if minor = 17 ∨ minor = 18 ∨ minor = 19 then "\nfunc annotate(name string" else "\nfunc (p *Package) annotateFile(name string,"

/-- `instrumentCmdCover` (go_tool_cover.go:54-83). -/
def editCover (minor : Nat) (content : Str) : Option Str :=
  (upd "get_xgo_edits" [coverFn minor, "parsedFile, err := parser.ParseFile("] 1 .before "__xgo_edits := xgoParseApply(&name, &content);".toList
    content).bind
    (upd "apply_xgo_edits" [coverFn minor, "parsedFile, err := parser.ParseFile(", "newContent := file.edit.Bytes()"] 2 .before
      "for _, e := range __xgo_edits { file.edit.Replace(e.Start, e.End, e.New); };".toList)

/-- `patchGcMain` (patch_compiler.go:46-75). -/
def editGcMain (content : Str) : Option Str :=
  (upd "import_xgo_patch" ["package gc"] 0 .after ";import xgo_patch \"cmd/compile/internal/xgo_rewrite_internal/patch\"".toList content).bind
    (upd "call_xgo_patch" ["func Main(", "typecheck.InitRuntime()", "ssagen.InitConfig()"] 2 .after ";xgo_patch.Patch()".toList)

/-- The files that are edited. -/
inductive File
  | exec | main | cover | gcMain
  deriving DecidableEq, Repr

/-- The edit of a file. -/
def editOf (minor : Nat) : File → Str → Option Str
  | .exec => editExec minor
  | .main => editMain
  | .cover => editCover minor
  | .gcMain => editGcMain

/-- The edit of a file: the text afterwards, and whether to go on. Other versions than 1.17 to 1.26 are an error, except for the compiler
    (exec.go:17-20, go_cmd.go:92-95, go_tool_cover.go:48-51). -/
def instrumentFile (major minor : Nat) (f : File) (text : Str) : Str × Bool :=
  if f ≠ .gcMain ∧ supported major minor = false then (text, false) else editFile text (editOf minor f)

end Verif.Instrument.GoCmd
