/-
C104: where the edits belong. Uses only the description of patched files of Instrument/PatchSpec, not the model.
-/
import Verif.Instrument.GoHooksSpec
import Verif.Instrument.GoCmd

namespace Verif.Instrument.GoCmd.Spec
open Verif.Text Verif.Instrument.PatchText.Spec
open Verif.Instrument.GoHooks.Spec (Once ins)

/-- How `build` asks whether there is coverage. -/
inductive CoverLine : (minor : Nat) → (l : String) → Prop
  | go17 {m} : 17 ≤ m → m ≤ 19 → CoverLine m "if a.Package.Internal.CoverMode != \"\" {"
  | go20 {m} : 20 ≤ m → m ≤ 21 → CoverLine m "if p.Internal.CoverMode != \"\" {"
  | go22 {m} : 22 ≤ m → CoverLine m "if p.Internal.Cover.Mode != \"\" {"

/-- How the file that replaces `sourceFile` is found, without the last semicolon. -/
inductive Actual : (minor : Nat) → (t : String) → Prop
  | go23 {m} : m ≤ 23 → Actual m "__xgo_overlay_source_file, _ := fsys.OverlayPath(sourceFile)"
  | go24 {m} : 24 ≤ m → Actual m "__xgo_overlay_source_file := sourceFile; if _actual := fsys.Actual(sourceFile); _actual != \"\" { __xgo_overlay_source_file = _actual; }"

/-- The sum of what is trapped in the package is part of what is hashed. -/
def sum : Mark := ins "add_xgo_trap_sum"
  ";if xgoSum := getXgoPackageTrapSum(p.ImportPath); xgoSum!=\"\" { fmt.Fprintf(h, \"xgo trap sum %s\\n\", xgoSum);}".toList

/-- `sourceFile` is not put into the list of files to cover, but the file that replaces it. -/
def infiles (t : String) : Mark := .region "modify_infiles".toList "infiles = append(infiles, sourceFile)".toList
  (t.toList ++ ";infiles = append(infiles, __xgo_overlay_source_file)".toList)

/-- The variable with the file that replaces `sourceFile`. -/
def declare (t : String) : Mark := ins "fix_cover_overlay_var_declare" (t.toList ++ ";".toList)

/-- This file is covered, not `sourceFile`. -/
def argument : Mark := .region "fix_cover_overlay_var_replace".toList "sourceFile,".toList "__xgo_overlay_source_file,".toList

/-- The file as it is in Go, and the file with the edits: which text is put where. -/
inductive Edited (minor : Nat) : File → Str → Patched → Prop
  /-- one call of the cover tool for each file -/
  | exec17 (l t : String) (a b c d e h i Z : Str) : minor ≤ 19 → CoverLine minor l → Actual minor t →
      Z = c ++ "func (b *Builder) build(".toList ++ d ++ l.toList ++ e ++ "if err := b.cover(".toList ++ h ++ "sourceFile,".toList ++ i →
      Once "func (b *Builder) buildActionID" a (b ++ "fmt.Fprintf(h, \"compile\\n\")".toList ++ Z) →
      NotBefore "fmt.Fprintf(h, \"compile\\n\")".toList b →
      NotBefore "func (b *Builder) build(".toList (a ++ "func (b *Builder) buildActionID".toList ++ b ++ "fmt.Fprintf(h, \"compile\\n\")".toList ++ c) →
      ¬ "func (b *Builder) build(".toList <:+: d ++ l.toList ++ e ++ "if err := b.cover(".toList ++ h ++ "sourceFile,".toList ++ i →
      NotBefore l.toList d → NotBefore "if err := b.cover(".toList e → NotBefore "sourceFile,".toList h →
      Edited minor .exec (a ++ "func (b *Builder) buildActionID".toList ++ b ++ "fmt.Fprintf(h, \"compile\\n\")".toList ++ Z)
        ⟨[(a ++ "func (b *Builder) buildActionID".toList ++ b ++ "fmt.Fprintf(h, \"compile\\n\")".toList, sum),
          (c ++ "func (b *Builder) build(".toList ++ d ++ l.toList ++ e, declare t),
          ("if err := b.cover(".toList ++ h, argument)], i⟩
  /-- a list of files to cover, or, without the redesign, one call for each file -/
  | exec20 (l t : String) (a b c d e f g h i Z : Str) : 20 ≤ minor → minor ≤ 24 → CoverLine minor l → Actual minor t →
      Z = c ++ "func (b *Builder) build(".toList ++ d ++ l.toList ++ (e ++ "if cfg.Experiment.CoverageRedesign {".toList ++ f ++
        "infiles = append(infiles, sourceFile)".toList ++ g) ++ "if err := b.cover(".toList ++ h ++ "sourceFile,".toList ++ i →
      Once "func (b *Builder) buildActionID" a (b ++ "fmt.Fprintf(h, \"compile\\n\")".toList ++ Z) →
      NotBefore "fmt.Fprintf(h, \"compile\\n\")".toList b →
      NotBefore "func (b *Builder) build(".toList (a ++ "func (b *Builder) buildActionID".toList ++ b ++ "fmt.Fprintf(h, \"compile\\n\")".toList ++ c) →
      ¬ "func (b *Builder) build(".toList <:+: d ++ l.toList ++ (e ++ "if cfg.Experiment.CoverageRedesign {".toList ++ f ++
        "infiles = append(infiles, sourceFile)".toList ++ g) ++ "if err := b.cover(".toList ++ h ++ "sourceFile,".toList ++ i →
      NotBefore l.toList d → NotBefore "if cfg.Experiment.CoverageRedesign {".toList e → NotBefore "infiles = append(infiles, sourceFile)".toList f →
      NotBefore "if err := b.cover(".toList (e ++ "if cfg.Experiment.CoverageRedesign {".toList ++ f ++
        "infiles = append(infiles, sourceFile)".toList ++ g) → NotBefore "sourceFile,".toList h →
      Edited minor .exec (a ++ "func (b *Builder) buildActionID".toList ++ b ++ "fmt.Fprintf(h, \"compile\\n\")".toList ++ Z)
        ⟨[(a ++ "func (b *Builder) buildActionID".toList ++ b ++ "fmt.Fprintf(h, \"compile\\n\")".toList, sum),
          (c ++ "func (b *Builder) build(".toList ++ d ++ l.toList ++ e ++ "if cfg.Experiment.CoverageRedesign {".toList ++ f, infiles t),
          (g, declare t),
          ("if err := b.cover(".toList ++ h, argument)], i⟩
  /-- always a list of files -/
  | exec25 (l t : String) (a b c d e i Z : Str) : minor = 25 → CoverLine minor l → Actual minor t →
      Z = c ++ "func (b *Builder) build(".toList ++ d ++ l.toList ++ e ++ "infiles = append(infiles, sourceFile)".toList ++ i →
      Once "func (b *Builder) buildActionID" a (b ++ "fmt.Fprintf(h, \"compile\\n\")".toList ++ Z) →
      NotBefore "fmt.Fprintf(h, \"compile\\n\")".toList b →
      NotBefore "func (b *Builder) build(".toList (a ++ "func (b *Builder) buildActionID".toList ++ b ++ "fmt.Fprintf(h, \"compile\\n\")".toList ++ c) →
      ¬ "func (b *Builder) build(".toList <:+: d ++ l.toList ++ e ++ "infiles = append(infiles, sourceFile)".toList ++ i →
      NotBefore l.toList d → NotBefore "infiles = append(infiles, sourceFile)".toList e →
      Edited minor .exec (a ++ "func (b *Builder) buildActionID".toList ++ b ++ "fmt.Fprintf(h, \"compile\\n\")".toList ++ Z)
        ⟨[(a ++ "func (b *Builder) buildActionID".toList ++ b ++ "fmt.Fprintf(h, \"compile\\n\")".toList, sum),
          (c ++ "func (b *Builder) build(".toList ++ d ++ l.toList ++ e, infiles t)], i⟩
  /-- in a function of its own, after `buildActionID` … -/
  | exec26 (t : String) (a b c d i Z : Str) : 26 ≤ minor → Actual minor t →
      Z = c ++ "func (b *Builder) runCover(".toList ++ d ++ "infiles = append(infiles, sourceFile)".toList ++ i →
      Once "func (b *Builder) buildActionID" a (b ++ "fmt.Fprintf(h, \"compile\\n\")".toList ++ Z) →
      NotBefore "fmt.Fprintf(h, \"compile\\n\")".toList b →
      NotBefore "func (b *Builder) runCover(".toList (a ++ "func (b *Builder) buildActionID".toList ++ b ++ "fmt.Fprintf(h, \"compile\\n\")".toList ++ c) →
      ¬ "func (b *Builder) runCover(".toList <:+: d ++ "infiles = append(infiles, sourceFile)".toList ++ i →
      NotBefore "infiles = append(infiles, sourceFile)".toList d →
      Edited minor .exec (a ++ "func (b *Builder) buildActionID".toList ++ b ++ "fmt.Fprintf(h, \"compile\\n\")".toList ++ Z)
        ⟨[(a ++ "func (b *Builder) buildActionID".toList ++ b ++ "fmt.Fprintf(h, \"compile\\n\")".toList, sum),
          (c ++ "func (b *Builder) runCover(".toList ++ d, infiles t)], i⟩
  /-- … or before it -/
  | exec26' (t : String) (a b c d i : Str) : 26 ≤ minor → Actual minor t →
      Once "func (b *Builder) runCover(" c (d ++ "infiles = append(infiles, sourceFile)".toList ++ a ++
        "func (b *Builder) buildActionID".toList ++ b ++ "fmt.Fprintf(h, \"compile\\n\")".toList ++ i) →
      NotBefore "infiles = append(infiles, sourceFile)".toList d →
      Once "func (b *Builder) buildActionID" (c ++ "func (b *Builder) runCover(".toList ++ d ++ "infiles = append(infiles, sourceFile)".toList ++ a)
        (b ++ "fmt.Fprintf(h, \"compile\\n\")".toList ++ i) →
      NotBefore "fmt.Fprintf(h, \"compile\\n\")".toList b →
      Edited minor .exec (c ++ "func (b *Builder) runCover(".toList ++ d ++ "infiles = append(infiles, sourceFile)".toList ++ a ++
        "func (b *Builder) buildActionID".toList ++ b ++ "fmt.Fprintf(h, \"compile\\n\")".toList ++ i)
        ⟨[(c ++ "func (b *Builder) runCover(".toList ++ d, infiles t),
          (a ++ "func (b *Builder) buildActionID".toList ++ b ++ "fmt.Fprintf(h, \"compile\\n\")".toList, sum)], i⟩
  /-- xgo is asked before the first command of go -/
  | main (a b c : Str) : Once "\nfunc main() {" a (b ++ "if args[0] ==".toList ++ c) → NotBefore "if args[0] ==".toList b →
      Edited minor .main (a ++ "\nfunc main() {".toList ++ b ++ "if args[0] ==".toList ++ c)
        ⟨[(a ++ "\nfunc main() {".toList ++ b, ins "call_xgo_precheck" "if xgoPrecheck(args[0], args[1:]) { return; };".toList)],
          "if args[0] ==".toList ++ c⟩
  /-- the edits that xgo noted in a file are taken out before it is parsed, and made again before it is written -/
  | cover (k : String) (a b c d : Str) :
      (17 ≤ minor ∧ minor ≤ 19 ∧ k = "\nfunc annotate(name string") ∨ (20 ≤ minor ∧ k = "\nfunc (p *Package) annotateFile(name string,") →
      Once k a (b ++ "parsedFile, err := parser.ParseFile(".toList ++ c ++ "newContent := file.edit.Bytes()".toList ++ d) →
      NotBefore "parsedFile, err := parser.ParseFile(".toList b → NotBefore "newContent := file.edit.Bytes()".toList c →
      Edited minor .cover (a ++ k.toList ++ b ++ "parsedFile, err := parser.ParseFile(".toList ++ c ++ "newContent := file.edit.Bytes()".toList ++ d)
        ⟨[(a ++ k.toList ++ b, ins "get_xgo_edits" "__xgo_edits := xgoParseApply(&name, &content);".toList),
          ("parsedFile, err := parser.ParseFile(".toList ++ c, ins "apply_xgo_edits"
            "for _, e := range __xgo_edits { file.edit.Replace(e.Start, e.End, e.New); };".toList)],
          "newContent := file.edit.Bytes()".toList ++ d⟩
  /-- xgo's part of the compiler runs when the compiler is set up -/
  | gcMain (a b c d e : Str) :
      Once "package gc" a (b ++ "func Main(".toList ++ c ++ "typecheck.InitRuntime()".toList ++ d ++ "ssagen.InitConfig()".toList ++ e) →
      Once "func Main(" (a ++ "package gc".toList ++ b) (c ++ "typecheck.InitRuntime()".toList ++ d ++ "ssagen.InitConfig()".toList ++ e) →
      NotBefore "typecheck.InitRuntime()".toList c → NotBefore "ssagen.InitConfig()".toList d →
      Edited minor .gcMain (a ++ "package gc".toList ++ b ++ "func Main(".toList ++ c ++ "typecheck.InitRuntime()".toList ++ d ++
        "ssagen.InitConfig()".toList ++ e)
        ⟨[(a ++ "package gc".toList, ins "import_xgo_patch" ";import xgo_patch \"cmd/compile/internal/xgo_rewrite_internal/patch\"".toList),
          (b ++ "func Main(".toList ++ c ++ "typecheck.InitRuntime()".toList ++ d ++ "ssagen.InitConfig()".toList,
            ins "call_xgo_patch" ";xgo_patch.Patch()".toList)], e⟩

/-- The file has not got the place where its first edit belongs. -/
inductive Lacks (minor : Nat) : File → Str → Prop
  | exec {s} (w : String) : (17 ≤ minor ∧ minor ≤ 25 ∧ w = "func (b *Builder) build(") ∨ (26 ≤ minor ∧ w = "func (b *Builder) runCover(") →
      ¬ w.toList <:+: s → Lacks minor .exec s
  | main {s} : ¬ "\nfunc main() {".toList <:+: s → Lacks minor .main s
  | cover {s} (k : String) : (17 ≤ minor ∧ minor ≤ 19 ∧ k = "\nfunc annotate(name string") ∨ (20 ≤ minor ∧ k = "\nfunc (p *Package) annotateFile(name string,") →
      ¬ k.toList <:+: s → Lacks minor .cover s
  | gcMain {s} : ¬ "package gc".toList <:+: s → Lacks minor .gcMain s

end Verif.Instrument.GoCmd.Spec
