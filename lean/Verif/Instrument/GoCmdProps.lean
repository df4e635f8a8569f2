/-
C104: the go command, the cover tool and the compiler are edited at their places, once, and the edits can be taken out.
-/
import Verif.Instrument.GoCmdDone
import Verif.Instrument.GoHooksProps

namespace Verif.Instrument.GoCmd
open Verif.Text Verif.Instrument.PatchText Verif.Instrument.PatchText.Spec Verif.Instrument.GoHooks
open Verif.Instrument.GoHooks.Spec (Once ins line)
open Verif.Instrument.GoCmd.Spec

theorem edited_file {major minor : Nat} (hv : major = 1 ∧ 17 ≤ minor ∧ minor ≤ 26) {f : File} {p g : Patched} (hc : Unmarked p.original)
    (hu : Undoable Unmarked LabelOk p.parts p.rest) (h : Edited minor f p.original g) :
    instrumentFile major minor f p.text = (g.text, true) ∧ instrumentFile major minor f g.text = (g.text, true) ∧ g.original = p.original ∧
      Undoable Unmarked LabelOk g.parts g.rest := by
  have d := done h hc
  have hs : supported major minor = true := by
    obtain ⟨rfl, h1, h2⟩ := hv
    simp [supported, h1, h2]
  have hn : ∀ x, instrumentFile major minor f x = editFile x (editOf minor f) := by
    intro x
    unfold instrumentFile
    rw [if_neg]
    rintro ⟨_, h⟩
    rw [hs] at h
    exact absurd h (by decide)
  obtain ⟨h1, h2⟩ := C56_idempotent p g hc hu d.undo d.original (editOf minor f) d.edit (by rw [d.original]; exact d.changed)
  rw [h1] at h2
  exact ⟨by rw [hn, h1], by rw [hn, h2], d.original, d.undo⟩

/-- **C104.** For Go 1.17 to 1.26, whatever edits an earlier version of xgo has left in the file: it becomes its original text with the
    edits of this version at their places. -/
theorem C104_edits (major minor : Nat) (hv : major = 1 ∧ 17 ≤ minor ∧ minor ≤ 26) (f : File) (p g : Patched) (hc : Unmarked p.original)
    (hu : Undoable Unmarked LabelOk p.parts p.rest) (h : Edited minor f p.original g) :
    instrumentFile major minor f p.text = (g.text, true) := (edited_file hv hc hu h).1

/-- **C104.** Once: doing it again changes nothing. -/
theorem C104_again (major minor : Nat) (hv : major = 1 ∧ 17 ≤ minor ∧ minor ≤ 26) (f : File) (p g : Patched) (hc : Unmarked p.original)
    (hu : Undoable Unmarked LabelOk p.parts p.rest) (h : Edited minor f p.original g) :
    instrumentFile major minor f (instrumentFile major minor f p.text).1 = (g.text, true) := by
  rw [C104_edits major minor hv f p g hc hu h]
  exact (edited_file hv hc hu h).2.1

/-- **C104.** The edits can be taken out: this gives the file of the Go distribution. -/
theorem C104_undo (major minor : Nat) (hv : major = 1 ∧ 17 ≤ minor ∧ minor ≤ 26) (f : File) (p g : Patched) (hc : Unmarked p.original)
    (hu : Undoable Unmarked LabelOk p.parts p.rest) (h : Edited minor f p.original g) :
    cleanPatch (instrumentFile major minor f p.text).1 = p.original := by
  rw [C104_edits major minor hv f p g hc hu h]
  obtain ⟨_, _, ho, hu'⟩ := edited_file hv hc hu h
  show cleanPatch g.text = _
  rw [C25_clean g (by rw [ho]; exact hc) hu', ho]

/-! ### Lines -/

theorem sum_lines : line sum.text = line sum.old := by decide +kernel
theorem argument_lines : line argument.text = line argument.old := by decide +kernel

theorem edited_lines {minor : Nat} {f : File} {s : Str} {g : Patched} (h : Edited minor f s g) : ∀ q ∈ g.parts, line q.2.text = line q.2.old := by
  cases h with
  | exec17 l t a b c d e h i Z hm hl ht =>
    intro q hq
    simp only [List.mem_cons, List.not_mem_nil, or_false] at hq
    rcases hq with rfl | rfl | rfl
    · exact sum_lines
    · exact (good ht).lines
    · exact argument_lines
  | exec20 l t a b c d e f g h i Z hm hm' hl ht =>
    intro q hq
    simp only [List.mem_cons, List.not_mem_nil, or_false] at hq
    rcases hq with rfl | rfl | rfl | rfl
    · exact sum_lines
    · exact (good ht).lines'
    · exact (good ht).lines
    · exact argument_lines
  | exec25 l t a b c d e i Z hm hl ht =>
    intro q hq
    simp only [List.mem_cons, List.not_mem_nil, or_false] at hq
    rcases hq with rfl | rfl
    · exact sum_lines
    · exact (good ht).lines'
  | exec26 t a b c d i Z hm ht =>
    intro q hq
    simp only [List.mem_cons, List.not_mem_nil, or_false] at hq
    rcases hq with rfl | rfl
    · exact sum_lines
    · exact (good ht).lines'
  | exec26' t a b c d i hm ht =>
    intro q hq
    simp only [List.mem_cons, List.not_mem_nil, or_false] at hq
    rcases hq with rfl | rfl
    · exact (good ht).lines'
    · exact sum_lines
  | main => intro q hq; simp only [List.mem_singleton] at hq; subst hq; dsimp only; decide +kernel
  | cover =>
    intro q hq
    simp only [List.mem_cons, List.not_mem_nil, or_false] at hq
    rcases hq with rfl | rfl <;> (dsimp only; decide +kernel)
  | gcMain =>
    intro q hq
    simp only [List.mem_cons, List.not_mem_nil, or_false] at hq
    rcases hq with rfl | rfl <;> (dsimp only; decide +kernel)

/-- **C104.** The text of Go's files stays on its lines. -/
theorem C104_lines (minor : Nat) (f : File) (s : Str) (g : Patched) (h : Edited minor f s g) :
    (∀ l1 p m l2, g.parts = l1 ++ (p, m) :: l2 → line (text l1 p) = line (original l1 p)) ∧ line g.text = line g.original :=
  ⟨fun l1 p _ _ e => line_text l1 p (fun q hq => edited_lines h q (by rw [e]; exact List.mem_append_left _ hq)),
    line_text _ _ (edited_lines h)⟩

/-! ### Errors -/

theorem upd_absent {name : String} {w : String} {seq : List String} {i : Nat} {new content : Str} (hu : Unmarked content)
    (hi : i < (w :: seq).length) (h : ¬ w.toList <:+: content) : upd name (w :: seq) i .replace new content = none := by
  unfold upd updateContent
  rw [if_pos rfl, tryReplace_absent (bm_ne name) (em_ne name) (fun hc => tag_free hu name ((tag_bm name).trans hc))]
  show updateAtAnchor _ _ _ _ _ _ _ = none
  unfold updateAtAnchor
  rw [sequenceOffset_absent (by simpa using hi)]
  rintro ⟨parts, rest, ha⟩
  apply h
  cases hpt : parts with
  | nil => have := ha.2; rw [hpt] at this; simp at this
  | cons q l =>
    have h1 := ha.2
    rw [hpt] at h1
    simp only [List.map_cons, List.cons.injEq] at h1
    rw [ha.1, hpt]
    simp only [joined, ← h1.1]
    exact ⟨q.1, joined l rest, by simp⟩

theorem lacks_none {minor : Nat} {f : File} {s : Str} (hu : Unmarked s) (h : Lacks minor f s) : editOf minor f s = none := by
  cases h with
  | exec w hw h =>
    show editExec minor s = none
    unfold editExec editCall
    by_cases h25 : minor < 25
    · rw [if_pos h25]
      have : w = "func (b *Builder) build(" := by
        rcases hw with ⟨_, _, e⟩ | ⟨e, _⟩
        · exact e
        · omega
      subst this
      rw [upd_none (by decide) (by simp) h]
      rfl
    · rw [if_neg h25, Option.bind_some]
      unfold editInfiles
      rw [if_neg (by omega)]
      rcases hw with ⟨_, h', rfl⟩ | ⟨h', rfl⟩
      · rw [if_pos (by omega), upd_absent hu (by simp) h]
        rfl
      · rw [if_neg (by omega), if_pos (by omega), upd_absent hu (by decide) h]
        rfl
  | main h =>
    show editMain s = none
    unfold editMain
    exact upd_none (by decide) (by decide) h
  | cover k hk h =>
    show editCover minor s = none
    unfold editCover coverFn
    rcases hk with ⟨h1, h2, rfl⟩ | ⟨h1, rfl⟩
    · rw [if_pos (by omega), upd_none (by decide) (by decide) h]
      rfl
    · rw [if_neg (by omega), upd_none (by decide) (by decide) h]
      rfl
  | gcMain h =>
    show (upd _ _ _ _ _ s).bind _ = none
    rw [upd_none (by decide) (by decide) h]
    rfl

/-- **C104.** If the file has not got the place where its first edit belongs, this is an error, and the file is as it was. -/
theorem C104_missing (major minor : Nat) (hv : major = 1 ∧ 17 ≤ minor ∧ minor ≤ 26) (f : File) (p : Patched) (hc : Unmarked p.original)
    (hu : Undoable Unmarked LabelOk p.parts p.rest) (hl : Lacks minor f p.original) :
    instrumentFile major minor f p.text = (p.text, false) := by
  unfold instrumentFile
  have hs : supported major minor = true := by
    obtain ⟨rfl, h1, h2⟩ := hv
    simp [supported, h1, h2]
  rw [if_neg (by rw [hs]; simp)]
  exact C56_error _ hc hu _ (lacks_none hc hl)

/-- **C104.** The go command and the cover tool of a version that xgo does not know are left alone, and this is an error. -/
theorem C104_unsupported (major minor : Nat) (hv : major ≠ 1 ∨ minor < 17 ∨ 26 < minor) (f : File) (hf : f = .exec ∨ f = .main ∨ f = .cover)
    (t : Str) : instrumentFile major minor f t = (t, false) := by
  have hs : supported major minor = false := by
    simp only [supported, Bool.and_eq_false_iff, decide_eq_false_iff_not]
    omega
  unfold instrumentFile
  rw [if_pos ⟨by rcases hf with rfl | rfl | rfl <;> decide, hs⟩]

/-! ### Small files -/

theorem plain (s : Str) : Patched.text ⟨[], s⟩ = s := rfl

theorem plain' (s : Str) : Patched.original ⟨[], s⟩ = s := rfl

theorem edited_cast {minor : Nat} {f : File} {s s' : Str} {g g' : Patched} (h : Edited minor f s g) (e : s = s') (e' : g = g') :
    Edited minor f s' g' := e ▸ e' ▸ h

/-- exec.go of Go 1.22. -/
def exec22 : Str := "package work\n\nfunc (b *Builder) buildActionID(a *Action) {\n\tfmt.Fprintf(h, \"compile\\n\")\n}\n\nfunc (b *Builder) build(a *Action) {\n\tif p.Internal.Cover.Mode != \"\" {\n\t\tif cfg.Experiment.CoverageRedesign {\n\t\t\tinfiles = append(infiles, sourceFile)\n\t\t} else if err := b.cover(a, coverFile, sourceFile, mode); err != nil {\n\t\t\treturn err\n\t\t}\n\t}\n}\n".toList

/-- The rest of `build`. -/
def exec22Build : Str := "\n}\n\n".toList ++ "func (b *Builder) build(".toList ++ "a *Action) {\n\t".toList ++ "if p.Internal.Cover.Mode != \"\" {".toList ++
  ("\n\t\t".toList ++ "if cfg.Experiment.CoverageRedesign {".toList ++ "\n\t\t\t".toList ++ "infiles = append(infiles, sourceFile)".toList ++
    "\n\t\t} else ".toList) ++ "if err := b.cover(".toList ++ "a, coverFile, ".toList ++ "sourceFile,".toList ++
  " mode); err != nil {\n\t\t\treturn err\n\t\t}\n\t}\n}\n".toList

/-- Its edits. -/
def exec22Edits : Patched :=
  ⟨[("package work\n\n".toList ++ "func (b *Builder) buildActionID".toList ++ "(a *Action) {\n\t".toList ++ "fmt.Fprintf(h, \"compile\\n\")".toList, sum),
    ("\n}\n\n".toList ++ "func (b *Builder) build(".toList ++ "a *Action) {\n\t".toList ++ "if p.Internal.Cover.Mode != \"\" {".toList ++ "\n\t\t".toList ++
      "if cfg.Experiment.CoverageRedesign {".toList ++ "\n\t\t\t".toList, infiles "__xgo_overlay_source_file, _ := fsys.OverlayPath(sourceFile)"),
    ("\n\t\t} else ".toList, declare "__xgo_overlay_source_file, _ := fsys.OverlayPath(sourceFile)"),
    ("if err := b.cover(".toList ++ "a, coverFile, ".toList, argument)], " mode); err != nil {\n\t\t\treturn err\n\t\t}\n\t}\n}\n".toList⟩

theorem exec22_edited : Edited 22 .exec exec22 exec22Edits :=
  edited_cast (.exec20 "if p.Internal.Cover.Mode != \"\" {" "__xgo_overlay_source_file, _ := fsys.OverlayPath(sourceFile)" "package work\n\n".toList
    "(a *Action) {\n\t".toList "\n}\n\n".toList "a *Action) {\n\t".toList "\n\t\t".toList "\n\t\t\t".toList "\n\t\t} else ".toList
    "a, coverFile, ".toList " mode); err != nil {\n\t\t\treturn err\n\t\t}\n\t}\n}\n".toList exec22Build (by decide) (by decide) (.go22 (by decide))
    (.go23 (by decide)) rfl ⟨nb _ _ (by decide +kernel), no_infix (by decide +kernel)⟩ (nb _ _ (by decide +kernel)) (nb _ _ (by decide +kernel))
    (no_infix (by decide +kernel)) (nb _ _ (by decide +kernel)) (nb _ _ (by decide +kernel)) (nb _ _ (by decide +kernel)) (nb _ _ (by decide +kernel))
    (nb _ _ (by decide +kernel))) (by decide +kernel) rfl

/-- What becomes of it. -/
example : instrumentFile 1 22 .exec exec22 = (exec22Edits.text, true) := by
  have h := C104_edits 1 22 (by decide) .exec ⟨[], exec22⟩ exec22Edits (unmarked_of (by decide +kernel)) trivial (by rw [plain']; exact exec22_edited)
  rw [plain] at h
  exact h

/-- exec.go of the project's own test for Go 1.26, as an earlier version of xgo left it. -/
def exec26 : Patched := ⟨[("package work\n\nfunc (b *Builder) runCover() {\n\tinfiles = append(infiles, sourceFile)\n}\n\nfunc (b *Builder) buildActionID() {\n\tfmt.Fprintf(h, \"compile\\n\")".toList,
  ins "add_xgo_trap_sum" "; /* earlier */".toList)], "\n}\n".toList⟩

/-- Its edits. -/
def exec26Edits : Patched :=
  ⟨[("package work\n\n".toList ++ "func (b *Builder) runCover(".toList ++ ") {\n\t".toList,
      infiles "__xgo_overlay_source_file := sourceFile; if _actual := fsys.Actual(sourceFile); _actual != \"\" { __xgo_overlay_source_file = _actual; }"),
    ("\n}\n\n".toList ++ "func (b *Builder) buildActionID".toList ++ "() {\n\t".toList ++ "fmt.Fprintf(h, \"compile\\n\")".toList, sum)], "\n}\n".toList⟩

theorem exec26_edited : Edited 26 .exec exec26.original exec26Edits :=
  edited_cast (.exec26' "__xgo_overlay_source_file := sourceFile; if _actual := fsys.Actual(sourceFile); _actual != \"\" { __xgo_overlay_source_file = _actual; }"
    "\n}\n\n".toList "() {\n\t".toList "package work\n\n".toList ") {\n\t".toList "\n}\n".toList (by decide) (.go24 (by decide))
    ⟨nb _ _ (by decide +kernel), no_infix (by decide +kernel)⟩ (nb _ _ (by decide +kernel))
    ⟨nb _ _ (by decide +kernel), no_infix (by decide +kernel)⟩ (nb _ _ (by decide +kernel))) (by decide +kernel) rfl

example : (instrumentFile 1 26 .exec exec26.text).1 = exec26Edits.text ∧ (instrumentFile 1 26 .exec exec26.text).2 = true := by
  have h := C104_edits 1 26 (by decide) .exec exec26 exec26Edits (unmarked_of (by decide +kernel))
    (undoable_cons ⟨label_ok (by decide), unmarked_of (by decide +kernel), fun _ => ⟨no_infix (by decide +kernel), fun _ => no_infix (by decide +kernel)⟩⟩
      trivial) exec26_edited
  rw [h]
  exact ⟨rfl, rfl⟩

/-- With `runCover` after `buildActionID`. -/
example : ∃ g, Edited 26 .exec "func (b *Builder) buildActionID() {\n\tfmt.Fprintf(h, \"compile\\n\")\n}\n\nfunc (b *Builder) runCover() {\n\tinfiles = append(infiles, sourceFile)\n}\n".toList g :=
  ⟨_, edited_cast (.exec26 "__xgo_overlay_source_file := sourceFile; if _actual := fsys.Actual(sourceFile); _actual != \"\" { __xgo_overlay_source_file = _actual; }"
    [] "() {\n\t".toList "\n}\n\n".toList ") {\n\t".toList "\n}\n".toList _ (by decide) (.go24 (by decide)) rfl
    ⟨nb _ _ (by decide +kernel), no_infix (by decide +kernel)⟩ (nb _ _ (by decide +kernel)) (nb _ _ (by decide +kernel)) (no_infix (by decide +kernel))
    (nb _ _ (by decide +kernel))) (by decide +kernel) rfl⟩

/-- exec.go of Go 1.17. -/
example : ∃ g, Edited 17 .exec "func (b *Builder) buildActionID() {\n\tfmt.Fprintf(h, \"compile\\n\")\n}\n\nfunc (b *Builder) build() {\n\tif a.Package.Internal.CoverMode != \"\" {\n\t\tif err := b.cover(a, sourceFile, m); err != nil {\n".toList g :=
  ⟨_, edited_cast (.exec17 "if a.Package.Internal.CoverMode != \"\" {" "__xgo_overlay_source_file, _ := fsys.OverlayPath(sourceFile)"
    [] "() {\n\t".toList "\n}\n\n".toList ") {\n\t".toList "\n\t\t".toList "a, ".toList " m); err != nil {\n".toList _ (by decide) (.go17 (by decide) (by decide))
    (.go23 (by decide)) rfl ⟨nb _ _ (by decide +kernel), no_infix (by decide +kernel)⟩ (nb _ _ (by decide +kernel)) (nb _ _ (by decide +kernel))
    (no_infix (by decide +kernel)) (nb _ _ (by decide +kernel)) (nb _ _ (by decide +kernel)) (nb _ _ (by decide +kernel))) (by decide +kernel) rfl⟩

/-- exec.go of Go 1.25. -/
example : ∃ g, Edited 25 .exec "func (b *Builder) buildActionID() {\n\tfmt.Fprintf(h, \"compile\\n\")\n}\n\nfunc (b *Builder) build() {\n\tif p.Internal.Cover.Mode != \"\" {\n\t\tinfiles = append(infiles, sourceFile)\n".toList g :=
  ⟨_, edited_cast (.exec25 "if p.Internal.Cover.Mode != \"\" {" "__xgo_overlay_source_file := sourceFile; if _actual := fsys.Actual(sourceFile); _actual != \"\" { __xgo_overlay_source_file = _actual; }"
    [] "() {\n\t".toList "\n}\n\n".toList ") {\n\t".toList "\n\t\t".toList "\n".toList _ (by decide) (.go22 (by decide))
    (.go24 (by decide)) rfl ⟨nb _ _ (by decide +kernel), no_infix (by decide +kernel)⟩ (nb _ _ (by decide +kernel)) (nb _ _ (by decide +kernel))
    (no_infix (by decide +kernel)) (nb _ _ (by decide +kernel)) (nb _ _ (by decide +kernel))) (by decide +kernel) rfl⟩

/-- main.go. -/
def main21 : Str := "package main\n\nfunc main() {\n\targs := flag.Args()\n\tif args[0] == \"help\" {\n\t}\n}\n".toList
/-- What becomes of it. -/
def main21After : Str := "package main\n\nfunc main() {\n\targs := flag.Args()\n\t/*<begin call_xgo_precheck>*/if xgoPrecheck(args[0], args[1:]) { return; };/*<end call_xgo_precheck>*/if args[0] == \"help\" {\n\t}\n}\n".toList

theorem main21_edited : Edited 21 .main main21 ⟨[("package main\n".toList ++ "\nfunc main() {".toList ++ "\n\targs := flag.Args()\n\t".toList,
    ins "call_xgo_precheck" "if xgoPrecheck(args[0], args[1:]) { return; };".toList)], "if args[0] ==".toList ++ " \"help\" {\n\t}\n}\n".toList⟩ :=
  edited_cast (.main "package main\n".toList "\n\targs := flag.Args()\n\t".toList " \"help\" {\n\t}\n}\n".toList
    ⟨nb _ _ (by decide +kernel), no_infix (by decide +kernel)⟩ (nb _ _ (by decide +kernel))) (by decide +kernel) rfl

example : instrumentFile 1 21 .main main21 = (main21After, true) := by
  have h := C104_edits 1 21 (by decide) .main ⟨[], main21⟩ _ (unmarked_of (by decide +kernel)) trivial (by rw [plain']; exact main21_edited)
  have h2 : Patched.text ⟨[("package main\n".toList ++ "\nfunc main() {".toList ++ "\n\targs := flag.Args()\n\t".toList,
    ins "call_xgo_precheck" "if xgoPrecheck(args[0], args[1:]) { return; };".toList)], "if args[0] ==".toList ++ " \"help\" {\n\t}\n}\n".toList⟩ =
    main21After := by decide +kernel
  rw [plain, h2] at h
  exact h

/-- cover.go. -/
example : ∃ g, Edited 21 .cover "package main\n\nfunc (p *Package) annotateFile(name string, fd io.Writer) {\n\tparsedFile, err := parser.ParseFile(fset, name)\n\tnewContent := file.edit.Bytes()\n}\n".toList g :=
  ⟨_, edited_cast (.cover "\nfunc (p *Package) annotateFile(name string," "package main\n".toList " fd io.Writer) {\n\t".toList "fset, name)\n\t".toList
    "\n}\n".toList (.inr ⟨by decide, rfl⟩) ⟨nb _ _ (by decide +kernel), no_infix (by decide +kernel)⟩ (nb _ _ (by decide +kernel))
    (nb _ _ (by decide +kernel))) (by decide +kernel) rfl⟩

/-- gc/main.go. -/
example : ∃ g, Edited 21 .gcMain "package gc\n\nfunc Main(archInit func()) {\n\ttypecheck.InitRuntime()\n\tssagen.InitConfig()\n}\n".toList g :=
  ⟨_, edited_cast (.gcMain [] "\n\n".toList "archInit func()) {\n\t".toList "\n\t".toList "\n}\n".toList
    ⟨nb _ _ (by decide +kernel), no_infix (by decide +kernel)⟩ ⟨nb _ _ (by decide +kernel), no_infix (by decide +kernel)⟩ (nb _ _ (by decide +kernel))
    (nb _ _ (by decide +kernel))) (by decide +kernel) rfl⟩

/-- Without `main`, main.go is an error. -/
example : instrumentFile 1 21 .main "package main\n".toList = ("package main\n".toList, false) :=
  C104_missing 1 21 (by decide) .main ⟨[], "package main\n".toList⟩ (unmarked_of (by decide +kernel)) trivial (.main (no_infix (by decide +kernel)))

end Verif.Instrument.GoCmd
