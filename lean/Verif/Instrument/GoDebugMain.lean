/-
C106: the files of the go command after `xgo setup`, with and without the edits for the debugger.
-/
import Verif.Instrument.GoDebugProps

namespace Verif.Instrument.GoDebug
open Verif.Text Verif.Instrument.PatchText Verif.Instrument.PatchText.Spec Verif.Instrument.GoHooks
open Verif.Instrument.GoHooks.Spec (Once ins line)
open Verif.Instrument.GoCmd
open Verif.Instrument.GoCmd.Spec (Edited)
open Verif.Instrument.GoDebug.Spec

/-- **C106.** The second of two edits of the same file takes out the first: the file is its original text with the second alone. -/
theorem C106_second (first second : Str → Option Str) (p g1 g2 : Patched) (hc : Unmarked p.original)
    (hu : Undoable Unmarked LabelOk p.parts p.rest) (o1 : g1.original = p.original) (u1 : Undoable Unmarked LabelOk g1.parts g1.rest)
    (h1 : first p.original = some g1.text) (c1 : g1.text ≠ p.original) (h2 : second p.original = some g2.text) (c2 : g2.text ≠ p.original) :
    (editFile p.text first).1 = g1.text ∧ editFile (editFile p.text first).1 second = (g2.text, true) := by
  have e1 : editFile p.text first = (g1.text, true) := by
    unfold editFile
    simp only [C25_clean p hc hu, h1]
    rw [if_neg c1]
  rw [e1]
  refine ⟨rfl, ?_⟩
  unfold editFile
  simp only [C25_clean g1 (by rw [o1]; exact hc) u1, o1, h2]
  rw [if_neg c2]

theorem debug_file {minor : Nat} {p g : Patched} (hc : Unmarked p.original) (hu : Undoable Unmarked LabelOk p.parts p.rest)
    (h : Debug minor p.original g) : editFile p.text (editGc minor) = (g.text, true) ∧ g.original = p.original ∧
      Undoable Unmarked LabelOk g.parts g.rest ∧ editFile g.text (editGc minor) = (g.text, true) := by
  have d := done_debug h hc
  obtain ⟨h1, h2⟩ := C56_idempotent p g hc hu d.undo d.original (editGc minor) d.edit (by rw [d.original]; exact d.changed)
  rw [h1] at h2
  exact ⟨h1, d.original, d.undo, h2⟩

/-- exec.go and main.go of a distribution, whatever edits an earlier version of xgo has left in them, and their edits. -/
structure Cmd (minor : Nat) (exec main gE gM : Patched) : Prop where
  version : 17 ≤ minor ∧ minor ≤ 26
  execPlain : Unmarked exec.original
  execUndo : Undoable Unmarked LabelOk exec.parts exec.rest
  mainPlain : Unmarked main.original
  mainUndo : Undoable Unmarked LabelOk main.parts main.rest
  execEdits : Edited minor .exec exec.original gE
  mainEdits : Edited minor .main main.original gM

/-- The first two edits. -/
theorem build_two {minor : Nat} {exec main gE gM : Patched} (h : Cmd minor exec main gE gM) (debug : Bool) (sh : Str) :
    buildInstrument 1 minor debug ⟨exec.text, main.text, sh⟩ =
      if debug then instrumentGc 1 minor ⟨gE.text, gM.text, sh⟩ else (⟨gE.text, gM.text, sh⟩, true) := by
  have e1 := (edited_file ⟨rfl, h.version⟩ h.execPlain h.execUndo h.execEdits).1
  have e2 := (edited_file ⟨rfl, h.version⟩ h.mainPlain h.mainUndo h.mainEdits).1
  unfold buildInstrument
  simp only [e1, e2]
  rfl

theorem cmd_again {minor : Nat} {exec main gE gM : Patched} (h : Cmd minor exec main gE gM) {gX : Patched} (hX : gX.original = exec.original)
    (uX : Undoable Unmarked LabelOk gX.parts gX.rest) : Cmd minor gX gM gE gM := by
  obtain ⟨_, _, o2, u2⟩ := edited_file ⟨rfl, h.version⟩ h.mainPlain h.mainUndo h.mainEdits
  exact ⟨h.version, by rw [hX]; exact h.execPlain, uX, by rw [o2]; exact h.mainPlain, u2, by rw [hX]; exact h.execEdits,
    by rw [o2]; exact h.mainEdits⟩

/-- **C106.** Without the debugger exec.go and main.go get their edits (C104), and shell.go is left as it is, even with the edits of an
    earlier setup for the debugger. -/
theorem C106_plain (minor : Nat) (exec main gE gM : Patched) (h : Cmd minor exec main gE gM) (shell : Str) :
    buildInstrument 1 minor false ⟨exec.text, main.text, shell⟩ = (⟨gE.text, gM.text, shell⟩, true) := by
  rw [build_two h]
  rfl

/-- **C106.** With the debugger, from Go 1.22 on, shell.go gets those of the debugger as well, and the others stay. Doing it again changes
    nothing. -/
theorem C106_shell (minor : Nat) (exec main shell gE gM gS : Patched) (h : Cmd minor exec main gE gM) (hm : 22 ≤ minor)
    (sc : Unmarked shell.original) (su : Undoable Unmarked LabelOk shell.parts shell.rest) (hs : Debug minor shell.original gS) :
    buildInstrument 1 minor true ⟨exec.text, main.text, shell.text⟩ = (⟨gE.text, gM.text, gS.text⟩, true) ∧
    buildInstrument 1 minor true ⟨gE.text, gM.text, gS.text⟩ = (⟨gE.text, gM.text, gS.text⟩, true) := by
  obtain ⟨e, _, _, e'⟩ := debug_file sc su hs
  have key : ∀ exec' main', Cmd minor exec' main' gE gM → ∀ x, editFile x (editGc minor) = (gS.text, true) →
      buildInstrument 1 minor true ⟨exec'.text, main'.text, x⟩ = (⟨gE.text, gM.text, gS.text⟩, true) := by
    intro exec' main' h' x hx
    rw [build_two h', if_pos rfl]
    unfold instrumentGc
    rw [if_neg (by decide), if_pos (by omega)]
    simp only [hx]
  obtain ⟨_, _, o1, u1⟩ := edited_file ⟨rfl, h.version⟩ h.execPlain h.execUndo h.execEdits
  exact ⟨key _ _ h _ e, key _ _ (cmd_again h o1 u1) _ e'⟩

/-- **C106, partial.** With the debugger, up to Go 1.21, the edits of the debugger are those of exec.go too, and they are the only ones that
    are left in it: the edits of C104 are taken out. Doing it again gives the same files. Missing: exec.go should have both. -/
theorem C106_exec_partial (minor : Nat) (exec main gE gM gD : Patched) (h : Cmd minor exec main gE gM) (hm : minor ≤ 21) (shell : Str)
    (hd : Debug minor exec.original gD) :
    buildInstrument 1 minor true ⟨exec.text, main.text, shell⟩ = (⟨gD.text, gM.text, shell⟩, true) ∧
    buildInstrument 1 minor true ⟨gD.text, gM.text, shell⟩ = (⟨gD.text, gM.text, shell⟩, true) ∧
    cleanPatch gD.text = exec.original := by
  obtain ⟨_, _, o1, u1⟩ := edited_file ⟨rfl, h.version⟩ h.execPlain h.execUndo h.execEdits
  have e := (debug_file (p := gE) (by rw [o1]; exact h.execPlain) u1 (by rw [o1]; exact hd)).1
  obtain ⟨_, o2, u2, _⟩ := debug_file h.execPlain h.execUndo hd
  have key : ∀ exec' main', Cmd minor exec' main' gE gM →
      buildInstrument 1 minor true ⟨exec'.text, main'.text, shell⟩ = (⟨gD.text, gM.text, shell⟩, true) := by
    intro exec' main' h'
    rw [build_two h', if_pos rfl]
    unfold instrumentGc
    rw [if_neg (by decide), if_neg (by omega)]
    simp only [e]
  exact ⟨key _ _ h, key _ _ (cmd_again h o2 u2), by rw [C25_clean gD (by rw [o2]; exact h.execPlain) u2, o2]⟩

theorem edits_free {minor : Nat} {s : Str} {g : Patched} (h : Debug minor s g) (w : String) (hw : '/' ∉ w.toList) (h1 : ¬ w.toList <:+: debugger.text)
    (h2 : ¬ w.toList <:+: attach.text) (hs : ¬ w.toList <:+: s) (ho : g.original = s) : ¬ w.toList <:+: g.text := by
  have : ∀ q ∈ g.parts, Slashed q.2.text ∧ ¬ w.toList <:+: q.2.text := by
    cases h
    intro q hq
    simp only [List.mem_cons, List.not_mem_nil, or_false] at hq
    rcases hq with rfl | rfl
    · exact ⟨slashed_ins _ _, h1⟩
    · exact ⟨slashed_ins _ _, h2⟩
  exact free_text hw g.parts g.rest this (by rw [← ho] at hs; exact hs)

/-- **C106.** So, up to Go 1.21, a go command for the debugger does not take into account what is trapped in a package, nor does it cover
    the files that xgo has rewritten: nothing of this is in exec.go, although it is in exec.go without the debugger. -/
theorem C106_lost (minor : Nat) (exec main gE gM gD : Patched) (h : Cmd minor exec main gE gM) (hm : minor ≤ 21) (shell : Str)
    (hd : Debug minor exec.original gD) (h1 : ¬ "getXgoPackageTrapSum(".toList <:+: exec.original)
    (h2 : ¬ "__xgo_overlay_source_file".toList <:+: exec.original) :
    (¬ "getXgoPackageTrapSum(".toList <:+: (buildInstrument 1 minor true ⟨exec.text, main.text, shell⟩).1.exec ∧
      ¬ "__xgo_overlay_source_file".toList <:+: (buildInstrument 1 minor true ⟨exec.text, main.text, shell⟩).1.exec) ∧
    "getXgoPackageTrapSum(".toList <:+: (buildInstrument 1 minor false ⟨exec.text, main.text, shell⟩).1.exec := by
  rw [(C106_exec_partial minor exec main gE gM gD h hm shell hd).1, C106_plain minor exec main gE gM h shell]
  have ho := (debug_file h.execPlain h.execUndo hd).2.1
  refine ⟨⟨edits_free hd _ (by decide) (no_infix (by decide +kernel)) (no_infix (by decide +kernel)) h1 ho,
    edits_free hd _ (by decide) (no_infix (by decide +kernel)) (no_infix (by decide +kernel)) h2 ho⟩, ?_⟩
  have hsum : ∃ q ∈ gE.parts, q.2 = GoCmd.Spec.sum := by
    have := h.execEdits
    generalize exec.original = o at this
    cases this <;> first
      | exact ⟨_, List.mem_cons_self, rfl⟩
      | exact ⟨_, List.mem_cons_of_mem _ List.mem_cons_self, rfl⟩
  obtain ⟨q, hq, e⟩ := hsum
  show _ <:+: text gE.parts gE.rest
  have hq' : ∀ (l : List (Str × Mark)) (r : Str), q ∈ l → q.2.text <:+: text l r := by
    intro l r hl
    induction l with
    | nil => cases hl
    | cons x l ih =>
      rcases List.mem_cons.1 hl with rfl | hl
      · exact ⟨q.1, text l r, rfl⟩
      · exact (ih hl).trans infix_right
  refine List.IsInfix.trans ?_ (hq' _ gE.rest hq)
  rw [e]
  exact Decidable.not_not.1 fun hn => by
    have : (cut "getXgoPackageTrapSum(".toList GoCmd.Spec.sum.text).isNone = false := by decide +kernel
    rw [cut_none.2 hn] at this
    exact absurd this (by decide)

/-- **C106.** If the function that runs the commands is not there, this is an error; exec.go and main.go have their edits by then. -/
theorem C106_missing (minor : Nat) (exec main shell gE gM : Patched) (h : Cmd minor exec main gE gM) (sc : Unmarked shell.original)
    (su : Undoable Unmarked LabelOk shell.parts shell.rest)
    (hl : (minor ≤ 21 ∧ ¬ "func (b *Builder) runOut(a *Action, dir string,".toList <:+: exec.original) ∨
      (22 ≤ minor ∧ ¬ "\nfunc (sh *Shell) runOut(dir string".toList <:+: shell.original)) :
    buildInstrument 1 minor true ⟨exec.text, main.text, shell.text⟩ = (⟨gE.text, gM.text, shell.text⟩, false) := by
  rw [build_two h, if_pos rfl]
  unfold instrumentGc
  rw [if_neg (by decide)]
  obtain ⟨_, _, o1, u1⟩ := edited_file ⟨rfl, h.version⟩ h.execPlain h.execUndo h.execEdits
  rcases hl with ⟨hm, hl⟩ | ⟨hm, hl⟩
  · rw [if_neg (by omega)]
    have e : editFile gE.text (editGc minor) = (gE.text, false) := by
      refine C56_error gE (by rw [o1]; exact h.execPlain) u1 _ ?_
      unfold editGc fnAnchor
      rw [o1, if_neg (by omega), upd_none (by decide) (by decide) hl]
      rfl
    simp only [e]
  · rw [if_pos (by omega)]
    have e : editFile shell.text (editGc minor) = (shell.text, false) := by
      refine C56_error shell sc su _ ?_
      unfold editGc fnAnchor
      rw [if_pos (by omega), upd_none (by decide) (by decide) hl]
      rfl
    simp only [e]

/-- **C106.** Other versions of Go are an error, and nothing is edited. -/
theorem C106_unsupported (major minor : Nat) (hv : major ≠ 1 ∨ minor < 17 ∨ 26 < minor) (debug : Bool) (t : Files) :
    buildInstrument major minor debug t = (t, false) := by
  unfold buildInstrument
  simp only [C104_unsupported major minor hv .exec (.inl rfl)]
  rfl

/-! ### Small files -/

/-- exec.go of Go 1.21, line by line. -/
def exec21Parts : Patched := ⟨[], ["package work\n\n", "func (b *Builder) buildActionID", "(a *Action) {\n\t", "fmt.Fprintf(h, \"compile\\n\")",
  "\n}\n\n", "func (b *Builder) build(", "a *Action) {\n\t", "if p.Internal.CoverMode != \"\" {", "\n\t\t", "if cfg.Experiment.CoverageRedesign {",
  "\n\t\t\t", "infiles = append(infiles, sourceFile)", "\n\t\t} else ", "if err := b.cover(", "a, coverFile, ", "sourceFile,", " mode); err != nil {\n\t\t}\n\t}\n}\n\n",
  "func (b *Builder) runOut(a *Action, dir string,", " args ...any) {\n\t", "cmdline :=", " str.StringList(args...)", "\n", "\tcmd := exec.Command(cmdline[0])\n\t",
  "start := time.Now()", "", "\n", "\terr := cmd.Run()\n}\n"].flatMap String.toList⟩

/-- main.go of Go 1.21. -/
def main21Parts : Patched := ⟨[], GoCmd.main21⟩

theorem exec21_debug : ∃ g, Debug 21 exec21Parts.original g :=
  ⟨_, by
    have h := Debug.mk (minor := 21) "func (b *Builder) runOut(a *Action, dir string," (["package work\n\n", "func (b *Builder) buildActionID", "(a *Action) {\n\t", "fmt.Fprintf(h, \"compile\\n\")",
  "\n}\n\n", "func (b *Builder) build(", "a *Action) {\n\t", "if p.Internal.CoverMode != \"\" {", "\n\t\t", "if cfg.Experiment.CoverageRedesign {",
  "\n\t\t\t", "infiles = append(infiles, sourceFile)", "\n\t\t} else ", "if err := b.cover(", "a, coverFile, ", "sourceFile,", " mode); err != nil {\n\t\t}\n\t}\n}\n\n"].flatMap String.toList)
      " args ...any) {\n\t".toList " str.StringList(args...)".toList "\tcmd := exec.Command(cmdline[0])\n\t".toList [] "\terr := cmd.Run()\n}\n".toList
      (.builder (by decide)) ⟨nb _ _ (by decide +kernel), no_infix (by decide +kernel)⟩ (nb _ _ (by decide +kernel)) (nb _ _ (by decide +kernel))
      (nb _ _ (by decide +kernel)) (nb _ _ (by decide +kernel))
    have e : exec21Parts.original = _ := (by decide +kernel : exec21Parts.original = (["package work\n\n", "func (b *Builder) buildActionID", "(a *Action) {\n\t", "fmt.Fprintf(h, \"compile\\n\")",
  "\n}\n\n", "func (b *Builder) build(", "a *Action) {\n\t", "if p.Internal.CoverMode != \"\" {", "\n\t\t", "if cfg.Experiment.CoverageRedesign {",
  "\n\t\t\t", "infiles = append(infiles, sourceFile)", "\n\t\t} else ", "if err := b.cover(", "a, coverFile, ", "sourceFile,", " mode); err != nil {\n\t\t}\n\t}\n}\n\n"].flatMap String.toList) ++
      "func (b *Builder) runOut(a *Action, dir string,".toList ++ " args ...any) {\n\t".toList ++ "cmdline :=".toList ++ " str.StringList(args...)".toList ++ "\n".toList ++
      "\tcmd := exec.Command(cmdline[0])\n\t".toList ++ "start := time.Now()".toList ++ [] ++ "\n".toList ++ "\terr := cmd.Run()\n}\n".toList)
    rw [e]
    exact h⟩

theorem exec21_edited : ∃ g, Edited 21 .exec exec21Parts.original g :=
  ⟨_, edited_cast (.exec20 "if p.Internal.CoverMode != \"\" {" "__xgo_overlay_source_file, _ := fsys.OverlayPath(sourceFile)" "package work\n\n".toList
    "(a *Action) {\n\t".toList "\n}\n\n".toList "a *Action) {\n\t".toList "\n\t\t".toList "\n\t\t\t".toList "\n\t\t} else ".toList
    "a, coverFile, ".toList ([" mode); err != nil {\n\t\t}\n\t}\n}\n\n",
  "func (b *Builder) runOut(a *Action, dir string,", " args ...any) {\n\t", "cmdline :=", " str.StringList(args...)", "\n", "\tcmd := exec.Command(cmdline[0])\n\t",
  "start := time.Now()", "", "\n", "\terr := cmd.Run()\n}\n"].flatMap String.toList) _ (by decide) (by decide) (.go20 (by decide) (by decide))
    (.go23 (by decide)) rfl ⟨nb _ _ (by decide +kernel), no_infix (by decide +kernel)⟩ (nb _ _ (by decide +kernel)) (nb _ _ (by decide +kernel))
    (no_infix (by decide +kernel)) (nb _ _ (by decide +kernel)) (nb _ _ (by decide +kernel)) (nb _ _ (by decide +kernel)) (nb _ _ (by decide +kernel))
    (nb _ _ (by decide +kernel))) (by decide +kernel) rfl⟩

theorem cmd21 : ∃ gE gM, Cmd 21 exec21Parts main21Parts gE gM := by
  obtain ⟨gE, hE⟩ := exec21_edited
  exact ⟨gE, _, by decide, unmarked_of (by decide +kernel), trivial, unmarked_of (by decide +kernel), trivial, hE, main21_edited⟩

/-- The hypotheses of `C106_exec_partial` and `C106_lost` are met: with the debugger nothing of the sum of the traps is left. -/
example : (buildInstrument 1 21 true ⟨exec21Parts.text, main21Parts.text, []⟩).2 = true ∧
    ¬ "getXgoPackageTrapSum(".toList <:+: (buildInstrument 1 21 true ⟨exec21Parts.text, main21Parts.text, []⟩).1.exec ∧
    "getXgoPackageTrapSum(".toList <:+: (buildInstrument 1 21 false ⟨exec21Parts.text, main21Parts.text, []⟩).1.exec := by
  obtain ⟨gE, gM, h⟩ := cmd21
  obtain ⟨gD, hd⟩ := exec21_debug
  have hl := C106_lost 21 exec21Parts main21Parts gE gM gD h (by decide) [] hd (no_infix (by decide +kernel)) (no_infix (by decide +kernel))
  exact ⟨by rw [(C106_exec_partial 21 exec21Parts main21Parts gE gM gD h (by decide) [] hd).1], hl.1.1, hl.2⟩

/-- shell.go of Go 1.22. -/
def shell22 : Str := "package work\n".toList ++ "\nfunc (sh *Shell) runOut(dir string".toList ++ ", args ...any) {\n\t".toList ++ "cmdline :=".toList ++ " str.StringList(args...)".toList ++
  "\n".toList ++ "\t".toList ++ "start := time.Now()".toList ++ [] ++ "\n".toList ++ "}\n".toList

theorem shell22_debug : ∃ g, Debug 22 shell22 g :=
  ⟨_, Debug.mk "\nfunc (sh *Shell) runOut(dir string" "package work\n".toList ", args ...any) {\n\t".toList " str.StringList(args...)".toList "\t".toList [] "}\n".toList
    (.shell (by decide)) ⟨nb _ _ (by decide +kernel), no_infix (by decide +kernel)⟩ (nb _ _ (by decide +kernel)) (nb _ _ (by decide +kernel))
    (nb _ _ (by decide +kernel)) (nb _ _ (by decide +kernel))⟩

theorem main22_edited : ∃ g, Edited 22 .main GoCmd.main21 g :=
  ⟨_, edited_cast (.main "package main\n".toList "\n\targs := flag.Args()\n\t".toList " \"help\" {\n\t}\n}\n".toList
    ⟨nb _ _ (by decide +kernel), no_infix (by decide +kernel)⟩ (nb _ _ (by decide +kernel))) (by decide +kernel) rfl⟩

theorem cmd22 : ∃ gM, Cmd 22 ⟨[], exec22⟩ main21Parts exec22Edits gM := by
  obtain ⟨gM, hM⟩ := main22_edited
  exact ⟨gM, by decide, unmarked_of (by decide +kernel), trivial, unmarked_of (by decide +kernel), trivial, by rw [plain']; exact exec22_edited, hM⟩

/-- The hypotheses of `C106_shell` are met. -/
example : ∃ gM gS : Patched, buildInstrument 1 22 true ⟨exec22, main21, shell22⟩ = (⟨exec22Edits.text, gM.text, gS.text⟩, true) := by
  obtain ⟨gM, h⟩ := cmd22
  obtain ⟨gS, hs⟩ := shell22_debug
  have := (C106_shell 22 ⟨[], exec22⟩ main21Parts ⟨[], shell22⟩ exec22Edits gM gS h (by decide) (unmarked_of (by decide +kernel)) trivial
    (by rw [plain']; exact hs)).1
  rw [plain, plain] at this
  exact ⟨gM, gS, this⟩

/-- Those of `C106_missing`. -/
example : ∃ gM : Patched, buildInstrument 1 22 true ⟨exec22, main21, "package work\n".toList⟩ = (⟨exec22Edits.text, gM.text, "package work\n".toList⟩, false) := by
  obtain ⟨gM, h⟩ := cmd22
  have := C106_missing 22 ⟨[], exec22⟩ main21Parts ⟨[], "package work\n".toList⟩ exec22Edits gM h (unmarked_of (by decide +kernel)) trivial
    (.inr ⟨by decide, no_infix (by decide +kernel)⟩)
  rw [plain, plain] at this
  exact ⟨gM, this⟩

end Verif.Instrument.GoDebug
