/-
C105: the compiler's noder.go and its list of runtime functions are edited at their places, once, and the edits can be taken out.
-/
import Verif.Instrument.GoCompProps

namespace Verif.Instrument.GoComp
open Verif.Text Verif.Instrument.PatchText Verif.Instrument.PatchText.Spec Verif.Instrument.GoHooks
open Verif.Instrument.GoHooks.Spec (Once ins)
open Verif.Instrument.GoCmd
open Verif.Instrument.GoComp.Spec

theorem edited {edit : Str → Option Str} {p g : Patched} (hc : Unmarked p.original) (hu : Undoable Unmarked LabelOk p.parts p.rest)
    (d : Done edit p.original g) :
    editFile p.text edit = (g.text, true) ∧ editFile g.text edit = (g.text, true) ∧ cleanPatch g.text = p.original := by
  obtain ⟨h1, h2⟩ := C56_idempotent p g hc hu d.undo d.original edit d.edit (by rw [d.original]; exact d.changed)
  rw [h1] at h2
  exact ⟨h1, h2, by rw [C25_clean g (by rw [d.original]; exact hc) d.undo, d.original]⟩

/-- **C105.** noder.go, whatever edits an earlier version of xgo has left in it, becomes its original text with the edits of this version at
    their places. Doing it again changes nothing; the edits can be taken out. -/
theorem C105_noder (minor : Nat) (p g : Patched) (hc : Unmarked p.original) (hu : Undoable Unmarked LabelOk p.parts p.rest)
    (h : Noder minor p.original g) :
    patchNoder 1 minor p.text = (g.text, true) ∧ patchNoder 1 minor (patchNoder 1 minor p.text).1 = (g.text, true) ∧
    cleanPatch (patchNoder 1 minor p.text).1 = p.original := by
  obtain ⟨files, hf, d⟩ := done_noder h hc
  obtain ⟨h1, h2, h3⟩ := edited hc hu d
  have e : ∀ x, patchNoder 1 minor x = editFile x (editNoder 1 minor files) := by
    intro x
    unfold patchNoder
    rw [hf]
  rw [e, h1, e]
  exact ⟨rfl, h2, h3⟩

/-- **C105.** The same for the list of the runtime functions that compiled code can call: those of xgo are put after the last of Go's. -/
theorem C105_builtin (p g : Patched) (hc : Unmarked p.original) (hu : Undoable Unmarked LabelOk p.parts p.rest) (h : Builtin p.original g) :
    prepareRuntimeDefs p.text = (g.text, true) ∧ prepareRuntimeDefs (prepareRuntimeDefs p.text).1 = (g.text, true) ∧
    cleanPatch (prepareRuntimeDefs p.text).1 = p.original := by
  obtain ⟨h1, h2, h3⟩ := edited hc hu (done_builtin h hc)
  unfold prepareRuntimeDefs
  rw [h1]
  exact ⟨rfl, h2, h3⟩

/-- **C105.** A file without the place of its first edit is an error, and is left as it was. -/
theorem C105_missing (minor : Nat) (p : Patched) (hc : Unmarked p.original) (hu : Undoable Unmarked LabelOk p.parts p.rest) :
    (¬ "package ".toList <:+: p.original → patchNoder 1 minor p.text = (p.text, false)) ∧
    (¬ "var x86HasFMA bool".toList <:+: p.original → prepareRuntimeDefs p.text = (p.text, false)) := by
  constructor
  · intro h
    unfold patchNoder
    cases noderFiles 1 minor with
    | none => rfl
    | some files =>
      refine C56_error p hc hu _ ?_
      unfold editNoder addImport addContentAfterName splitPackageName
      rw [cut_none.2 h]
      rfl
  · intro h
    refine C56_error p hc hu _ ?_
    unfold editBuiltin
    exact upd_none (by decide) (by decide) h

/-- **C105.** noder.go of a version that xgo does not know is left alone, and this is an error. -/
theorem C105_unsupported (major minor : Nat) (hv : major ≠ 1 ∨ minor < 16 ∨ 27 < minor) (text : Str) :
    patchNoder major minor text = (text, false) := by
  have : noderFiles major minor = none := by
    unfold noderFiles
    by_cases h : major = 1
    · rw [if_pos h, if_neg (by omega), if_neg (by omega), if_neg (by omega)]
    · rw [if_neg h]
  unfold patchNoder
  rw [this]

/-- **C105.** The methods that syntax nodes have since Go 1.22 are written for the versions before, and `Inspect`, which is there since 1.18,
    for 1.17. -/
theorem C105_nodes (minor : Nat) (hv : 17 ≤ minor) (gen inspect : Str) :
    (minor = 17 → syntaxNodes 1 minor gen inspect = some ("package syntax\n".toList ++ gen ++ "\n".toList ++ inspect)) ∧
    (18 ≤ minor → minor ≤ 21 → syntaxNodes 1 minor gen inspect = some ("package syntax\n".toList ++ gen)) ∧
    (22 ≤ minor → syntaxNodes 1 minor gen inspect = none) := by
  refine ⟨fun h => ?_, fun h1 h2 => ?_, fun h => ?_⟩
  · subst h
    unfold syntaxNodes
    rw [if_neg (by omega), if_pos rfl, if_pos (by omega), if_pos (by omega)]
    show some ("package syntax\n".toList ++ (gen ++ "\n".toList ++ inspect)) = _
    simp only [List.append_assoc]
  · unfold syntaxNodes
    rw [if_neg (by omega), if_pos rfl, if_pos (by omega), if_neg (by omega)]
    rfl
  · unfold syntaxNodes
    rw [if_pos (by omega)]

/-! ### Small files -/

/-- noder.go, in pieces. -/
def noderParts : List Str :=
  ["// Copyright\n", "noder", "\n\nimport \"os\"\n\n", "(filenames []string) {\n\t", "\n\t}\n\t", "", "\n}\n\n", "\n\treturn b.Filename()\n}\n"].map String.toList
/-- A piece of it. -/
def np (i : Nat) : Str := noderParts.getD i []

/-- The text after the name of the package. -/
def noderRest : Str := np 2 ++ "func LoadPackage".toList ++ np 3 ++ "for _, p := range noders {".toList ++ np 4 ++
  "base.Timer.AddEvent(int64(lines), \"lines\")".toList ++ np 5 ++ "\n".toList ++ np 6 ++ "func trimFilename(b *syntax.PosBase) string {".toList ++ np 7
/-- noder.go of Go 1.20. -/
def noder20 : Str := np 0 ++ "package ".toList ++ np 1 ++ noderRest

theorem nb' (w s : Str) (h : (cut w (s ++ w).dropLast).isNone = true) : NotBefore w s := by
  unfold NotBefore
  exact no_infix h

theorem noder20_edited : ∃ g, Noder 20 noder20 g :=
  ⟨_, .mk noderFiles20 "expose_trim_filename" "func trimFilename(b *syntax.PosBase) string {" "func init(){ xgo_syntax.TrimFilename = trimFilename;};"
    (np 0) (np 1) (np 2) (np 3) (np 4) (np 5) (np 6) (np 7) noderRest (.go20 rfl) (.go18 (by decide)) rfl (nb' _ _ (by decide +kernel))
    ⟨by decide, by decide, by
      intro c h
      have : c = '\n' := by
        have e : noderRest.head? = some '\n' := by decide +kernel
        rw [e] at h
        exact (Option.some.inj h).symm
      subst this
      decide⟩
    ⟨nb' _ _ (by decide +kernel), no_infix (by decide +kernel)⟩ (nb' _ _ (by decide +kernel)) (nb' _ _ (by decide +kernel)) (by decide +kernel)
    ⟨nb' _ _ (by decide +kernel), no_infix (by decide +kernel)⟩⟩

/-- It is edited. -/
example : (patchNoder 1 20 noder20).2 = true ∧ cleanPatch (patchNoder 1 20 noder20).1 = noder20 := by
  obtain ⟨g, hg⟩ := noder20_edited
  obtain ⟨h1, _, h3⟩ := C105_noder 20 ⟨[], noder20⟩ g (by rw [plain']; exact unmarked_of (by decide +kernel)) trivial (by rw [plain']; exact hg)
  rw [plain] at h1 h3
  exact ⟨by rw [h1], h3⟩

/-- And so is a list of runtime functions. -/
example : ∃ g, Builtin "package runtime\n\nvar x86HasFMA bool\nvar armHasVFPv4 bool\nvar arm64HasATOMICS bool\n".toList g := by
  have h := Builtin.mk "package runtime\n\n".toList "\n".toList "\n".toList "\n".toList ⟨nb' _ _ (by decide +kernel), no_infix (by decide +kernel)⟩
    (nb' _ _ (by decide +kernel)) (nb' _ _ (by decide +kernel))
  have e : "package runtime\n\n".toList ++ "var x86HasFMA bool".toList ++ "\n".toList ++ "var armHasVFPv4 bool".toList ++ "\n".toList ++
      "var arm64HasATOMICS bool".toList ++ "\n".toList =
    "package runtime\n\nvar x86HasFMA bool\nvar armHasVFPv4 bool\nvar arm64HasATOMICS bool\n".toList := by decide +kernel
  rw [e] at h
  exact ⟨_, h⟩

end Verif.Instrument.GoComp
