/-
C106: the edits for the debugger, and what they do to the other edits of the go command.
-/
import Verif.Instrument.GoDebug
import Verif.Instrument.GoDebugSpec
import Verif.Instrument.GoCmdProps

namespace Verif.Instrument.GoDebug
open Verif.Text Verif.Instrument.PatchText Verif.Instrument.PatchText.Spec Verif.Instrument.GoHooks
open Verif.Instrument.GoHooks.Spec (Once ins line)
open Verif.Instrument.GoCmd
open Verif.Instrument.GoCmd.Spec (Edited)
open Verif.Instrument.GoDebug.Spec

/-! ### Two insertions, for any anchors -/

theorem edit_two {k1 k2 k3 nl a b c d e f t t' : Str} {n n' : String} (N : Named n) (N' : Named n') (ht : t ≠ []) (ht' : t' ≠ []) (h1 : k1 ≠ [])
    (h2 : k2 ≠ []) (h3 : k3 ≠ []) (h4 : nl ≠ []) (b1 : NotBefore k1 a) (r1 : ¬ k1 <:+: b ++ k2 ++ c ++ nl ++ d ++ k3 ++ e ++ nl ++ f)
    (b2 : NotBefore k2 b) (b3 : NotBefore nl c) (b4 : NotBefore k3 (b ++ k2 ++ c ++ nl ++ d)) (b5 : NotBefore nl e)
    (s3 : '/' ∉ k3) (m3 : ¬ k3 <:+: (ins n t).text) (fr : ¬ tagOf n' <:+: (ins n t).text)
    (hu : Unmarked (a ++ k1 ++ b ++ k2 ++ c ++ nl ++ d ++ k3 ++ e ++ nl ++ f)) :
    (updateContent (a ++ k1 ++ b ++ k2 ++ c ++ nl ++ d ++ k3 ++ e ++ nl ++ f) (bm n) (em n) [k1, k2, nl] 2 .after t).bind
      (fun x => updateContent x (bm n') (em n') [k1, k3, nl] 2 .after t') =
      some (text [(a ++ k1 ++ b ++ k2 ++ c ++ nl, ins n t), (d ++ k3 ++ e ++ nl, ins n' t')] f) := by
  have hf := fun n => tag_free hu n
  have e1 := after_last (ins_ok N ht) (l := [(a, k1), (b, k2)]) (u := c) (a := nl) (rest := d ++ k3 ++ e ++ nl ++ f) rfl
    (by
      intro q hq
      simp only [List.mem_cons, List.not_mem_nil, or_false] at hq
      rcases hq with rfl | rfl
      · exact ⟨h1, b1⟩
      · exact ⟨h2, b2⟩) h4 b3
    (not_infix_sub r1 ⟨b ++ k2 ++ c ++ nl, [], by simp only [List.append_assoc, List.append_nil]⟩)
    (content := a ++ k1 ++ b ++ k2 ++ c ++ nl ++ d ++ k3 ++ e ++ nl ++ f) (by simp only [joined, List.append_assoc]) (hf n)
  have e1' : updateContent (a ++ k1 ++ b ++ k2 ++ c ++ nl ++ d ++ k3 ++ e ++ nl ++ f) (bm n) (em n) [k1, k2, nl] 2 .after t = some _ := e1
  rw [e1', Option.bind_some]
  have hb : NotBefore k3 (b ++ k2 ++ c ++ nl ++ (ins n t).text ++ d) := notBefore_ins s3 (slashed_ins n t) m3 b4
  have e2 := after_last (ins_ok N' ht') (l := [(a, k1), (b ++ k2 ++ c ++ nl ++ (ins n t).text ++ d, k3)]) (u := e) (a := nl) (rest := f) rfl
    (by
      intro q hq
      simp only [List.mem_cons, List.not_mem_nil, or_false] at hq
      rcases hq with rfl | rfl
      · exact ⟨h1, b1⟩
      · exact ⟨h3, hb⟩) h4 b5 (not_infix_sub r1 infix_right)
    (content := joined [(a, k1), (b, k2)] c ++ nl ++ (ins n t).text ++ (d ++ k3 ++ e ++ nl ++ f)) (by simp only [joined, List.append_assoc])
    (free_of (slash_tag N') [(a ++ k1 ++ b ++ k2 ++ c ++ nl, ins n t)] (d ++ k3 ++ e ++ nl ++ f)
      (by intro q hq; rw [List.mem_singleton.1 hq]; exact ⟨slashed_ins _ _, fr⟩) (hf n') (by simp only [Spec.text, joined, List.append_assoc])
      (by simp only [original, old_ins, List.append_nil, List.append_assoc]))
  have e2' : updateContent (joined [(a, k1), (b, k2)] c ++ nl ++ (ins n t).text ++ (d ++ k3 ++ e ++ nl ++ f)) (bm n') (em n') [k1, k3, nl] 2 .after t' =
    some _ := e2
  rw [e2']
  simp only [Spec.text, joined, List.append_assoc]

theorem debugger_eq : debugger = ins "intercept_compile" (unlines interceptCompile) := rfl
theorem attach_eq : attach = ins "pipeoutput" (unlines pipeoutput) := rfl

theorem runOut {minor : Nat} {fn : String} (h : RunOut minor fn) : fnAnchor minor = fn ∧ fn.toList ≠ [] := by
  unfold fnAnchor
  cases h with
  | builder h => rw [if_neg (by omega)]; exact ⟨rfl, by decide⟩
  | shell h => rw [if_pos (by omega)]; exact ⟨rfl, by decide⟩

theorem done_debug {minor : Nat} {s : Str} {g : Patched} (h : Debug minor s g) (hs : Unmarked s) : Done (editGc minor) s g := by
  cases h with
  | mk fn a b c d e f hr o b2 b3 b4 b5 =>
    refine ⟨?_, ?_, ?_, changed_of hs (.inl (begin_ins _ _))⟩
    · unfold editGc
      rw [(runOut hr).1]
      exact edit_two (n := "intercept_compile") (n' := "pipeoutput") (by unfold Named; decide) (by unfold Named; decide) (by decide +kernel)
        (by decide +kernel) (runOut hr).2 (by decide) (by decide) (by decide) o.1 o.2 b2 b3 b4 b5 (by decide) (no_infix (by decide +kernel))
        (no_infix (by decide +kernel)) hs
    · show original _ _ = _
      simp only [original, List.append_assoc]
      rfl
    · exact undoable_cons ⟨label_ok (by decide), unmarked_of (by decide +kernel), fun _ => ⟨no_infix (by decide +kernel),
        fun _ => no_infix (by decide +kernel)⟩⟩ (undoable_cons ⟨label_ok (by decide), unmarked_of (by decide +kernel), fun _ => ⟨no_infix (by decide +kernel),
        fun _ => no_infix (by decide +kernel)⟩⟩ trivial)

end Verif.Instrument.GoDebug
