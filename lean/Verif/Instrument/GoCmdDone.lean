/-
C104: each edit puts its text where `Edited` says.
-/
import Verif.Instrument.GoCmdExec

namespace Verif.Instrument.GoCmd
open Verif.Text Verif.Instrument.PatchText Verif.Instrument.PatchText.Spec Verif.Instrument.GoHooks
open Verif.Instrument.GoHooks.Spec (Once ins line)
open Verif.Instrument.GoCmd.Spec

/-! ### Two edits, for any anchors -/

theorem edit_cover {k1 k2 k3 a b c d t t' : Str} {n n' : String} (N : Named n) (N' : Named n') (ht : t ≠ []) (ht' : t' ≠ []) (h1 : k1 ≠ [])
    (h2 : k2 ≠ []) (h3 : k3 ≠ []) (b1 : NotBefore k1 a) (r1 : ¬ k1 <:+: b ++ k2 ++ c ++ k3 ++ d) (b2 : NotBefore k2 b) (b3 : NotBefore k3 c)
    (s2 : '/' ∉ k2) (m2 : ¬ k2 <:+: (ins n t).text) (f : ¬ tagOf n' <:+: (ins n t).text) (hu : Unmarked (a ++ k1 ++ b ++ k2 ++ c ++ k3 ++ d)) :
    (updateContent (a ++ k1 ++ b ++ k2 ++ c ++ k3 ++ d) (bm n) (em n) [k1, k2] 1 .before t).bind
      (fun x => updateContent x (bm n') (em n') [k1, k2, k3] 2 .before t') =
      some (Spec.text [(a ++ k1 ++ b, ins n t), (k2 ++ c, ins n' t')] (k3 ++ d)) := by
  have hf := fun n => tag_free hu n
  have e1 := before_last (ins_ok N ht) (l := [(a, k1)]) (u := b) (a := k2) (rest := c ++ k3 ++ d) rfl
    (by intro q hq; rw [List.mem_singleton.1 hq]; exact ⟨h1, b1⟩) h2 b2
    (not_infix_sub r1 ⟨b ++ k2, [], by simp only [List.append_assoc, List.append_nil]⟩)
    (content := a ++ k1 ++ b ++ k2 ++ c ++ k3 ++ d) (by simp only [joined, List.append_assoc]) (hf n)
  have e1' : updateContent (a ++ k1 ++ b ++ k2 ++ c ++ k3 ++ d) (bm n) (em n) [k1, k2] 1 .before t = some _ := e1
  rw [e1', Option.bind_some]
  have hb : NotBefore k2 (b ++ (ins n t).text) := by
    have := notBefore_ins (x := b) (y := []) s2 (slashed_ins n t) m2 (by simpa using b2)
    simpa using this
  have e2 := before_last (ins_ok N' ht') (l := [(a, k1), (b ++ (ins n t).text, k2)]) (u := c) (a := k3) (rest := d) rfl
    (by
      intro q hq
      simp only [List.mem_cons, List.not_mem_nil, or_false] at hq
      rcases hq with rfl | rfl
      · exact ⟨h1, b1⟩
      · exact ⟨h2, hb⟩) h3 b3 (not_infix_sub r1 infix_right)
    (content := joined [(a, k1)] b ++ (ins n t).text ++ (k2 ++ (c ++ k3 ++ d))) (by simp only [joined, List.append_assoc])
    (free_of (slash_tag N') [(a ++ k1 ++ b, ins n t)] (k2 ++ c ++ k3 ++ d)
      (by intro q hq; rw [List.mem_singleton.1 hq]; exact ⟨slashed_ins _ _, f⟩) (hf n') (by simp only [Spec.text, joined, List.append_assoc])
      (by simp only [original, old_ins, List.append_nil, List.append_assoc]))
  have e2' : updateContent (joined [(a, k1)] b ++ (ins n t).text ++ (k2 ++ (c ++ k3 ++ d))) (bm n') (em n') [k1, k2, k3] 2 .before t' = some _ := e2
  rw [e2']
  simp only [Spec.text, joined, List.append_assoc]

theorem edit_gc {k1 k2 k3 k4 a b c d e t t' : Str} {n n' : String} (N : Named n) (N' : Named n') (ht : t ≠ []) (ht' : t' ≠ []) (h1 : k1 ≠ [])
    (h2 : k2 ≠ []) (h3 : k3 ≠ []) (h4 : k4 ≠ []) (b1 : NotBefore k1 a) (r1 : ¬ k1 <:+: b ++ k2 ++ c ++ k3 ++ d ++ k4 ++ e)
    (b2 : NotBefore k2 (a ++ k1 ++ b)) (r2 : ¬ k2 <:+: c ++ k3 ++ d ++ k4 ++ e) (b3 : NotBefore k3 c) (b4 : NotBefore k4 d)
    (s2 : '/' ∉ k2) (m2 : ¬ k2 <:+: (ins n t).text) (f : ¬ tagOf n' <:+: (ins n t).text)
    (hu : Unmarked (a ++ k1 ++ b ++ k2 ++ c ++ k3 ++ d ++ k4 ++ e)) :
    (updateContent (a ++ k1 ++ b ++ k2 ++ c ++ k3 ++ d ++ k4 ++ e) (bm n) (em n) [k1] 0 .after t).bind
      (fun x => updateContent x (bm n') (em n') [k2, k3, k4] 2 .after t') =
      some (Spec.text [(a ++ k1, ins n t), (b ++ k2 ++ c ++ k3 ++ d ++ k4, ins n' t')] e) := by
  have hf := fun n => tag_free hu n
  have e1 := after_last (ins_ok N ht) (l := []) (u := a) (a := k1) (rest := b ++ k2 ++ c ++ k3 ++ d ++ k4 ++ e) rfl
    (by intro q hq; cases hq) h1 b1 r1
    (content := a ++ k1 ++ b ++ k2 ++ c ++ k3 ++ d ++ k4 ++ e) (by simp only [joined, List.append_assoc]) (hf n)
  have e1' : updateContent (a ++ k1 ++ b ++ k2 ++ c ++ k3 ++ d ++ k4 ++ e) (bm n) (em n) [k1] 0 .after t = some _ := e1
  rw [e1', Option.bind_some]
  have e2 := after_last (ins_ok N' ht') (l := [(a ++ k1 ++ (ins n t).text ++ b, k2), (c, k3)]) (u := d) (a := k4) (rest := e) rfl
    (by
      intro q hq
      simp only [List.mem_cons, List.not_mem_nil, or_false] at hq
      rcases hq with rfl | rfl
      · exact ⟨h2, notBefore_ins s2 (slashed_ins n t) m2 b2⟩
      · exact ⟨h3, b3⟩) h4 b4 (not_infix_sub r2 infix_right)
    (content := joined [] a ++ k1 ++ (ins n t).text ++ (b ++ k2 ++ c ++ k3 ++ d ++ k4 ++ e)) (by simp only [joined, List.append_assoc])
    (free_of (slash_tag N') [(a ++ k1, ins n t)] (b ++ k2 ++ c ++ k3 ++ d ++ k4 ++ e)
      (by intro q hq; rw [List.mem_singleton.1 hq]; exact ⟨slashed_ins _ _, f⟩) (hf n') (by simp only [Spec.text, joined, List.append_assoc])
      (by simp only [original, old_ins, List.append_nil, List.append_assoc]))
  have e2' : updateContent (joined [] a ++ k1 ++ (ins n t).text ++ (b ++ k2 ++ c ++ k3 ++ d ++ k4 ++ e)) (bm n') (em n') [k2, k3, k4] 2 .after t' = some _ := e2
  rw [e2']
  simp only [Spec.text, joined, List.append_assoc]

/-! ### What depends on the version -/

theorem coverLine_eq {minor : Nat} {l : String} (h : CoverLine minor l) : coverLine minor = l := by
  unfold coverLine
  cases h with
  | go17 h1 h2 => rw [if_neg (by omega), if_pos (by omega)]
  | go20 h1 h2 => rw [if_pos (by omega)]
  | go22 h1 => rw [if_neg (by omega), if_neg (by omega)]

theorem coverLine_ne {minor : Nat} {l : String} (h : CoverLine minor l) : l.toList ≠ [] := by
  cases h <;> decide

theorem actual_eq {minor : Nat} {t : String} (h : Actual minor t) : actualFile minor = t.toList ++ ";".toList := by
  unfold actualFile
  cases h with
  | go23 h1 => rw [if_pos (by omega)]; decide +kernel
  | go24 h1 => rw [if_neg (by omega)]; decide +kernel

theorem infiles_eq {minor : Nat} {t : String} (h : Actual minor t) :
    infilesText minor = t.toList ++ ";infiles = append(infiles, __xgo_overlay_source_file)".toList := by
  unfold infilesText
  rw [actual_eq h]
  cases h <;> decide +kernel

/-- What is needed of the file that replaces `sourceFile`. -/
structure Good (t : String) : Prop where
  ne : t.toList ++ ";".toList ≠ []
  ne' : t.toList ++ ";infiles = append(infiles, __xgo_overlay_source_file)".toList ≠ []
  declCall : ¬ "if err := b.cover(".toList <:+: (declare t).text
  declBuild : ¬ "func (b *Builder) build(".toList <:+: (declare t).text
  declSum : ¬ "func (b *Builder) buildActionID".toList <:+: (declare t).text
  inSum : ¬ "func (b *Builder) buildActionID".toList <:+: (infiles t).text
  tagArg : ¬ tagOf "fix_cover_overlay_var_replace" <:+: (declare t).text
  tagIn : ¬ tagOf "modify_infiles" <:+: (declare t).text
  tagSum : ¬ tagOf "add_xgo_trap_sum" <:+: (declare t).text
  tagSum' : ¬ tagOf "add_xgo_trap_sum" <:+: (infiles t).text
  un : Unmarked (t.toList ++ ";".toList)
  un' : Unmarked (t.toList ++ ";infiles = append(infiles, __xgo_overlay_source_file)".toList)
  old : ¬ "/*old:".toList <:+: t.toList ++ ";".toList
  lines : line (declare t).text = line (declare t).old
  lines' : line (infiles t).text = line (infiles t).old

theorem good23 : Good "__xgo_overlay_source_file, _ := fsys.OverlayPath(sourceFile)" where
  ne := by decide +kernel
  ne' := by decide +kernel
  declCall := no_infix (by decide +kernel)
  declBuild := no_infix (by decide +kernel)
  declSum := no_infix (by decide +kernel)
  inSum := no_infix (by decide +kernel)
  tagArg := no_infix (by decide +kernel)
  tagIn := no_infix (by decide +kernel)
  tagSum := no_infix (by decide +kernel)
  tagSum' := no_infix (by decide +kernel)
  un := unmarked_of (by decide +kernel)
  un' := unmarked_of (by decide +kernel)
  old := no_infix (by decide +kernel)
  lines := by decide +kernel
  lines' := by decide +kernel

theorem good24 : Good "__xgo_overlay_source_file := sourceFile; if _actual := fsys.Actual(sourceFile); _actual != \"\" { __xgo_overlay_source_file = _actual; }" where
  ne := by decide +kernel
  ne' := by decide +kernel
  declCall := no_infix (by decide +kernel)
  declBuild := no_infix (by decide +kernel)
  declSum := no_infix (by decide +kernel)
  inSum := no_infix (by decide +kernel)
  tagArg := no_infix (by decide +kernel)
  tagIn := no_infix (by decide +kernel)
  tagSum := no_infix (by decide +kernel)
  tagSum' := no_infix (by decide +kernel)
  un := unmarked_of (by decide +kernel)
  un' := unmarked_of (by decide +kernel)
  old := no_infix (by decide +kernel)
  lines := by decide +kernel
  lines' := by decide +kernel

theorem good {minor : Nat} {t : String} (h : Actual minor t) : Good t := by
  cases h
  · exact good23
  · exact good24

/-! ### exec.go -/

theorem undo_sum : LabelOk sum.label ∧ Unmarked sum.new ∧ ∀ r, sum.Undoable r :=
  ⟨label_ok (by decide), unmarked_of (by decide +kernel), fun _ => ⟨no_infix (by decide +kernel), fun _ => no_infix (by decide +kernel)⟩⟩

theorem undo_argument : LabelOk argument.label ∧ Unmarked argument.new ∧ ∀ r, argument.Undoable r :=
  ⟨label_ok (by decide), unmarked_of (by decide +kernel), fun _ => ⟨no_infix (by decide +kernel), fun h => absurd h (by decide)⟩⟩

theorem undo_declare {t : String} (g : Good t) : LabelOk (declare t).label ∧ Unmarked (declare t).new ∧ ∀ r, (declare t).Undoable r :=
  ⟨label_ok (by decide), g.un, fun _ => ⟨no_infix (by decide +kernel), fun _ => g.old⟩⟩

theorem undo_infiles {t : String} (g : Good t) : LabelOk (infiles t).label ∧ Unmarked (infiles t).new ∧ ∀ r, (infiles t).Undoable r :=
  ⟨label_ok (by decide), g.un', fun _ => ⟨no_infix (by decide +kernel), fun h => absurd h (by decide)⟩⟩

theorem undoable_cons {p : Str} {m : Mark} {l : List (Str × Mark)} {r : Str} (h : LabelOk m.label ∧ Unmarked m.new ∧ ∀ r, m.Undoable r)
    (hl : Undoable Unmarked LabelOk l r) : Undoable Unmarked LabelOk ((p, m) :: l) r := ⟨h.1, h.2.1, h.2.2 _, hl⟩

/-- The edits of exec.go for the versions up to 1.24, with their texts. -/
theorem edits_low {minor : Nat} {l t : String} (hm : minor ≤ 24) (hl : CoverLine minor l) (ht : Actual minor t) (s : Str) :
    editCall minor s = (updateContent s (bm "fix_cover_overlay_var_declare") (em "fix_cover_overlay_var_declare")
        ["func (b *Builder) build(".toList, l.toList, "if err := b.cover(".toList] 2 .before (t.toList ++ ";".toList)).bind
      (fun x => updateContent x (bm "fix_cover_overlay_var_replace") (em "fix_cover_overlay_var_replace")
        ["func (b *Builder) build(".toList, l.toList, "if err := b.cover(".toList, "sourceFile,".toList] 3 .replace
        "__xgo_overlay_source_file,".toList) := by
  unfold editCall coverCall
  rw [if_pos (by omega), if_neg (by omega), coverLine_eq hl, actual_eq ht]
  rfl

theorem sum_eq : editSum = fun x => updateContent x (bm "add_xgo_trap_sum") (em "add_xgo_trap_sum")
    ["func (b *Builder) buildActionID".toList, "fmt.Fprintf(h, \"compile\\n\")".toList] 1 .after
    ";if xgoSum := getXgoPackageTrapSum(p.ImportPath); xgoSum!=\"\" { fmt.Fprintf(h, \"xgo trap sum %s\\n\", xgoSum);}".toList := rfl

theorem infiles_low {minor : Nat} {l t : String} (h1 : 20 ≤ minor) (hm : minor ≤ 24) (hl : CoverLine minor l) (ht : Actual minor t) :
    editInfiles minor = fun s => updateContent s (bm "modify_infiles") (em "modify_infiles") ["func (b *Builder) build(".toList, l.toList,
      "if cfg.Experiment.CoverageRedesign {".toList, "infiles = append(infiles, sourceFile)".toList] 3 .replace
      (t.toList ++ ";infiles = append(infiles, __xgo_overlay_source_file)".toList) := by
  funext s
  unfold editInfiles
  rw [if_pos (by omega), coverLine_eq hl, infiles_eq ht]
  rfl

theorem infiles_25 {minor : Nat} {l t : String} (h1 : minor = 25) (hl : CoverLine minor l) (ht : Actual minor t) :
    editInfiles minor = fun s => updateContent s (bm "modify_infiles") (em "modify_infiles") ["func (b *Builder) build(".toList, l.toList,
      "infiles = append(infiles, sourceFile)".toList] 2 .replace
      (t.toList ++ ";infiles = append(infiles, __xgo_overlay_source_file)".toList) := by
  funext s
  unfold editInfiles
  rw [if_neg (by omega), if_pos (by omega), coverLine_eq hl, infiles_eq ht]
  rfl

theorem infiles_26 {minor : Nat} {t : String} (h1 : 26 ≤ minor) (ht : Actual minor t) :
    editInfiles minor = fun s => updateContent s (bm "modify_infiles") (em "modify_infiles") ["func (b *Builder) runCover(".toList,
      "infiles = append(infiles, sourceFile)".toList] 1 .replace
      (t.toList ++ ";infiles = append(infiles, __xgo_overlay_source_file)".toList) := by
  funext s
  unfold editInfiles
  rw [if_neg (by omega), if_neg (by omega), if_pos (by omega), infiles_eq ht]
  rfl

theorem call_high {minor : Nat} (h : 25 ≤ minor) (s : Str) : editCall minor s = some s := by
  unfold editCall
  rw [if_neg (by omega)]

theorem infiles_none {minor : Nat} (h : minor ≤ 19) : editInfiles minor = some := by
  funext s
  unfold editInfiles
  rw [if_neg (by omega), if_neg (by omega), if_neg (by omega)]

theorem ne1 : "func (b *Builder) build(".toList ≠ [] := by decide
theorem ne2 : "if err := b.cover(".toList ≠ [] := by decide
theorem ne3 : "sourceFile,".toList ≠ [] := by decide
theorem ne4 : "func (b *Builder) buildActionID".toList ≠ [] := by decide
theorem ne5 : "fmt.Fprintf(h, \"compile\\n\")".toList ≠ [] := by decide
theorem ne6 : "infiles = append(infiles, sourceFile)".toList ≠ [] := by decide
theorem ne7 : "if cfg.Experiment.CoverageRedesign {".toList ≠ [] := by decide
theorem ne8 : "func (b *Builder) runCover(".toList ≠ [] := by decide
theorem ns1 : '/' ∉ "func (b *Builder) build(".toList := by decide
theorem ns2 : '/' ∉ "if err := b.cover(".toList := by decide
theorem ns4 : '/' ∉ "func (b *Builder) buildActionID".toList := by decide
theorem nm1 : Named "fix_cover_overlay_var_declare" := by unfold Named; decide
theorem nm2 : Named "fix_cover_overlay_var_replace" := by unfold Named; decide
theorem nm3 : Named "modify_infiles" := by unfold Named; decide
theorem nm4 : Named "add_xgo_trap_sum" := by unfold Named; decide
theorem tx2 : "__xgo_overlay_source_file,".toList ≠ [] := by decide
theorem tx4 : ";if xgoSum := getXgoPackageTrapSum(p.ImportPath); xgoSum!=\"\" { fmt.Fprintf(h, \"xgo trap sum %s\\n\", xgoSum);}".toList ≠ [] := by decide
theorem arg1 : ¬ "func (b *Builder) build(".toList <:+: argument.text := no_infix (by decide +kernel)
theorem arg2 : ¬ "func (b *Builder) buildActionID".toList <:+: argument.text := no_infix (by decide +kernel)
theorem arg3 : ¬ tagOf "modify_infiles" <:+: argument.text := no_infix (by decide +kernel)
theorem arg4 : ¬ tagOf "add_xgo_trap_sum" <:+: argument.text := no_infix (by decide +kernel)

/-- Every edit of a file gives the file of `Edited`. -/
theorem done {minor : Nat} {f : File} {s : Str} {g : Patched} (h : Edited minor f s g) (hs : Unmarked s) : Done (editOf minor f) s g := by
  cases h with
  | exec17 l t a b c d e h i Z hm hl ht hZ o1 b2 bB rB bL bC bS =>
    subst hZ
    have G := good ht
    refine ⟨?_, ?_, ?_, changed_of hs (.inl (begin_ins _ _))⟩
    · show editExec minor _ = _
      unfold editExec
      rw [edits_low (by omega) hl ht, infiles_none hm, sum_eq, Option.bind_fun_some]
      exact comp17 nm1 nm2 nm4 G.ne tx2 tx4 ne1 (coverLine_ne hl) ne2 ne3 ne4 ne5 o1.1 o1.2 b2 bB rB bL bC bS ns2 ns4 G.declCall G.declSum arg2
        G.tagArg G.tagSum arg4 hs
    · show original _ _ = _
      simp only [original, List.append_assoc]
      rfl
    · exact undoable_cons undo_sum (undoable_cons (undo_declare G) (undoable_cons undo_argument trivial))
  | exec20 l t a b c d e f g h i Z hm hm' hl ht hZ o1 b2 bB rB bL bR bI bC bS =>
    subst hZ
    have G := good ht
    refine ⟨?_, ?_, ?_, changed_of hs (.inl (begin_ins _ _))⟩
    · show editExec minor _ = _
      unfold editExec
      rw [edits_low (by omega) hl ht, infiles_low hm hm' hl ht, sum_eq]
      exact comp20 nm1 nm2 nm3 nm4 G.ne tx2 G.ne' tx4 ne1 (coverLine_ne hl) ne7 ne6 ne2 ne3 ne4 ne5 o1.1 o1.2 b2 bB rB bL bR bI bC bS ns2 ns1 ns4
        G.declCall G.declBuild arg1 G.declSum arg2 G.inSum G.tagArg G.tagIn arg3 G.tagSum arg4 G.tagSum' hs
    · show original _ _ = _
      simp only [original, List.append_assoc]
      rfl
    · exact undoable_cons undo_sum (undoable_cons (undo_infiles G) (undoable_cons (undo_declare G) (undoable_cons undo_argument trivial)))
  | exec25 l t a b c d e i Z hm hl ht hZ o1 b2 bB rB bL bI =>
    subst hZ
    have G := good ht
    refine ⟨?_, ?_, ?_, changed_of hs (.inl (begin_ins _ _))⟩
    · show editExec minor _ = _
      unfold editExec
      rw [call_high (by omega), Option.bind_some, infiles_25 hm hl ht, sum_eq]
      exact comp25 nm4 G.ne' tx4 ne1 (coverLine_ne hl) ne6 ne4 ne5 o1.1 o1.2 b2 bB rB bL bI ns4 G.inSum G.tagSum' hs
    · show original _ _ = _
      simp only [original, List.append_assoc]
      rfl
    · exact undoable_cons undo_sum (undoable_cons (undo_infiles G) trivial)
  | exec26 t a b c d i Z hm ht hZ o1 b2 bB rB bI =>
    subst hZ
    have G := good ht
    refine ⟨?_, ?_, ?_, changed_of hs (.inl (begin_ins _ _))⟩
    · show editExec minor _ = _
      unfold editExec
      rw [call_high (by omega), Option.bind_some, infiles_26 hm ht, sum_eq]
      exact comp26 nm4 G.ne' tx4 ne8 ne6 ne4 ne5 o1.1 o1.2 b2 bB rB bI ns4 G.inSum G.tagSum' hs
    · show original _ _ = _
      simp only [original, List.append_assoc]
      rfl
    · exact undoable_cons undo_sum (undoable_cons (undo_infiles G) trivial)
  | exec26' t a b c d i hm ht oB bI o1 b2 =>
    have G := good ht
    refine ⟨?_, ?_, ?_, ?_⟩
    · show editExec minor _ = _
      unfold editExec
      rw [call_high (by omega), Option.bind_some, infiles_26 hm ht, sum_eq]
      exact comp26' nm4 G.ne' tx4 ne8 ne6 ne4 ne5 oB.1 oB.2 bI o1.1 o1.2 b2 ns4 G.inSum G.tagSum' hs
    · show original _ _ = _
      simp only [original, List.append_assoc]
      rfl
    · exact undoable_cons (undo_infiles G) (undoable_cons undo_sum trivial)
    · refine changed_of hs (.inl ?_)
      unfold infiles
      rw [region_text' _ _ _ ne6]
      have : "*<begin".toList <:+: bm "modify_infiles" := ⟨"/".toList, " modify_infiles>*/".toList, by decide +kernel⟩
      exact this.trans ((((infix_left.trans infix_left).trans infix_left).trans infix_left).trans infix_left)
  | main a b c o1 b2 =>
    refine ⟨edit_runtime2 (ins_ok (label := "call_xgo_precheck") (by decide) (by decide)) (by decide) (by decide) o1.1 o1.2 b2 (tag_free hs _), ?_, ?_,
      changed_of hs (.inl (begin_ins _ _))⟩
    · show original _ _ = _
      simp only [original, List.append_assoc]
      rfl
    · exact undoable_cons ⟨label_ok (by decide), unmarked_of (by decide +kernel), fun _ => ⟨no_infix (by decide +kernel),
        fun _ => no_infix (by decide +kernel)⟩⟩ trivial
  | cover k a b c d hk o1 b2 b3 =>
    have hk' : coverFn minor = k ∧ k.toList ≠ [] := by
      unfold coverFn
      rcases hk with ⟨h, h', rfl⟩ | ⟨h, rfl⟩
      · rw [if_pos (by omega)]; exact ⟨rfl, by decide⟩
      · rw [if_neg (by omega)]; exact ⟨rfl, by decide⟩
    refine ⟨?_, ?_, ?_, changed_of hs (.inl (begin_ins _ _))⟩
    · show editCover minor _ = _
      unfold editCover
      rw [hk'.1]
      exact edit_cover (n := "get_xgo_edits") (n' := "apply_xgo_edits") (by unfold Named; decide) (by unfold Named; decide) (by decide) (by decide)
        hk'.2 (by decide) (by decide) o1.1 o1.2 b2 b3 (by decide) (no_infix (by decide +kernel)) (no_infix (by decide +kernel)) hs
    · show original _ _ = _
      simp only [original, List.append_assoc]
      rfl
    · exact undoable_cons ⟨label_ok (by decide), unmarked_of (by decide +kernel), fun _ => ⟨no_infix (by decide +kernel),
        fun _ => no_infix (by decide +kernel)⟩⟩ (undoable_cons ⟨label_ok (by decide), unmarked_of (by decide +kernel), fun _ => ⟨no_infix (by decide +kernel),
        fun _ => no_infix (by decide +kernel)⟩⟩ trivial)
  | gcMain a b c d e o1 o2 b3 b4 =>
    refine ⟨?_, ?_, ?_, changed_of hs (.inl (begin_ins _ _))⟩
    · show editGcMain _ = _
      unfold editGcMain
      exact edit_gc (n := "import_xgo_patch") (n' := "call_xgo_patch") (by unfold Named; decide) (by unfold Named; decide) (by decide) (by decide)
        (by decide) (by decide) (by decide) (by decide) o1.1 o1.2 o2.1 o2.2 b3 b4 (by decide) (no_infix (by decide +kernel)) (no_infix (by decide +kernel)) hs
    · show original _ _ = _
      simp only [original, List.append_assoc]
      rfl
    · exact undoable_cons ⟨label_ok (by decide), unmarked_of (by decide +kernel), fun _ => ⟨no_infix (by decide +kernel),
        fun _ => no_infix (by decide +kernel)⟩⟩ (undoable_cons ⟨label_ok (by decide), unmarked_of (by decide +kernel), fun _ => ⟨no_infix (by decide +kernel),
        fun _ => no_infix (by decide +kernel)⟩⟩ trivial)

end Verif.Instrument.GoCmd
