/-
C24: applying a patch twice is applying it once; examples and counterexamples for C24 and C57.
-/
import Verif.Instrument.PatchApplyProps

namespace Verif.Instrument.PatchApply
open Verif.Text Spec
open Verif.Instrument.PatchText Verif.Instrument.PatchText.Spec

/-! ### C24: one block -/

theorem applyBlocks_one (parse : Str → Option File) (s : Str) (b : Block) (hn : b.name ≠ []) :
    applyBlocks parse s [b] = applyPatch parse (clearPatch s b.name) b := by
  rw [applyBlocks, if_neg hn]
  cases applyPatch parse (clearPatch s b.name) b <;> rfl

/-- **C24 (part).** One named block: if the result of the first application is the file, cleared of the block's earlier
    edits, with undoable edits side by side, then the second application gives the same text, whatever the Go parser
    does. -/
theorem C24_block_partial (parse : Str → Option File) (source r : Str) (b : Block) (hn : b.name ≠ []) (hl : LabelOk b.name)
    (h : applyBlocks parse source [b] = some r) (hu : UnmarkedOf b.name (clearPatch source b.name))
    (f : Patched) (hf : f.text = r) (ho : f.original = clearPatch source b.name)
    (hd : Undoable (UnmarkedOf b.name) (· = b.name) f.parts f.rest) :
    applyBlocks parse r [b] = some r := by
  rw [applyBlocks_one _ _ _ hn] at h ⊢
  have := C25_clear f b.name hl (by rw [ho]; exact hu) hd
  rw [← hf, this, ho, h, hf]

/-- Edits that can be undone. -/
def UndoableEdit (name : Str) (e : Edit) : Prop :=
  UnmarkedOf name e.new ∧ ¬ "*/".toList <:+: e.old ∧ (e.old = [] → ¬ "/*old:".toList <:+: e.new)

theorem undoable_marked {name s : Str} : ∀ (es : List Edit) (c : Nat) (r : Str), (∀ e ∈ es, UndoableEdit name e) →
    Undoable (UnmarkedOf name) (· = name) (marked name s c es) r := by
  intro es
  induction es with
  | nil => intro _ _ _; trivial
  | cons e es ih =>
    intro c r h
    have h1 := h e (by simp)
    exact ⟨rfl, h1.1, ⟨h1.2.1, h1.2.2⟩, ih _ _ fun e he => h e (List.mem_cons_of_mem _ he)⟩

/-- **C24.** For blocks whose edits are made in the order of the text (C57): the file may have been patched with any
    version of the block before. -/
theorem C24_edits_partial (parse : Str → Option File) (source s name : Str) (hn : name ≠ []) (hl : LabelOk name)
    (hs : clearPatch source name = s) (hu : UnmarkedOf name s) (file : File) (hf : parse s = some file) (hw : WellFormed file)
    (stops : List Stop) (es : List Edit) (hv : Visits s file ⟨0, 0, false⟩ stops es) (ho : InOrder s 0 es)
    (he : ∀ e ∈ es, UndoableEdit name e) :
    ∃ r, applyBlocks parse source [⟨name, commands stops⟩] = some r ∧ applyBlocks parse r [⟨name, commands stops⟩] = some r := by
  obtain ⟨h1, h2⟩ := C57_edits_partial parse s name file hf hw stops es hv ho
  have h3 : applyBlocks parse source [⟨name, commands stops⟩] = some (patched name s es).text := by
    rw [applyBlocks_one _ _ _ hn, hs, h1]
  exact ⟨_, h3, C24_block_partial parse source _ ⟨name, commands stops⟩ hn hl h3 (by rw [hs]; exact hu) (patched name s es) rfl
    (by rw [h2, hs]) (undoable_marked es 0 _ he)⟩

/-! ### C24: several blocks -/

/-- The block adds its edits to the text, and clearing its name takes them away again. -/
structure Adds (parse : Str → Option File) (b : Block) (s s' : Str) : Prop where
  apply : applyPatch parse s b = some s'
  unmarked : UnmarkedOf b.name s
  undo : ∃ f : Patched, f.text = s' ∧ f.original = s ∧ Undoable (UnmarkedOf b.name) (· = b.name) f.parts f.rest

/-- A set of names with one more. -/
def plus (p : Str → Bool) (n : Str) : Str → Bool := fun m => p m || decide (m = n)

theorem clear_unmarked {s name : Str} (hl : LabelOk name) (h : UnmarkedOf name s) : clearPatch s name = s :=
  C25_clear ⟨[], s⟩ name hl h trivial

theorem blocks_fresh (parse : Str → Option File) (T : (Str → Bool) → Str) : ∀ (blocks : List Block) (p : Str → Bool),
    (∀ b ∈ blocks, b.name ≠ [] ∧ LabelOk b.name ∧ p b.name = false) → (blocks.map Block.name).Pairwise (· ≠ ·) →
    (∀ b ∈ blocks, ∀ q, q b.name = false → Adds parse b (T q) (T (plus q b.name))) →
    applyBlocks parse (T p) blocks = some (T (fun m => p m || decide (m ∈ blocks.map Block.name))) := by
  intro blocks
  induction blocks with
  | nil => intro p _ _ _; simp [applyBlocks]
  | cons b bs ih =>
    intro p h1 h2 h3
    obtain ⟨hn, hl, hp⟩ := h1 b (by simp)
    have hA := h3 b (by simp) p hp
    rw [List.map_cons, List.pairwise_cons] at h2
    rw [applyBlocks, if_neg hn, clear_unmarked hl hA.unmarked, hA.apply, Option.bind_some, ih _ ?_ h2.2 ?_]
    · congr 2
      funext m
      simp only [plus, List.map_cons, List.mem_cons]
      by_cases hm : m = b.name <;> simp [hm]
    · intro b' hb'
      obtain ⟨hn', hl', hp'⟩ := h1 b' (List.mem_cons_of_mem _ hb')
      refine ⟨hn', hl', ?_⟩
      have := h2.1 b'.name (List.mem_map_of_mem hb')
      simp only [plus, hp', Bool.false_or, decide_eq_false_iff_not]
      exact fun h => this h.symm
    · exact fun b' hb' => h3 b' (List.mem_cons_of_mem _ hb')

theorem blocks_again (parse : Str → Option File) (T : (Str → Bool) → Str) (p : Str → Bool) : ∀ (blocks : List Block),
    (∀ b ∈ blocks, b.name ≠ [] ∧ LabelOk b.name ∧ p b.name = true) →
    (∀ b ∈ blocks, ∀ q, q b.name = false → Adds parse b (T q) (T (plus q b.name))) →
    applyBlocks parse (T p) blocks = some (T p) := by
  intro blocks
  induction blocks with
  | nil => intro _ _; rfl
  | cons b bs ih =>
    intro h1 h3
    obtain ⟨hn, hl, hp⟩ := h1 b (by simp)
    have hA := h3 b (by simp) (fun m => p m && !decide (m = b.name)) (by simp)
    have hT : plus (fun m => p m && !decide (m = b.name)) b.name = p := by
      funext m
      simp only [plus]
      by_cases hm : m = b.name
      · subst hm; simp [hp]
      · simp [hm]
    rw [hT] at hA
    obtain ⟨f, hf, ho, hu⟩ := hA.undo
    have hc : clearPatch (T p) b.name = T fun m => p m && !decide (m = b.name) := by
      rw [← hf, ← ho]
      exact C25_clear f b.name hl (by rw [ho]; exact hA.unmarked) hu
    rw [applyBlocks, if_neg hn, hc, hA.apply, Option.bind_some]
    exact ih (fun b' hb' => h1 b' (List.mem_cons_of_mem _ hb')) (fun b' hb' => h3 b' (List.mem_cons_of_mem _ hb'))

/-- **C24 (part).** Several blocks with different names: if each block makes its own edits whichever of the other blocks
    have been applied (`T q` is the text with the edits of the blocks in `q`), then the patch gives `T` of all blocks, and
    applying it again changes nothing. -/
theorem C24_blocks_partial (parse : Str → Option File) (blocks : List Block) (T : (Str → Bool) → Str)
    (h1 : ∀ b ∈ blocks, b.name ≠ [] ∧ LabelOk b.name) (h2 : (blocks.map Block.name).Pairwise (· ≠ ·))
    (h3 : ∀ b ∈ blocks, ∀ q, q b.name = false → Adds parse b (T q) (T (plus q b.name))) :
    ∃ r, applyBlocks parse (T fun _ => false) blocks = some r ∧ r = T (fun m => decide (m ∈ blocks.map Block.name)) ∧
      applyBlocks parse r blocks = some r := by
  refine ⟨T fun m => decide (m ∈ blocks.map Block.name), ?_, rfl, ?_⟩
  · have := blocks_fresh parse T blocks (fun _ => false) (fun b hb => ⟨(h1 b hb).1, (h1 b hb).2, rfl⟩) h2 h3
    simpa using this
  · exact blocks_again parse T _ blocks
      (fun b hb => ⟨(h1 b hb).1, (h1 b hb).2, decide_eq_true (List.mem_map_of_mem hb)⟩) h3

/-! ### Counterexamples -/

/-- A parser that finds no declarations: searches look in the whole file. -/
def noDecls : Str → Option File := fun _ => some []

/-- **C24 is false** for patches whose second block changes the text of the first one: the second application leaves
    some of it. -/
theorem C24_counterexample_blocks : ∃ (blocks : List Block) (s r r' : Str), (∀ b ∈ blocks, b.name ≠ []) ∧
    applyBlocks noDecls s blocks = some r ∧ applyBlocks noDecls r blocks = some r' ∧ r' ≠ r ∧
    s = "f(){}".toList ∧
    r = "f(){/*<begin A>*/x();/*<begin B>*//*old:y()*/z()/*<end B>*/;/*<end A>*/}".toList ∧
    r' = "f(){/*<begin B>*//*old:y()*/z()/*<end B>*//*<begin A>*/x();y();/*<end A>*/}".toList :=
  ⟨[⟨"A".toList, [.search "}".toList, .insertBefore "x();y();".toList]⟩,
    ⟨"B".toList, [.findForReplace "y()".toList, .replace "z()".toList]⟩],
    "f(){}".toList, "f(){/*<begin A>*/x();/*<begin B>*//*old:y()*/z()/*<end B>*/;/*<end A>*/}".toList,
    "f(){/*<begin B>*//*old:y()*/z()/*<end B>*//*<begin A>*/x();y();/*<end A>*/}".toList, by decide +kernel, by decide +kernel,
    by decide +kernel, by decide +kernel, rfl, rfl, rfl⟩

/-- **C24 is false** for blocks without a name, which are never cleared. -/
theorem C24_counterexample_unnamed : ∃ (b : Block) (s r r' : Str), applyBlocks noDecls s [b] = some r ∧
    applyBlocks noDecls r [b] = some r' ∧ r' ≠ r ∧
    r = "/*<begin >*/x/*<end >*/y".toList ∧ r' = "/*<begin >*/x/*<end >*//*<begin >*/x/*<end >*/y".toList :=
  ⟨⟨[], [.search "y".toList, .insertBefore "x".toList]⟩, "y".toList, "/*<begin >*/x/*<end >*/y".toList,
    "/*<begin >*/x/*<end >*//*<begin >*/x/*<end >*/y".toList, by decide +kernel, by decide +kernel, by decide +kernel, rfl, rfl⟩

/-- **C57 is false** for places that are not in the order of the text: the text of the first one is put into the text of
    the second one. -/
theorem C57_counterexample_order : applyPatch noDecls "a b".toList
    ⟨"P".toList, [.search "b".toList, .insertBefore "1".toList, .search "a".toList, .insertBefore "2".toList]⟩ =
    some "/*/*<begin P>*/1/*<end P>*/<begin P>*/2/*<end P>*/a b".toList := by decide +kernel

/-- **C57 is false** for `insert_after` not at the last place: the text is put before the place. -/
theorem C57_counterexample_after : applyPatch noDecls "a b".toList
    ⟨"P".toList, [.search "a".toList, .insertAfter "1".toList, .search "b".toList, .insertAfter "2".toList]⟩ =
    some "/*<begin P>*/1/*<end P>*/a b/*<begin P>*/2/*<end P>*/".toList := by decide +kernel

/-- **C57 is false** for several `insert_before`: their texts come in the wrong order (PATCH_DSL.md, "Stacking Behavior":
    `AB`), unless the block ends with an `insert_after` elsewhere. -/
theorem C57_counterexample_stacked : applyPatch noDecls "a b".toList
    ⟨"P".toList, [.search "a".toList, .insertBefore "A".toList, .insertBefore "B".toList]⟩ =
    some "/*<begin P>*/BA/*<end P>*/a b".toList ∧
    applyPatch noDecls "a b".toList ⟨"P".toList, [.search "a".toList, .insertBefore "A".toList, .insertBefore "B".toList,
      .search "b".toList, .insertAfter "C".toList]⟩ =
    some "/*<begin P>*/AB/*<end P>*/a b/*<begin P>*/C/*<end P>*/".toList := by decide +kernel

/-- **C57 is false** for insertions before and after one place: both come after it, or both before it. -/
theorem C57_counterexample_mixed : applyPatch noDecls "a b".toList
    ⟨"P".toList, [.search "a".toList, .insertBefore "(".toList, .insertAfter ")".toList]⟩ =
    some "a/*<begin P>*/()/*<end P>*/ b".toList := by decide +kernel

/-- **C57 is false** for editing commands without a place: they are ignored. -/
theorem C57_counterexample_nowhere : applyPatch noDecls "a b".toList ⟨"P".toList, [.insertBefore "x".toList]⟩ =
    some "a b".toList := by decide +kernel

/-- **C57 is false** for two `copy_func` or two `replace_directive` commands: the first one is ignored. -/
theorem C57_counterexample_twice : applyPatch noDecls "a\nb\n".toList
    ⟨"P".toList, [.replaceDirective "a".toList "c".toList, .replaceDirective "b".toList "d".toList]⟩ =
    some "a\n/*<next-line-original P>b</next-line-original>*/\nd\n".toList := by decide +kernel

/-- Two methods `M`. -/
def twoMethods : Str := "func (t *Tree) M() {}\nfunc (t *T) M() {}\n".toList

def twoMethodsFile : File :=
  [.func ⟨⟨0, 21⟩, "M".toList, some (⟨5, 14⟩, true), some (19, 20)⟩,
   .func ⟨⟨22, 40⟩, "M".toList, some (⟨27, 33⟩, true), some (38, 39)⟩]

/-- **C57**: `goto func (t *T) M` goes to the method of another type whose name begins with `T`. -/
theorem C57_counterexample_receiver : WellFormed twoMethodsFile ∧
    applyPatch (fun _ => some twoMethodsFile) twoMethods
      ⟨"P".toList, [.goto "func (t *T) M".toList, .insertBefore "var x int;".toList]⟩ =
    some "/*<begin P>*/var x int;/*<end P>*/func (t *Tree) M() {}\nfunc (t *T) M() {}\n".toList := by
  refine ⟨⟨?_, ?_, ?_⟩, by decide +kernel⟩
  · unfold Separate; decide
  · intro sp specs h; simp [twoMethodsFile] at h
  · intro sp specs h; simp [twoMethodsFile] at h

/-- **C57**: `copy_func` takes a method for the function, and does not rename it. -/
theorem C57_counterexample_copy :
    applyPatch (fun _ => some twoMethodsFile) twoMethods ⟨"P".toList, [.copyFunc "M".toList "N".toList]⟩ =
    some (twoMethods ++ "/*<begin P>*/func (t *Tree) M() {}/*<end P>*/".toList) := by decide +kernel

/-- A struct and a function. -/
def structAndFunc : Str := "type g struct {\n\ta int\n}\nfunc f() {\n\th()\n}\n".toList

def structAndFuncFile : File :=
  [.types ⟨0, 24⟩ [⟨⟨5, 24⟩, "g".toList, .struct ⟨7, 24⟩ 14 23 [("a".toList, 17)]⟩],
   .func ⟨⟨25, 42⟩, "f".toList, none, some (34, 41)⟩]

theorem structAndFunc_wellFormed : WellFormed structAndFuncFile := by
  refine ⟨?_, ?_, ?_⟩
  · unfold Separate; decide
  · intro sp specs h
    simp only [structAndFuncFile, List.mem_cons, reduceCtorEq, List.not_mem_nil, or_false, Decl.types.injEq] at h
    rw [h.2]
    unfold Separate
    decide
  · intro sp specs h; simp [structAndFuncFile] at h

/-- **C57**: in a struct, other than in a function, there is no way from the opening brace to the closing one, or to a
    field. -/
theorem C57_counterexample_braces :
    applyPatch (fun _ => some structAndFuncFile) structAndFunc
      ⟨"P".toList, [.goto "struct g".toList, .goto "opening {".toList, .goto "closing }".toList]⟩ = none ∧
    (applyPatch (fun _ => some structAndFuncFile) structAndFunc
      ⟨"P".toList, [.goto "func f".toList, .goto "opening {".toList, .goto "closing }".toList]⟩).isSome ∧
    applyPatch (fun _ => some structAndFuncFile) structAndFunc
      ⟨"P".toList, [.goto "struct g".toList, .goto "opening {".toList, .goto "field a".toList]⟩ = none := by decide +kernel

/-! ### Examples -/

def sampleStops : List Stop :=
  [⟨.goto "struct g".toList, []⟩, ⟨.goto "closing }".toList, [.insertBefore "b int;".toList, .newline]⟩,
   ⟨.goto "func f".toList, []⟩, ⟨.findForReplace "h()".toList, [.replace "k()".toList]⟩,
   ⟨.search ")\n}".toList, [.insertAfter ";m()".toList, .newline, .insertAfter ";n()".toList]⟩]

def sampleEdits : List Edit :=
  [⟨23, [], "b int;\n".toList⟩, ⟨37, "h()".toList, "k()".toList⟩, ⟨42, [], ";m()\n;n()".toList⟩]

theorem sample_visits : Visits structAndFunc structAndFuncFile ⟨0, 0, false⟩ sampleStops sampleEdits := by
  have hw := structAndFunc_wellFormed
  refine Visits.cons (c' := ⟨5, 5, false⟩) (es := []) (place_iff hw |>.1 (by decide +kernel)) .nothing ?_
  refine Visits.cons (c' := ⟨23, 24, false⟩) (es := [⟨23, [], "b int;\n".toList⟩]) (place_iff hw |>.1 (by decide +kernel))
    (Does.before 1 (by decide)) ?_
  refine Visits.cons (c' := ⟨25, 25, false⟩) (es := []) (place_iff hw |>.1 (by decide +kernel)) .nothing ?_
  refine Visits.cons (c' := ⟨37, 40, true⟩) (es := [⟨37, "h()".toList, "k()".toList⟩])
    (place_iff hw |>.1 (by decide +kernel)) ?_ ?_
  · exact Does.replace rfl (Texts.cons 0 (by decide) .nil) (by decide)
  refine Visits.cons (c' := ⟨39, 42, false⟩) (es := [⟨42, [], ";m()\n;n()".toList⟩])
    (place_iff hw |>.1 (by decide +kernel)) ?_ .nil
  exact Does.after (Texts.cons 1 (by decide) (Texts.cons 0 (by decide) .nil)) (by decide)

theorem sample_inOrder : InOrder structAndFunc 0 sampleEdits :=
  ⟨by decide, by decide +kernel, by decide +kernel, by decide, by decide +kernel, by decide +kernel, by decide,
    by decide +kernel, by decide +kernel, trivial⟩

example : applyPatch (fun _ => some structAndFuncFile) structAndFunc ⟨"P".toList, commands sampleStops⟩ =
    some ("type g struct {\n\ta int\n/*<begin P>*/b int;\n/*<end P>*/}\nfunc f() {\n\t/*<begin P>*//*old:h()*/k()/*<end P>*/" ++
      "\n}/*<begin P>*/;m()\n;n()/*<end P>*/\n").toList := by decide +kernel

example : (patched "P".toList structAndFunc sampleEdits).text =
    ("type g struct {\n\ta int\n/*<begin P>*/b int;\n/*<end P>*/}\nfunc f() {\n\t/*<begin P>*//*old:h()*/k()/*<end P>*/" ++
      "\n}/*<begin P>*/;m()\n;n()/*<end P>*/\n").toList := by decide +kernel

/-- The hypotheses of `C24_edits_partial` are met by the sample. -/
example : "P".toList ≠ [] ∧ LabelOk "P".toList ∧ clearPatch structAndFunc "P".toList = structAndFunc ∧
    UnmarkedOf "P".toList structAndFunc ∧ ∀ e ∈ sampleEdits, UndoableEdit "P".toList e := by
  refine ⟨by decide, ⟨by decide, by decide, by decide⟩, by decide +kernel, ⟨?_, ?_, ?_⟩, ?_⟩
  iterate 3 (rw [← cut_none]; decide +kernel)
  intro e he
  simp only [sampleEdits, List.mem_cons, List.not_mem_nil, or_false] at he
  rcases he with rfl | rfl | rfl
  all_goals
    refine ⟨⟨?_, ?_, ?_⟩, ?_, fun _ => ?_⟩
    iterate 5 (rw [← cut_none]; decide +kernel)

/-- `C57_copy` and `C57_directive`. -/
example : FirstOf (fun f => f.name = "f".toList) (funcsOf structAndFuncFile) ⟨⟨25, 42⟩, "f".toList, none, some (34, 41)⟩ ∧
    (structAndFunc.take 42).drop 25 = "func ".toList ++ "f".toList ++ ['('] ++ ") {\n\th()\n}".toList :=
  ⟨⟨[], [], rfl, rfl, by simp⟩, by decide +kernel⟩

/-- Two blocks that do not depend on each other. -/
def twoBlocks : List Block :=
  [⟨"A".toList, [.search "a".toList, .insertBefore "x".toList]⟩, ⟨"B".toList, [.findForReplace "c".toList, .replace "y".toList]⟩]

/-- The text with the edits of some of the blocks. -/
def two (a b : Bool) : Str :=
  (if a then "/*<begin A>*/x/*<end A>*/".toList else []) ++ "a ".toList ++
  (if b then "/*<begin B>*//*old:c*/y/*<end B>*/".toList else "c".toList)

def twoText (q : Str → Bool) : Str := two (q "A".toList) (q "B".toList)

theorem two_first (x : Bool) :
    Adds noDecls ⟨"A".toList, [.search "a".toList, .insertBefore "x".toList]⟩ (two false x) (two true x) := by
  cases x
  · refine ⟨by decide +kernel, ⟨?_, ?_, ?_⟩, ⟨[([], .region "A".toList [] "x".toList)], "a c".toList⟩, by decide +kernel,
      by decide +kernel, rfl, ⟨?_, ?_, ?_⟩, ⟨?_, fun _ => ?_⟩, trivial⟩ <;> (rw [← cut_none]; decide +kernel)
  · refine ⟨by decide +kernel, ⟨?_, ?_, ?_⟩, ⟨[([], .region "A".toList [] "x".toList)],
      "a /*<begin B>*//*old:c*/y/*<end B>*/".toList⟩, by decide +kernel,
      by decide +kernel, rfl, ⟨?_, ?_, ?_⟩, ⟨?_, fun _ => ?_⟩, trivial⟩ <;> (rw [← cut_none]; decide +kernel)

theorem two_second (x : Bool) :
    Adds noDecls ⟨"B".toList, [.findForReplace "c".toList, .replace "y".toList]⟩ (two x false) (two x true) := by
  cases x
  · refine ⟨by decide +kernel, ⟨?_, ?_, ?_⟩, ⟨[("a ".toList, .region "B".toList "c".toList "y".toList)], []⟩,
      by decide +kernel, by decide +kernel, rfl, ⟨?_, ?_, ?_⟩, ⟨?_, fun _ => ?_⟩, trivial⟩ <;> (rw [← cut_none]; decide +kernel)
  · refine ⟨by decide +kernel, ⟨?_, ?_, ?_⟩, ⟨[("/*<begin A>*/x/*<end A>*/a ".toList, .region "B".toList "c".toList "y".toList)], []⟩,
      by decide +kernel, by decide +kernel, rfl, ⟨?_, ?_, ?_⟩, ⟨?_, fun _ => ?_⟩, trivial⟩ <;> (rw [← cut_none]; decide +kernel)

example : ∀ b ∈ twoBlocks, ∀ q, q b.name = false → Adds noDecls b (twoText q) (twoText (plus q b.name)) := by
  intro b hb q hq
  simp only [twoBlocks, List.mem_cons, List.not_mem_nil, or_false] at hb
  rcases hb with rfl | rfl
  · have h1 : twoText (plus q "A".toList) = two true (q "B".toList) := by
      unfold twoText plus
      rw [decide_eq_true rfl, decide_eq_false (by decide), Bool.or_true, Bool.or_false]
    have h2 : twoText q = two false (q "B".toList) := by unfold twoText; rw [show q "A".toList = false from hq]
    rw [h2]
    exact h1 ▸ two_first _
  · have h1 : twoText (plus q "B".toList) = two (q "A".toList) true := by
      unfold twoText plus
      rw [decide_eq_true (p := "B".toList = "B".toList) rfl, decide_eq_false (by decide), Bool.or_true, Bool.or_false]
    have h2 : twoText q = two (q "A".toList) false := by unfold twoText; rw [show q "B".toList = false from hq]
    rw [h2]
    exact h1 ▸ two_second _

end Verif.Instrument.PatchApply
