/-
C57: the edits of a patch block are made where the commands point to, and nothing else changes.
C24: applying a patch twice is applying it once.
-/
import Verif.Instrument.PatchPlaceProps
import Verif.Instrument.PatchCleanProps

namespace Verif.Instrument.PatchApply
open Verif.Text Spec
open Verif.Instrument.PatchText Verif.Instrument.PatchText.Spec

/-! ### One place -/

theorem points_le {s : Str} {file : File} {c c' : Cursor} {cmd : Command} (h : Points s file c cmd c') :
    c'.offset ≤ c'.endOffset := by
  cases h <;> simp

theorem newlineLast_append (l : List Str) (x : Str) : newlineLast (l ++ [x]) = l ++ [x ++ ['\n']] := by
  induction l with
  | nil => rfl
  | cons a l ih =>
    cases l with
    | nil => rfl
    | cons b l => simp only [List.cons_append] at ih ⊢; rw [newlineLast, ih]

theorem replicate_snoc (k : Nat) : '\n' :: List.replicate k '\n' = List.replicate k '\n' ++ ['\n'] := by
  rw [← List.replicate_succ, List.replicate_succ']

/-- The state after `newline` commands, when the current group has a last segment. -/
theorem steps_newlines (s : Str) (file : File) : ∀ (k : Nat) (st : State) (g : Group) (l : List Str) (x : Str) (cs : List Command),
    st.groups st.seq = some g → g.segments = l ++ [x] →
    steps s file st (List.replicate k .newline ++ cs) =
      steps s file (setGroup st { g with segments := l ++ [x ++ List.replicate k '\n'] }) cs := by
  intro k
  induction k with
  | zero =>
    intro st g l x cs hg hl
    simp only [List.replicate_zero, List.nil_append, List.append_nil]
    congr 1
    unfold setGroup
    cases st
    simp only [State.mk.injEq, true_and] at hg ⊢
    refine ⟨?_, trivial⟩
    funext n
    split
    · rename_i h
      rw [h, hg, ← hl]
    · rfl
  | succ k ih =>
    intro st g l x cs hg hl
    rw [List.replicate_succ, List.cons_append, steps, step]
    simp only [Option.bind_some]
    have e : getGroup st = g := by unfold getGroup; rw [hg]
    unfold addNewline
    rw [e]
    simp only
    rw [ih _ { g with segments := newlineLast g.segments } l (x ++ ['\n']) cs (by simp [setGroup])
      (by simp only [hl, newlineLast_append])]
    congr 1
    unfold setGroup
    simp only [State.mk.injEq, true_and]
    refine ⟨?_, trivial⟩
    funext n
    split
    · simp only [List.append_assoc, List.replicate_succ, List.singleton_append]
    · rfl

theorem setGroup_setGroup (st : State) (g g' : Group) : setGroup (setGroup st g) g' = setGroup st g' := by
  unfold setGroup
  simp only [State.mk.injEq, true_and]
  refine ⟨?_, trivial⟩
  funext n
  split <;> rfl

theorem setGroup_mode (st : State) (m : Mode) (g g' : Group) :
    setGroup { setGroup { st with mode := m } g with mode := m } g' = setGroup { st with mode := m } g' := by
  unfold setGroup
  simp only [State.mk.injEq, true_and]
  refine ⟨?_, trivial⟩
  funext n
  split <;> rfl

/-- `insert_after` commands. -/
theorem steps_after (s : Str) (file : File) {cs : List Command} {t : Str} (h : Texts .insertAfter cs t) :
    ∀ (st : State) (l : List Str) (g : Group), getGroup st = { g with segments := l } → cs ≠ [] →
    ∃ segs, steps s file st cs = some (setGroup { st with mode := .after } { g with segments := l ++ segs }) ∧ segs.flatten = t := by
  induction h with
  | nil => intro st l g _ hne; exact absurd rfl hne
  | @cons cs t r k ht h ih =>
    intro st l g hg _
    rw [steps, step, if_neg ht]
    simp only [Option.bind_some]
    have e : getGroup { st with mode := .after } = { g with segments := l } := hg
    unfold addSegment
    simp only [e]
    rw [steps_newlines s file k _ { g with segments := l ++ [t] } l t cs (by simp [setGroup]) rfl]
    simp only [setGroup_setGroup]
    by_cases hcs : cs = []
    · subst hcs
      cases h
      exact ⟨[t ++ List.replicate k '\n'], rfl, by simp⟩
    · obtain ⟨segs, h1, h2⟩ := ih (setGroup { st with mode := .after } { g with segments := l ++ [t ++ List.replicate k '\n'] })
        (l ++ [t ++ List.replicate k '\n']) g (by simp [getGroup, setGroup]) hcs
      refine ⟨(t ++ List.replicate k '\n') :: segs, ?_, by simp [h2]⟩
      rw [h1]
      rw [setGroup_mode]
      simp

/-- `replace` commands. -/
theorem steps_replace (s : Str) (file : File) {cs : List Command} {t : Str} (h : Texts .replace cs t) :
    ∀ (st : State) (l : List Str) (g : Group), st.cursor.isReplace = true → getGroup st = { g with segments := l } → cs ≠ [] →
    ∃ segs, steps s file st cs = some (setGroup { st with mode := .before }
      { g with segments := l ++ segs, isReplace := true, oldText := slice s st.cursor.offset st.cursor.endOffset }) ∧
      segs.flatten = t := by
  induction h with
  | nil => intro st l g _ _ hne; exact absurd rfl hne
  | @cons cs t r k ht h ih =>
    intro st l g hr hg _
    rw [steps, step, if_neg ht, if_neg (by rw [hr]; simp)]
    simp only [Option.bind_some]
    have e : getGroup { st with mode := .before } = { g with segments := l } := hg
    unfold addReplace
    simp only [e]
    generalize ho : slice s st.cursor.offset st.cursor.endOffset = old
    rw [steps_newlines s file k _ { g with segments := l ++ [t], isReplace := true, oldText := old } l t cs
      (by simp [setGroup]) rfl]
    simp only [setGroup_setGroup]
    by_cases hcs : cs = []
    · subst hcs
      cases h
      exact ⟨[t ++ List.replicate k '\n'], rfl, by simp⟩
    · obtain ⟨segs, h1, h2⟩ := ih (setGroup { st with mode := .before }
          { g with segments := l ++ [t ++ List.replicate k '\n'], isReplace := true, oldText := old })
        (l ++ [t ++ List.replicate k '\n']) { g with isReplace := true, oldText := old } hr (by simp [getGroup, setGroup]) hcs
      refine ⟨(t ++ List.replicate k '\n') :: segs, ?_, by simp [h2]⟩
      rw [h1]
      rw [setGroup_mode]
      simp [setGroup, ho]

/-- Making one edit. -/
def put (name : Str) (e : Edit) (r : Str) : Str :=
  r.take e.start ++ (Mark.region name e.old e.new).text ++ r.drop (e.start + e.old.length)

theorem texts_ne {cmd : Str → Command} {cs : List Command} {t : Str} (h : Texts cmd cs t) (ht : t ≠ []) : cs ≠ [] := by
  rintro rfl
  cases h
  exact ht rfl

theorem region_text (name old new : Str) : (Mark.region name old new).text =
    beginMark name ++ oldMark old ++ new ++ endMark name := by
  unfold Mark.text body beginMark endMark oldMark
  simp only [List.append_assoc]

theorem oldMark_nil : oldMark [] = [] := rfl

theorem does_steps {s : Str} (file : File) {c : Cursor} {last : Bool} {cs : List Command} {es : List Edit}
    (h : Does s c last cs es) (st : State) (hc : st.cursor = c) (hle : c.offset ≤ c.endOffset)
    (hg : st.groups st.seq = none) :
    ∃ st', steps s file st cs = some st' ∧ st'.seq = st.seq ∧ (last = false → st'.cursor = c) ∧ st'.append = st.append ∧
      st'.directive = st.directive ∧ (∀ n, n ≠ st.seq → st'.groups n = st.groups n) ∧
      ∀ name mode r, (last = true → mode = st'.mode) →
        (match st'.groups st.seq with
          | none => r
          | some g => applyGroup name mode last g r) = es.foldr (put name) r := by
  have hgg : getGroup st = ⟨c.offset, c.endOffset, [], false, []⟩ := by
    unfold getGroup
    rw [hg, hc]
    simp only [Group.mk.injEq, and_self, and_true, true_and]
    omega
  cases h with
  | nothing => exact ⟨st, rfl, rfl, fun _ => hc, rfl, rfl, fun _ _ => rfl, fun name mode r _ => by rw [hg]; rfl⟩
  | @before last t k ht =>
    refine ⟨setGroup { st with mode := .before } ⟨c.offset, c.endOffset, [t ++ List.replicate k '\n'], false, []⟩, ?_, rfl,
      fun _ => hc, rfl, rfl, fun n hn => by simp [setGroup, hn], ?_⟩
    · rw [steps, step, if_neg ht]
      simp only [Option.bind_some]
      have e : getGroup { st with mode := .before } = ⟨c.offset, c.endOffset, [], false, []⟩ := hgg
      unfold addSegment
      simp only [e]
      have h1 := steps_newlines s file k (setGroup { st with mode := .before } ⟨c.offset, c.endOffset, [] ++ [t], false, []⟩)
        ⟨c.offset, c.endOffset, [t], false, []⟩ [] t [] (by simp [setGroup]) rfl
      rw [List.append_nil] at h1
      rw [h1, setGroup_setGroup]
      rfl
    · intro name mode r hm
      simp only [setGroup, if_true]
      have hcomb : combine mode ⟨c.offset, c.endOffset, [t ++ List.replicate k '\n'], false, []⟩ = t ++ List.replicate k '\n' := by
        cases mode <;> simp [combine]
      have hne : t ++ List.replicate k '\n' ≠ [] := by simp [ht]
      unfold applyGroup
      simp only [hcomb, hne, false_and, if_false, Bool.false_eq_true, List.foldr_cons, List.foldr_nil, put, region_text,
        oldMark_nil, List.append_nil, List.length_nil, Nat.add_zero]
      rw [if_pos]
      cases last
      · exact Or.inr rfl
      · exact Or.inl (hm rfl)
  | @after cs t h ht =>
    obtain ⟨segs, h1, h2⟩ := steps_after s file h st [] ⟨c.offset, c.endOffset, [], false, []⟩ hgg (texts_ne h ht)
    refine ⟨_, h1, rfl, fun h => (by cases h), rfl, rfl, fun n hn => by simp [setGroup, hn], ?_⟩
    intro name mode r hm
    have hm := hm rfl
    simp only [setGroup] at hm
    subst hm
    simp only [setGroup, if_true, List.nil_append]
    unfold applyGroup
    simp only [combine, Bool.false_eq_true, if_false, h2, ht, false_and, reduceCtorEq, false_or,
      List.foldr_cons, List.foldr_nil, put, region_text, oldMark_nil, List.append_nil, List.length_nil, Nat.add_zero]
  | @afterLine t k ht hl =>
    refine ⟨setGroup { st with cursor := { c with endOffset := c.endOffset + 1 }, mode := .after }
      ⟨c.offset, c.endOffset + 1, [t ++ List.replicate k '\n'], false, []⟩, ?_, rfl,
      fun h => (by cases h), rfl, rfl, fun n hn => by simp [setGroup, hn], ?_⟩
    · rw [steps, step, if_neg ht]
      simp only [Option.bind_some]
      have e0 : skipNewline s st.cursor = { c with endOffset := c.endOffset + 1 } := by
        unfold skipNewline
        rw [hc, if_pos hl]
      rw [e0]
      have e : getGroup { st with cursor := { c with endOffset := c.endOffset + 1 }, mode := .after } =
          ⟨c.offset, c.endOffset + 1, [], false, []⟩ := by
        unfold getGroup
        simp only [hg, Group.mk.injEq, and_self, and_true, true_and]
        omega
      unfold addSegment
      simp only [e]
      have h1 := steps_newlines s file k (setGroup { st with cursor := { c with endOffset := c.endOffset + 1 }, mode := .after }
        ⟨c.offset, c.endOffset + 1, [] ++ [t], false, []⟩)
        ⟨c.offset, c.endOffset + 1, [t], false, []⟩ [] t [] (by simp [setGroup]) rfl
      rw [List.append_nil] at h1
      rw [h1, setGroup_setGroup]
      rfl
    · intro name mode r hm
      have hm := hm rfl
      simp only [setGroup] at hm
      subst hm
      simp only [setGroup, if_true]
      have hne : t ++ List.replicate k '\n' ≠ [] := by simp [ht]
      unfold applyGroup
      simp only [combine, Bool.false_eq_true, if_false, List.flatten_cons, List.flatten_nil, List.append_nil, hne, false_and,
        reduceCtorEq, false_or, List.foldr_cons, List.foldr_nil, put, region_text, oldMark_nil, List.length_nil, Nat.add_zero]
  | @replace last cs t hr h ht =>
    obtain ⟨segs, h1, h2⟩ := steps_replace s file h st [] ⟨c.offset, c.endOffset, [], false, []⟩ (by rw [hc]; exact hr) hgg
      (texts_ne h ht)
    refine ⟨_, h1, rfl, fun _ => hc, rfl, rfl, fun n hn => by simp [setGroup, hn], ?_⟩
    intro name mode r hm
    simp only [setGroup, if_true, List.nil_append]
    unfold applyGroup
    simp only [combine, if_true, h2, Bool.true_eq_false, and_false, if_false, hc, slice,
      List.foldr_cons, List.foldr_nil, put, region_text]

/-! ### A block -/

theorem steps_append (s : Str) (file : File) (l1 l2 : List Command) : ∀ st,
    steps s file st (l1 ++ l2) = (steps s file st l1).bind fun st => steps s file st l2 := by
  induction l1 with
  | nil => intro st; rfl
  | cons c l1 ih =>
    intro st
    rw [List.cons_append, steps, steps]
    cases step s file st c with
    | none => rfl
    | some st => exact ih st

theorem step_move {s : Str} {file : File} (hw : WellFormed file) {st : State} {c' : Cursor} {cmd : Command}
    (h : Points s file st.cursor cmd c') : step s file st cmd = some (moveTo st c') := by
  have hp := place_of_points hw h
  cases h <;> (simp only [place] at hp; simp only [step, hp, Option.map_some])

theorem visits_steps {s : Str} {file : File} (hw : WellFormed file) {c : Cursor} {stops : List Stop} {es : List Edit}
    (h : Visits s file c stops es) : ∀ st, st.cursor = c → (∀ n, st.seq < n → st.groups n = none) →
    ∃ st', steps s file st (commands stops) = some st' ∧ st'.seq = st.seq + stops.length ∧ st'.append = st.append ∧
      st'.directive = st.directive ∧ (∀ n, n ≤ st.seq → st'.groups n = st.groups n) ∧
      ∀ name r, applyGroups name st' st'.seq r = applyGroups name st' st.seq (es.foldr (put name) r) := by
  induction h with
  | nil =>
    intro st _ _
    exact ⟨st, rfl, rfl, rfl, rfl, fun _ _ => rfl, fun _ _ => rfl⟩
  | @cons c c' sp l es es' hp hd hv ih =>
    intro st hc hg
    have e1 : steps s file st (commands (sp :: l)) =
        ((step s file st sp.move).bind fun st => steps s file st sp.edits).bind fun st => steps s file st (commands l) := by
      unfold commands
      rw [List.flatMap_cons, List.cons_append, steps]
      cases step s file st sp.move with
      | none => rfl
      | some st1 => exact steps_append s file _ _ st1
    have e2 := step_move hw (by rw [hc]; exact hp : Points s file st.cursor sp.move c')
    obtain ⟨st1, h1, h2, h3, h4, h5, h6, h7⟩ := does_steps file hd (moveTo st c') rfl (points_le hp)
      (hg (st.seq + 1) (by omega))
    have hseq : st1.seq = st.seq + 1 := h2
    rw [e1, e2, Option.bind_some, h1, Option.bind_some]
    cases hl : l.isEmpty with
    | true =>
      have hl : l = [] := by simpa using hl
      subst hl
      cases hv
      refine ⟨st1, rfl, hseq, h4, h5, ?_, ?_⟩
      · intro n hn
        exact h6 n (by show n ≠ st.seq + 1; omega)
      · intro name r
        rw [hseq, applyGroups]
        have := h7 name st1.mode r (fun _ => rfl)
        rw [← hseq]
        simp only [decide_true, List.append_nil]
        rw [hseq]
        congr 1
    | false =>
      obtain ⟨st2, i1, i2, i3, i4, i5, i6⟩ := ih st1 (h3 hl) (by
        intro n hn
        rw [h6 n (by show n ≠ st.seq + 1; omega)]
        exact hg n (by omega))
      have hne : l ≠ [] := by rintro rfl; simp at hl
      have hlen : 0 < l.length := List.length_pos_iff.2 hne
      refine ⟨st2, i1, by rw [i2, hseq, List.length_cons]; omega, by rw [i3, h4]; rfl, by rw [i4, h5]; rfl, ?_, ?_⟩
      · intro n hn
        rw [i5 n (by omega), h6 n (by show n ≠ st.seq + 1; omega)]
        rfl
      · intro name r
        rw [i6, hseq, applyGroups, List.foldr_append]
        rw [i5 (st.seq + 1) (by omega), decide_eq_false (by omega)]
        have := h7 name st2.mode (es'.foldr (put name) r) (fun h => by rw [hl] at h; cases h)
        rw [hl] at this
        congr 1

/-! ### Edits in order -/

theorem foldr_put (name : Str) {s : Str} : ∀ (es : List Edit) (c : Nat), InOrder s c es →
    es.foldr (put name) s = s.take c ++ text (marked name s c es) (s.drop (endOf c es)) := by
  intro es
  induction es with
  | nil => intro c _; simp [marked, text, endOf]
  | cons e es ih =>
    intro c h
    obtain ⟨h1, h2, h3, h4⟩ := h
    rw [List.foldr_cons, ih _ h4, put]
    have hlen : (s.take (e.start + e.old.length)).length = e.start + e.old.length := by simp; omega
    have e1 : (s.take (e.start + e.old.length) ++ text (marked name s (e.start + e.old.length) es)
        (s.drop (endOf (e.start + e.old.length) es))).take e.start = s.take e.start := by
      rw [List.take_append_of_le_length (by omega), List.take_take]
      congr 1
      omega
    have e2 : ∀ t : Str, (s.take (e.start + e.old.length) ++ t).drop (e.start + e.old.length) = t := by
      intro t
      rw [List.drop_append, hlen]
      simp
    rw [e1, e2]
    simp only [marked, text, endOf]
    have e3 : s.take c ++ (s.take e.start).drop c = s.take e.start := by
      have := List.take_append_drop c (s.take e.start)
      rw [List.take_take, Nat.min_eq_left h1] at this
      exact this
    rw [← List.append_assoc, ← List.append_assoc, e3]

theorem marked_original (name : Str) {s : Str} : ∀ (es : List Edit) (c : Nat), InOrder s c es →
    original (marked name s c es) (s.drop (endOf c es)) = s.drop c := by
  intro es
  induction es with
  | nil => intro c _; rfl
  | cons e es ih =>
    intro c h
    obtain ⟨h1, h2, h3, h4⟩ := h
    simp only [marked, original, endOf, Mark.old]
    rw [ih _ h4]
    have e1 : s.drop e.start = e.old ++ s.drop (e.start + e.old.length) := by
      have := List.take_append_drop e.old.length (s.drop e.start)
      rw [h3, List.drop_drop] at this
      exact this.symm
    rw [List.append_assoc, ← e1]
    have e2 : s.drop c = (s.drop c).take (e.start - c) ++ (s.drop c).drop (e.start - c) := (List.take_append_drop _ _).symm
    rw [e2, List.drop_drop, ← List.drop_take]
    congr 2
    omega

theorem patched_text {name s : Str} {es : List Edit} (h : InOrder s 0 es) : es.foldr (put name) s = (patched name s es).text := by
  rw [foldr_put name es 0 h]
  simp [patched, Patched.text]

theorem patched_original {name s : Str} {es : List Edit} (h : InOrder s 0 es) : (patched name s es).original = s := by
  have := marked_original name es 0 h
  simpa [patched, Patched.original] using this

/-! ### C57 -/

/-- **C57.** A positioning command moves the cursor to the declaration, brace, field or text that it names; if there is no
    such place, the patch fails. -/
theorem C57_places (s : Str) (file : File) (hw : WellFormed file) (st : State) (cmd : Command)
    (hm : ∃ t, cmd = .goto t ∨ cmd = .search t ∨ cmd = .findForReplace t) :
    (∀ c', Points s file st.cursor cmd c' → ∃ st', step s file st cmd = some st' ∧ st'.cursor = c') ∧
    ((¬ ∃ c', Points s file st.cursor cmd c') → step s file st cmd = none) := by
  constructor
  · intro c' h
    exact ⟨_, step_move hw h, rfl⟩
  · intro h
    have hp : place s file st.cursor cmd = none := by
      cases he : place s file st.cursor cmd with
      | none => rfl
      | some c' => exact absurd ⟨c', points_of_place hw he⟩ h
    obtain ⟨t, rfl | rfl | rfl⟩ := hm <;> (simp only [place] at hp; simp only [step, hp, Option.map_none])

/-- **C57 (part).** The edits of a block are made where the commands point to, each in its markers, and nothing else
    changes. Missing: blocks whose places are not in the order of the text, several `insert_before` at one place, and
    `insert_after` not at the last place, see the counterexamples. -/
theorem C57_edits_partial (parse : Str → Option File) (s name : Str) (file : File) (hf : parse s = some file)
    (hw : WellFormed file) (stops : List Stop) (es : List Edit) (hv : Visits s file ⟨0, 0, false⟩ stops es)
    (ho : InOrder s 0 es) :
    applyPatch parse s ⟨name, commands stops⟩ = some (patched name s es).text ∧ (patched name s es).original = s := by
  obtain ⟨st', h1, h2, h3, h4, h5, h6⟩ := visits_steps hw hv State.init rfl (fun _ _ => rfl)
  refine ⟨?_, patched_original ho⟩
  unfold applyPatch
  rw [hf, Option.bind_some, h1, Option.map_some]
  unfold applyEdits
  rw [h3, h4, h6]
  simp only [State.init, applyGroups, applyAppend, if_true, applyDirective]
  rw [patched_text ho]

/-- **C57.** `copy_func A as B append to file end` adds a copy of the first function named `A`, named `B`, at the end of
    the file. -/
theorem C57_copy (parse : Str → Option File) (s name a b : Str) (file : File) (hf : parse s = some file) (f : FuncDecl)
    (h : FirstOf (fun f => f.name = a) (funcsOf file) f) (r : Str)
    (hs : (s.take f.span.fin).drop f.span.pos = "func ".toList ++ a ++ ['('] ++ r) (hr : ∃ x c, r = x ++ [c] ∧ c ≠ '\n')
    (he : ∃ x, s = x ++ ['\n']) :
    applyPatch parse s ⟨name, [.copyFunc a b]⟩ =
      some (Patched.text ⟨[(s, .region name [] ("func ".toList ++ b ++ ['('] ++ r))], []⟩) := by
  have hfind : (funcs file).find? (fun f => decide (f.name = a)) = some f := by
    rw [funcs_eq]
    exact find_iff.2 ((firstOf_congr fun y => by simp).1 h)
  have hcut : cut ("func ".toList ++ a ++ ['(']) ("func ".toList ++ a ++ ['('] ++ r) = some ([], r) := by
    cases hc : cut ("func ".toList ++ a ++ ['(']) ("func ".toList ++ a ++ ['('] ++ r) with
    | none => exact absurd (List.infix_append [] _ r) (cut_none.1 hc)
    | some p =>
      obtain ⟨x, y⟩ := p
      obtain ⟨h1, h2⟩ := cut_first hc
      have h3 := h2 [] r (by simp)
      have h4 : x = [] := List.length_eq_zero_iff.1 (by simpa using h3)
      subst h4
      rw [List.nil_append] at h1
      rw [List.append_cancel_left h1]
  have hcopy : evalCopyFunc s file a b = some ("func ".toList ++ b ++ ['('] ++ r) := by
    unfold evalCopyFunc
    rw [hfind, Option.map_some]
    simp only [slice, hs, hcut, List.nil_append]
  obtain ⟨x, c, rfl, hc⟩ := hr
  obtain ⟨y, rfl⟩ := he
  have htrim : trimNewline ("func ".toList ++ b ++ ['('] ++ (x ++ [c])) = "func ".toList ++ b ++ ['('] ++ (x ++ [c]) := by
    unfold trimNewline
    rw [← List.append_assoc, List.getLast?_concat, if_neg (by simpa using hc)]
  unfold applyPatch
  rw [hf, Option.bind_some]
  simp only [steps, step, hcopy, Option.map_some, Option.bind_some, htrim, applyEdits, State.init, applyGroups, applyDirective]
  unfold applyAppend
  rw [if_neg (by rw [← List.append_assoc]; exact List.append_ne_nil_of_right_ne_nil _ (List.cons_ne_nil _ _)),
    List.getLast?_concat, if_pos rfl]
  simp only [Patched.text, text, region_text, oldMark_nil, List.append_nil]

theorem applyDirective_some {name old new r a b : Str} (h : cut old r = some (a, b)) :
    applyDirective name (some (old, new)) r = a ++ (Mark.line name old new).text ++ b := by
  have e1 : (Mark.line name old new).text = "/*<next-line-original ".toList ++ name ++ ['>'] ++ old ++ annotEnd ++ '\n' :: new := rfl
  have e2 : applyDirective name (some (old, new)) r = match cut old r with
    | none => r
    | some (a, b) =>
      a ++ ("/*<next-line-original ".toList ++ name ++ ['>'] ++ old ++ annotEnd) ++ ['\n'] ++ new ++ b := rfl
  rw [e2, h, e1]
  generalize "/*<next-line-original ".toList = p
  generalize annotEnd = q
  simp only [List.append_assoc, List.cons_append, List.nil_append]

/-- **C57.** `replace_directive A with B` replaces the first occurrence of `A`, which is kept in a comment on the line
    before. -/
theorem C57_directive (parse : Str → Option File) (s name old new x y : Str) (file : File) (hf : parse s = some file)
    (hs : s = x ++ old ++ y) (ho : old ≠ []) (hn : new ≠ []) (hx : NotBefore old x) :
    applyPatch parse s ⟨name, [.replaceDirective old new]⟩ = some (Patched.text ⟨[(x, .line name old new)], y⟩) := by
  have h0 : steps s file State.init [.replaceDirective old new] = some { State.init with directive := some (old, new) } := by
    simp only [steps, step, ho, hn, or_self, if_false, Option.bind_some]
  have h1 : applyEdits name s { State.init with directive := some (old, new) } = applyDirective name (some (old, new)) s := rfl
  unfold applyPatch
  rw [hf, Option.bind_some, h0, Option.map_some, h1, hs, applyDirective_some (cut_append ho hx)]
  rfl

/-- **C57.** What is trimmed of the lines of a patch. -/
theorem C57_space (c : Char) : isSpace c = true ↔ c.toNat ∈ [9, 10, 11, 12, 13, 32] := by
  have h : ∀ n, (Char.ofNat n).toNat = n → (c = Char.ofNat n ↔ c.toNat = n) := by
    intro n hn
    constructor
    · rintro rfl; exact hn
    · rintro rfl; exact (Char.ofNat_toNat c).symm
  unfold isSpace
  simp only [Bool.or_eq_true, decide_eq_true_eq, List.mem_cons, List.not_mem_nil, or_false]
  rw [show '\t' = Char.ofNat 9 from rfl, show '\n' = Char.ofNat 10 from rfl, show '\r' = Char.ofNat 13 from rfl, show ' ' = Char.ofNat 32 from rfl,
    show '\x0b' = Char.ofNat 11 from rfl, show '\x0c' = Char.ofNat 12 from rfl]
  rw [h 9 (by decide), h 10 (by decide), h 11 (by decide), h 12 (by decide), h 13 (by decide), h 32 (by decide)]
  omega

end Verif.Instrument.PatchApply
