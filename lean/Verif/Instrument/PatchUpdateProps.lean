/-
Adding edits at anchors (C26), re-patching a file (C56), and examples and counterexamples for C25.
-/
import Verif.Instrument.PatchCleanProps

namespace Verif.Instrument.PatchText
open Verif.Text Spec

/-! ### C25: examples -/

/-- A file with an insertion, a replacement and a replaced line. -/
def sampleFile : Patched where
  parts := [("package p\n".toList, .region "a".toList [] "var x int;".toList),
    ("func f() { ".toList, .region "b c".toList "g()".toList "h()".toList),
    (" }\n".toList, .line "d".toList "//go:linkname q r".toList "//go:linkname q s".toList)]
  rest := "\nfunc q()\n".toList

example : Unmarked sampleFile.original ∧ Undoable Unmarked LabelOk sampleFile.parts sampleFile.rest ∧
    sampleFile.original = "package p\nfunc f() { g() }\n//go:linkname q r\nfunc q()\n".toList ∧
    sampleFile.text = ("package p\n/*<begin a>*/var x int;/*<end a>*/func f() { /*<begin b c>*//*old:g()*/h()/*<end b c>*/" ++
      " }\n/*<next-line-original d>//go:linkname q r</next-line-original>*/\n//go:linkname q s\nfunc q()\n").toList := by
  refine ⟨?_, ?_, by decide +kernel, by decide +kernel⟩
  · refine ⟨?_, ?_, ?_⟩ <;> rw [← cut_none] <;> decide +kernel
  · refine ⟨?_, ?_, ?_, ?_, ?_, ?_, ?_, ?_, ?_, trivial⟩
    all_goals try (refine ⟨?_, ?_, ?_⟩ <;> decide +kernel)
    all_goals try (refine ⟨?_, ?_, ?_⟩ <;> rw [← cut_none] <;> decide +kernel)
    · exact ⟨by rw [← cut_none]; decide +kernel, fun _ => by rw [← cut_none]; decide +kernel⟩
    · exact ⟨by rw [← cut_none]; decide +kernel, fun _ => by rw [← cut_none]; decide +kernel⟩
    · exact ⟨by rw [← cut_none]; decide +kernel, by decide +kernel, Or.inr ⟨"func q()\n".toList, by decide +kernel⟩⟩

/-- **C25.** A file without markers is left as it is. -/
theorem C25_untouched (s : Str) (h : Unmarked s) : cleanPatch s = s := C25_clean ⟨[], s⟩ h trivial

/-- **C25 is false** if an edit replaces part of what another edit has inserted: the replaced text is taken for the
    original text of the outer edit and stays in the file. -/
theorem C25_counterexample_nested : ∃ f1 f2 : Patched, f2.original = f1.text ∧ Unmarked f1.original ∧
    Undoable Unmarked LabelOk f1.parts f1.rest ∧ cleanPatch f1.text = f1.original ∧
    cleanPatch f2.text ≠ f1.original ∧ clearPatch f2.text "A".toList ≠ f1.original := by
  refine ⟨⟨[("f(){".toList, .region "A".toList [] "x();y();".toList)], "}".toList⟩,
    ⟨[("f(){/*<begin A>*/x();".toList, .region "B".toList "y()".toList "z()".toList)], ";/*<end A>*/}".toList⟩,
    by decide +kernel, ?_, ?_, by decide +kernel, by decide +kernel, by decide +kernel⟩
  · refine ⟨?_, ?_, ?_⟩ <;> rw [← cut_none] <;> decide +kernel
  · refine ⟨?_, ?_, ?_, trivial⟩
    · refine ⟨?_, ?_, ?_⟩ <;> decide +kernel
    · refine ⟨?_, ?_, ?_⟩ <;> rw [← cut_none] <;> decide +kernel
    · exact ⟨by rw [← cut_none]; decide +kernel, fun _ => by rw [← cut_none]; decide +kernel⟩

/-- **C25 is false** if the replaced text has a comment `/* … */` in it. -/
theorem C25_counterexample_comment : ∃ f : Patched, Unmarked f.original ∧ cleanPatch f.text ≠ f.original := by
  refine ⟨⟨[("f(){".toList, .region "A".toList "g(/*c*/)".toList "h()".toList)], "}".toList⟩, ?_, by decide +kernel⟩
  refine ⟨?_, ?_, ?_⟩ <;> rw [← cut_none] <;> decide +kernel

/-- **C25 is false** if a replaced directive is not at the end of its line: the rest of the line is lost. -/
theorem C25_counterexample_line : ∃ f : Patched, Unmarked f.original ∧
    f.original = "//go:linkname a b\nfunc a()\n".toList ∧ cleanPatch f.text = "//go:linkname a\nfunc a()\n".toList := by
  refine ⟨⟨[([], .line "A".toList "//go:linkname a".toList "//go:linkname c".toList)], " b\nfunc a()\n".toList⟩, ?_,
    by decide +kernel, by decide +kernel⟩
  refine ⟨?_, ?_, ?_⟩ <;> rw [← cut_none] <;> decide +kernel

/-! ### C26: anchors -/

theorem indexSeqLoop_anchored (bg : Bool) : ∀ (parts : List (Str × Str)) (rest : Str) (i : Int) (c : Nat) (rd : Nat × Nat),
    (∀ x ∈ parts, x.2 ≠ [] ∧ NotBefore x.2 x.1) →
    ∃ rd', indexSeqLoop bg (parts.map (·.2)) i c rd (joined parts rest) =
        some (rd'.1, rd'.2, c + (joined parts rest).length - rest.length) ∧
      rest.length ≤ (joined parts rest).length ∧
      ((∀ k : Nat, k < parts.length → i ≠ k) → rd' = rd) ∧
      ∀ (l1 : List (Str × Str)) (u a : Str) (l2 : List (Str × Str)), parts = l1 ++ (u, a) :: l2 → i = l1.length →
        rd' = (if bg then c + (joined l1 u).length else c + (joined l1 u).length + a.length, a.length) := by
  intro parts rest
  induction parts with
  | nil =>
    intro i c rd _
    refine ⟨rd, ?_, ?_, fun _ => rfl, ?_⟩
    · simp [indexSeqLoop, joined]
    · simp [joined]
    · intro l1 u a l2 h; simp at h
  | cons x parts ih =>
    intro i c rd hf
    obtain ⟨u, a⟩ := x
    obtain ⟨ha, hn⟩ := hf _ (List.mem_cons_self ..)
    simp only at ha hn
    have hcut : cut a (u ++ a ++ joined parts rest) = some (u, joined parts rest) := cut_append ha hn
    obtain ⟨rd', h1, h2, h3, h4⟩ := ih (i - 1) (c + u.length + a.length)
      (if i = 0 then (if bg then c + u.length + a.length - a.length else c + u.length + a.length, a.length) else rd)
      (fun y hy => hf y (List.mem_cons_of_mem _ hy))
    refine ⟨rd', ?_, ?_, ?_, ?_⟩
    · simp only [List.map_cons, joined, indexSeqLoop, hcut]
      rw [h1]
      simp only [List.length_append]
      congr 3
      omega
    · simp only [joined, List.length_append]; omega
    · intro hk
      have hi : i ≠ 0 := by
        have := hk 0 (by simp)
        simpa using this
      rw [h3, if_neg hi]
      intro k hk2 he
      exact hk (k + 1) (by simp; omega) (by omega)
    · intro l1 v b l2 he hi
      cases l1 with
      | nil =>
        simp only [List.nil_append, List.cons.injEq, Prod.mk.injEq] at he
        obtain ⟨⟨rfl, rfl⟩, rfl⟩ := he
        simp only [List.length_nil] at hi
        rw [h3 (by intro k _; omega), if_pos (by simpa using hi)]
        simp only [joined]
        congr 1
        split <;> omega
      | cons y l1 =>
        simp only [List.cons_append, List.cons.injEq] at he
        obtain ⟨rfl, he⟩ := he
        have := h4 l1 v b l2 he (by simp only [List.length_cons] at hi; omega)
        rw [this]
        simp only [joined, List.length_append]
        congr 1
        split <;> omega

theorem indexSeqLoop_occurs (bg : Bool) : ∀ (seq : List Str) (i : Int) (c : Nat) (rd : Nat × Nat) (s : Str) (r : Nat × Nat × Nat),
    indexSeqLoop bg seq i c rd s = some r → Occurs s seq := by
  intro seq
  induction seq with
  | nil => intro i c rd s r _; exact ⟨[], s, rfl, rfl⟩
  | cons a seq ih =>
    intro i c rd s r h
    simp only [indexSeqLoop] at h
    cases hc : cut a s with
    | none => rw [hc] at h; cases h
    | some p =>
      rw [hc] at h
      obtain ⟨parts, rest, h1, h2⟩ := ih _ _ _ _ _ h
      refine ⟨(p.1, a) :: parts, rest, ?_, by simp [h2]⟩
      rw [joined, ← h1]
      exact cut_eq hc

theorem joined_split (l1 : List (Str × Str)) (u a : Str) (l2 : List (Str × Str)) (rest : Str) :
    joined (l1 ++ (u, a) :: l2) rest = joined l1 u ++ a ++ joined l2 rest := by
  induction l1 with
  | nil => rfl
  | cons x l1 ih => simp only [List.cons_append, joined, ih, List.append_assoc]

theorem joined_rest (l : List (Str × Str)) (rest : Str) : joined l rest = joined l [] ++ rest := by
  induction l with
  | nil => rfl
  | cons x l ih => simp only [joined, List.append_assoc]; rw [← ih]

theorem sequenceOffset_found {content rest u a : Str} {seq : List Str} {l1 l2 : List (Str × Str)}
    (h : Anchored content seq (l1 ++ (u, a) :: l2) rest) (bg : Bool) :
    ∃ e, sequenceOffset content seq l1.length bg =
      some (some (if bg then (joined l1 u).length else (joined l1 u).length + a.length, a.length, e)) ∧
      content.drop e = rest := by
  obtain ⟨rd', h1, h2, -, h4⟩ := indexSeqLoop_anchored bg (l1 ++ (u, a) :: l2) rest l1.length 0 (0, 0) h.first
  have h4 := h4 l1 u a l2 rfl rfl
  rw [h.anchors] at h1
  refine ⟨0 + (joined (l1 ++ (u, a) :: l2) rest).length - rest.length, ?_, ?_⟩
  · unfold sequenceOffset
    have hlen : seq.length = l1.length + (l2.length + 1) := by rw [← h.anchors]; simp
    rw [if_neg h.nonempty, if_neg (by omega), if_neg (by omega), h.text, h1, h4]
    simp only [Nat.zero_add]
  · rw [h.text]
    conv => lhs; arg 2; rw [joined_rest]
    rw [joined_rest, Nat.zero_add, List.length_append, Nat.add_sub_cancel, List.drop_left]

theorem sequenceOffset_absent {rest : Str} {seq : List Str} {i : Nat} (hi : i < seq.length) (h : ¬ Occurs rest seq) (bg : Bool) :
    sequenceOffset rest seq i bg = some none := by
  unfold sequenceOffset
  rw [if_neg (by rintro rfl; simp at hi), if_neg (by omega), if_neg (by omega)]
  cases hc : indexSeqLoop bg seq i 0 (0, 0) rest with
  | none => rfl
  | some r => exact absurd (indexSeqLoop_occurs _ _ _ _ _ _ _ hc) h

theorem updateAtAnchor_eq {content rest u a : Str} {seq : List Str} {l1 l2 : List (Str × Str)}
    (h : Anchored content seq (l1 ++ (u, a) :: l2) rest) (hu : ¬ Occurs rest seq) (bm em t : Str) (pos : Position) :
    updateAtAnchor content bm em seq l1.length pos t =
      insertOrReplace content (pos = .replace) a.length bm em
        (if pos = .after then (joined l1 u).length + a.length else (joined l1 u).length) t := by
  unfold updateAtAnchor
  have hlen : l1.length < seq.length := by rw [← h.anchors]; simp
  obtain ⟨e, h1, h2⟩ := sequenceOffset_found h (pos = .before || pos = .replace)
  rw [h1]
  simp only [h2, sequenceOffset_absent hlen hu]
  congr 1
  cases pos <;> simp

theorem tryReplace_absent {content bm em t : Str} (hb : bm ≠ []) (he : em ≠ []) (h : ¬ bm <:+: content) :
    tryReplaceWithMark content bm em t = some none := by
  unfold tryReplaceWithMark
  rw [if_neg (by simp [hb, he]), cut_none.2 h]

/-- **C26.** The first time, `UpdateContent` inserts the text, between its markers, behind or before the `i`-th anchor, or
    replaces the anchor (which is kept in a comment), and changes nothing else: the text is that of the file with one
    edit. -/
theorem C26_insert (content rest u a : Str) (seq : List Str) (l1 l2 : List (Str × Str))
    (h : Anchored content seq (l1 ++ (u, a) :: l2) rest) (hu : ¬ Occurs rest seq)
    (bm em t : Str) (hb : bm ≠ []) (he : em ≠ []) (hm : ¬ bm <:+: content) (ht : t ≠ []) :
    content = joined l1 u ++ a ++ joined l2 rest ∧
    updateContent content bm em seq l1.length .after t = some (joined l1 u ++ a ++ (bm ++ t ++ em) ++ joined l2 rest) ∧
    updateContent content bm em seq l1.length .before t = some (joined l1 u ++ (bm ++ t ++ em) ++ a ++ joined l2 rest) ∧
    updateContent content bm em seq l1.length .replace t =
      some (joined l1 u ++ (bm ++ "/*old:".toList ++ a ++ "*/".toList ++ t ++ em) ++ joined l2 rest) := by
  have hc : content = joined l1 u ++ a ++ joined l2 rest := by rw [h.text, joined_split]
  have htr : tryReplaceWithMark content bm em t = some none := tryReplace_absent hb he hm
  have hct : contains content (bm ++ t ++ em) = false := by
    rw [Bool.eq_false_iff, ne_eq, contains_iff]
    exact fun hi => hm ((List.infix_append [] bm (t ++ em)).trans (by simpa using hi))
  refine ⟨hc, ?_, ?_, ?_⟩
  · unfold updateContent
    rw [if_neg (by decide), updateAtAnchor_eq h hu]
    unfold insertOrReplace
    rw [if_neg ht, htr]
    simp only [hct, reduceCtorEq, decide_false, Bool.false_eq_true, if_false, if_true]
    congr 1
    rw [hc]
    have : (joined l1 u).length + a.length = (joined l1 u ++ a).length := by simp
    rw [this, List.take_left, List.drop_left]
  · unfold updateContent
    rw [if_neg (by decide), updateAtAnchor_eq h hu]
    unfold insertOrReplace
    rw [if_neg ht, htr]
    simp only [hct, reduceCtorEq, decide_false, Bool.false_eq_true, if_false]
    congr 1
    rw [hc, List.append_assoc (joined l1 u) a, List.take_left, List.drop_left]
    simp only [List.append_assoc]
  · unfold updateContent
    rw [if_pos rfl, htr]
    simp only
    rw [updateAtAnchor_eq h hu]
    unfold insertOrReplace
    rw [if_neg ht, htr]
    simp only [decide_true, if_true, reduceCtorEq, if_false]
    congr 1
    have h1 : (content.drop (joined l1 u).length).take a.length = a := by
      rw [hc, List.append_assoc, List.drop_left, List.take_left]
    have h2 : content.drop ((joined l1 u).length + a.length) = joined l2 rest := by
      have : (joined l1 u).length + a.length = (joined l1 u ++ a).length := by simp
      rw [this, hc, List.drop_left]
    have h3 : content.take (joined l1 u).length = joined l1 u := by
      rw [hc, List.append_assoc, List.take_left]
    rw [h1, h2, h3]
    generalize "/*old:".toList = x
    generalize "*/".toList = y
    simp only [List.append_assoc]

/-- **C26.** If the anchors are missing, or occur again behind their first occurrence, `UpdateContent` panics rather than
    to guess a place. -/
theorem C26_ambiguous (content bm em t : Str) (seq : List Str) (i : Nat) (hi : i < seq.length) (pos : Position)
    (hp : pos ≠ .replace) :
    (¬ Occurs content seq → updateContent content bm em seq i pos t = none) ∧
    (∀ parts rest parts2 rest2, Anchored content seq parts rest → Anchored rest seq parts2 rest2 →
      updateContent content bm em seq i pos t = none) := by
  constructor
  · intro h
    unfold updateContent
    rw [if_neg hp]
    unfold updateAtAnchor
    rw [sequenceOffset_absent hi h]
  · intro parts rest parts2 rest2 h h2
    have hl : i < parts.length := by rw [← h.anchors] at hi; simpa using hi
    have hl2 : i < parts2.length := by rw [← h2.anchors] at hi; simpa using hi
    have hsplit : ∀ (l : List (Str × Str)), i < l.length → ∃ l1 u a l2, l = l1 ++ (u, a) :: l2 ∧ l1.length = i := by
      intro l hl
      refine ⟨l.take i, l[i].1, l[i].2, l.drop (i + 1), ?_, by simp; omega⟩
      rw [← List.drop_eq_getElem_cons hl, List.take_append_drop]
    obtain ⟨l1, u, a, l2, rfl, rfl⟩ := hsplit parts hl
    obtain ⟨m1, u', a', m2, rfl, hm⟩ := hsplit parts2 hl2
    obtain ⟨e, h3, h4⟩ := sequenceOffset_found h (pos = .before || pos = .replace)
    obtain ⟨e', h5, h6⟩ := sequenceOffset_found h2 false
    unfold updateContent
    rw [if_neg hp]
    unfold updateAtAnchor
    rw [h3]
    simp only [h4]
    rw [← hm, h5]

/-- **C26.** Doing it again, with a new text, replaces the text between the markers and changes nothing else: the edit is
    not made twice. -/
theorem C26_again (content seqrest : Str) (seq : List Str) (l1 l2 : List (Str × Str)) (u a x y old t bm em : Str)
    (h : Anchored content seq (l1 ++ (u, a) :: l2) seqrest) (hu : ¬ Occurs seqrest seq)
    (hc : content = x ++ bm ++ old ++ em ++ y) (hb : bm ≠ []) (he : em ≠ [])
    (h1 : NotBefore bm x) (h2 : NotBefore em (x ++ bm ++ old)) (ho : ¬ "/*old:".toList <:+: old) (ht : t ≠ [])
    (pos : Position) :
    updateContent content bm em seq l1.length pos t = some (x ++ bm ++ t ++ em ++ y) := by
  have e1 : cut bm content = some (x, old ++ em ++ y) := by
    rw [hc]
    have := cut_append (b := old ++ em ++ y) hb h1
    simpa only [List.append_assoc] using this
  have e2 : cut em content = some (x ++ bm ++ old, y) := by
    rw [hc]
    exact cut_append he h2
  have htr : tryReplaceWithMark content bm em t = some (some (x ++ bm ++ t ++ em ++ y)) := by
    unfold tryReplaceWithMark
    rw [if_neg (by simp [hb, he]), e1]
    simp only [e2]
    rw [if_neg (by simp)]
    have e3 : (content.take (x ++ bm ++ old).length).drop (x.length + bm.length) = old := by
      have h5 : content = (x ++ bm ++ old) ++ (em ++ y) := by rw [hc]; simp only [List.append_assoc]
      have h6 : x.length + bm.length = (x ++ bm).length := by simp
      rw [h5, List.take_left, h6, List.drop_left]
    rw [e3]
    have e4 : extractOld old = [] := by
      unfold extractOld
      rw [cut_none.2 ho]
    rw [e4, List.nil_append]
  unfold updateContent
  split
  · rw [htr]
  · rw [updateAtAnchor_eq h hu]
    unfold insertOrReplace
    rw [if_neg ht, htr]

/-- `func f() { g() }`, with the call as anchor. -/
example : Anchored "func f() { g() }".toList ["f()".toList, "g()".toList]
    ([("func ".toList, "f()".toList)] ++ (" { ".toList, "g()".toList) :: []) " }".toList ∧
    updateContent "func f() { g() }".toList "/*<begin x>*/".toList "/*<end x>*/".toList ["f()".toList, "g()".toList] 1
      .before "h();".toList = some "func f() { /*<begin x>*/h();/*<end x>*/g() }".toList ∧
    updateContent "func f() { /*<begin x>*/h();/*<end x>*/g() }".toList "/*<begin x>*/".toList "/*<end x>*/".toList
      ["f()".toList, "g()".toList] 1 .before "k();".toList = some "func f() { /*<begin x>*/k();/*<end x>*/g() }".toList := by
  refine ⟨⟨by decide +kernel, by decide +kernel, by decide +kernel, ?_⟩, by decide +kernel, by decide +kernel⟩
  intro x hx
  simp only [List.cons_append, List.nil_append, List.mem_cons, List.not_mem_nil, or_false] at hx
  rcases hx with rfl | rfl
  · exact ⟨by decide +kernel, by unfold NotBefore; rw [← cut_none]; decide +kernel⟩
  · exact ⟨by decide +kernel, by unfold NotBefore; rw [← cut_none]; decide +kernel⟩

/-- **C26 is false** for replacements: the second time, the text that was replaced comes back in front of the new text,
    and is no longer known as the original text, so that cleaning the file loses it. -/
theorem C26_counterexample_replace : ∃ (content bm em : Str) (seq : List Str) (t once twice : Str),
    updateContent content bm em seq 0 .replace t = some once ∧
    updateContent once bm em seq 0 .replace t = some twice ∧ twice ≠ once ∧
    once = "a /*<begin x>*//*old:b*/c/*<end x>*/ d".toList ∧ twice = "a /*<begin x>*/bc/*<end x>*/ d".toList ∧
    cleanPatch once = content ∧ cleanPatch twice ≠ content :=
  ⟨"a b d".toList, "/*<begin x>*/".toList, "/*<end x>*/".toList, ["b".toList], "c".toList,
    "a /*<begin x>*//*old:b*/c/*<end x>*/ d".toList, "a /*<begin x>*/bc/*<end x>*/ d".toList, by decide +kernel,
    by decide +kernel, by decide +kernel, by decide +kernel, by decide +kernel, by decide +kernel, by decide +kernel⟩

/-! ### C56: patching a file that is patched already -/

/-- **C56 (part).** `EditFile` hands the original of the file to the callback, whatever edits the file has, and writes the
    result. Missing: a callback that changes nothing, see `C56_counterexample`. -/
theorem C56_edit_partial (f : Patched) (ho : Unmarked f.original) (hu : Undoable Unmarked LabelOk f.parts f.rest)
    (callback : Str → Option Str) (new : Str) (hc : callback f.original = some new) (hn : new ≠ f.original) :
    editFile f.text callback = (new, true) := by
  unfold editFile
  simp only [C25_clean f ho hu, hc, if_neg hn]

/-- **C56.** If the callback fails, the file is as before. -/
theorem C56_error (f : Patched) (ho : Unmarked f.original) (hu : Undoable Unmarked LabelOk f.parts f.rest)
    (callback : Str → Option Str) (hc : callback f.original = none) : editFile f.text callback = (f.text, false) := by
  unfold editFile
  simp only [C25_clean f ho hu, hc]

/-- **C56.** Patching twice has the effect of patching once, if the callback makes edits that can be undone. -/
theorem C56_idempotent (f g : Patched) (ho : Unmarked f.original) (hu : Undoable Unmarked LabelOk f.parts f.rest)
    (hg : Undoable Unmarked LabelOk g.parts g.rest) (hgo : g.original = f.original)
    (callback : Str → Option Str) (hc : callback f.original = some g.text) (hn : g.text ≠ g.original) :
    editFile f.text callback = (g.text, true) ∧ editFile (editFile f.text callback).1 callback = (g.text, true) := by
  have h1 : editFile f.text callback = (g.text, true) := C56_edit_partial f ho hu callback g.text hc (by rwa [← hgo])
  refine ⟨h1, ?_⟩
  rw [h1]
  exact C56_edit_partial g (by rw [hgo]; exact ho) hg callback g.text (by rw [hgo]; exact hc) hn

/-- **C56 is false** if the new version of the patch has nothing to change in the file: the edits of the old version are
    not removed. -/
theorem C56_counterexample : ∃ (f : Patched) (callback : Str → Option Str), callback f.original = some f.original ∧
    cleanPatch f.text = f.original ∧ (editFile f.text callback).1 ≠ f.original ∧ (editFile f.text callback).2 = true :=
  ⟨sampleFile, some, rfl, by decide +kernel, by decide +kernel, by decide +kernel⟩

example : (editFile sampleFile.text (fun c => updateContent c "/*<begin n>*/".toList "/*<end n>*/".toList
    ["func q()".toList] 0 .after "{}".toList)).1 =
    "package p
func f() { g() }
//go:linkname q r
func q()/*<begin n>*/{}/*<end n>*/
".toList := by decide +kernel

/-- C26: `RemoveMarker` removes the first occurrence of the marker and the line end after it, if there is one, and nothing
    else; without a marker it fails. -/
theorem C26_remove (marker a b : Str) (hm : marker ≠ []) (h : NotBefore marker a) :
    removeMarker (a ++ marker ++ "\n".toList ++ b) marker = some (a ++ b) ∧
    removeMarker (a ++ marker ++ "\r\n".toList ++ b) marker = some (a ++ b) ∧
    (b.head? ≠ some '\n' → b.head? ≠ some '\r' → removeMarker (a ++ marker ++ b) marker = some (a ++ b)) ∧
    ∀ content, removeMarker content marker = none ↔ ¬ marker <:+: content := by
  have e : ∀ x, cut marker (a ++ marker ++ x) = some (a, x) := fun x => cut_append hm h
  refine ⟨?_, ?_, ?_, ?_⟩
  · unfold removeMarker; rw [List.append_assoc (a ++ marker), e]; rfl
  · unfold removeMarker; rw [List.append_assoc (a ++ marker), e]; rfl
  · intro h1 h2
    unfold removeMarker
    rw [e, Option.map_some]
    cases b with
    | nil => rfl
    | cons c b =>
      simp only [List.head?_cons, ne_eq, Option.some.injEq] at h1 h2
      congr 2
      split
      · rename_i h'; injection h' with h' _; exact absurd h' h2
      · rename_i h'; injection h' with h' _; exact absurd h' h2
      · rename_i h'; injection h' with h' _; exact absurd h' h1
      · rfl
  · intro content
    unfold removeMarker
    rw [Option.map_eq_none_iff, cut_none]

example : removeMarker "//go:build ignore\n\npackage x\n".toList "//go:build ignore".toList =
    some "\npackage x\n".toList := by decide +kernel

theorem sequenceOffset_last {content rest u a : Str} {seq : List Str} {l : List (Str × Str)}
    (h : Anchored content seq (l ++ [(u, a)]) rest) :
    ∃ x y, sequenceOffset content seq (-1) false = some (some ((joined l u ++ a).length, x, y)) ∧
      content = joined l u ++ a ++ rest := by
  obtain ⟨rd', h1, -, -, h4⟩ := indexSeqLoop_anchored false (l ++ [(u, a)]) rest l.length 0 (0, 0) h.first
  have h4 := h4 l u a [] rfl rfl
  rw [h.anchors] at h1
  refine ⟨a.length, 0 + (joined (l ++ [(u, a)]) rest).length - rest.length, ?_, ?_⟩
  · unfold sequenceOffset
    have hlen : (seq.length : Int) - 1 = (l.length : Int) := by rw [← h.anchors]; simp
    rw [if_neg h.nonempty, if_pos rfl, hlen, h.text, h1, h4]
    simp only [List.length_append, Nat.zero_add, Bool.false_eq_true, if_false]
  · rw [h.text, joined_split]
    rfl

/-- **C26.** `ReplaceContentAfter` replaces the first occurrence of the target behind the anchors by the marked text and
    changes nothing else. -/
theorem C26_replaceAfter (content u a x y target t bm em : Str) (seq : List Str) (l : List (Str × Str))
    (h : Anchored content seq (l ++ [(u, a)]) (x ++ target ++ y)) (hb : bm ≠ []) (he : em ≠ []) (hm : ¬ bm <:+: content)
    (ht : t ≠ []) (hn : NotBefore target x) (htg : target ≠ []) :
    content = joined l u ++ a ++ (x ++ target ++ y) ∧
    replaceContentAfter content bm em seq target t = some (joined l u ++ a ++ x ++ (bm ++ t ++ em) ++ y) := by
  obtain ⟨p, q, h1, h2⟩ := sequenceOffset_last h
  refine ⟨h2, ?_⟩
  unfold replaceContentAfter
  rw [if_neg ht, h1]
  have hc : contains content (bm ++ t ++ em) = false := by
    cases hc : contains content (bm ++ t ++ em) with
    | false => rfl
    | true =>
      exfalso
      apply hm
      have : (bm ++ t ++ em) <:+: content := contains_iff.1 hc
      exact List.IsInfix.trans ⟨[], t ++ em, by simp⟩ this
  simp only [hc, Bool.false_eq_true, if_false, tryReplace_absent hb he hm]
  have hd : content.drop (joined l u ++ a).length = x ++ target ++ y := by
    conv => lhs; arg 2; rw [h2]
    exact List.drop_left
  have hk : content.take (joined l u ++ a).length = joined l u ++ a := by
    conv => lhs; arg 2; rw [h2]
    exact List.take_left
  rw [hd, cut_append htg hn]
  simp only [hk]

example : replaceContentAfter "f( g( x x".toList "<".toList ">".toList ["f(".toList, "g(".toList] "x".toList "y".toList =
    some "f( g( <y> x".toList := by decide +kernel

/-- **C26.** `AddContentAfterName` puts the marked text right behind the package name. -/
theorem C26_afterName (a w name rest t bm em : Str) (hb : bm ≠ []) (he : em ≠ []) (ha : NotBefore "package ".toList a)
    (hw : ∀ c ∈ w, c = ' ' ∨ c = '\t') (hn : name ≠ []) (hnt : ∀ c ∈ name, isToken c = true)
    (hr : ∀ c, rest.head? = some c → isToken c = false)
    (hm : ¬ bm <:+: a ++ "package ".toList ++ (w ++ name ++ rest)) :
    addContentAfterName (a ++ "package ".toList ++ (w ++ name ++ rest)) bm em t =
      some (a ++ "package ".toList ++ w ++ name ++ (bm ++ t ++ em) ++ rest) := by
  have hws : ∀ c ∈ w, (fun c => decide (c = ' ') || decide (c = '\t')) c = true := by
    intro c hc
    rcases hw c hc with rfl | rfl <;> decide
  have hs : splitPackageName (a ++ "package ".toList ++ (w ++ name ++ rest)) =
      some (a ++ "package ".toList ++ w ++ name, rest) := by
    unfold splitPackageName
    rw [cut_append (by decide) ha]
    cases name with
    | nil => exact absurd rfl hn
    | cons c cs =>
      have hc := hnt c (by simp)
      have hsp : (decide (c = ' ') || decide (c = '\t')) = false := by
        cases h : (decide (c = ' ') || decide (c = '\t')) with
        | false => rfl
        | true =>
          rw [Bool.or_eq_true, decide_eq_true_iff, decide_eq_true_iff] at h
          rcases h with rfl | rfl <;> exact absurd hc (by decide)
      have h1 : (w ++ c :: cs ++ rest).dropWhile (fun c => decide (c = ' ') || decide (c = '\t')) = c :: (cs ++ rest) := by
        rw [List.append_assoc, List.dropWhile_append_of_pos hws, List.cons_append, List.dropWhile_cons_of_neg (by simp [hsp])]
      have h2 : (w ++ c :: cs ++ rest).takeWhile (fun c => decide (c = ' ') || decide (c = '\t')) = w := by
        rw [List.append_assoc, List.takeWhile_append_of_pos hws, List.cons_append, List.takeWhile_cons_of_neg (by simp [hsp]),
          List.append_nil]
      have hcs : ∀ d ∈ cs, isToken d = true := fun d hd => hnt d (List.mem_cons_of_mem _ hd)
      have h3 : (cs ++ rest).takeWhile isToken = cs := by
        rw [List.takeWhile_append_of_pos hcs]
        cases rest with
        | nil => simp
        | cons d r => rw [List.takeWhile_cons_of_neg (by simp [hr d rfl]), List.append_nil]
      have h4 : (cs ++ rest).dropWhile isToken = rest := by
        rw [List.dropWhile_append_of_pos hcs]
        cases rest with
        | nil => simp
        | cons d r => rw [List.dropWhile_cons_of_neg (by simp [hr d rfl])]
      simp only [h1, h2, h3, h4, hc, if_true]
  unfold addContentAfterName
  rw [hs]
  simp only [tryReplace_absent hb he hm]
  generalize "package ".toList = z
  simp only [List.append_assoc]

example : addContentAfterName "// doc\npackage\tmain\n".toList "<".toList ">".toList ";x".toList = none ∧
    addContentAfterName "// doc\npackage main\n".toList "<".toList ">".toList ";x".toList =
      some "// doc\npackage main<;x>\n".toList := by decide +kernel

/-- **C26**: `package ` is also found in a comment before the package clause. -/
theorem C26_counterexample_comment :
    addContentAfterName "// package x is\npackage x\n".toList "<".toList ">".toList ";y".toList =
      some "// package x<;y> is\npackage x\n".toList := by decide +kernel

end Verif.Instrument.PatchText
