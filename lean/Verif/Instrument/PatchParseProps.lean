/-
C58: patch files are read as they are written.
-/
import Verif.Instrument.PatchParse
import Verif.Instrument.PatchParseSpec
import Verif.Instrument.PatchPlaceProps

namespace Verif.Instrument.PatchParse
open Verif.Text Spec
open Verif.Instrument.PatchApply hiding Spec.Edit

/-! ### Lines -/

theorem lines_ne (s : Str) : lines s ≠ [] := by
  cases s with
  | nil => simp [lines]
  | cons c s =>
    rw [lines]
    split
    · simp
    · split <;> simp

theorem lines_append {l : Str} (h : '\n' ∉ l) (s : Str) : lines (l ++ ['\n'] ++ s) = l :: lines s := by
  induction l with
  | nil => simp [lines]
  | cons c l ih =>
    simp only [List.mem_cons, not_or] at h
    have := ih h.2
    simp only [List.append_assoc, List.cons_append, List.nil_append] at this ⊢
    rw [lines, if_neg (fun e => h.1 e.symm), this]

theorem lines_linesText (ls : List Line) (h : ∀ l ∈ ls, '\n' ∉ l.text) : lines (linesText ls) = ls.map Line.text ++ [[]] := by
  induction ls with
  | nil => rfl
  | cons l ls ih =>
    rw [linesText, lines_append (h l (by simp)), ih fun l' hl => h l' (List.mem_cons_of_mem _ hl)]
    rfl

theorem trimRight_of {x w : Str} {c : Char} (hc : isTrail c = false) (hw : ∀ d ∈ w, isTrail d = true) :
    trimRight (x ++ [c] ++ w) = x ++ [c] := by
  unfold trimRight
  rw [List.reverse_append, List.dropWhile_append_of_pos (by simpa using hw), List.reverse_append]
  simp [hc]

theorem trimRight_white {w : Str} (hw : ∀ d ∈ w, isTrail d = true) : trimRight w = [] := by
  unfold trimRight
  have h2 := List.dropWhile_append_of_pos (l₁ := w.reverse) (p := isTrail) (l₂ := []) (by simpa using hw)
  rw [List.append_nil] at h2
  rw [h2]
  rfl

theorem white_trail {w : Str} (h : Trail w) : ∀ d ∈ w, isTrail d = true := by
  intro d hd
  rcases h d hd with rfl | rfl | rfl <;> decide

theorem isTrail_of_space {c : Char} (h : isSpace c = false) : isTrail c = false := by
  unfold isSpace at h
  unfold isTrail
  simp only [Bool.or_eq_false_iff] at h ⊢
  exact ⟨⟨h.1.1.1.1.1, h.1.1.1.1.2⟩, h.1.1.2⟩

theorem splitCommand_of {i w arg : Str} (hi : White i) (hw : ' ' ∉ w) (hh : ∃ c x, w = c :: x ∧ isIndent c = false)
    (ht : trimRight (i ++ (w ++ [' '] ++ arg)) = i ++ (w ++ [' '] ++ arg)) : splitCommand (i ++ (w ++ [' '] ++ arg)) = (w, arg) := by
  unfold splitCommand
  rw [ht, List.dropWhile_append_of_pos (by
    intro d hd
    rcases hi d hd with rfl | rfl <;> decide)]
  obtain ⟨c, x, rfl, hc⟩ := hh
  have e : ((c :: x) ++ [' '] ++ arg).dropWhile isIndent = (c :: x) ++ [' '] ++ arg := by simp [hc]
  simp only [e, cut_char hw]

theorem splitCommand_word {i w : Str} (hi : White i) (hw : ' ' ∉ w) (hh : ∃ c x, w = c :: x ∧ isIndent c = false)
    (ht : trimRight (i ++ w) = i ++ w) : splitCommand (i ++ w) = (w, []) := by
  unfold splitCommand
  rw [ht, List.dropWhile_append_of_pos (by
    intro d hd
    rcases hi d hd with rfl | rfl <;> decide)]
  obtain ⟨c, x, rfl, hc⟩ := hh
  have e : (c :: x).dropWhile isIndent = c :: x := by simp [hc]
  simp only [e]
  have : cut [' '] (c :: x) = none := cut_none.2 fun hx => hw (hx.subset (by simp))
  rw [this]

/-! ### Commands -/

/-- What `parseLine` does with a command word and the rest of the line. -/
def dispatch (cmd rest : Str) : Option Command :=
  if cmd = "goto".toList then parseGoto rest
  else if cmd = "match".toList then some (.search rest)
  else if cmd = "find_for_replace".toList then some (.findForReplace rest)
  else if cmd = "insert_before".toList then withText .insertBefore rest
  else if cmd = "insert_after_line".toList then withText .insertAfterLine rest
  else if cmd = "insert_after".toList then withText .insertAfter rest
  else if cmd = "replace".toList then withText .replace rest
  else if cmd = "newline".toList then some .newline
  else if cmd = "copy_func".toList then parseCopyFunc rest
  else if cmd = "replace_directive".toList then parseReplaceDirective rest
  else none

theorem parseLine_eq {line cmd rest : Str} (h : splitCommand line = (cmd, rest)) : parseLine line = dispatch cmd rest := by
  unfold parseLine
  rw [h]
  rfl

theorem isPrefixOf_append (p s : Str) : p.isPrefixOf (p ++ s) = true := List.isPrefixOf_iff_prefix.2 ⟨s, rfl⟩

/-- The last character of a line that ends in an argument. -/
theorem last_of {p t : Str} (h : OneLine (p ++ t)) (ht : t ≠ []) : ∃ x c, t = x ++ [c] ∧ isSpace c = false := by
  obtain ⟨-, x, c, hx, hc⟩ := h
  rcases List.eq_nil_or_concat t with rfl | ⟨y, d, rfl⟩
  · exact absurd rfl ht
  · rw [List.concat_eq_append, ← List.append_assoc] at hx
    obtain ⟨-, h2⟩ := List.append_inj' hx rfl
    injection h2 with h2
    subst h2
    exact ⟨y, d, List.concat_eq_append, hc⟩

theorem ne_of_oneLine {p t : Str} (hp : ∃ q, p = q ++ [' ']) (h : OneLine (p ++ t)) : t ≠ [] := by
  rintro rfl
  obtain ⟨q, rfl⟩ := hp
  obtain ⟨-, x, c, hx, hc⟩ := h
  rw [List.append_nil] at hx
  obtain ⟨-, h2⟩ := List.append_inj' hx rfl
  injection h2 with h2
  subst h2
  cases hc

theorem trimSpace_of {s : Str} (h1 : ∃ c x, s = c :: x ∧ isSpace c = false) (h2 : ∃ x c, s = x ++ [c] ∧ isSpace c = false) :
    trimSpace s = s := by
  unfold trimSpace
  obtain ⟨c, x, hx, hc⟩ := h1
  have e1 : s.dropWhile isSpace = s := by rw [hx]; simp [hc]
  rw [e1]
  obtain ⟨y, d, hy, hd⟩ := h2
  rw [hy]
  simp [hd]

theorem trimSuffix_append (a b : Str) : trimSuffix (a ++ b) b = a := by
  unfold trimSuffix
  rw [if_pos (by rw [List.isSuffixOf_iff_suffix]; exact List.suffix_append a b), List.length_append, Nat.add_sub_cancel,
    List.take_left]

theorem parseCopyFunc_of {a b : Str} (ha : NotBefore " as ".toList a) (hs : ∃ c x, a = c :: x ∧ isSpace c = false) :
    parseCopyFunc (a ++ " as ".toList ++ b ++ appendSuffix) = some (.copyFunc a b) := by
  have h1 : trimSpace (a ++ " as ".toList ++ b ++ appendSuffix) = a ++ " as ".toList ++ b ++ appendSuffix := by
    apply trimSpace_of
    · obtain ⟨c, x, rfl, hc⟩ := hs
      exact ⟨c, _, rfl, hc⟩
    · have e : appendSuffix = " append to file en".toList ++ ['d'] := by decide
      exact ⟨_, 'd', by rw [e, ← List.append_assoc], by decide⟩
  unfold parseCopyFunc
  rw [h1, List.append_assoc, cut_append (by decide) ha]
  simp only [Option.map_some, trimSuffix_append]

theorem parseReplaceDirective_of {o n : Str} (ho : NotBefore " with ".toList o) (hs : ∃ c x, o = c :: x ∧ isSpace c = false)
    (hn : ∃ x c, n = x ++ [c] ∧ isSpace c = false) :
    parseReplaceDirective (o ++ " with ".toList ++ n) = some (.replaceDirective o n) := by
  have h1 : trimSpace (o ++ " with ".toList ++ n) = o ++ " with ".toList ++ n := by
    apply trimSpace_of
    · obtain ⟨c, x, rfl, hc⟩ := hs
      exact ⟨c, _, rfl, hc⟩
    · obtain ⟨x, c, rfl, hc⟩ := hn
      exact ⟨_, c, by rw [← List.append_assoc], hc⟩
  unfold parseReplaceDirective
  rw [h1, cut_append (by decide) ho]
  rfl

theorem dispatch_goto (r : Str) : dispatch "goto".toList r = parseGoto r := by unfold dispatch; rw [if_pos rfl]
theorem dispatch_match (r : Str) : dispatch "match".toList r = some (.search r) := by
  unfold dispatch; rw [if_neg (by decide), if_pos rfl]
theorem dispatch_find (r : Str) : dispatch "find_for_replace".toList r = some (.findForReplace r) := by
  unfold dispatch; rw [if_neg (by decide), if_neg (by decide), if_pos rfl]
theorem dispatch_before (r : Str) : dispatch "insert_before".toList r = withText .insertBefore r := by
  unfold dispatch; rw [if_neg (by decide), if_neg (by decide), if_neg (by decide), if_pos rfl]
theorem dispatch_afterLine (r : Str) : dispatch "insert_after_line".toList r = withText .insertAfterLine r := by
  unfold dispatch; rw [if_neg (by decide), if_neg (by decide), if_neg (by decide), if_neg (by decide), if_pos rfl]
theorem dispatch_after (r : Str) : dispatch "insert_after".toList r = withText .insertAfter r := by
  unfold dispatch
  rw [if_neg (by decide), if_neg (by decide), if_neg (by decide), if_neg (by decide), if_neg (by decide), if_pos rfl]
theorem dispatch_replace (r : Str) : dispatch "replace".toList r = withText .replace r := by
  unfold dispatch
  rw [if_neg (by decide), if_neg (by decide), if_neg (by decide), if_neg (by decide), if_neg (by decide), if_neg (by decide),
    if_pos rfl]
theorem dispatch_newline (r : Str) : dispatch "newline".toList r = some .newline := by
  unfold dispatch
  rw [if_neg (by decide), if_neg (by decide), if_neg (by decide), if_neg (by decide), if_neg (by decide), if_neg (by decide),
    if_neg (by decide), if_pos rfl]
theorem dispatch_copy (r : Str) : dispatch "copy_func".toList r = parseCopyFunc r := by
  unfold dispatch
  rw [if_neg (by decide), if_neg (by decide), if_neg (by decide), if_neg (by decide), if_neg (by decide), if_neg (by decide),
    if_neg (by decide), if_neg (by decide), if_pos rfl]
theorem dispatch_directive (r : Str) : dispatch "replace_directive".toList r = parseReplaceDirective r := by
  unfold dispatch
  rw [if_neg (by decide), if_neg (by decide), if_neg (by decide), if_neg (by decide), if_neg (by decide), if_neg (by decide),
    if_neg (by decide), if_neg (by decide), if_neg (by decide), if_pos rfl]

/-- A command word and the rest of the line. -/
theorem written_word {c : Command} {t : Str} (h : Written c t) (ho : OneLine t) :
    (∃ w arg, t = w ++ [' '] ++ arg ∧ ' ' ∉ w ∧ (∃ d x, w = d :: x ∧ isIndent d = false ∧ d ≠ '#') ∧ dispatch w arg = some c) ∨
    (' ' ∉ t ∧ (∃ d x, t = d :: x ∧ isIndent d = false ∧ d ≠ '#') ∧ dispatch t [] = some c) := by
  have goto : ∀ {k : Str} (r : Str), (∀ s : Str, parseGoto (k ++ s) = some (.goto (k ++ s))) → t = "goto ".toList ++ k ++ r →
      ∃ w arg, t = w ++ [' '] ++ arg ∧ ' ' ∉ w ∧ (∃ d x, w = d :: x ∧ isIndent d = false ∧ d ≠ '#') ∧ dispatch w arg = some (.goto (k ++ r)) := by
    intro k r hk ht
    refine ⟨"goto".toList, k ++ r, ?_, by decide, ⟨'g', "oto".toList, by decide, by decide, by decide⟩, by rw [dispatch_goto, hk]⟩
    rw [ht, ← List.append_assoc]
    rfl
  cases h with
  | opening =>
    exact Or.inl ⟨"goto".toList, "opening {".toList, by decide, by decide, ⟨'g', "oto".toList, by decide, by decide, by decide⟩, by decide +kernel⟩
  | closing =>
    exact Or.inl ⟨"goto".toList, "closing }".toList, by decide, by decide, ⟨'g', "oto".toList, by decide, by decide, by decide⟩, by decide +kernel⟩
  | field n =>
    refine Or.inl (goto n (fun s => ?_) rfl)
    unfold parseGoto
    rw [if_pos]
    exact Or.inr (Or.inr (Or.inl (isPrefixOf_append _ _)))
  | struct n =>
    refine Or.inl (goto n (fun s => ?_) rfl)
    unfold parseGoto
    rw [if_pos]
    exact Or.inr (Or.inr (Or.inr (Or.inl (isPrefixOf_append _ _))))
  | iface n =>
    refine Or.inl (goto n (fun s => ?_) rfl)
    unfold parseGoto
    rw [if_pos]
    exact Or.inr (Or.inr (Or.inr (Or.inr (Or.inl (isPrefixOf_append _ _)))))
  | func n =>
    refine Or.inl (goto n (fun s => ?_) rfl)
    unfold parseGoto
    rw [if_pos]
    exact Or.inr (Or.inr (Or.inr (Or.inr (Or.inr (isPrefixOf_append _ _)))))
  | search t => exact Or.inl ⟨"match".toList, t, rfl, by decide, ⟨'m', "atch".toList, by decide, by decide, by decide⟩, dispatch_match t⟩
  | find t => exact Or.inl ⟨"find_for_replace".toList, t, rfl, by decide, ⟨'f', "ind_for_replace".toList, by decide, by decide, by decide⟩, dispatch_find t⟩
  | insertBefore t =>
    refine Or.inl ⟨"insert_before".toList, t, rfl, by decide, ⟨'i', "nsert_before".toList, by decide, by decide, by decide⟩, ?_⟩
    rw [dispatch_before, withText, if_neg (ne_of_oneLine ⟨"insert_before".toList, by decide⟩ ho)]
  | insertAfter t =>
    refine Or.inl ⟨"insert_after".toList, t, rfl, by decide, ⟨'i', "nsert_after".toList, by decide, by decide, by decide⟩, ?_⟩
    rw [dispatch_after, withText, if_neg (ne_of_oneLine ⟨"insert_after".toList, by decide⟩ ho)]
  | insertAfterLine t =>
    refine Or.inl ⟨"insert_after_line".toList, t, rfl, by decide, ⟨'i', "nsert_after_line".toList, by decide, by decide, by decide⟩, ?_⟩
    rw [dispatch_afterLine, withText, if_neg (ne_of_oneLine ⟨"insert_after_line".toList, by decide⟩ ho)]
  | replace t =>
    refine Or.inl ⟨"replace".toList, t, rfl, by decide, ⟨'r', "eplace".toList, by decide, by decide, by decide⟩, ?_⟩
    rw [dispatch_replace, withText, if_neg (ne_of_oneLine ⟨"replace".toList, by decide⟩ ho)]
  | newline => exact Or.inr ⟨by decide, ⟨'n', "ewline".toList, by decide, by decide, by decide⟩, dispatch_newline []⟩
  | copyFunc a b ha hs =>
    refine Or.inl ⟨"copy_func".toList, a ++ " as ".toList ++ b ++ appendSuffix, ?_, by decide,
      ⟨'c', "opy_func".toList, by decide, by decide, by decide⟩, ?_⟩
    · show "copy_func ".toList ++ a ++ " as ".toList ++ b ++ appendSuffix = _
      rw [show "copy_func ".toList = "copy_func".toList ++ [' '] by decide]
      generalize " as ".toList = x
      generalize "copy_func".toList = y
      generalize appendSuffix = z
      simp only [List.append_assoc]
    · rw [dispatch_copy, parseCopyFunc_of ha hs]
  | replaceDirective o n h1 hs =>
    refine Or.inl ⟨"replace_directive".toList, o ++ " with ".toList ++ n, ?_, by decide,
      ⟨'r', "eplace_directive".toList, by decide, by decide, by decide⟩, ?_⟩
    · rw [show "replace_directive ".toList = "replace_directive".toList ++ [' '] by decide]
      generalize " with ".toList = x
      generalize "replace_directive".toList = y
      simp only [List.append_assoc]
    · have hn : n ≠ [] := by
        refine ne_of_oneLine ⟨"replace_directive ".toList ++ o ++ " with".toList, ?_⟩ ho
        rw [show " with ".toList = " with".toList ++ [' '] by decide]
        generalize " with".toList = x
        generalize "replace_directive ".toList = y
        simp only [List.append_assoc]
      rw [dispatch_directive, parseReplaceDirective_of h1 hs (last_of ho hn)]

/-! ### Blocks -/

theorem line_text_nl {l : Line} (h : l.Ok) : '\n' ∉ l.text := by
  have hw : ∀ {w : Str}, Trail w → '\n' ∉ w := by
    intro w hw hn
    rcases hw _ hn with h | h | h <;> cases h
  have hi : ∀ {w : Str}, White w → '\n' ∉ w := by
    intro w hw hn
    rcases hw _ hn with h | h <;> cases h
  obtain ⟨-, h⟩ := h
  cases l with
  | blank w => exact hw h
  | comment t => simp only [Line.text, List.mem_cons, not_or]; exact ⟨by decide, h⟩
  | command i c t w =>
    obtain ⟨h1, h2, -, h3⟩ := h
    simp only [Line.text, List.mem_append, not_or]
    exact ⟨⟨hi h1, h3.1⟩, hw h2⟩

theorem parseLines_ok (ls : List Line) (h : ∀ l ∈ ls, l.Ok) (rest : List Str) (cs : List Command)
    (hr : parseLines rest = some cs) :
    parseLines (ls.map Line.text ++ rest) = some (ls.flatMap Line.command? ++ cs) := by
  induction ls with
  | nil => exact hr
  | cons l ls ih =>
    have ih := ih fun l' hl => h l' (List.mem_cons_of_mem _ hl)
    have hl := (h l (by simp)).2
    rw [List.map_cons, List.cons_append, parseLines]
    cases l with
    | blank w =>
      have hl : Trail w := hl
      simp only [Line.text, trimRight_white (white_trail hl), true_or, if_true, ih]
      rfl
    | comment t =>
      have e : (trimRight ('#' :: t)).head? = some '#' := by
        unfold trimRight
        rw [List.reverse_cons]
        by_cases ha : ∀ d ∈ t.reverse, isTrail d = true
        · rw [List.dropWhile_append_of_pos ha]
          simp [isTrail]
        · have : (t.reverse ++ ['#']).dropWhile isTrail = t.reverse.dropWhile isTrail ++ ['#'] := by
            rw [List.dropWhile_append]
            split
            · rename_i hx
              exfalso
              apply ha
              have : t.reverse.dropWhile isTrail = [] := by simpa using hx
              intro d hd
              cases hd' : isTrail d with
              | true => rfl
              | false =>
                exfalso
                have : ∀ (l : Str), d ∈ l → l.dropWhile isTrail ≠ [] := by
                  intro l
                  induction l with
                  | nil => simp
                  | cons e l ih =>
                    intro hm
                    rw [List.dropWhile_cons]
                    split
                    · rename_i he
                      rcases List.mem_cons.1 hm with rfl | hm
                      · rw [hd'] at he; cases he
                      · exact ih hm
                    · simp
                exact this _ hd ‹_›
            · rfl
          rw [this]
          simp
      simp only [Line.text, e, or_true, if_true, ih]
      rfl
    | command i c t w =>
      obtain ⟨hi, hw, hwr, ho⟩ := hl
      have ht : trimRight (i ++ t ++ w) = i ++ t := by
        obtain ⟨-, x, d, rfl, hd⟩ := ho
        rw [← List.append_assoc]
        exact trimRight_of (isTrail_of_space hd) (white_trail hw)
      have ht2 : trimRight (i ++ t) = i ++ t := by
        obtain ⟨-, x, d, rfl, hd⟩ := ho
        have := trimRight_of (x := i ++ x) (w := []) (isTrail_of_space hd) (by simp)
        simpa [List.append_assoc] using this
      have hpl : parseLine (i ++ t) = some c := by
        rcases written_word hwr ho with ⟨w', arg, rfl, h1, ⟨d, x, h2, h3, -⟩, h4⟩ | ⟨h1, ⟨d, x, h2, h3, -⟩, h4⟩
        · rw [parseLine_eq (splitCommand_of hi h1 ⟨d, x, h2, h3⟩ ht2), h4]
        · rw [parseLine_eq (splitCommand_word hi h1 ⟨d, x, h2, h3⟩ ht2), h4]
      have hne : ∃ d x, t = d :: x ∧ d ≠ '#' := by
        rcases written_word hwr ho with ⟨w', arg, rfl, h1, ⟨d, x, rfl, h3, h5⟩, h4⟩ | ⟨h1, ⟨d, x, h2, h3, h5⟩, h4⟩
        · exact ⟨d, _, rfl, h5⟩
        · exact ⟨d, x, h2, h5⟩
      have hcond : ¬ (i ++ t = [] ∨ (i ++ t).head? = some '#') := by
        obtain ⟨d, x, rfl, hd⟩ := hne
        rintro (h | h)
        · simp at h
        · cases i with
          | nil => simp at h; exact hd h
          | cons e i =>
            simp only [List.cons_append, List.head?_cons, Option.some.injEq] at h
            rcases hi e (by simp) with h' | h' <;> (rw [h'] at h; cases h)
      simp only [Line.text, ht]
      rw [if_neg hcond, hpl, Option.bind_some, ih]
      rfl

theorem close_lines (ls : List Line) (h : ∀ l ∈ ls, ¬ "</patch>".toList <:+: l.text) :
    ¬ "</patch>".toList <:+: linesText ls := by
  have e : "</patch>".toList = ['<', '/', 'p', 'a', 't', 'c', 'h', '>'] := by decide
  induction ls with
  | nil => rw [e]; simp [linesText]
  | cons l ls ih =>
    intro hi
    have ih := ih fun l' hl => h l' (List.mem_cons_of_mem _ hl)
    have h1 := h l (by simp)
    rw [linesText, List.append_assoc] at hi
    rcases infix_append_cases hi with hi | hi | ⟨x, y, hx, hy, he, -, hp⟩
    · exact h1 hi
    · rcases infix_append_cases hi with hi | hi | ⟨x, y, hx, hy, he, hs, -⟩
      · have := hi.subset (show '<' ∈ "</patch>".toList by decide)
        simp at this
      · exact ih hi
      · have hc : '\n' ∈ x := by
          cases x with
          | nil => exact absurd rfl hx
          | cons c x =>
            have := hs.subset (show c ∈ c :: x by simp)
            simp only [List.mem_singleton] at this
            subst this
            simp
        have : '\n' ∈ "</patch>".toList := by rw [he]; exact List.mem_append_left _ hc
        exact absurd this (by decide)
    · cases y with
      | nil => exact hy rfl
      | cons c y =>
        have hc : c = '\n' := (List.cons_prefix_cons.1 hp).1
        have : '\n' ∈ "</patch>".toList := by rw [he, ← hc]; simp
        exact absurd this (by decide)

theorem close_body (ls : List Line) (h : ∀ l ∈ ls, ¬ "</patch>".toList <:+: l.text) :
    NotBefore "</patch>".toList (['\n'] ++ linesText ls) := by
  have e : "</patch>".toList = '<' :: "/patch>".toList := by decide
  have h1 : ¬ "</patch>".toList <:+: ['\n'] ++ linesText ls := by
    rw [List.singleton_append, List.infix_cons_iff]
    rintro (hp | hi)
    · rw [e] at hp
      exact absurd (List.cons_prefix_cons.1 hp).1 (by decide)
    · exact close_lines ls h hi
  rw [e] at h1 ⊢
  exact notBefore_of_head (by decide) h1

theorem trimSpace_name {n : Str}
    (h : n = [] ∨ (∃ c x, n = c :: x ∧ isSpace c = false) ∧ ∃ x c, n = x ++ [c] ∧ isSpace c = false) :
    trimSpace (' ' :: n) = n := by
  have e : trimSpace (' ' :: n) = trimSpace n := by
    unfold trimSpace
    rw [List.dropWhile_cons_of_pos (by decide)]
  rw [e]
  rcases h with rfl | ⟨h1, h2⟩
  · rfl
  · exact trimSpace_of h1 h2

theorem parseBlock_ok {s : Section} (h : s.Ok) : parseBlock (' ' :: s.name) (['\n'] ++ linesText s.lines) = some s.block := by
  unfold parseBlock
  have h1 := lines_append (l := []) (by simp) (linesText s.lines)
  rw [List.nil_append] at h1
  rw [h1, lines_linesText _ fun l hl => line_text_nl (h.lines l hl), parseLines]
  rw [if_pos (Or.inl (by decide)), parseLines_ok s.lines h.lines [[]] [] (by decide), List.append_nil, Option.map_some,
    trimSpace_name h.trimmed]
  rfl

/-- The block after the tag (`before`, `tag` and `body` as in the file). -/
theorem parseBlocks_block {before tag body r : Str} (hb : ¬ "<patch".toList <:+: before) (hg : '>' ∉ tag)
    (hc : NotBefore "</patch>".toList body) :
    parseBlocks (before ++ "<patch".toList ++ (tag ++ ['>'] ++ (body ++ "</patch>".toList ++ r))) =
      (parseBlock tag body).bind fun b => (parseBlocks r).map (b :: ·) := by
  have e0 : "<patch".toList = '<' :: "patch".toList := by decide
  have c0 : cut "<patch".toList (before ++ "<patch".toList ++ (tag ++ ['>'] ++ (body ++ "</patch>".toList ++ r))) =
      some (before, tag ++ ['>'] ++ (body ++ "</patch>".toList ++ r)) := by
    refine cut_append (by decide) ?_
    rw [e0] at hb ⊢
    exact notBefore_of_head (by decide) hb
  have c1 : cut ['>'] (tag ++ ['>'] ++ (body ++ "</patch>".toList ++ r)) = some (tag, body ++ "</patch>".toList ++ r) :=
    cut_char hg
  have c2 : cut "</patch>".toList (body ++ "</patch>".toList ++ r) = some (body, r) := cut_append (by decide) hc
  rw [parseBlocks.eq_def]
  split
  · rename_i h0
    rw [c0] at h0
    cases h0
  · rename_i a b h0
    rw [c0] at h0
    injection h0 with h0
    injection h0 with h0 h0'
    subst h0'
    split
    · rename_i h1
      rw [c1] at h1
      cases h1
    · rename_i a b h1
      rw [c1] at h1
      injection h1 with h1
      injection h1 with h1 h1'
      subst h1 h1'
      split
      · rename_i h2
        rw [c2] at h2
        cases h2
      · rename_i a b h2
        rw [c2] at h2
        injection h2 with h2
        injection h2 with h2 h2'
        subst h2 h2'
        rfl

theorem parseBlocks_cons {s : Section} (h : s.Ok) (r : Str) :
    parseBlocks (s.text ++ r) = (parseBlocks r).map (s.block :: ·) := by
  have ht : s.text ++ r = s.before ++ "<patch".toList ++
      ((' ' :: s.name) ++ ['>'] ++ ((['\n'] ++ linesText s.lines) ++ "</patch>".toList ++ r)) := by
    unfold Section.text
    generalize "<patch".toList = x
    generalize "</patch>".toList = y
    simp only [List.append_assoc, List.cons_append, List.nil_append]
  rw [ht, parseBlocks_block h.before (by rw [List.mem_cons, not_or]; exact ⟨by decide, h.gt⟩)
    (close_body _ fun l hl => (h.lines l hl).1), parseBlock_ok h]
  rfl

theorem parseBlocks_rest {r : Str} (h : ¬ "<patch".toList <:+: r) : parseBlocks r = some [] := by
  have c0 : cut "<patch".toList r = none := cut_none.2 h
  rw [parseBlocks.eq_def]
  split
  · rfl
  · rename_i h0
    rw [c0] at h0
    cases h0

/-- C58: a patch file whose blocks are written as they should be is read as exactly these blocks, with exactly these
    commands, in order: comments, blank lines, indentation, trailing white space and text between blocks have no effect. -/
theorem C58_read (secs : List Section) (rest : Str) (h : ∀ s ∈ secs, s.Ok) (hr : ¬ "<patch".toList <:+: rest) :
    parseBlocks (fileText secs rest) = some (secs.map Section.block) := by
  induction secs with
  | nil => exact parseBlocks_rest hr
  | cons s l ih =>
    rw [fileText, parseBlocks_cons (h s (by simp)), ih fun s' hs => h s' (List.mem_cons_of_mem _ hs)]
    rfl

/-- **C58** (what a patch file does) Applying a patch file that is written as it should be does what its blocks say, and nothing else of
    the file has an effect. -/
theorem C58_apply (parse : Str → Option File) (source : Str) (secs : List Section) (rest : Str) (h : ∀ s ∈ secs, s.Ok)
    (hr : ¬ "<patch".toList <:+: rest) :
    applyPatchContent parse source (fileText secs rest) = applyBlocks parse source (secs.map Section.block) := by
  rw [applyPatchContent, C58_read secs rest h hr]
  rfl

/-- C58: and a command is printed as it is written. -/
theorem C58_print {c : Command} {t : Str} (h : Written c t) : commandString c = t := by
  have e : ∀ (k n : Str), "goto ".toList ++ (k ++ n) = "goto ".toList ++ k ++ n := fun k n => (List.append_assoc ..).symm
  cases h with
  | opening => decide
  | closing => decide
  | field n => exact e _ n
  | struct n => exact e _ n
  | iface n => exact e _ n
  | func n => exact e _ n
  | _ => rfl

/-! ### Errors -/

theorem dispatch_unknown {w arg : Str} (h : w ∉ words) : dispatch w arg = none := by
  have hn : ∀ x ∈ words, w ≠ x := fun x hx e => h (e ▸ hx)
  unfold dispatch
  rw [if_neg (hn _ (by decide)), if_neg (hn _ (by decide)), if_neg (hn _ (by decide)), if_neg (hn _ (by decide)),
    if_neg (hn _ (by decide)), if_neg (hn _ (by decide)), if_neg (hn _ (by decide)), if_neg (hn _ (by decide)),
    if_neg (hn _ (by decide)), if_neg (hn _ (by decide))]

theorem infix_trimSpace {w t : Str} (h : w <:+: trimSpace t) : w <:+: t := by
  refine h.trans ?_
  unfold trimSpace
  have h1 : t.dropWhile isSpace <:+ t := List.dropWhile_suffix _
  have h2 := List.dropWhile_suffix (l := (t.dropWhile isSpace).reverse) isSpace
  have h3 := List.reverse_prefix.2 h2
  rw [List.reverse_reverse] at h3
  exact h3.isInfix.trans h1.isInfix

theorem parseLine_noCommand {i t : Str} (hi : White i) (h : NoCommand t) (hh : ∃ c x, t = c :: x ∧ isSpace c = false)
    (ho : OneLine t) : parseLine (i ++ t) = none := by
  have hid : ∀ {c : Char}, isSpace c = false → isIndent c = false := by
    intro c hc
    unfold isSpace at hc
    unfold isIndent
    simp only [Bool.or_eq_false_iff] at hc ⊢
    exact ⟨hc.1.1.1.1.1, hc.1.1.1.1.2⟩
  have ht2 : trimRight (i ++ t) = i ++ t := by
    obtain ⟨-, x, d, rfl, hd⟩ := ho
    have := trimRight_of (x := i ++ x) (w := []) (isTrail_of_space hd) (by simp)
    simpa [List.append_assoc] using this
  have arg : ∀ {w a : Str}, t = w ++ [' '] ++ a → w ≠ [] → ' ' ∉ w → dispatch w a = none → parseLine (i ++ t) = none := by
    intro w a he hne hw hd
    cases w with
    | nil => exact absurd rfl hne
    | cons c w =>
      obtain ⟨d, x, hx, hsp⟩ := hh
      rw [he] at hx
      injection hx with hx _
      subst hx
      rw [he] at ht2 ⊢
      rw [parseLine_eq (splitCommand_of hi hw ⟨c, w, rfl, hid hsp⟩ ht2), hd]
  have word : ' ' ∉ t → dispatch t [] = none → parseLine (i ++ t) = none := by
    intro hw hd
    obtain ⟨d, x, hx, hsp⟩ := hh
    rw [parseLine_eq (splitCommand_word hi hw ⟨d, x, hx, hid hsp⟩ ht2), hd]
  cases h with
  | word w hw h => exact word hw (dispatch_unknown h)
  | wordArg w a hw h =>
    refine arg rfl ?_ hw (dispatch_unknown h)
    rintro rfl
    obtain ⟨d, x, hx, hsp⟩ := hh
    injection hx with hx _
    subst hx
    cases hsp
  | goto t h1 h2 h3 =>
    refine arg (w := "goto".toList) (a := t) rfl (by decide) (by decide) ?_
    rw [dispatch_goto, parseGoto, if_neg]
    have hp : ∀ k ∈ ["field ", "struct ", "interface ", "func "].map String.toList, ¬ k.isPrefixOf t = true :=
      fun k hk hx => h3 k hk (List.isPrefixOf_iff_prefix.1 hx)
    rintro (h | h | h | h | h | h)
    · exact h1 h
    · exact h2 h
    · exact hp _ (by decide) h
    · exact hp _ (by decide) h
    · exact hp _ (by decide) h
    · exact hp _ (by decide) h
  | noText w h =>
    refine word ?_ ?_
    · revert h
      simp only [List.map_cons, List.map_nil, List.mem_cons, List.not_mem_nil, or_false]
      rintro (rfl | rfl | rfl | rfl | rfl | rfl) <;> decide
    · revert h
      simp only [List.map_cons, List.map_nil, List.mem_cons, List.not_mem_nil, or_false]
      rintro (rfl | rfl | rfl | rfl | rfl | rfl) <;> decide +kernel
  | copyFunc t h =>
    refine arg (w := "copy_func".toList) (a := t) rfl (by decide) (by decide) ?_
    rw [dispatch_copy, parseCopyFunc, cut_none.2 fun hx => h (infix_trimSpace hx)]
    rfl
  | directive t h =>
    refine arg (w := "replace_directive".toList) (a := t) rfl (by decide) (by decide) ?_
    rw [dispatch_directive, parseReplaceDirective, cut_none.2 fun hx => h (infix_trimSpace hx)]
    rfl

theorem parseBlocks_prefix (secs : List Section) (h : ∀ s ∈ secs, s.Ok) {r : Str} (hr : parseBlocks r = none) :
    parseBlocks (fileText secs r) = none := by
  induction secs with
  | nil => exact hr
  | cons s l ih =>
    rw [fileText, parseBlocks_cons (h s (by simp)), ih fun s' hs => h s' (List.mem_cons_of_mem _ hs)]
    rfl

theorem parseLines_prefix (ls : List Line) (h : ∀ l ∈ ls, l.Ok) (rest : List Str) (hr : parseLines rest = none) :
    parseLines (ls.map Line.text ++ rest) = none := by
  induction ls with
  | nil => exact hr
  | cons l ls ih =>
    have ih := ih fun l' hl => h l' (List.mem_cons_of_mem _ hl)
    rw [List.map_cons, List.cons_append, parseLines]
    split
    · exact ih
    · rw [ih]
      cases parseLine (trimRight l.text) <;> rfl

theorem lines_linesText_append (ls : List Line) (h : ∀ l ∈ ls, '\n' ∉ l.text) (r : Str) :
    lines (linesText ls ++ r) = ls.map Line.text ++ lines r := by
  induction ls with
  | nil => rfl
  | cons l ls ih =>
    rw [linesText, List.append_assoc, lines_append (h l (by simp)), ih fun l' hl => h l' (List.mem_cons_of_mem _ hl)]
    rfl

/-- C58: a file with a line that is no command is refused as a whole, wherever the line stands. -/
theorem C58_refused (secs : List Section) (h : ∀ s ∈ secs, s.Ok) (before tag : Str) (ls : List Line) (i t w more r : Str)
    (hb : ¬ "<patch".toList <:+: before) (hg : '>' ∉ tag) (hl : ∀ l ∈ ls, l.Ok) (hi : White i) (hw : Trail w)
    (ht : NoCommand t) (hs : ∃ c x, t = c :: x ∧ isSpace c = false ∧ c ≠ '#') (ho : OneLine t)
    (hc : ¬ "</patch>".toList <:+: ['\n'] ++ (linesText ls ++ (i ++ t ++ w ++ ['\n'] ++ more))) :
    parseBlocks (fileText secs (before ++ "<patch".toList ++ (tag ++ ['>'] ++
      (['\n'] ++ (linesText ls ++ (i ++ t ++ w ++ ['\n'] ++ more)) ++ "</patch>".toList ++ r)))) = none := by
  refine parseBlocks_prefix secs h ?_
  have hnb : NotBefore "</patch>".toList (['\n'] ++ (linesText ls ++ (i ++ t ++ w ++ ['\n'] ++ more))) := by
    have e : "</patch>".toList = '<' :: "/patch>".toList := by decide
    rw [e] at hc ⊢
    exact notBefore_of_head (by decide) hc
  rw [parseBlocks_block hb hg hnb]
  have hin : '\n' ∉ i := by
    intro hn
    rcases hi _ hn with h | h <;> cases h
  have hwn : '\n' ∉ w := by
    intro hn
    rcases hw _ hn with h | h | h <;> cases h
  have hnl : '\n' ∉ i ++ t ++ w := by
    simp only [List.mem_append, not_or]
    exact ⟨⟨hin, ho.1⟩, hwn⟩
  have hpl : parseLine (i ++ t) = none := by
    obtain ⟨c, x, h1, h2, -⟩ := hs
    exact parseLine_noCommand hi ht ⟨c, x, h1, h2⟩ ho
  have htr : trimRight (i ++ t ++ w) = i ++ t := by
    obtain ⟨-, x, d, rfl, hd⟩ := ho
    rw [← List.append_assoc]
    exact trimRight_of (isTrail_of_space hd) (white_trail hw)
  have hcond : ¬ (i ++ t = [] ∨ (i ++ t).head? = some '#') := by
    obtain ⟨d, x, rfl, -, hd⟩ := hs
    rintro (h | h)
    · simp at h
    · cases i with
      | nil => simp at h; exact hd h
      | cons e i =>
        simp only [List.cons_append, List.head?_cons, Option.some.injEq] at h
        rcases hi e (by simp) with h' | h' <;> (rw [h'] at h; cases h)
  have hbad : ∀ ls', parseLines ((i ++ t ++ w) :: ls') = none := by
    intro ls'
    rw [parseLines, htr, if_neg hcond, hpl]
    rfl
  have hlines : parseLines (lines (['\n'] ++ (linesText ls ++ (i ++ t ++ w ++ ['\n'] ++ more)))) = none := by
    have h1 := lines_append (l := []) (by simp) (linesText ls ++ (i ++ t ++ w ++ ['\n'] ++ more))
    rw [List.nil_append] at h1
    rw [h1, lines_linesText_append ls fun l hl' => line_text_nl (hl l hl')]
    rw [lines_append hnl, parseLines, if_pos (Or.inl (by decide))]
    exact parseLines_prefix ls hl _ (hbad _)
  unfold parseBlock
  rw [hlines]
  rfl

/-- C58: so is a file with a block that is not closed. -/
theorem C58_unclosed (secs : List Section) (h : ∀ s ∈ secs, s.Ok) (before x : Str)
    (hb : ¬ "<patch".toList <:+: before) (hc : ¬ "</patch>".toList <:+: x) :
    parseBlocks (fileText secs (before ++ "<patch".toList ++ x)) = none := by
  refine parseBlocks_prefix secs h ?_
  have e0 : "<patch".toList = '<' :: "patch".toList := by decide
  have c0 : cut "<patch".toList (before ++ "<patch".toList ++ x) = some (before, x) := by
    refine cut_append (by decide) ?_
    rw [e0] at hb ⊢
    exact notBefore_of_head (by decide) hb
  rw [parseBlocks.eq_def]
  split
  · rename_i h0
    rw [c0] at h0
    cases h0
  · rename_i a b h0
    rw [c0] at h0
    injection h0 with h0
    injection h0 with h0 h0'
    subst h0'
    split
    · rfl
    · rename_i a b h1
      split
      · rfl
      · rename_i body r2 h2
        exfalso
        apply hc
        have e1 := cut_eq h1
        have e2 := cut_eq h2
        rw [e1, e2]
        exact ⟨a ++ ['>'] ++ body, r2, by simp only [List.append_assoc]⟩

/-! ### Examples -/

/-- `<patch add>`, a comment, `  goto func main  `, `insert_after x := 1`, an empty line. -/
def exSection : Section :=
  { before := "text\n".toList, name := "add".toList,
    lines := [.comment " note".toList, .command "  ".toList (.goto "func main".toList) "goto func main".toList "\t".toList,
      .command [] (.insertAfter "x := 1".toList) "insert_after x := 1".toList [], .blank "  ".toList] }

theorem exSection_ok : exSection.Ok := by
  refine ⟨?_, by decide, Or.inr ⟨⟨'a', "dd".toList, by decide, by decide⟩, "ad".toList, 'd', by decide, by decide⟩, ?_⟩
  · rw [← cut_none]; decide +kernel
  · intro l hl
    simp only [exSection, List.mem_cons, List.not_mem_nil, or_false] at hl
    rcases hl with rfl | rfl | rfl | rfl
    · exact ⟨by rw [← cut_none]; decide +kernel, by show '\n' ∉ " note".toList; decide⟩
    · exact ⟨by rw [← cut_none]; decide +kernel, by intro c hc; simp at hc; exact Or.inl hc,
        by intro c hc; simp at hc; exact Or.inr (Or.inl hc), Written.func "main".toList,
        by decide, "goto func mai".toList, 'n', by decide, by decide⟩
    · exact ⟨by rw [← cut_none]; decide +kernel, by intro c hc; simp at hc, by intro c hc; simp at hc,
        Written.insertAfter "x := 1".toList, by decide, "insert_after x := ".toList, '1', by decide, by decide⟩
    · exact ⟨by rw [← cut_none]; decide +kernel, by intro c hc; simp at hc; exact Or.inl hc⟩

example : parseBlocks (fileText [exSection, exSection] "tail".toList) = some [exSection.block, exSection.block] :=
  C58_read [exSection, exSection] "tail".toList (by simp [exSection_ok]) (by rw [← cut_none]; decide +kernel)

example : exSection.block.commands.length = 2 := by decide

example : NoCommand "insert x".toList :=
  NoCommand.wordArg "insert".toList "x".toList (by decide) (by decide)
example : NoCommand "goto import x".toList :=
  NoCommand.goto "import x".toList (by decide) (by decide) (by decide)

/-- A comment that is indented is not a comment: the file is refused. (Commands may be indented.) -/
theorem C58_counterexample_comment :
    parseBlocks "<patch a>\n  # note\n  newline\n</patch>".toList = none ∧
    parseBlocks "<patch a>\n# note\n  newline\n</patch>".toList = some [⟨"a".toList, [.newline]⟩] := by
  decide +kernel

/-- `</patch>` in a comment ends the block there; the rest of it is dropped without an error. -/
theorem C58_counterexample_close :
    parseBlocks "<patch a>\n# </patch>\nnewline\n</patch>".toList = some [⟨"a".toList, []⟩] := by
  decide +kernel

/-- A blank at the end of an inserted text is lost. -/
theorem C58_counterexample_trail :
    parseBlocks "<patch a>\ninsert_after x \n</patch>".toList = some [⟨"a".toList, [.insertAfter "x".toList]⟩] := by
  decide +kernel

end Verif.Instrument.PatchParse
