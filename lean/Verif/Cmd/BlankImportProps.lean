import Verif.Cmd.BlankImport
import Verif.Cmd.BlankImportSpec
/-
Theorems of C69.
-/
namespace Verif.Cmd.BlankImport

open Verif.Text Spec

/-! ### The scanner -/

theorem run_append (s : St) (a b : Str) :
    run s (a ++ b) = ((run (run s a).1 b).1, (run s a).2 ++ (run (run s a).1 b).2) := by
  induction a generalizing s with
  | nil => simp [run]
  | cons c a ih => simp only [List.cons_append, run, ih, List.append_assoc]

theorem wordChar_facts {c : Char} (h : wordChar c = true) : c ≠ '\n' ∧ ¬ (c = ' ' ∨ c = '\t' ∨ c = '\r') ∧ c ≠ ';' := by
  refine ⟨?_, ?_, ?_⟩
  · rintro rfl; revert h; decide
  · rintro (rfl | rfl | rfl) <;> (revert h; decide)
  · rintro rfl; revert h; decide

theorem run_word (s : St) (u w : Str) (hm : s.mode = .word u) (h : ∀ c ∈ w, wordChar c = true) :
    run s w = ({ s with mode := .word (u ++ w) }, []) := by
  induction w generalizing s u with
  | nil => cases s; simp only at hm; subst hm; simp [run]
  | cons c w ih =>
    have hc := h c List.mem_cons_self
    have hn : next s c = ({ s with mode := .word (u ++ [c]) }, []) := by simp only [next, hm, hc, if_true]
    simp only [run, hn]
    rw [ih { s with mode := .word (u ++ [c]) } (u ++ [c]) rfl (fun d hd => h d (List.mem_cons_of_mem _ hd))]
    simp

theorem run_name (ln : Nat) (w : Str) (h : Name w) :
    run { ln := ln } w = ({ ln := ln, mode := .word w }, []) := by
  obtain ⟨h0, h1, -⟩ := h
  cases w with
  | nil => exact absurd rfl h0
  | cons c w =>
    have hc := h1 c List.mem_cons_self
    obtain ⟨f1, f2, -⟩ := wordChar_facts hc
    have hn : next { ln := ln } c = ({ ln := ln, mode := .word [c] }, []) := by
      simp only [next, top, if_neg f1, if_neg f2, hc, if_true]
    simp only [run, hn]
    rw [run_word _ [c] w rfl (fun d hd => h1 d (List.mem_cons_of_mem _ hd))]
    simp

theorem run_package (ln : Nat) : run { ln := ln } "package ".toList = ({ ln := ln }, [(ln, .word "package".toList)]) := rfl

set_option maxRecDepth 10000 in
theorem run_import (ln : Nat) : run { ln := ln } importText =
    ({ ln := ln, semi := true }, [(ln, .word "import".toList), (ln, .word "_".toList),
      (ln, .lit '"' "github.com/xhd2015/xgo/runtime/trace".toList)]) := rfl

theorem name_ends {w : Str} (h : Name w) : endsStmt w = true := by
  have : keywords.contains w = false := by
    rw [← Bool.not_eq_true, List.contains_iff_mem]; exact h.2.2
  simp only [endsStmt, this]; rfl

theorem blank_facts {c : Char} (h : c = ' ' ∨ c = '\t') : wordChar c = false ∧ c ≠ '\n' := by
  rcases h with rfl | rfl <;> exact ⟨by decide, by decide⟩

theorem top_blank (s : St) (c : Char) (h : c = ' ' ∨ c = '\t') : top s c = ({ s with pm := none, mode := .top }, []) := by
  simp only [top, if_neg (blank_facts h).2]
  rw [if_pos (by rcases h with h | h <;> simp [h])]

theorem run_blanks (s : St) (hm : s.mode = .top) (hp : s.pm = none) (sp : Str) (h : ∀ c ∈ sp, c = ' ' ∨ c = '\t') :
    run s sp = (s, []) := by
  induction sp with
  | nil => rfl
  | cons c sp ih =>
    have hc := h c List.mem_cons_self
    have : next s c = (s, []) := by
      simp only [next, hm, top_blank s c hc]
      cases s; simp only at hm hp; subst hm hp; rfl
    simp only [run, this, ih (fun d hd => h d (List.mem_cons_of_mem _ hd))]
    rfl

/-- After the name of the package: blanks and one more character that is not part of the name. -/
theorem run_after_name (ln : Nat) {name : Str} (hn : Name name) (sp : Str) (h : ∀ c ∈ sp, c = ' ' ∨ c = '\t') (c : Char)
    (hc : wordChar c = false) :
    run { ln := ln, mode := .word name } (sp ++ [c]) =
      ((top { ln := ln, semi := true } c).1, (ln, .word name) :: (top { ln := ln, semi := true } c).2) := by
  have key : ∀ c, wordChar c = false → next { ln := ln, mode := .word name } c =
      ((top { ln := ln, semi := true } c).1, (ln, .word name) :: (top { ln := ln, semi := true } c).2) := by
    intro c hc
    simp only [next, hc, endWord, name_ends hn]
    rfl
  cases sp with
  | nil => simp only [List.nil_append, run, key c hc, List.append_nil]
  | cons d sp =>
    have hd := h d List.mem_cons_self
    simp only [List.cons_append, run, key d (blank_facts hd).1, top_blank _ d hd, run_append]
    rw [run_blanks _ rfl rfl sp (fun e he => h e (List.mem_cons_of_mem _ he))]
    simp [run, next]

theorem finish_after_name (ln : Nat) {name : Str} (hn : Name name) (sp : Str) (h : ∀ c ∈ sp, c = ' ' ∨ c = '\t') :
    (run { ln := ln, mode := .word name } sp).2 ++ finish (run { ln := ln, mode := .word name } sp).1 =
      [(ln, .word name), (ln, .op ';')] := by
  cases sp with
  | nil => simp [run, finish, endWord, name_ends hn, emitSemi]
  | cons d sp =>
    have hd := h d List.mem_cons_self
    have : next { ln := ln, mode := .word name } d = ({ ln := ln, semi := true }, [(ln, .word name)]) := by
      simp only [next, (blank_facts hd).1, endWord, name_ends hn, top_blank _ d hd]
      rfl
    simp only [run, this]
    rw [run_blanks _ rfl rfl sp (fun e he => h e (List.mem_cons_of_mem _ he))]
    simp [finish, emitSemi]

/-! ### Where the import goes -/

theorem cut_char {c : Char} {a b : Str} (h : c ∉ a) : cut [c] (a ++ c :: b) = some (a, b) := by
  have := cut_append (sep := [c]) (a := a) (b := b) (by simp) (notBefore_of_head (by simp)
    (by intro hi; exact h (hi.subset (by simp))))
  simpa using this

theorem cut_char_none {c : Char} {a : Str} (h : c ∉ a) : cut [c] a = none :=
  cut_none.2 (fun hi => h (hi.subset (by simp)))

theorem index_package {pre r : Str} (h : ¬ "package ".toList <:+: pre) :
    index "package ".toList (pre ++ ("package ".toList ++ r)) = some pre.length := by
  have := cut_append (sep := "package ".toList) (a := pre) (b := r) (by simp)
    (notBefore_of_head (c := 'p') (cs := "ackage ".toList) (by decide) h)
  simp only [index]
  rw [← List.append_assoc, this]
  rfl

theorem name_no {c : Char} (hc : wordChar c = false) {w : Str} (h : Name w) : c ∉ w := by
  intro hm; rw [h.2.1 c hm] at hc; cases hc

theorem blanks_no {c : Char} (hc : c ≠ ' ' ∧ c ≠ '\t') {sp : Str} (h : ∀ c ∈ sp, c = ' ' ∨ c = '\t') : c ∉ sp := by
  intro hm; rcases h c hm with h | h
  · exact hc.1 h
  · exact hc.2 h

theorem last_not_semi {pre : Str} {name sp : Str} (hn : Name name) (hs : ∀ c ∈ sp, c = ' ' ∨ c = '\t') (x : Str) :
    (pre ++ ("package ".toList ++ (name ++ sp)) ++ x)[(pre ++ ("package ".toList ++ (name ++ sp))).length - 1]? ≠ some ';' := by
  have hne : name ++ sp ≠ [] := by simp [hn.1]
  have hpos : 0 < (name ++ sp).length := List.length_pos_iff.2 hne
  rw [List.getElem?_append_left (by simp only [List.length_append] at hpos ⊢; omega)]
  intro h
  rw [List.getElem?_append_right (by simp only [List.length_append] at hpos ⊢; omega),
    List.getElem?_append_right (by simp only [List.length_append] at hpos ⊢; omega)] at h
  have := List.mem_of_getElem? h
  rcases List.mem_append.1 this with h | h
  · exact name_no (by decide) hn h
  · exact blanks_no (by decide) hs h

theorem insert_at {a b : Str} (h : a[a.length - 1]? ≠ some ';') (hb : (a ++ b)[a.length - 1]? = a[a.length - 1]?) :
    (a ++ b).take a.length ++ ((if a.length > 0 ∧ (a ++ b)[a.length - 1]? = some ';' then [] else [';']) ++ importText) ++ (a ++ b).drop a.length
      = a ++ (';' :: importText) ++ b := by
  rw [hb, if_neg (fun hh => h hh.2)]
  simp

theorem add_lf {pre name sp rest : Str} (hp : ¬ "package ".toList <:+: pre) (hn : Name name) (hs : ∀ c ∈ sp, c = ' ' ∨ c = '\t')
    (hr : '\r' ∉ rest) : addBlankImport (pre ++ ("package ".toList ++ (name ++ (sp ++ '\n' :: rest)))) =
      some (pre ++ ("package ".toList ++ (name ++ (sp ++ ';' :: (importText ++ '\n' :: rest))))) := by
  have hcr : '\r' ∉ "package ".toList ++ (name ++ (sp ++ '\n' :: rest)) := by
    simp only [List.mem_append, List.mem_cons, not_or]
    exact ⟨by decide, name_no (by decide) hn, blanks_no (by decide) hs, by decide, hr⟩
  have hlf : '\n' ∉ "package ".toList ++ (name ++ sp) := by
    simp only [List.mem_append, not_or]
    exact ⟨by decide, name_no (by decide) hn, blanks_no (by decide) hs⟩
  have e0 : "package ".toList ++ (name ++ (sp ++ '\n' :: rest)) = ("package ".toList ++ (name ++ sp)) ++ '\n' :: rest := by simp
  have e1 : skipCR pre.length ("package ".toList ++ (name ++ (sp ++ '\n' :: rest))) =
      (pre.length, "package ".toList ++ (name ++ (sp ++ '\n' :: rest))) := by
    simp only [skipCR, index, cut_char_none hcr]; rfl
  have e2 : index ['\n'] ("package ".toList ++ (name ++ (sp ++ '\n' :: rest))) = some ("package ".toList ++ (name ++ sp)).length := by
    rw [e0]; simp only [index, cut_char hlf]; rfl
  simp only [addBlankImport, index_package hp, List.drop_left, e1, e2]
  have e3 : pre ++ ("package ".toList ++ (name ++ (sp ++ '\n' :: rest))) = (pre ++ ("package ".toList ++ (name ++ sp))) ++ '\n' :: rest := by simp
  have e4 : pre.length + ("package ".toList ++ (name ++ sp)).length = (pre ++ ("package ".toList ++ (name ++ sp))).length :=
    List.length_append.symm
  rw [e3, e4]
  have hl := last_not_semi (pre := pre) hn hs
  have := insert_at (a := pre ++ ("package ".toList ++ (name ++ sp))) (b := '\n' :: rest)
    (by simpa using hl []) (by
      rw [List.getElem?_append_left]
      simp only [List.length_append]
      have : ("package ".toList).length = 8 := by decide
      omega)
  rw [this]
  simp

theorem add_crlf {pre name sp rest : Str} (hp : ¬ "package ".toList <:+: pre) (hn : Name name) (hs : ∀ c ∈ sp, c = ' ' ∨ c = '\t') :
    addBlankImport (pre ++ ("package ".toList ++ (name ++ (sp ++ '\r' :: '\n' :: rest)))) =
      some (pre ++ ("package ".toList ++ (name ++ (sp ++ ';' :: (importText ++ '\r' :: '\n' :: rest))))) := by
  have hcr : '\r' ∉ "package ".toList ++ (name ++ sp) := by
    simp only [List.mem_append, not_or]
    exact ⟨by decide, name_no (by decide) hn, blanks_no (by decide) hs⟩
  have hlen : ("package ".toList).length = 8 := by decide
  have e0 : "package ".toList ++ (name ++ (sp ++ '\r' :: '\n' :: rest)) = ("package ".toList ++ (name ++ sp)) ++ '\r' :: '\n' :: rest := by simp
  have e1 : skipCR pre.length ("package ".toList ++ (name ++ (sp ++ '\r' :: '\n' :: rest))) =
      (pre.length + ("package ".toList ++ (name ++ sp)).length, '\n' :: rest) := by
    rw [e0]
    simp only [skipCR, index, cut_char hcr, Option.map_some]
    rw [if_pos (by simp only [List.length_append]; omega)]
    congr 1
    rw [List.drop_append]
    simp
  have e2 : index ['\n'] ('\n' :: rest) = some 0 := by
    have := cut_char (c := '\n') (a := []) (b := rest) (by simp)
    rw [List.nil_append] at this
    simp only [index, this]; rfl
  simp only [addBlankImport, index_package hp, List.drop_left, e1, e2, Nat.add_zero]
  have e3 : pre ++ ("package ".toList ++ (name ++ (sp ++ '\r' :: '\n' :: rest))) = (pre ++ ("package ".toList ++ (name ++ sp))) ++ '\r' :: '\n' :: rest := by simp
  have e4 : pre.length + ("package ".toList ++ (name ++ sp)).length = (pre ++ ("package ".toList ++ (name ++ sp))).length :=
    List.length_append.symm
  rw [e3, e4]
  have hl := last_not_semi (pre := pre) hn hs
  have := insert_at (a := pre ++ ("package ".toList ++ (name ++ sp))) (b := '\r' :: '\n' :: rest)
    (by simpa using hl []) (by
      rw [List.getElem?_append_left]
      simp only [List.length_append]
      omega)
  rw [this]
  simp

theorem add_eof {pre name sp : Str} (hp : ¬ "package ".toList <:+: pre) (hn : Name name) (hs : ∀ c ∈ sp, c = ' ' ∨ c = '\t') :
    addBlankImport (pre ++ ("package ".toList ++ (name ++ sp))) =
      some (pre ++ ("package ".toList ++ (name ++ (sp ++ ';' :: importText)))) := by
  have hcr : '\r' ∉ "package ".toList ++ (name ++ sp) := by
    simp only [List.mem_append, not_or]
    exact ⟨by decide, name_no (by decide) hn, blanks_no (by decide) hs⟩
  have hlf : '\n' ∉ "package ".toList ++ (name ++ sp) := by
    simp only [List.mem_append, not_or]
    exact ⟨by decide, name_no (by decide) hn, blanks_no (by decide) hs⟩
  have e1 : skipCR pre.length ("package ".toList ++ (name ++ sp)) = (pre.length, "package ".toList ++ (name ++ sp)) := by
    simp only [skipCR, index, cut_char_none hcr]; rfl
  simp only [addBlankImport, index_package hp, List.drop_left, e1]
  simp only [index, cut_char_none hlf]
  simp

/-- **C69**: adding the import to a text with a package clause alone on its line: the tokens of the text and their lines stay
as they are, and the import follows the package clause, on its line. -/
theorem C69_import_partial {content : Str} {ln : Nat} {name : Str} (h : Header content ln name) :
    ∃ content' ts, addBlankImport content = some content' ∧ tokens content = clause ln name ++ ts ∧
      tokens content' = clause ln name ++ importDecl ln ++ ts := by
  have topnl : ∀ s : St, top s '\n' = ({ ln := s.ln + 1 }, emitSemi s) := fun s => rfl
  have topsemi : ∀ ln, top { ln := ln, semi := true } ';' = ({ ln := ln }, [(ln, .op ';')]) := fun ln => rfl
  have topcr : ∀ ln, top { ln := ln, semi := true } '\r' = ({ ln := ln, semi := true }, []) := fun ln => rfl
  -- what is read up to the name
  have start : ∀ (pre : Str) (x : Str), Blank pre ln → Name name → run {} (pre ++ ("package ".toList ++ (name ++ x))) =
      ((run { ln := ln, mode := .word name } x).1, (ln, .word "package".toList) :: (run { ln := ln, mode := .word name } x).2) := by
    intro pre x hb hn
    rw [run_append, show run {} pre = _ from hb]
    simp only [List.nil_append]
    rw [run_append, run_package]
    simp only
    rw [run_append, run_name ln name hn]
    simp
  have imp : ∀ sp : Str, (∀ c ∈ sp, c = ' ' ∨ c = '\t') → Name name → ∀ y, run { ln := ln, mode := .word name } (sp ++ ';' :: (importText ++ y)) =
      ((run { ln := ln, semi := true } y).1, [(ln, .word name), (ln, .op ';'), (ln, .word "import".toList), (ln, .word "_".toList),
      (ln, .lit '"' "github.com/xhd2015/xgo/runtime/trace".toList)] ++ (run { ln := ln, semi := true } y).2) := by
    intro sp hs hn y
    have e : sp ++ ';' :: (importText ++ y) = (sp ++ [';']) ++ (importText ++ y) := by simp
    rw [e, run_append, run_after_name ln hn sp hs ';' (by decide), topsemi]
    simp only
    rw [run_append, run_import]
    simp
  cases h with
  | @lf pre _ _ sp rest hb hp hn hs hr =>
    refine ⟨_, (run { ln := ln + 1 } rest).2 ++ finish (run { ln := ln + 1 } rest).1, add_lf hp hn hs hr, ?_, ?_⟩
    · have e : sp ++ '\n' :: rest = (sp ++ ['\n']) ++ rest := by simp
      simp only [tokens, start pre _ hb hn]
      rw [e, run_append, run_after_name ln hn sp hs '\n' (by decide), topnl]
      simp [clause, emitSemi]
    · simp only [tokens, start pre _ hb hn, imp sp hs hn]
      simp only [run, next, topnl]
      simp [clause, importDecl, emitSemi]
  | @crlf pre _ _ sp rest hb hp hn hs =>
    refine ⟨_, (run { ln := ln + 1 } rest).2 ++ finish (run { ln := ln + 1 } rest).1, add_crlf hp hn hs, ?_, ?_⟩
    · have e : sp ++ '\r' :: '\n' :: rest = (sp ++ ['\r']) ++ '\n' :: rest := by simp
      simp only [tokens, start pre _ hb hn]
      rw [e, run_append, run_after_name ln hn sp hs '\r' (by decide), topcr]
      simp only [run, next, topnl]
      simp [clause, emitSemi]
    · simp only [tokens, start pre _ hb hn, imp sp hs hn]
      simp only [run, next, topnl, topcr]
      simp [clause, importDecl, emitSemi]
  | @eof pre _ _ sp hb hp hn hs =>
    refine ⟨_, [], add_eof hp hn hs, ?_, ?_⟩
    · simp only [tokens, start pre _ hb hn]
      have := finish_after_name ln hn sp hs
      simp only [List.cons_append, this]
      rfl
    · have := imp sp hs hn []
      rw [List.append_nil] at this
      simp only [tokens, start pre _ hb hn, this]
      simp [run, finish, clause, importDecl, emitSemi]

/-! ### Packages -/

/-- What becomes of a text (trace.go:722-743, for one file whose text can be read). -/
def inject (c : Str) : Str := if contains c tracePkg.toList then c else (addBlankImport c).getD c

theorem applyOne_self {eff : String → Option Str} {src : String} {prep c : Str} (h : eff src = some c) :
    applyOne eff src prep src = some (inject c) := by
  simp only [applyOne, if_true, h, inject]
  split
  · rfl
  · cases addBlankImport c <;> rfl

theorem applyOne_other {eff : String → Option Str} {src p : String} {prep : Str} (h : p ≠ src) :
    applyOne eff src prep p = eff p := by simp only [applyOne, if_neg h]

theorem applyAll_other {m : List (String × Str)} {eff : String → Option Str} {p : String} (h : p ∉ m.map (·.1)) :
    applyAll eff m p = eff p := by
  induction m generalizing eff with
  | nil => rfl
  | cons a m ih =>
    obtain ⟨k, v⟩ := a
    simp only [List.map_cons, List.mem_cons, not_or] at h
    simp only [applyAll]
    rw [ih h.2, applyOne_other h.1]

theorem applyAll_key {m : List (String × Str)} {eff : String → Option Str} {p : String} {c : Str} (hn : (m.map (·.1)).Nodup)
    (h : p ∈ m.map (·.1)) (he : eff p = some c) : applyAll eff m p = some (inject c) := by
  induction m generalizing eff with
  | nil => cases h
  | cons a m ih =>
    obtain ⟨k, v⟩ := a
    simp only [List.map_cons, List.nodup_cons] at hn
    simp only [applyAll]
    by_cases hk : p = k
    · subst hk
      rw [applyAll_other hn.1, applyOne_self he]
    · simp only [List.map_cons, List.mem_cons, hk, false_or] at h
      exact ih hn.2 h (by rw [applyOne_other hk]; exact he)

theorem entries_mem {m : List (String × Str)} {p : String} : p ∈ (entries m).map (·.1) ↔ p ∈ m.map (·.1) := by
  induction m with
  | nil => simp [entries]
  | cons a m ih =>
    obtain ⟨k, v⟩ := a
    simp only [entries]
    split
    · next h =>
      rw [ih]
      simp only [List.map_cons, List.mem_cons]
      constructor
      · exact .inr
      · rintro (h' | h')
        · subst h'
          obtain ⟨q, hq, he⟩ := List.any_eq_true.1 h
          exact List.mem_map.2 ⟨q, hq, by simpa using he⟩
        · exact h'
    · simp only [List.map_cons, List.mem_cons, ih]

theorem entries_nodup (m : List (String × Str)) : ((entries m).map (·.1)).Nodup := by
  induction m with
  | nil => simp [entries]
  | cons a m ih =>
    obtain ⟨k, v⟩ := a
    simp only [entries]
    split
    · exact ih
    · next h =>
      simp only [List.map_cons, List.nodup_cons]
      refine ⟨?_, ih⟩
      rw [entries_mem]
      intro hm
      obtain ⟨q, hq, he⟩ := List.mem_map.1 hm
      exact h (List.any_eq_true.2 ⟨q, hq, by simpa using he⟩)

/-- The files of a listed package that get the import. -/
def chosen (p : ListPkg) : List String :=
  if p.standard then []
  else if p.goFiles.length > 0 then (if p.imports.any (· == tracePkg) then [] else (p.goFiles.take 1).map (join p.dir))
  else (p.testGoFiles ++ p.xtestGoFiles).map (join p.dir)

theorem addToFiles_keys {read : String → Option Str} {dir : String} : ∀ {fs : List String} {m : List (String × Str)},
    addToFiles read dir fs = some (some m) → m.map (·.1) = fs.map (join dir) := by
  intro fs
  induction fs with
  | nil => intro m h; simp only [addToFiles, Option.some.injEq] at h; subst h; rfl
  | cons f fs ih =>
    intro m h
    simp only [addToFiles] at h
    split at h
    · cases h
    · split at h
      · cases h
      · split at h
        · cases h
        · cases h
        · next m' hm' => cases h; simp only [List.map_cons, ih hm']

theorem addToFiles_ok {read : String → Option Str} {dir : String} {fs : List String}
    (h : ∀ f ∈ fs, ∃ c c', read (join dir f) = some c ∧ addBlankImport c = some c') :
    ∃ m, addToFiles read dir fs = some (some m) := by
  induction fs with
  | nil => exact ⟨[], rfl⟩
  | cons f fs ih =>
    obtain ⟨c, c', h1, h2⟩ := h f List.mem_cons_self
    obtain ⟨m, hm⟩ := ih (fun g hg => h g (List.mem_cons_of_mem _ hg))
    exact ⟨(join dir f, c') :: m, by simp only [addToFiles, h1, h2, hm]⟩

theorem addForPackage_keys {read : String → Option Str} {dir : String} {imports files : List String} {all : Bool}
    {m : List (String × Str)} (h : addForPackage read dir imports files all = some m) :
    ∀ k ∈ m.map (·.1), (all = false → imports.any (· == tracePkg) = false) ∧ k ∈ (if all then files else files.take 1).map (join dir) := by
  intro k hk
  simp only [addForPackage] at h
  split at h
  · cases h; cases hk
  · split at h
    · cases h; cases hk
    · next hi =>
      obtain ⟨o, ho, he⟩ := Option.map_eq_some_iff.1 h
      cases o with
      | none => simp only [Option.getD_none] at he; subst he; cases hk
      | some m' =>
        simp only [Option.getD_some] at he; subst he
        rw [addToFiles_keys ho] at hk
        refine ⟨fun ha => ?_, hk⟩
        subst ha
        simp at hi
        simp
        exact fun x hx e => hi (e ▸ hx)

theorem addForPackage_ok {read : String → Option Str} {dir : String} {imports files : List String} {all : Bool}
    (hi : all = false → imports.any (· == tracePkg) = false)
    (h : ∀ f ∈ (if all then files else files.take 1), ∃ c c', read (join dir f) = some c ∧ addBlankImport c = some c') :
    ∃ m, addForPackage read dir imports files all = some m ∧ m.map (·.1) = (if all then files else files.take 1).map (join dir) := by
  simp only [addForPackage]
  split
  · next h0 =>
    have : files = [] := List.length_eq_zero_iff.1 h0
    subst this
    exact ⟨[], rfl, by cases all <;> rfl⟩
  · rw [if_neg (by cases all <;> simp at hi ⊢; exact fun h => hi _ h rfl)]
    obtain ⟨m, hm⟩ := addToFiles_ok h
    exact ⟨m, by rw [hm]; rfl, addToFiles_keys hm⟩

theorem addForListed_keys {read : String → Option Str} {p : ListPkg} {m : List (String × Str)} (h : addForListed read p = some m) :
    ∀ k ∈ m.map (·.1), k ∈ chosen p := by
  intro k hk
  simp only [addForListed] at h
  simp only [chosen]
  split at h
  · cases h; cases hk
  · next hs =>
    rw [if_neg hs]
    split at h
    · next hg =>
      rw [if_pos hg]
      obtain ⟨h1, h2⟩ := addForPackage_keys h k hk
      rw [h1 rfl]
      simpa using h2
    · next hg =>
      rw [if_neg hg]
      split at h
      · cases h
      · next a ha =>
        obtain ⟨b, hb, he⟩ := Option.map_eq_some_iff.1 h
        subst he
        rw [List.map_append, List.mem_append] at hk
        rw [List.map_append, List.mem_append]
        rcases hk with hk | hk
        · exact .inl (addForPackage_keys ha k hk).2
        · exact .inr (addForPackage_keys hb k hk).2

theorem addForListed_ok {read : String → Option Str} {p : ListPkg}
    (h : ∀ f ∈ chosen p, ∃ c c', read f = some c ∧ addBlankImport c = some c') :
    ∃ m, addForListed read p = some m ∧ ∀ f ∈ chosen p, f ∈ m.map (·.1) := by
  simp only [addForListed]
  simp only [chosen] at h ⊢
  split
  · exact ⟨[], rfl, by simp⟩
  · next hs =>
    rw [if_neg hs] at h
    split
    · next hg =>
      rw [if_pos hg] at h
      by_cases hi : p.imports.any (· == tracePkg) = true
      · refine ⟨[], ?_, by simp [hi]⟩
        simp only [addForPackage]
        rw [if_neg (by omega), if_pos (by simpa using hi)]
      · rw [Bool.not_eq_true] at hi
        rw [hi] at h ⊢
        obtain ⟨m, h1, h2⟩ := addForPackage_ok (read := read) (dir := p.dir) (imports := p.imports) (files := p.goFiles) (all := false)
          (fun _ => hi) (fun f hf => h _ (List.mem_map_of_mem hf))
        exact ⟨m, h1, fun f hf => by rw [h2]; exact hf⟩
    · next hg =>
      rw [if_neg hg] at h
      obtain ⟨a, h1, h2⟩ := addForPackage_ok (read := read) (dir := p.dir) (imports := []) (files := p.testGoFiles) (all := true)
        (fun h => by cases h) (fun f hf => h _ (List.mem_map_of_mem (List.mem_append_left _ hf)))
      obtain ⟨b, h3, h4⟩ := addForPackage_ok (read := read) (dir := p.dir) (imports := []) (files := p.xtestGoFiles) (all := true)
        (fun h => by cases h) (fun f hf => h _ (List.mem_map_of_mem (List.mem_append_right _ hf)))
      refine ⟨a ++ b, by rw [h1, h3]; rfl, ?_⟩
      intro f hf
      rw [List.map_append, h2, h4, ← List.map_append]
      exact hf

theorem addBlankImports_keys {read : String → Option Str} : ∀ {ps : List ListPkg} {m : List (String × Str)},
    addBlankImports read ps = some m → ∀ k ∈ m.map (·.1), ∃ p ∈ ps, k ∈ chosen p := by
  intro ps
  induction ps with
  | nil => intro m h k hk; simp only [addBlankImports, Option.some.injEq] at h; subst h; cases hk
  | cons p ps ih =>
    intro m h k hk
    simp only [addBlankImports] at h
    split at h
    · cases h
    · next a ha =>
      obtain ⟨b, hb, he⟩ := Option.map_eq_some_iff.1 h
      subst he
      rw [List.map_append, List.mem_append] at hk
      rcases hk with hk | hk
      · exact ⟨p, List.mem_cons_self, addForListed_keys ha k hk⟩
      · obtain ⟨q, hq, hk⟩ := ih hb k hk
        exact ⟨q, List.mem_cons_of_mem _ hq, hk⟩

theorem addBlankImports_ok {read : String → Option Str} {ps : List ListPkg}
    (h : ∀ p ∈ ps, ∀ f ∈ chosen p, ∃ c c', read f = some c ∧ addBlankImport c = some c') :
    ∃ m, addBlankImports read ps = some m ∧ ∀ p ∈ ps, ∀ f ∈ chosen p, f ∈ m.map (·.1) := by
  induction ps with
  | nil => exact ⟨[], rfl, by simp⟩
  | cons p ps ih =>
    obtain ⟨a, h1, h2⟩ := addForListed_ok (h p List.mem_cons_self)
    obtain ⟨b, h3, h4⟩ := ih (fun q hq => h q (List.mem_cons_of_mem _ hq))
    refine ⟨a ++ b, by simp only [addBlankImports, h1, h3]; rfl, ?_⟩
    intro q hq f hf
    rw [List.map_append, List.mem_append]
    rcases List.mem_cons.1 hq with hq | hq
    · subst hq; exact .inl (h2 f hf)
    · exact .inr (h4 q hq f hf)

/-- **C69**: nothing but the import is added, and to no other files: a file that go can read is compiled as it is, or (only the
first Go file of a listed package, or a test file of a listed package without Go files) with the import added to the text that go
would see, the overlay of the user included. -/
theorem C69_only_imports (disk eff : String → Option Str) (pkgs : List ListPkg) (path : String) (c : Str) (h : eff path = some c) :
    prepare disk eff pkgs path = some c ∨
    ((∃ p ∈ pkgs, path ∈ chosen p) ∧ ∃ c', addBlankImport c = some c' ∧ prepare disk eff pkgs path = some c') := by
  simp only [prepare]
  cases hm : addBlankImports disk pkgs with
  | none => exact .inl h
  | some m =>
    simp only
    by_cases hk : path ∈ (entries m).map (·.1)
    · have := applyAll_key (eff := eff) (entries_nodup m) hk h
      rw [this]
      simp only [inject]
      split
      · exact .inl rfl
      · cases ha : addBlankImport c with
        | none => exact .inl rfl
        | some c' => exact .inr ⟨addBlankImports_keys hm path (entries_mem.1 hk), c', rfl, rfl⟩
    · rw [applyAll_other hk]; exact .inl h

/-- **C69**: every listed package that is not part of the standard library is compiled with the import.  If it does not import
runtime/trace already, its first Go file (or, if it has none, each of its test files) has it: the tokens are those of the text
go would see, on their lines, with the import after the package clause.
The files concerned must have a package clause alone on its line, on disk and in the overlay, and must not mention the import
path otherwise. -/
theorem C69_linked_partial {disk eff : String → Option Str} {pkgs : List ListPkg}
    (hd : ∀ p ∈ pkgs, ∀ f ∈ chosen p, ∃ c ln name, disk f = some c ∧ Header c ln name)
    {p : ListPkg} (hp : p ∈ pkgs) (hs : p.standard = false)
    (hi : p.goFiles ≠ [] → "github.com/xhd2015/xgo/runtime/trace" ∉ p.imports)
    {f : String} (hf : (∃ g, p.goFiles.head? = some g ∧ f = p.dir ++ "/" ++ g) ∨
      (p.goFiles = [] ∧ ∃ g ∈ p.testGoFiles ++ p.xtestGoFiles, f = p.dir ++ "/" ++ g))
    {c : Str} {ln : Nat} {name : Str} (he : eff f = some c) (hh : Header c ln name)
    (hm : ¬ "github.com/xhd2015/xgo/runtime/trace".toList <:+: c) :
    ∃ c' ts, prepare disk eff pkgs f = some c' ∧ tokens c = clause ln name ++ ts ∧
      tokens c' = clause ln name ++ importDecl ln ++ ts := by
  have hi : p.goFiles ≠ [] → tracePkg ∉ p.imports := hi
  have hm : ¬ tracePkg.toList <:+: c := hm
  have hf : (∃ g, p.goFiles.head? = some g ∧ f = join p.dir g) ∨
      (p.goFiles = [] ∧ ∃ g ∈ p.testGoFiles ++ p.xtestGoFiles, f = join p.dir g) := hf
  have hch : f ∈ chosen p := by
    simp only [chosen, hs]
    rcases hf with ⟨g, hg, rfl⟩ | ⟨h0, g, hg, rfl⟩
    · cases hgf : p.goFiles with
      | nil => rw [hgf] at hg; cases hg
      | cons x xs =>
        rw [hgf] at hg
        simp only [List.head?_cons, Option.some.injEq] at hg
        subst hg
        have hni : p.imports.any (· == tracePkg) = false := by
          rw [← Bool.not_eq_true, List.any_eq_true]
          rintro ⟨y, hy, hyt⟩
          simp only [beq_iff_eq] at hyt
          exact hi (by rw [hgf]; simp) (hyt ▸ hy)
        rw [hni]; simp
    · rw [h0]; simp only [List.length_nil]; exact List.mem_map_of_mem hg
  obtain ⟨m, h1, h2⟩ := addBlankImports_ok (read := disk) (ps := pkgs) (fun q hq g hg => by
    obtain ⟨c, ln, name, hc, hh⟩ := hd q hq g hg
    obtain ⟨c', _, ha, _⟩ := C69_import_partial hh
    exact ⟨c, c', hc, ha⟩)
  obtain ⟨c', ts, ha, ht, ht'⟩ := C69_import_partial hh
  refine ⟨c', ts, ?_, ht, ht'⟩
  have hk := entries_mem.2 (h2 p hp f hch)
  simp only [prepare, h1]
  rw [applyAll_key (entries_nodup m) hk he]
  have hnc : contains c tracePkg.toList = false := by
    rw [← Bool.not_eq_true, contains_iff]; exact hm
  simp only [inject, hnc, ha]
  rfl

/-- The order in which Go iterates the map does not matter. -/
theorem C69_any_order {eff : String → Option Str} {m m' : List (String × Str)} (hp : m.Perm m') (hn : (m.map (·.1)).Nodup)
    (he : ∀ k ∈ m.map (·.1), ∃ c, eff k = some c) (p : String) : applyAll eff m p = applyAll eff m' p := by
  by_cases hk : p ∈ m.map (·.1)
  · obtain ⟨c, hc⟩ := he p hk
    rw [applyAll_key hn hk hc, applyAll_key ((hp.map _).nodup_iff.1 hn) ((hp.map _).mem_iff.1 hk) hc]
  · rw [applyAll_other hk, applyAll_other (fun h => hk ((hp.map _).mem_iff.2 h))]

/-! ### Examples -/

namespace Demo

def text : Str := "// Copyright\n\n//go:build linux\n\n/* Package a\n does it. */\npackage a \n\nimport \"fmt\"\n\nfunc F() { fmt.Println() }\n".toList

/-- Non-vacuity of `Header`. -/
theorem header : Header text 7 "a".toList := by
  have e : text = "// Copyright\n\n//go:build linux\n\n/* Package a\n does it. */\n".toList ++ ("package ".toList ++ ("a".toList ++
      ([' '] ++ '\n' :: "\nimport \"fmt\"\n\nfunc F() { fmt.Println() }\n".toList))) := by decide +kernel
  rw [e]
  exact Header.lf (ln := 7) (name := "a".toList) (by unfold Blank; decide +kernel) (by rw [← contains_iff]; decide +kernel)
    ⟨by decide, by decide, by decide⟩ (by simp) (by decide)

example : tokens "package a\nfunc F() { x++ }\n".toList =
    [(1, .word "package".toList), (1, .word "a".toList), (1, .op ';'), (2, .word "func".toList), (2, .word "F".toList), (2, .op '('),
     (2, .op ')'), (2, .op '{'), (2, .word "x".toList), (2, .op '+'), (2, .op '+'), (2, .op '}'), (2, .op ';')] := by decide

example : addBlankImport "package a\nvar x = 1\n".toList =
    some "package a;import _ \"github.com/xhd2015/xgo/runtime/trace\"\nvar x = 1\n".toList := by decide +kernel

def pkgs : List ListPkg := [{ dir := "/m/a", goFiles := ["a.go", "b.go"], imports := ["fmt"] }, { dir := "/m/t", testGoFiles := ["x_test.go"] },
  { dir := "/go/src/fmt", standard := true, goFiles := ["print.go"] }]

def disk : String → Option Str := fun _ => some text

/-- Non-vacuity of `C69_linked_partial`: all its hypotheses. -/
example : (∀ p ∈ pkgs, ∀ f ∈ chosen p, ∃ c ln name, disk f = some c ∧ Header c ln name) ∧
    ¬ tracePkg.toList <:+: text := ⟨fun _ _ _ _ => ⟨_, _, _, rfl, header⟩, by rw [← contains_iff]; decide +kernel⟩

example : (pkgs.map chosen) = [["/m/a/a.go"], ["/m/t/x_test.go"], []] := by decide +kernel

end Demo

/-! ### Counterexamples -/

namespace Wrong

/-- The text has no import of runtime/trace. -/
def NotImported (c : Str) : Prop := ∀ t ∈ tokens c, t.2 ≠ .lit '"' tracePkg.toList

/-- **C69** is false of the code if a comment follows the package clause on its line: the import becomes part of the comment. -/
theorem C69_comment_after : ∃ c', addBlankImport "package a // does it\nfunc F() {}\n".toList = some c' ∧ NotImported c' :=
  ⟨"package a // does it;import _ \"github.com/xhd2015/xgo/runtime/trace\"\nfunc F() {}\n".toList, by decide +kernel, by unfold NotImported; decide +kernel⟩

/-- **C69** is false of the code if a comment before the package clause has the word package. -/
theorem C69_comment_before : ∃ c', addBlankImport "// This package does it.\npackage a\n".toList = some c' ∧ NotImported c' :=
  ⟨"// This package does it.;import _ \"github.com/xhd2015/xgo/runtime/trace\"\npackage a\n".toList, by decide +kernel, by unfold NotImported; decide +kernel⟩

/-- **C69** is false of the code for mixed line ends: the import goes where the first CRLF is, here into a function. -/
theorem C69_mixed_line_ends : addBlankImport "package a\nfunc F() {\n\tx := 1\r\n\t_ = x\n}\n".toList =
    some "package a\nfunc F() {\n\tx := 1;import _ \"github.com/xhd2015/xgo/runtime/trace\"\r\n\t_ = x\n}\n".toList := by decide +kernel

/-- **C69** is false of the code if blanks follow a semicolon after the package clause: there is then an empty declaration, which is
a syntax error. -/
theorem C69_two_semicolons : addBlankImport "package a; \n".toList =
    some "package a; ;import _ \"github.com/xhd2015/xgo/runtime/trace\"\n".toList := by decide +kernel

/-- **C69** is false of the code if the package clause is written with a tab: nothing is added. -/
theorem C69_tab : addBlankImport "package\ta\n".toList = none ∧
    (tokens "package\ta\n".toList) = clause 1 "a".toList := ⟨by decide +kernel, by decide +kernel⟩

/-- **C69** is false of the code if the text mentions the import path, for example in a comment: nothing is added. -/
theorem C69_mentioned : prepare
      (fun _ => some "package a\n// see github.com/xhd2015/xgo/runtime/trace\n".toList)
      (fun _ => some "package a\n// see github.com/xhd2015/xgo/runtime/trace\n".toList)
      [{ dir := "/m/a", goFiles := ["a.go"] }] "/m/a/a.go" = some "package a\n// see github.com/xhd2015/xgo/runtime/trace\n".toList ∧
    NotImported "package a\n// see github.com/xhd2015/xgo/runtime/trace\n".toList := ⟨by decide +kernel, by unfold NotImported; decide +kernel⟩

/-- **C69** is false of the code for an overlay of the user: `go list` does not see it, so if it replaces the file that imports
runtime/trace by one that does not, nothing is added. -/
theorem C69_overlay_of_user : prepare
      (fun _ => some "package a\nimport _ \"github.com/xhd2015/xgo/runtime/trace\"\n".toList) (fun _ => some "package a\n".toList)
      [{ dir := "/m/a", goFiles := ["a.go"], imports := [tracePkg] }] "/m/a/a.go" = some "package a\n".toList := by decide +kernel

end Wrong

end Verif.Cmd.BlankImport
