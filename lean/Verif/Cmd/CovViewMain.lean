/-
C92: changed lines, what git says, and the summary.
-/
import Verif.Cmd.CovViewProps

namespace Verif.Cmd.CovView
open Spec

variable {α : Type}

/-! ### Changed lines -/

theorem getElem?_app {β : Type} {a b : List β} {j : Nat} {x : β} :
    (a ++ b)[j]? = some x ↔ a[j]? = some x ∨ ∃ m, j = a.length + m ∧ b[m]? = some x := by
  rw [List.getElem?_append]
  split
  · rename_i h
    constructor
    · exact .inl
    · rintro (h' | ⟨m, rfl, _⟩)
      · exact h'
      · omega
  · rename_i h
    constructor
    · intro h'; exact .inr ⟨j - a.length, by omega, h'⟩
    · rintro (h' | ⟨m, rfl, h'⟩)
      · rw [List.getElem?_eq_none (by omega)] at h'; cases h'
      · rwa [Nat.add_sub_cancel_left]

theorem getElem?_none_map {β : Type} {i : List β} {j : Nat} {x : Option Nat} :
    (i.map fun _ => (none : Option Nat))[j]? = some x ↔ j < i.length ∧ x = none := by
  rw [List.getElem?_map]
  by_cases h : j < i.length
  · rw [List.getElem?_eq_getElem h]; simp [h, eq_comm]
  · rw [List.getElem?_eq_none (by omega)]; simp [h]

theorem getElem?_range_map {o n j : Nat} {x : Option Nat} :
    ((List.range' (o + 1) n).map some)[j]? = some x ↔ j < n ∧ x = some (o + 1 + j) := by
  rw [List.getElem?_map]
  by_cases h : j < n
  · rw [List.getElem?_range' h]; simp [h, eq_comm]
  · rw [List.getElem?_eq_none (by simp; omega)]; simp [h]

/-- One step of `ForeachLineMapping` over a replacement. -/
theorem spans_edit (A B oldS newS k o n : Nat) (d i : List α) (cs : List Change) (h1 : o + 1 = oldS + k) (h2 : n + 1 = newS + k) :
    spans A B oldS newS (⟨if d = [] then o else o + 1, if d = [] then 0 else o + d.length,
      if i = [] then n else n + 1, if i = [] then 0 else n + i.length⟩ :: cs) =
    ⟨oldS, newS, n + 1, false⟩ :: (if i = [] then [] else [⟨o + 1, n + 1, n + i.length + 1, true⟩]) ++
      spans A B (o + d.length + 1) (n + i.length + 1) cs := by
  rw [spans]
  have e1 : ∀ {a b c : Nat} {l : List α}, (if (if l = [] then 0 else a + l.length) = 0 then b else c) = if l = [] then b else c := by
    intro a b c l
    cases l with
    | nil => simp
    | cons x l => simp
  have e2 : ∀ {β : Type} {a : Nat} {b c : β} {l : List α},
      (if (if l = [] then 0 else a + l.length) = 0 then b else c) = if l = [] then b else c := by
    intro β a b c l
    cases l with
    | nil => simp
    | cons x l => simp
  simp only [e2]
  have e3 : ∀ {l : List α} {a : Nat}, (if l = [] then (if l = [] then a else a + 1) + 1 else if l = [] then a else a + 1) = a + 1 := by
    intro l a; split <;> simp
  have e4 : ∀ {l : List α} {a : Nat},
      (if l = [] then (if l = [] then a else a + 1) + 1 else (if l = [] then 0 else a + l.length) + 1) = a + l.length + 1 := by
    intro l a; split
    · subst_vars; simp
    · rfl
  simp only [e3, e4]
  rw [if_neg (by omega)]

theorem spans_same (ps : List (Piece α)) : ∀ (o n oldS newS k A B : Nat), o + 1 = oldS + k → n + 1 = newS + k →
    A = o + (old ps).length → B = n + (new ps).length → ∀ l v,
    ((∃ s ∈ spans A B oldS newS (told o n ps), s.changed = false ∧ s.newS ≤ l ∧ l < s.newE ∧ v = s.oldS + (l - s.newS)) ↔
      (newS ≤ l ∧ l ≤ n ∧ v = oldS + (l - newS)) ∨ ∃ j, (origin o ps)[j]? = some (some v) ∧ l = n + 1 + j) := by
  induction ps with
  | nil =>
    intro o n oldS newS k A B h1 h2 hA hB l v
    simp only [old, new, List.length_nil, Nat.add_zero] at hA hB
    subst hA hB
    simp only [told, spans, origin]
    rw [if_neg (by omega)]
    simp
    intro _ _
    omega
  | cons p ps ih =>
    intro o n oldS newS k A B h1 h2 hA hB l v
    cases p with
    | same ls =>
      simp only [old, new, List.length_append] at hA hB
      rw [told, ih (o + ls.length) (n + ls.length) oldS newS (k + ls.length) A B (by omega) (by omega) (by omega) (by omega)]
      rw [origin]
      constructor
      · rintro (⟨h3, h4, h5⟩ | ⟨j, h3, h4⟩)
        · by_cases hl : l ≤ n
          · exact .inl ⟨h3, hl, h5⟩
          · refine .inr ⟨l - (n + 1), getElem?_app.2 (.inl (getElem?_range_map.2 ⟨by omega, ?_⟩)), by omega⟩
            rw [h5]; congr 1; omega
        · exact .inr ⟨ls.length + j, getElem?_app.2 (.inr ⟨j, by simp, h3⟩), by omega⟩
      · rintro (⟨h3, h4, h5⟩ | ⟨j, h3, h4⟩)
        · exact .inl ⟨h3, by omega, h5⟩
        · rcases getElem?_app.1 h3 with h3 | ⟨m, hm, h3⟩
          · obtain ⟨h5, h6⟩ := getElem?_range_map.1 h3
            have h6 := Option.some.inj h6
            exact .inl ⟨by omega, by omega, by omega⟩
          · simp at hm
            exact .inr ⟨m, h3, by omega⟩
    | edit d i =>
      simp only [old, new, List.length_append] at hA hB
      rw [told, spans_edit A B oldS newS k o n d i _ h1 h2]
      have := ih (o + d.length) (n + i.length) (o + d.length + 1) (n + i.length + 1) 0 A B (by omega) (by omega) (by omega) (by omega) l v
      rw [origin]
      constructor
      · rintro ⟨s, hs, h3, h4, h5, h6⟩
        rcases List.mem_append.1 hs with hs | hs
        · rcases List.mem_cons.1 hs with rfl | hs
          · exact .inl ⟨h4, by simp at h5; omega, h6⟩
          · split at hs
            · cases hs
            · rcases List.mem_singleton.1 hs with rfl
              simp at h3
        · rcases this.1 ⟨s, hs, h3, h4, h5, h6⟩ with ⟨h7, h8, _⟩ | ⟨j, h7, h8⟩
          · omega
          · exact .inr ⟨i.length + j, getElem?_app.2 (.inr ⟨j, by simp, h7⟩), by omega⟩
      · rintro (⟨h3, h4, h5⟩ | ⟨j, h3, h4⟩)
        · exact ⟨_, List.mem_append_left _ List.mem_cons_self, rfl, h3, by simp; omega, h5⟩
        · rcases getElem?_app.1 h3 with h3 | ⟨m, hm, h3⟩
          · exact absurd (getElem?_none_map.1 h3).2 (by simp)
          · simp at hm
            obtain ⟨s, hs, h⟩ := this.2 (.inr ⟨m, h3, by omega⟩)
            exact ⟨s, List.mem_append_right _ hs, h⟩

theorem spans_new (ps : List (Piece α)) : ∀ (o n oldS newS k A B : Nat), o + 1 = oldS + k → n + 1 = newS + k →
    A = o + (old ps).length → B = n + (new ps).length → ∀ l,
    ((∃ s ∈ spans A B oldS newS (told o n ps), s.changed = true ∧ s.newS ≤ l ∧ l < s.newE) ↔
      ∃ j, (origin o ps)[j]? = some none ∧ l = n + 1 + j) := by
  induction ps with
  | nil =>
    intro o n oldS newS k A B h1 h2 hA hB l
    simp only [old, new, List.length_nil, Nat.add_zero] at hA hB
    subst hA hB
    simp only [told, spans, origin]
    rw [if_neg (by omega)]
    simp
  | cons p ps ih =>
    intro o n oldS newS k A B h1 h2 hA hB l
    cases p with
    | same ls =>
      simp only [old, new, List.length_append] at hA hB
      rw [told, ih (o + ls.length) (n + ls.length) oldS newS (k + ls.length) A B (by omega) (by omega) (by omega) (by omega)]
      rw [origin]
      constructor
      · rintro ⟨j, h3, h4⟩
        exact ⟨ls.length + j, getElem?_app.2 (.inr ⟨j, by simp, h3⟩), by omega⟩
      · rintro ⟨j, h3, h4⟩
        rcases getElem?_app.1 h3 with h3 | ⟨m, hm, h3⟩
        · exact absurd (getElem?_range_map.1 h3).2 (by simp)
        · simp at hm
          exact ⟨m, h3, by omega⟩
    | edit d i =>
      simp only [old, new, List.length_append] at hA hB
      rw [told, spans_edit A B oldS newS k o n d i _ h1 h2]
      have := ih (o + d.length) (n + i.length) (o + d.length + 1) (n + i.length + 1) 0 A B (by omega) (by omega) (by omega) (by omega) l
      rw [origin]
      constructor
      · rintro ⟨s, hs, h3, h4, h5⟩
        rcases List.mem_append.1 hs with hs | hs
        · rcases List.mem_cons.1 hs with rfl | hs
          · cases h3
          · split at hs
            · cases hs
            · rcases List.mem_singleton.1 hs with rfl
              simp only at h4 h5
              exact ⟨l - (n + 1), getElem?_app.2 (.inl (getElem?_none_map.2 ⟨by omega, rfl⟩)), by omega⟩
        · obtain ⟨j, h7, h8⟩ := this.1 ⟨s, hs, h3, h4, h5⟩
          exact ⟨i.length + j, getElem?_app.2 (.inr ⟨j, by simp, h7⟩), by omega⟩
      · rintro ⟨j, h3, h4⟩
        rcases getElem?_app.1 h3 with h3 | ⟨m, hm, h3⟩
        · have hj := (getElem?_none_map.1 h3).1
          have hi : i ≠ [] := by rintro rfl; simp at hj
          refine ⟨⟨o + 1, n + 1, n + i.length + 1, true⟩, List.mem_append_left _ (List.mem_cons_of_mem _ ?_), rfl, ?_, ?_⟩
          · rw [if_neg hi]; exact List.mem_singleton.2 rfl
          · simp only; omega
          · simp only; omega
        · simp at hm
          obtain ⟨s, hs, h⟩ := this.2 ⟨m, h3, by omega⟩
          exact ⟨s, List.mem_append_right _ hs, h⟩

theorem changedLine_iff (ps : List (Piece α)) (l : Nat) :
    changedLine (some (changes ps)) l = true ↔ ∃ j, (origin 0 ps)[j]? = some none ∧ l = j + 1 := by
  have := spans_new ps 0 0 1 1 0 (old ps).length (new ps).length rfl rfl (by omega) (by omega) l
  simp only [changedLine, changes, List.any_eq_true, Bool.and_eq_true, decide_eq_true_eq]
  constructor
  · rintro ⟨s, hs, ⟨h1, h2⟩, h3⟩
    obtain ⟨j, h4, h5⟩ := this.1 ⟨s, hs, h1, h2, h3⟩
    exact ⟨j, h4, by omega⟩
  · rintro ⟨j, h4, h5⟩
    obtain ⟨s, hs, h1, h2, h3⟩ := this.2 ⟨j, h4, by omega⟩
    exact ⟨s, hs, ⟨h1, h2⟩, h3⟩

/-- **C92** (`C92_changes`): for each comparison of two texts, exactly the lines that were put into the new one are marked as changed, and each
    other line of the new text is given the number of the old line that it is. -/
theorem C92_changes (ps : List (Piece α)) (l : Nat) :
    (changedLine (some (changes ps)) l = true ↔ ∃ j, (origin 0 ps)[j]? = some none ∧ l = j + 1) ∧
    ∀ j m, (origin 0 ps)[j]? = some (some m) → oldLine (some (changes ps)) (j + 1) = m := by
  refine ⟨changedLine_iff ps l, fun j m h => ?_⟩
  have key := spans_same ps 0 0 1 1 0 (old ps).length (new ps).length rfl rfl (by omega) (by omega) (j + 1)
  unfold oldLine changes
  simp only
  split
  · rename_i hn
    rw [List.find?_eq_none] at hn
    obtain ⟨s, hs, h1, h2, h3, _⟩ := (key m).2 (.inr ⟨j, h, by omega⟩)
    exact absurd (by simp [h1, h2, h3]) (hn s (List.mem_reverse.2 hs))
  · rename_i s hs
    have hm := List.mem_reverse.1 (List.mem_of_find?_eq_some hs)
    have hp := List.find?_some hs
    simp only [Bool.and_eq_true, Bool.not_eq_true', decide_eq_true_eq] at hp
    rcases (key (s.oldS + (j + 1 - s.newS))).1 ⟨s, hm, hp.1.1, hp.1.2, hp.2, rfl⟩ with ⟨h1, h2, _⟩ | ⟨j', h1, h2⟩
    · omega
    · have : j' = j := by omega
      subst this
      rw [h] at h1
      exact (Option.some.inj (Option.some.inj h1)).symm

/-- The origins are what they are meant to be: one for each line of the new text, and the lines have the same text. -/
theorem origin_text (ps : List (Piece α)) : ∀ o (pre : List α), pre.length = o →
    (origin o ps).length = (new ps).length ∧
    ∀ (j m : Nat), (origin o ps)[j]? = some (some m) → o < m ∧ (pre ++ old ps)[m - 1]? = (new ps)[j]? := by
  induction ps with
  | nil => intro o pre h; simp [origin, new]
  | cons p ps ih =>
    intro o pre h
    cases p with
    | same ls =>
      have := ih (o + ls.length) (pre ++ ls) (by simp [h])
      refine ⟨by simp [origin, new, this.1], fun j m hj => ?_⟩
      rw [origin] at hj
      rcases getElem?_app.1 hj with hj | ⟨m', hm, hj⟩
      · obtain ⟨h1, h2⟩ := getElem?_range_map.1 hj
        have h2 := Option.some.inj h2
        refine ⟨by omega, ?_⟩
        rw [old, new, List.getElem?_append_right (by omega), List.getElem?_append_left (by omega), List.getElem?_append_left h1]
        congr 1; omega
      · simp at hm
        have := this.2 m' m hj
        refine ⟨by omega, ?_⟩
        rw [old, new, ← List.append_assoc, this.2, List.getElem?_append_right (by omega)]
        congr 1; omega
    | edit d i =>
      have := ih (o + d.length) (pre ++ d) (by simp [h])
      refine ⟨by simp [origin, new, this.1], fun j m hj => ?_⟩
      rw [origin] at hj
      rcases getElem?_app.1 hj with hj | ⟨m', hm, hj⟩
      · exact absurd (getElem?_none_map.1 hj).2 (by simp)
      · simp at hm
        have := this.2 m' m hj
        refine ⟨by omega, ?_⟩
        rw [old, new, ← List.append_assoc, this.2, List.getElem?_append_right (by omega)]
        congr 1; omega

/-- **C92** (`C92_old_text`): a line that is not marked as changed has the text of the old line that it is shown beside. -/
theorem C92_old_text (ps : List (Piece α)) (l : Nat) (h1 : 1 ≤ l) (h2 : l ≤ (new ps).length)
    (hc : changedLine (some (changes ps)) l = false) :
    1 ≤ oldLine (some (changes ps)) l ∧ (old ps)[oldLine (some (changes ps)) l - 1]? = (new ps)[l - 1]? := by
  have ht := origin_text ps 0 [] rfl
  obtain ⟨j, rfl⟩ : ∃ j, l = j + 1 := ⟨l - 1, by omega⟩
  have hj : j < (origin 0 ps).length := by omega
  cases ho : (origin 0 ps)[j] with
  | none =>
    have := (C92_changes ps (j + 1)).1.2 ⟨j, by rw [List.getElem?_eq_getElem hj, ho], rfl⟩
    rw [hc] at this; cases this
  | some m =>
    have ho' : (origin 0 ps)[j]? = some (some m) := by rw [List.getElem?_eq_getElem hj, ho]
    rw [(C92_changes ps 0).2 j m ho']
    have := ht.2 j m ho'
    exact ⟨by omega, by simpa using this.2⟩

/-- A line replaced by two, one deleted, one appended. -/
def sample : List (Piece Nat) := [.same [1, 2], .edit [3] [30, 31], .same [4], .edit [5] [], .same [6], .edit [] [7]]

example : (List.range 9).filter (changedLine (some (changes sample))) = [3, 4, 7] ∧
    (List.range 9).map (oldLine (some (changes sample))) = [0, 1, 2, 0, 0, 4, 6, 0, 0] := by decide +kernel

/-! ### Which lines are changed, by git -/

theorem detail_work {r : Repo} (hd : r.dir = []) {f : Str} (hr : r.renamed f = false) {t : Str} (hw : r.work f = some t) :
    r.detail f = some ⟨!r.tracked f || (r.base f).isNone, false,
      r.tracked f && ((r.base f).isSome && (r.base f != some t))⟩ := by
  unfold Repo.detail Repo.inNew Repo.inOld Repo.untracked Repo.added Repo.modified
  simp only [hd, List.nil_append, hw, hr]
  cases r.tracked f <;> cases r.base f <;> simp
  all_goals (try split) <;> simp_all

/-- **C92** (`C92_git_partial`): when the module is at the top of its repository, a listed file that is no renamed one is shown as new exactly
    if it is not in the commit compared with (or not tracked), as changed exactly if it is and its text there is another one. -/
theorem C92_git_partial (r : Repo) (diff : Str → Str → Changes) (f t : Str) (hd : r.dir = []) (hr : r.renamed f = false)
    (hw : r.work f = some t) :
    ∃ d, r.info diff f = some d ∧ (d.isNew = true ↔ r.tracked f = false ∨ r.base f = none) ∧
      (d.changed = true ↔ r.tracked f = true ∧ ∃ was, r.base f = some was ∧ was ≠ t) := by
  refine ⟨_, by rw [Repo.info, detail_work hd hr hw]; rfl, ?_, ?_⟩
  · simp
  · simp only [Bool.and_eq_true, bne_iff_ne]
    cases r.base f <;> simp

/-- **C92** (`C92_changed_partial`): when the module is at the top of its repository, a line of a listed file that is no renamed one is marked as
    changed exactly if it is new since the commit compared with. -/
theorem C92_changed_partial (i : Input) (r : Repo) (cmp : Str → Str → List (Piece Str)) (f t : Str) (l : Nat)
    (hi : i.info f = r.info (fun a b => changes (cmp a b)) f) (hf : f ∈ i.listed) (hd : r.dir = []) (hr : r.renamed f = false)
    (hw : r.work f = some t) : i.changed f l = true ↔ NewLine r cmp f l := by
  unfold Input.changed Input.fileInfo NewLine
  rw [if_pos hf, hi, Repo.info, detail_work hd hr hw]
  simp only [Repo.diffFile, hd, hw, List.nil_append]
  cases ht : r.tracked f with
  | false => simp
  | true =>
    cases hb : r.base f with
    | none => simp
    | some was =>
      by_cases he : was = t
      · subst he
        simp [changedLine]
      · by_cases hs : Support.Coverage.trimSpace t = Support.Coverage.trimSpace was
        · simp [hs, changedLine]
        · have hs' : ¬ Support.Coverage.trimSpace was = Support.Coverage.trimSpace t := fun h => hs h.symm
          have key := changedLine_iff (cmp was t) l
          simp [he, hs, hs', key]

/-! ### Lines -/

/-- **C92** (`C92_first`): the line belongs to the first block on it, whatever the order in which the blocks are gone through. -/
theorem C92_first (bs : List Block) (l : Nat) (b : Block) : lineBlock bs l = some b ↔ First (· ∈ bs) l b := lineBlock_some

/-- **C92** (`C92_stable`): so the view is the same for each order of the maps. -/
theorem C92_stable (bs bs' : List Block) (h : ∀ b, b ∈ bs ↔ b ∈ bs') (l : Nat) : lineBlock bs l = lineBlock bs' l := by
  cases hb : lineBlock bs' l with
  | none =>
    rw [lineBlock_none] at hb ⊢
    exact fun b hm => hb b ((h b).1 hm)
  | some b =>
    rw [lineBlock_some] at hb ⊢
    exact (first_congr h).2 hb

/-- **C92** (`C92_line`): a line is counted exactly if it has code, and is shown as covered exactly if the first block on it ran. -/
theorem C92_line (i : Input) (hi : Clean i) (f : Str) (hf : f ≠ []) (l : Nat) :
    (i.coverable f l = true ↔ Coverable i f l) ∧ (i.covered f l = true ↔ Covered i f l) :=
  ⟨coverable_iff hi hf, covered_iff hi hf⟩

theorem exists_first {bs : List Block} {l : Nat} {b : Block} (hb : b ∈ bs) (ho : On b l) : ∃ b', First (· ∈ bs) l b' := by
  cases h : lineBlock bs l with
  | none => exact absurd ho (lineBlock_none.1 h b hb)
  | some b' => exact ⟨b', lineBlock_some.1 h⟩

/-- **C92** (`C92_covered`): a line shown as covered has code on it that ran; a line of which all code ran is shown as covered; a line of
    which no code ran is not. -/
theorem C92_covered (i : Input) (hi : Clean i) (f : Str) (hf : f ≠ []) (l : Nat) :
    (i.covered f l = true → ∃ b, Ran i f b ∧ On b l) ∧
    (i.coverable f l = true → (∀ b, Code i f b → On b l → Ran i f b) → i.covered f l = true) := by
  constructor
  · intro h
    obtain ⟨b, hb, hr⟩ := (covered_iff hi hf).1 h
    exact ⟨b, hr, hb.2.1⟩
  · intro h hall
    obtain ⟨_, b, hb, ho⟩ := (coverable_iff hi hf).1 h
    obtain ⟨b', h'⟩ := exists_first ((mem_blocks hi hf).2 hb) ho
    have h' := (first_congr fun b => mem_blocks hi hf).1 h'
    exact (covered_iff hi hf).2 ⟨b', h', hall b' h'.1 h'.2.1⟩

/-! ### The summary -/

theorem nodup_eraseDups : ∀ (n : Nat) (l : List Str), l.length ≤ n → l.eraseDups.Nodup := by
  intro n
  induction n with
  | zero =>
    intro l h
    have : l = [] := List.length_eq_zero_iff.1 (by omega)
    subst this; simp
  | succ n ih =>
    intro l h
    cases l with
    | nil => simp
    | cons a l =>
      rw [List.eraseDups_cons, List.nodup_cons]
      refine ⟨?_, ih _ ?_⟩
      · rw [List.mem_eraseDups, List.mem_filter]; simp
      · have := List.length_filter_le (fun b => !b == a) l
        simp only [List.length_cons] at h; omega

theorem nodup_shown (i : Input) : i.shown.Nodup := (nodup_eraseDups _ _ (Nat.le_refl _)).filter _

theorem le_lastLine {bs : List Block} {b : Block} (h : b ∈ bs) : b.el ≤ lastLine bs := by
  unfold lastLine
  induction bs with
  | nil => cases h
  | cons x bs ih =>
    simp only [List.map_cons, List.foldr_cons]
    rcases List.mem_cons.1 h with rfl | h
    · omega
    · have := ih h; omega

theorem coverable_le {i : Input} {f : Str} {l : Nat} (h : i.coverable f l = true) : l ≤ lastLine (i.blocks f) := by
  unfold Input.coverable at h
  rw [Bool.and_eq_true, Option.isSome_iff_exists] at h
  obtain ⟨_, b, hb⟩ := h
  have := lineBlock_some.1 hb
  exact Nat.le_trans this.2.1.2 (le_lastLine this.1)

theorem mem_counted {i : Input} {f : Str} {l : Nat} : (f, l) ∈ i.counted ↔ f ∈ i.shown ∧ i.coverable f l = true := by
  unfold Input.counted
  simp only [List.mem_flatten, List.mem_map]
  constructor
  · rintro ⟨_, ⟨g, hg, rfl⟩, h⟩
    rw [List.mem_map] at h
    obtain ⟨m, hm, h⟩ := h
    cases h
    exact ⟨hg, (List.mem_filter.1 hm).2⟩
  · rintro ⟨h1, h2⟩
    refine ⟨_, ⟨f, h1, rfl⟩, List.mem_map.2 ⟨l, List.mem_filter.2 ⟨List.mem_range.2 ?_, h2⟩, rfl⟩⟩
    have := coverable_le h2; omega

theorem nodup_pairs (g : Str → List Nat) (hg : ∀ f, (g f).Nodup) : ∀ fs : List Str, fs.Nodup →
    ((fs.map fun f => (g f).map fun l => (f, l)).flatten).Nodup := by
  intro fs
  induction fs with
  | nil => intro; simp
  | cons f fs ih =>
    intro h
    rw [List.nodup_cons] at h
    rw [List.map_cons, List.flatten_cons, List.nodup_append]
    refine ⟨?_, ih h.2, ?_⟩
    · rw [List.nodup_iff_pairwise_ne, List.pairwise_map]
      exact (List.nodup_iff_pairwise_ne.1 (hg f)).imp fun h h' => h (Prod.mk.inj h').2
    · rintro x hx y hy rfl
      rw [List.mem_map] at hx
      obtain ⟨l, _, rfl⟩ := hx
      simp only [List.mem_flatten, List.mem_map] at hy
      obtain ⟨_, ⟨f', hf', rfl⟩, hy⟩ := hy
      rw [List.mem_map] at hy
      obtain ⟨_, _, hy⟩ := hy
      cases hy
      exact h.1 hf'

theorem nodup_counted (i : Input) : i.counted.Nodup :=
  nodup_pairs _ (fun _ => List.nodup_range.filter _) _ (nodup_shown i)

theorem mem_shown {i : Input} (hi : Clean i) {f : Str} : f ∈ i.shown ↔ Shown i f := by
  unfold Input.shown Shown Input.files
  rw [List.mem_filter, List.mem_eraseDups, List.mem_filter, List.mem_append, List.mem_filterMap]
  rw [and_assoc]
  apply and_congr
  · apply or_congr Iff.rfl
    constructor
    · rintro ⟨e, he, h⟩
      obtain ⟨h1, h2⟩ := (rel_iff hi he).1 h
      exact ⟨h1, e, he, h2⟩
    · rintro ⟨h1, e, he, h2⟩
      exact ⟨e, he, (rel_iff hi he).2 ⟨h1, h2⟩⟩
  · apply and_congr Iff.rfl
    rw [Bool.or_eq_true, Bool.not_eq_true']
    have : i.fileChanged f = true ↔ f ∈ i.listed ∧ ∃ d, i.info f = some d ∧ (d.isNew = true ∨ d.changed = true) := by
      unfold Input.fileChanged Input.fileInfo
      by_cases h : f ∈ i.listed
      · rw [if_pos h]
        cases i.info f <;> simp [h]
      · rw [if_neg h]; simp [h]
    rw [this]
    cases i.only <;> simp

theorem shown_ne_nil {i : Input} (hi : Clean i) {f : Str} (h : Shown i f) : f ≠ [] := by
  rcases h.1 with h | h
  · exact hi.named f h
  · exact h.1

theorem fold_add (c d : Str × Nat → Bool) : ∀ (L : List (Str × Nat)) (a b : Item),
    L.foldl (fun s x => addLine s (c x) (d x)) (a, b) =
      (⟨a.total + L.length, a.covered + (L.filter c).length⟩,
       ⟨b.total + (L.filter d).length, b.covered + (L.filter fun x => d x && c x).length⟩) := by
  intro L
  induction L with
  | nil => intro a b; rfl
  | cons x L ih =>
    intro a b
    rw [List.foldl_cons, addLine, ih]
    cases hc : c x <;> cases hd : d x <;> simp [hc, hd] <;> omega

/-- **C92** (`C92_summary`): the numbers of the summary are those of lines: all that are counted, those of them that are covered, those that are
    new, and those that are both, each line once. -/
theorem C92_summary (i : Input) (hi : Clean i) :
    Count (fun x : Str × Nat => Shown i x.1 ∧ Coverable i x.1 x.2) i.summary.1.total ∧
    Count (fun x : Str × Nat => Shown i x.1 ∧ Coverable i x.1 x.2 ∧ Covered i x.1 x.2) i.summary.1.covered ∧
    Count (fun x : Str × Nat => Shown i x.1 ∧ Coverable i x.1 x.2 ∧ i.changed x.1 x.2 = true) i.summary.2.total ∧
    Count (fun x : Str × Nat => Shown i x.1 ∧ Coverable i x.1 x.2 ∧ Covered i x.1 x.2 ∧ i.changed x.1 x.2 = true) i.summary.2.covered := by
  have hs : i.summary = _ := fold_add (fun x => i.covered x.1 x.2) (fun x => i.changed x.1 x.2) i.counted ⟨0, 0⟩ ⟨0, 0⟩
  rw [hs]
  have hm : ∀ x : Str × Nat, x ∈ i.counted ↔ Shown i x.1 ∧ Coverable i x.1 x.2 := by
    rintro ⟨f, l⟩
    rw [mem_counted, mem_shown hi]
    constructor
    · rintro ⟨h1, h2⟩; exact ⟨h1, (coverable_iff hi (shown_ne_nil hi h1)).1 h2⟩
    · rintro ⟨h1, h2⟩; exact ⟨h1, (coverable_iff hi (shown_ne_nil hi h1)).2 h2⟩
  refine ⟨⟨i.counted, nodup_counted i, hm, by simp⟩,
    ⟨_, (nodup_counted i).filter (fun x => i.covered x.1 x.2), ?_, by simp⟩,
    ⟨_, (nodup_counted i).filter (fun x => i.changed x.1 x.2), ?_, by simp⟩,
    ⟨_, (nodup_counted i).filter (fun x => i.changed x.1 x.2 && i.covered x.1 x.2), ?_, by simp⟩⟩
  · intro x
    rw [List.mem_filter, hm, and_assoc]
    constructor
    · rintro ⟨h1, h2, h3⟩; exact ⟨h1, h2, (covered_iff hi (shown_ne_nil hi h1)).1 h3⟩
    · rintro ⟨h1, h2, h3⟩; exact ⟨h1, h2, (covered_iff hi (shown_ne_nil hi h1)).2 h3⟩
  · intro x
    rw [List.mem_filter, hm, and_assoc]
  · intro x
    rw [List.mem_filter, hm, and_assoc, Bool.and_eq_true]
    constructor
    · rintro ⟨h1, h2, h3, h4⟩; exact ⟨h1, h2, (covered_iff hi (shown_ne_nil hi h1)).1 h4, h3⟩
    · rintro ⟨h1, h2, h3, h4⟩; exact ⟨h1, h2, h4, (covered_iff hi (shown_ne_nil hi h1)).2 h3⟩

theorem nodup_le {β : Type} : ∀ {L L' : List β}, L.Nodup → (∀ x ∈ L, x ∈ L') → L.length ≤ L'.length := by
  intro L
  induction L with
  | nil => intro L' _ _; simp
  | cons x L ih =>
    intro L' h hs
    rw [List.nodup_cons] at h
    obtain ⟨a, b, rfl⟩ := List.append_of_mem (hs x List.mem_cons_self)
    have := ih (L' := a ++ b) h.2 (fun y hy => by
      have hy' := hs y (List.mem_cons_of_mem _ hy)
      rw [List.mem_append, List.mem_cons] at hy'
      rw [List.mem_append]
      rcases hy' with h' | rfl | h'
      · exact .inl h'
      · exact absurd hy h.1
      · exact .inr h')
    simp at this ⊢; omega

/-- The count is one number. -/
theorem C92_count_unique {β : Type} {P : β → Prop} {m n : Nat} (h : Count P m) (h' : Count P n) : m = n := by
  obtain ⟨L, h1, h2, rfl⟩ := h
  obtain ⟨L', h1', h2', rfl⟩ := h'
  exact Nat.le_antisymm (nodup_le h1 fun x hx => (h2' x).2 ((h2 x).1 hx))
    (nodup_le h1' fun x hx => (h2 x).2 ((h2' x).1 hx))

end Verif.Cmd.CovView
