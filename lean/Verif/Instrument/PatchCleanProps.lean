/-
Removing edits gives back the original (C25).
-/
import Verif.Instrument.PatchText
import Verif.Instrument.PatchSpec

namespace Verif.Instrument.PatchText
open Verif.Text Spec

/-! ### The literals -/

theorem lit_begin : "/*<begin".toList = ['/', '*', '<', 'b', 'e', 'g', 'i', 'n'] := by decide
theorem lit_begin_ : "/*<begin ".toList = ['/', '*', '<', 'b', 'e', 'g', 'i', 'n', ' '] := by decide
theorem lit_end : "/*<end".toList = ['/', '*', '<', 'e', 'n', 'd'] := by decide
theorem lit_end_ : "/*<end ".toList = ['/', '*', '<', 'e', 'n', 'd', ' '] := by decide
theorem lit_close : ">*/".toList = ['>', '*', '/'] := by decide
theorem lit_old : "/*old:".toList = ['/', '*', 'o', 'l', 'd', ':'] := by decide
theorem lit_cc : "*/".toList = ['*', '/'] := by decide
theorem lit_gt : ">".toList = ['>'] := by decide
theorem lit_sbegin : "*<begin".toList = ['*', '<', 'b', 'e', 'g', 'i', 'n'] := by decide
theorem lit_sbegin_ : "*<begin ".toList = ['*', '<', 'b', 'e', 'g', 'i', 'n', ' '] := by decide
theorem lit_send : "*<end".toList = ['*', '<', 'e', 'n', 'd'] := by decide
theorem lit_send_ : "*<end ".toList = ['*', '<', 'e', 'n', 'd', ' '] := by decide
theorem lit_snext : "*<next-line-original ".toList = ['*', '<', 'n', 'e', 'x', 't', '-', 'l', 'i', 'n', 'e', '-', 'o', 'r',
    'i', 'g', 'i', 'n', 'a', 'l', ' '] := by decide
theorem lit_next : "/*<next-line-original ".toList = '/' :: "*<next-line-original ".toList := by decide
theorem lit_nextend : "</next-line-original>*/".toList = ['<', '/', 'n', 'e', 'x', 't', '-', 'l', 'i', 'n', 'e', '-', 'o',
    'r', 'i', 'g', 'i', 'n', 'a', 'l', '>', '*', '/'] := by decide

theorem region_text (l o n : Str) : (Mark.region l o n).text =
    "/*<begin ".toList ++ (l ++ (">*/".toList ++ (body o n ++ ("/*<end ".toList ++ l ++ ">*/".toList)))) := by
  have : (Mark.region l o n).text =
    "/*<begin ".toList ++ l ++ ">*/".toList ++ body o n ++ "/*<end ".toList ++ l ++ ">*/".toList := rfl
  rw [this]
  generalize "/*<begin ".toList = B
  generalize ">*/".toList = C
  generalize "/*<end ".toList = D
  simp only [List.append_assoc]

theorem line_text (l o n : Str) : (Mark.line l o n).text =
    "/*<next-line-original ".toList ++ (l ++ (">".toList ++ (o ++ ("</next-line-original>*/".toList ++ '\n' :: n)))) := by
  have : (Mark.line l o n).text = "/*<next-line-original ".toList ++ l ++ ">".toList ++ o ++
    "</next-line-original>*/".toList ++ '\n' :: n := rfl
  rw [this]
  generalize "/*<next-line-original ".toList = B
  generalize ">".toList = C
  generalize "</next-line-original>*/".toList = D
  simp only [List.append_assoc]

/-! ### Where a text occurs -/

theorem not_infix_of_tail {c : Char} {w s : Str} (h : ¬ w <:+: s) : ¬ (c :: w) <:+: s :=
  fun hc => h ((List.infix_cons (List.infix_refl w)).trans hc)

theorem not_infix_of_append {w v s : Str} (h : ¬ w <:+: s) : ¬ (w ++ v) <:+: s :=
  fun hc => h ((List.infix_append [] w v).trans hc)

theorem not_infix_sub {w a s : Str} (h : ¬ w <:+: s) (ha : a <:+: s) : ¬ w <:+: a := fun hc => h (hc.trans ha)

theorem free_head {w a b : Str} {c : Char} (hc : c ∉ w.tail) (ha : ¬ w <:+: a) (hb : ¬ w <:+: c :: b) :
    ¬ w <:+: a ++ c :: b := by
  intro h
  rcases infix_append_cases h with h | h | ⟨x, y, hx, hy, he, -, hp⟩
  · exact ha h
  · exact hb h
  · cases x with
    | nil => exact hx rfl
    | cons d x =>
      cases y with
      | nil => exact hy rfl
      | cons e y =>
        obtain ⟨t, ht⟩ := hp
        injection ht with h1 _
        subst h1
        exact hc (by rw [he]; simp)

theorem free_last {w a b : Str} {c : Char} (hc : c ∉ w) (ha : ¬ w <:+: a) (hb : ¬ w <:+: b) :
    ¬ w <:+: a ++ c :: b := by
  intro h
  have h : w <:+: (a ++ [c]) ++ b := by simpa using h
  rcases infix_append_cases h with h | h | ⟨x, y, hx, hy, he, hs, -⟩
  · rcases infix_append_cases h with h | h | ⟨x, y, hx, hy, he, -, hs⟩
    · exact ha h
    · rcases List.infix_cons_iff.1 h with h | h
      · cases w with
        | nil => exact hb List.nil_infix
        | cons d w =>
          obtain ⟨h1, -⟩ := List.cons_prefix_cons.1 h
          exact hc (by rw [h1]; exact List.mem_cons_self ..)
      · rw [List.infix_nil] at h
        exact hb (by rw [h]; exact List.nil_infix)
    · cases y with
      | nil => exact hy rfl
      | cons e y =>
        obtain ⟨t, ht⟩ := hs
        injection ht with h1 _
        subst h1
        exact hc (by rw [he]; simp)
  · exact hb h
  · obtain ⟨t, ht⟩ := hs
    have : x.getLast hx = c := by
      have h1 : (t ++ x).getLast (by simp [hx]) = x.getLast hx := List.getLast_append_of_ne_nil _ hx
      rw [← h1]
      have h2 : (a ++ [c]).getLast (by simp) = c := by simp
      rw [← h2]
      congr 1
    refine hc ?_
    rw [he, ← this]
    exact List.mem_append_left _ (List.getLast_mem hx)

/-- Text in front that does not have the first character does not matter. -/
theorem free_skip {w a b : Str} {c : Char} (hc : c ∉ a) (hb : ¬ (c :: w) <:+: b) : ¬ (c :: w) <:+: a ++ b := by
  intro h
  rcases infix_append_cases h with h | h | ⟨x, y, hx, hy, he, hs, -⟩
  · exact hc (h.subset (List.mem_cons_self ..))
  · exact hb h
  · cases x with
    | nil => exact hx rfl
    | cons d x =>
      injection he with h1 _
      subst h1
      exact hc (hs.subset (List.mem_cons_self ..))

theorem free_cons {w b : Str} {c : Char} (hb : ¬ w <:+: b) (hp : ¬ w <+: c :: b) : ¬ w <:+: c :: b := by
  rw [List.infix_cons_iff]
  exact fun h => h.elim hp hb

/-! ### Annotations -/

/-- The beginning of an annotation, as it is searched for: for all labels, or for one. -/
structure Annot (w : Str) : Prop where
  pre : ∃ v, w = '*' :: '<' :: 'n' :: v
  star : '*' ∉ w.tail
  slash : '/' ∉ w

theorem annot_all : Annot "*<next-line-original ".toList := by
  refine ⟨⟨_, lit_snext⟩, ?_, ?_⟩ <;> decide

theorem annot_of {l : Str} (hl : LabelOk l) : Annot ("*<next-line-original ".toList ++ l ++ ">".toList) := by
  obtain ⟨h1, h2, -⟩ := hl
  refine ⟨⟨['e', 'x', 't', '-', 'l', 'i', 'n', 'e', '-', 'o', 'r', 'i', 'g', 'i', 'n', 'a', 'l', ' '] ++ l ++ ['>'], ?_⟩, ?_, ?_⟩
  · rw [lit_snext, lit_gt]; rfl
  · rw [lit_snext, lit_gt]; simp [h1]
  · rw [lit_snext, lit_gt]; simp [h2]

/-- The text of a region has no annotation. -/
theorem annot_region {w l o n : Str} (hw : Annot w) (hl : LabelOk l) (ho : ¬ w <:+: o) (hn : ¬ w <:+: n) :
    ¬ w <:+: (Mark.region l o n).text := by
  obtain ⟨⟨v, hv⟩, h1, h2⟩ := hw
  have hstar : '*' ∉ l := hl.1
  have hclose : ∀ t, ¬ w <:+: t → ¬ w <:+: '*' :: '/' :: t := by
    intro t ht
    have h3 := free_last (a := []) (c := '/') h2 (by rw [hv]; simp) ht
    refine free_cons (by simpa using h3) ?_
    rw [hv]; simp [List.cons_prefix_cons]
  have hgt : ∀ t, ¬ w <:+: t → ¬ w <:+: '>' :: t := by
    intro t ht
    refine free_cons ht ?_
    rw [hv]; simp [List.cons_prefix_cons]
  have hend : ¬ w <:+: "/*<end ".toList ++ l ++ ">*/".toList := by
    rw [lit_end_, lit_close]
    have h4 : ¬ w <:+: l ++ ['>', '*', '/'] := by
      have := hgt _ (hclose [] (by rw [hv]; simp))
      rw [hv] at this ⊢
      exact free_skip hstar this
    simp only [List.cons_append, List.nil_append]
    rw [hv] at h4 ⊢
    simp [List.infix_cons_iff, List.cons_prefix_cons, h4]
  have hne : ¬ w <:+: n ++ ("/*<end ".toList ++ l ++ ">*/".toList) := by
    rw [lit_end_] at hend ⊢
    simp only [List.cons_append, List.nil_append] at hend ⊢
    exact free_head (fun hc => h2 (List.mem_of_mem_tail hc)) hn hend
  obtain ⟨E, hE⟩ : ∃ E, E = "/*<end ".toList ++ l ++ ">*/".toList := ⟨_, rfl⟩
  have htext : (Mark.region l o n).text = "/*<begin ".toList ++ (l ++ (">*/".toList ++ (body o n ++ E))) := by
    rw [hE, region_text]
  rw [htext]
  rw [← hE] at hne
  clear htext hE hend
  have hb : ¬ w <:+: body o n ++ E := by
    unfold body
    split
    · simpa using hne
    · rw [lit_old, lit_cc]
      have h5 : ¬ w <:+: o ++ '*' :: '/' :: (n ++ E) := free_head h1 ho (hclose _ hne)
      simp only [List.cons_append, List.nil_append, List.append_assoc]
      rw [hv] at h5 ⊢
      simp [List.infix_cons_iff, List.cons_prefix_cons, h5]
  generalize body o n ++ E = z at hb
  have h6 : ¬ w <:+: l ++ '>' :: '*' :: '/' :: z := by
    have := hgt _ (hclose _ hb)
    rw [hv] at this ⊢
    exact free_skip hstar this
  rw [lit_begin_, lit_close]
  simp only [List.cons_append, List.nil_append]
  rw [hv] at h6 ⊢
  simp [List.infix_cons_iff, List.cons_prefix_cons, h6]

theorem text_append (l : List (Str × Mark)) (a b : Str) : text l (a ++ b) = text l a ++ b := by
  induction l with
  | nil => rfl
  | cons x l ih => simp only [text, ih, List.append_assoc]

theorem text_snoc (l : List (Str × Mark)) (p : Str) (m : Mark) (r : Str) :
    text (l ++ [(p, m)]) r = text l (p ++ m.text ++ r) := by
  induction l with
  | nil => rfl
  | cons x l ih => simp only [List.cons_append, text, ih]

theorem original_append (l : List (Str × Mark)) (a b : Str) : original l (a ++ b) = original l a ++ b := by
  induction l with
  | nil => rfl
  | cons x l ih => simp only [original, ih, List.append_assoc]

theorem original_snoc (l : List (Str × Mark)) (p : Str) (m : Mark) (r : Str) :
    original (l ++ [(p, m)]) r = original l (p ++ m.old ++ r) := by
  induction l with
  | nil => rfl
  | cons x l ih => simp only [List.cons_append, original, ih]

/-- A list of regions without annotations in the new texts. -/
def Regions (w : Str) (l : List (Str × Mark)) : Prop :=
  ∀ x ∈ l, ∃ lb o n, x.2 = .region lb o n ∧ LabelOk lb ∧ ¬ w <:+: n

theorem region_ends (l o n : Str) : ∃ z, (Mark.region l o n).text = '/' :: z ++ ['/'] := by
  rw [region_text]
  generalize body o n = b
  rw [lit_begin_, lit_close]
  generalize "/*<end ".toList = e
  refine ⟨['*', '<', 'b', 'e', 'g', 'i', 'n', ' '] ++ l ++ ['>', '*', '/'] ++ b ++ e ++ l ++ ['>', '*'], ?_⟩
  simp only [List.cons_append, List.nil_append, List.append_assoc]

theorem annotStart_eq (n : Str) : annotStart n = '/' :: ("*<next-line-original ".toList ++ n ++ ['>']) := by
  have : annotStart n = "/*<next-line-original ".toList ++ n ++ ['>'] := rfl
  rw [this, lit_next]
  generalize "*<next-line-original ".toList = x
  rfl

theorem annot_text {w : Str} (hw : Annot w) (l : List (Str × Mark)) (r : Str) (hl : Regions w l)
    (ho : ¬ w <:+: original l r) : ¬ w <:+: text l r := by
  induction l with
  | nil => exact ho
  | cons x l ih =>
    obtain ⟨p, m⟩ := x
    obtain ⟨lb, o, n, hm, hlb, hn⟩ := hl (p, m) (List.mem_cons_self ..)
    simp only at hm
    subst hm
    simp only [original, Mark.old] at ho
    have h1 : ¬ w <:+: text l r := ih (fun y hy => hl y (List.mem_cons_of_mem _ hy))
      (not_infix_sub ho ⟨p ++ o, [], by simp⟩)
    have hp : ¬ w <:+: p := not_infix_sub ho ⟨[], o ++ original l r, by simp⟩
    have hoo : ¬ w <:+: o := not_infix_sub ho ⟨p, original l r, by simp⟩
    have h2 := annot_region hw hlb hoo hn
    obtain ⟨z, hz⟩ := region_ends lb o n
    rw [hz] at h2
    rw [text, hz]
    have h3 : ¬ w <:+: ('/' :: z) ++ '/' :: text l r :=
      free_last hw.slash (not_infix_sub h2 ⟨[], ['/'], by simp⟩) h1
    have h4 := free_head (fun hc => hw.slash (List.mem_of_mem_tail hc)) hp h3
    simpa using h4

/-- The file with the replaced lines put back. -/
def plainLines : List (Str × Mark) → Str → Str
  | [], r => r
  | (p, .line _ o _) :: l, r => p ++ o ++ plainLines l r
  | (p, .region lb o n) :: l, r => p ++ (Mark.region lb o n).text ++ plainLines l r

theorem undo_lines {w : Str} (hw : Annot w) {un ok : Str → Prop} {F : Str → Str}
    (hun : ∀ s, un s → ¬ w <:+: s) (hok : ∀ l, ok l → LabelOk l)
    (h1 : ∀ s, ¬ w <:+: s → F s = s)
    (h2 : ∀ a lb o n after, ¬ w <:+: a → ok lb → (Mark.line lb o n).Undoable after →
      F (a ++ (Mark.line lb o n).text ++ after) = F (a ++ o ++ after)) :
    ∀ (l : List (Str × Mark)) (r : Str) (l1 : List (Str × Mark)) (q : Str), Undoable un ok l r → Regions w l1 →
      ¬ w <:+: original l1 (q ++ original l r) → F (text l1 (q ++ text l r)) = text l1 (q ++ plainLines l r) := by
  intro l r
  induction l with
  | nil =>
    intro l1 q _ hr ho
    exact h1 _ (annot_text hw l1 _ hr ho)
  | cons x l ih =>
    intro l1 q hu hr ho
    obtain ⟨p, m⟩ := x
    obtain ⟨hlb, hn, hm, hu⟩ := hu
    cases m with
    | line lb o n =>
      have ha : ¬ w <:+: text l1 (q ++ p) := by
        refine annot_text hw l1 _ hr (not_infix_sub ho ⟨[], o ++ original l r, ?_⟩)
        simp only [original, Mark.old, List.nil_append]
        rw [← original_append]
        simp only [List.append_assoc]
      have e1 : text l1 (q ++ text ((p, Mark.line lb o n) :: l) r) =
          text l1 (q ++ p) ++ (Mark.line lb o n).text ++ text l r := by
        rw [← text_append, ← text_append]; simp only [text, List.append_assoc]
      have e2 : text l1 (q ++ p) ++ o ++ text l r = text l1 ((q ++ p ++ o) ++ text l r) := by
        rw [← text_append, ← text_append]
      rw [e1, h2 _ lb o n _ ha hlb hm, e2, ih l1 (q ++ p ++ o) hu hr]
      · simp only [plainLines, List.append_assoc]
      · simpa only [original, Mark.old, List.append_assoc] using ho
    | region lb o n =>
      have e1 : text l1 (q ++ text ((p, Mark.region lb o n) :: l) r) =
          text (l1 ++ [(q ++ p, Mark.region lb o n)]) ([] ++ text l r) := by
        rw [text_snoc]; simp only [text, List.append_assoc, List.nil_append]
      rw [e1, ih _ [] hu]
      · rw [text_snoc]; simp only [plainLines, List.append_assoc, List.nil_append]
      · intro y hy
        rcases List.mem_append.1 hy with hy | hy
        · exact hr y hy
        · rw [List.mem_singleton.1 hy]; exact ⟨lb, o, n, rfl, hok _ hlb, hun _ hn⟩
      · rw [original_snoc]
        simpa only [original, Mark.old, List.append_assoc, List.nil_append] using ho

/-! ### The first pass -/

theorem dropNextLine_line {n after : Str} (hn : '\n' ∉ n) (ha : after = [] ∨ ∃ r, after = '\n' :: r) :
    dropNextLine ('\n' :: (n ++ after)) = after := by
  have h0 : ∀ s, cut ['\n'] ('\n' :: s) = some ([], s) := by
    intro s
    have := cut_append (sep := ['\n']) (a := []) (b := s) (by simp) (by intro h; simp at h)
    simpa using this
  unfold dropNextLine
  rw [h0]
  simp only
  rcases ha with rfl | ⟨r, rfl⟩
  · have : cut ['\n'] (n ++ []) = none := by
      rw [cut_none]
      intro h
      exact hn (by simpa using h.subset (List.mem_cons_self ..))
    rw [this]
  · have : cut ['\n'] (n ++ '\n' :: r) = some (n, r) := by
      have := cut_append (sep := ['\n']) (a := n) (b := r) (by simp)
        (notBefore_of_head (by simp) (fun h => hn (h.subset (List.mem_cons_self ..))))
      simpa using this
    rw [this]

theorem cut_annotEnd {o b : Str} (ho : ¬ "</next-line-original>*/".toList <:+: o) :
    cut annotEnd (o ++ ("</next-line-original>*/".toList ++ b)) = some (o, b) := by
  rw [← List.append_assoc]
  unfold annotEnd
  refine cut_append ?_ ?_
  · rw [lit_nextend]; simp
  · rw [lit_nextend] at ho ⊢
    exact notBefore_of_head (by decide) ho

theorem cleanNextLine_none {s : Str} (h : ¬ "*<next-line-original ".toList <:+: s) : cleanNextLine s = s := by
  have : cut "/*<next-line-original ".toList s = none := by
    rw [cut_none, lit_next]; exact not_infix_of_tail h
  rw [cleanNextLine.eq_def]
  split
  · rfl
  · rename_i h2; rw [this] at h2; cases h2

theorem cut_head {c : Char} {w a b : Str} (hc : c ∉ w) (h : ¬ w <:+: a) : cut (c :: w) (a ++ (c :: w ++ b)) = some (a, b) := by
  rw [← List.append_assoc]
  exact cut_append (List.cons_ne_nil _ _) (notBefore_of_head hc (not_infix_of_tail h))

theorem cleanNextLine_step {a lb o n after : Str} (ha : ¬ "*<next-line-original ".toList <:+: a) (hl : LabelOk lb)
    (hm : (Mark.line lb o n).Undoable after) :
    cleanNextLine (a ++ (Mark.line lb o n).text ++ after) = cleanNextLine (a ++ o ++ after) := by
  obtain ⟨h1, h2, h3⟩ := hm
  have e1 : cut "/*<next-line-original ".toList (a ++ (Mark.line lb o n).text ++ after) =
      some (a, lb ++ ('>' :: (o ++ ("</next-line-original>*/".toList ++ ('\n' :: (n ++ after)))))) := by
    have := cut_head (c := '/') (w := "*<next-line-original ".toList) (a := a)
      (b := lb ++ ('>' :: (o ++ ("</next-line-original>*/".toList ++ ('\n' :: (n ++ after)))))) (by decide) ha
    rw [← lit_next] at this
    rw [← this, line_text, lit_gt]
    generalize "/*<next-line-original ".toList = x
    generalize "</next-line-original>*/".toList = y
    simp only [List.append_assoc, List.cons_append, List.nil_append]
  have e2 : cut ['>'] (lb ++ ('>' :: (o ++ ("</next-line-original>*/".toList ++ ('\n' :: (n ++ after)))))) =
      some (lb, o ++ ("</next-line-original>*/".toList ++ ('\n' :: (n ++ after)))) := by
    have := cut_append (sep := ['>']) (a := lb) (b := o ++ ("</next-line-original>*/".toList ++ ('\n' :: (n ++ after))))
      (by simp) (notBefore_of_head (by simp) (fun h => hl.2.2 (h.subset (List.mem_cons_self ..))))
    rw [← this]
    generalize "</next-line-original>*/".toList = y
    simp only [List.append_assoc, List.cons_append, List.nil_append]
  have e3 := cut_annotEnd (b := '\n' :: (n ++ after)) h1
  rw [cleanNextLine.eq_def]
  split
  · rename_i h; rw [e1] at h; cases h
  · rename_i h
    rw [e1] at h
    injection h with h; injection h with ha hr
    subst ha hr
    split
    · rename_i h; rw [e2] at h; cases h
    · rename_i h
      rw [e2] at h
      injection h with h; injection h with ha hr
      subst ha hr
      split
      · rename_i h; rw [e3] at h; cases h
      · rename_i h
        rw [e3] at h
        injection h with h; injection h with ha hr
        subst ha hr
        rw [dropNextLine_line h2 h3]

theorem clearAnnots_none {n s : Str} (h : ¬ "*<next-line-original ".toList ++ n ++ ">".toList <:+: s) :
    clearAnnots n s = s := by
  have : cut (annotStart n) s = none := by
    rw [cut_none, annotStart_eq]; rw [lit_gt] at h; exact not_infix_of_tail h
  rw [clearAnnots.eq_def]
  split
  · rfl
  · rename_i h2; rw [this] at h2; cases h2

theorem clearAnnots_step {a lb o n after : Str}
    (ha : ¬ "*<next-line-original ".toList ++ lb ++ ">".toList <:+: a) (hl : LabelOk lb)
    (hm : (Mark.line lb o n).Undoable after) :
    clearAnnots lb (a ++ (Mark.line lb o n).text ++ after) = clearAnnots lb (a ++ o ++ after) := by
  obtain ⟨h1, h2, h3⟩ := hm
  have e1 : cut (annotStart lb) (a ++ (Mark.line lb o n).text ++ after) =
      some (a, o ++ ("</next-line-original>*/".toList ++ ('\n' :: (n ++ after)))) := by
    have := cut_head (c := '/') (w := "*<next-line-original ".toList ++ lb ++ ">".toList) (a := a)
      (b := o ++ ("</next-line-original>*/".toList ++ ('\n' :: (n ++ after)))) (annot_of hl).slash ha
    rw [annotStart_eq, line_text]
    rw [lit_gt] at this ⊢
    rw [lit_next]
    generalize "*<next-line-original ".toList = x at this ⊢
    generalize "</next-line-original>*/".toList = y at this ⊢
    simp only [List.append_assoc, List.cons_append, List.nil_append] at this ⊢
    exact this
  have e3 := cut_annotEnd (b := '\n' :: (n ++ after)) h1
  rw [clearAnnots.eq_def]
  split
  · rename_i h; rw [e1] at h; cases h
  · rename_i h
    rw [e1] at h
    injection h with h; injection h with ha hr
    subst ha hr
    split
    · rename_i h; rw [e3] at h; cases h
    · rename_i h
      rw [e3] at h
      injection h with h; injection h with ha hr
      subst ha hr
      rw [dropNextLine_line h2 h3]

/-! ### The second pass -/

theorem extractOld_body {o n : Str} (h1 : ¬ "*/".toList <:+: o) (h2 : o = [] → ¬ "/*old:".toList <:+: n) :
    extractOld (body o n) = o := by
  unfold body
  by_cases ho : o = []
  · rw [if_pos ho, List.nil_append]
    unfold extractOld
    rw [cut_none.2 (h2 ho), ho]
  · rw [if_neg ho]
    have e1 : cut "/*old:".toList ("/*old:".toList ++ o ++ "*/".toList ++ n) = some ([], o ++ ("*/".toList ++ n)) := by
      have := cut_append (sep := "/*old:".toList) (a := []) (b := o ++ ("*/".toList ++ n)) (by rw [lit_old]; simp)
        (by rw [lit_old]; exact notBefore_of_head (by decide) (by simp))
      rw [← this]
      generalize "/*old:".toList = x
      generalize "*/".toList = y
      simp only [List.append_assoc, List.nil_append]
    have e2 : cut "*/".toList (o ++ ("*/".toList ++ n)) = some (o, n) := by
      rw [← List.append_assoc]
      refine cut_append (by rw [lit_cc]; simp) ?_
      rw [lit_cc] at h1 ⊢
      exact notBefore_of_head (by decide) h1
    unfold extractOld
    rw [e1]
    simp only
    rw [e2]

/-- Markers do not arise at the seams of what is between the markers. -/
theorem body_free {w v o n : Str} (hw : w = '*' :: '<' :: v) (h1 : '*' ∉ w.tail) (h2 : '/' ∉ w) (ho : ¬ w <:+: o)
    (hn : ¬ w <:+: n) : ¬ w <:+: body o n := by
  unfold body
  split
  · simpa using hn
  · rw [lit_old, lit_cc]
    have h3 : ¬ w <:+: '*' :: '/' :: n := by
      have h3 := free_last (a := []) (c := '/') h2 (by rw [hw]; simp) hn
      refine free_cons (by simpa using h3) ?_
      rw [hw]; simp [List.cons_prefix_cons]
    have h5 : ¬ w <:+: o ++ '*' :: '/' :: n := free_head h1 ho h3
    simp only [List.cons_append, List.nil_append, List.append_assoc]
    rw [hw] at h5 ⊢
    simp [List.infix_cons_iff, List.cons_prefix_cons, h5]

theorem cleanMarkers_none {s : Str} (h : ¬ "*<begin".toList <:+: s) :
    cleanMarkers "/*<begin".toList ">*/".toList "/*<end".toList ">*/".toList s = s := by
  have : cut "/*<begin".toList s = none := by
    rw [cut_none, lit_begin]; rw [lit_sbegin] at h; exact not_infix_of_tail h
  rw [cleanMarkers.eq_def]
  split
  · rfl
  · rename_i h2; rw [this] at h2; cases h2

theorem cut_close {a b : Str} (ha : '>' ∉ a) : cut ">*/".toList (a ++ (">*/".toList ++ b)) = some (a, b) := by
  rw [← List.append_assoc]
  refine cut_append (by rw [lit_close]; simp) ?_
  rw [lit_close]
  exact notBefore_of_head (by decide) (fun h => ha (h.subset (List.mem_cons_self ..)))

theorem cleanMarkers_step {a lb o n after : Str} (ha : ¬ "*<begin".toList <:+: a) (hl : LabelOk lb)
    (ho : ¬ "*<end".toList <:+: o) (hn : ¬ "*<end".toList <:+: n) (h1 : ¬ "*/".toList <:+: o) (h2 : o = [] → ¬ "/*old:".toList <:+: n) :
    cleanMarkers "/*<begin".toList ">*/".toList "/*<end".toList ">*/".toList (a ++ (Mark.region lb o n).text ++ after) =
      a ++ o ++ cleanMarkers "/*<begin".toList ">*/".toList "/*<end".toList ">*/".toList after := by
  obtain ⟨l1, l2, l3⟩ := hl
  obtain ⟨C, hC⟩ : ∃ C, C = ">*/".toList := ⟨_, rfl⟩
  have hb : ¬ "*<end".toList <:+: body o n :=
    body_free lit_send (by rw [lit_send]; decide) (by rw [lit_send]; decide) ho hn
  have e0 : a ++ (Mark.region lb o n).text ++ after =
      a ++ ("/*<begin".toList ++ ((' ' :: lb) ++ (">*/".toList ++ (body o n ++ (("/*<end".toList ++ (' ' :: lb)) ++
        ([] ++ (">*/".toList ++ after))))))) := by
    rw [region_text, ← hC, lit_begin_, lit_end_, lit_begin, lit_end]
    simp only [List.append_assoc, List.cons_append, List.nil_append]
  have e1 : cut "/*<begin".toList (a ++ ("/*<begin".toList ++ ((' ' :: lb) ++ (">*/".toList ++ (body o n ++
      (("/*<end".toList ++ (' ' :: lb)) ++ ([] ++ (">*/".toList ++ after)))))))) =
      some (a, (' ' :: lb) ++ (">*/".toList ++ (body o n ++ (("/*<end".toList ++ (' ' :: lb)) ++
        ([] ++ (">*/".toList ++ after)))))) := by
    generalize (' ' :: lb) ++ (">*/".toList ++ _) = z
    rw [lit_sbegin] at ha
    rw [lit_begin]
    exact cut_head (by decide) ha
  have e2 := cut_close (a := ' ' :: lb) (b := body o n ++ (("/*<end".toList ++ (' ' :: lb)) ++
    ([] ++ (">*/".toList ++ after)))) (by simp [l3])
  have e3 : cut ("/*<end".toList ++ (' ' :: lb)) (body o n ++ (("/*<end".toList ++ (' ' :: lb)) ++
      ([] ++ (">*/".toList ++ after)))) = some (body o n, [] ++ (">*/".toList ++ after)) := by
    generalize [] ++ (">*/".toList ++ after) = z
    rw [lit_end]
    rw [lit_send] at hb
    refine cut_head (c := '/') (w := ['*', '<', 'e', 'n', 'd'] ++ ' ' :: lb) (by simp [l2]) ?_
    exact not_infix_of_append hb
  have e4 := cut_close (a := []) (b := after) (by simp)
  rw [e0, cleanMarkers.eq_def]
  split
  · rename_i h; rw [e1] at h; cases h
  · rename_i h
    rw [e1] at h
    injection h with h; injection h with ha hr
    subst ha hr
    split
    · rename_i h; rw [e2] at h; cases h
    · rename_i h
      rw [e2] at h
      injection h with h; injection h with ha hr
      subst ha hr
      split
      · rename_i h; rw [e3] at h; cases h
      · rename_i h
        rw [e3] at h
        injection h with h; injection h with ha hr
        subst ha hr
        split
        · rename_i h; rw [e4] at h; cases h
        · rename_i h
          rw [e4] at h
          injection h with h; injection h with ha hr
          subst ha hr
          rw [if_neg (by rw [lit_begin]; simp), extractOld_body h1 h2]

theorem cleanMarkers_all (l : List (Str × Mark)) (r : Str) : ∀ q, Undoable Unmarked LabelOk l r →
    ¬ "*<begin".toList <:+: q ++ original l r → ¬ "*<end".toList <:+: q ++ original l r →
    cleanMarkers "/*<begin".toList ">*/".toList "/*<end".toList ">*/".toList (q ++ plainLines l r) =
      q ++ original l r := by
  induction l with
  | nil => intro q _ h _; exact cleanMarkers_none h
  | cons x l ih =>
    intro q hu hb he
    obtain ⟨p, m⟩ := x
    obtain ⟨hlb, hn, hm, hu⟩ := hu
    cases m with
    | line lb o n =>
      have := ih (q ++ p ++ o) hu (by simpa only [original, Mark.old, List.append_assoc] using hb)
        (by simpa only [original, Mark.old, List.append_assoc] using he)
      simpa only [plainLines, original, Mark.old, List.append_assoc] using this
    | region lb o n =>
      have e : q ++ plainLines ((p, Mark.region lb o n) :: l) r =
          (q ++ p) ++ (Mark.region lb o n).text ++ plainLines l r := by
        simp only [plainLines, List.append_assoc]
      simp only [original, Mark.old] at hb he
      rw [e, cleanMarkers_step (a := q ++ p) (lb := lb) (n := n) (not_infix_sub hb ⟨[], o ++ original l r, by simp⟩) hlb
        (not_infix_sub he ⟨q ++ p, original l r, by simp⟩) hn.2.1 hm.1 hm.2]
      have := ih [] hu (not_infix_sub hb ⟨q ++ (p ++ o), [], by simp⟩) (not_infix_sub he ⟨q ++ (p ++ o), [], by simp⟩)
      simp only [List.nil_append] at this
      rw [this]
      simp only [original, Mark.old, List.append_assoc]

/-- **C25.** `CleanPatch` removes all edits of a file and gives back the original, if the original and the inserted texts
    have no markers and the edits can be undone. -/
theorem C25_clean (f : Patched) (ho : Unmarked f.original) (hu : Undoable Unmarked LabelOk f.parts f.rest) :
    cleanPatch f.text = f.original := by
  have h1 := undo_lines annot_all (un := Unmarked) (ok := LabelOk) (F := cleanNextLine) (fun _ h => h.2.2) (fun _ h => h)
    (fun _ h => cleanNextLine_none h) (fun _ _ _ _ _ ha hl hm => cleanNextLine_step ha hl hm) f.parts f.rest [] [] hu
    (fun _ h => absurd h List.not_mem_nil) ho.2.2
  have h2 := cleanMarkers_all f.parts f.rest [] hu ho.1 ho.2.1
  simp only [text, List.nil_append] at h1 h2
  have : cleanPatch f.text = cleanMarkers "/*<begin".toList ">*/".toList "/*<end".toList ">*/".toList
      (cleanNextLine (text f.parts f.rest)) := rfl
  rw [this, h1, h2]
  rfl

theorem beginMarker_eq (n : Str) : beginMarker n = '/' :: ("*<begin ".toList ++ n ++ ['>']) := by
  have : beginMarker n = "/*<begin ".toList ++ n ++ ['>'] := rfl
  rw [this, lit_begin_, lit_sbegin_]
  rfl

theorem endMarker_eq (n : Str) : endMarker n = '/' :: ("*<end ".toList ++ n ++ ">".toList) ++ "*/".toList := by
  have : endMarker n = "/*<end ".toList ++ n ++ ['>', '*', '/'] := rfl
  rw [this, lit_end_, lit_send_, lit_gt, lit_cc]
  simp only [List.append_assoc, List.cons_append, List.nil_append]

theorem clearMarks_none {n s : Str} (h : ¬ "*<begin ".toList ++ n ++ ">".toList <:+: s) : clearMarks n s = s := by
  have : cut (beginMarker n) s = none := by
    rw [cut_none, beginMarker_eq]; rw [lit_gt] at h; exact not_infix_of_tail h
  rw [clearMarks.eq_def]
  split
  · rfl
  · rename_i h2; rw [this] at h2; cases h2

theorem notBefore_endMarker {n a : Str} (hl : LabelOk n) (h : ¬ "*<end ".toList ++ n ++ ">".toList <:+: a) :
    NotBefore (endMarker n) a := by
  obtain ⟨w, hw⟩ : ∃ w, w = "*<end ".toList ++ n ++ ">".toList := ⟨_, rfl⟩
  have hslash : '/' ∉ w := by rw [hw, lit_send_, lit_gt]; simp [hl.2.1]
  intro hc
  rw [endMarker_eq, ← hw] at hc
  rw [← hw] at h
  rw [lit_cc] at hc
  rw [List.dropLast_append_of_ne_nil (by simp)] at hc
  have e : ('/' :: w ++ ['*', '/']).dropLast = '/' :: w ++ ['*'] := by
    rw [List.dropLast_append_of_ne_nil (by simp)]; rfl
  rw [e] at hc
  rcases infix_append_cases hc with hc | hc | ⟨x, y, hx, hy, he, hs, hp⟩
  · exact h (((List.infix_append ['/'] w ['*', '/']).trans (by simpa using hc)))
  · have := hc.length_le
    simp at this
  · cases y with
    | nil => exact hy rfl
    | cons d y =>
      have hd : d = '/' := by
        obtain ⟨t, ht⟩ := hp
        simp only [List.cons_append] at ht
        injection ht
      subst hd
      cases x with
      | nil => exact hx rfl
      | cons f x =>
        simp only [List.cons_append] at he
        injection he with he1 he
        -- w ++ ['*','/'] = x ++ '/' :: y
        have hxw : x = w ++ ['*'] := by
          rcases List.append_eq_append_iff.1 he with ⟨u, h1, h2⟩ | ⟨u, h1, h2⟩
          · -- x = w ++ u
            cases u with
            | nil => simp at h2
            | cons a1 u =>
              simp only [List.cons_append] at h2
              injection h2 with h3 h2
              subst h3
              cases u with
              | nil => exact h1
              | cons a2 u =>
                simp only [List.cons_append] at h2
                injection h2 with h3 h2
                have := congrArg List.length h2
                simp at this
          · -- w = x ++ u
            cases u with
            | nil => simp at h2
            | cons a1 u =>
              simp only [List.cons_append] at h2
              injection h2 with h3 _
              exact absurd (by rw [h1, h3]; simp) hslash
        subst hxw
        exact h ((List.infix_append [f] w ['*']).trans (by simpa using hs.isInfix))

theorem clearMarks_step {a lb o n after : Str} (ha : ¬ "*<begin ".toList ++ lb ++ ">".toList <:+: a) (hl : LabelOk lb)
    (ho : ¬ "*<end ".toList ++ lb ++ ">".toList <:+: o) (hn : ¬ "*<end ".toList ++ lb ++ ">".toList <:+: n)
    (h1 : ¬ "*/".toList <:+: o) (h2 : o = [] → ¬ "/*old:".toList <:+: n) :
    clearMarks lb (a ++ (Mark.region lb o n).text ++ after) = clearMarks lb (a ++ o ++ after) := by
  have hb : ¬ "*<end ".toList ++ lb ++ ">".toList <:+: body o n := by
    refine body_free (v := ['e', 'n', 'd', ' '] ++ lb ++ ['>']) ?_ ?_ ?_ ho hn
    · rw [lit_send_, lit_gt]; simp only [List.cons_append, List.nil_append]
    · rw [lit_send_, lit_gt]; simp [hl.1]
    · rw [lit_send_, lit_gt]; simp [hl.2.1]
  obtain ⟨E, hE⟩ : ∃ E, E = endMarker lb := ⟨_, rfl⟩
  have e0 : a ++ (Mark.region lb o n).text ++ after =
      a ++ (beginMarker lb ++ ("*/".toList ++ (body o n ++ (E ++ after)))) := by
    have h3 : endMarker lb = "/*<end ".toList ++ (lb ++ ['>', '*', '/']) := by
      have : endMarker lb = "/*<end ".toList ++ lb ++ ['>', '*', '/'] := rfl
      rw [this, List.append_assoc]
    have h4 : beginMarker lb = "/*<begin ".toList ++ (lb ++ ['>']) := by
      have : beginMarker lb = "/*<begin ".toList ++ lb ++ ['>'] := rfl
      rw [this, List.append_assoc]
    rw [region_text, hE, h3, h4, lit_close, lit_cc]
    generalize "/*<begin ".toList = x
    generalize "/*<end ".toList = y
    simp only [List.append_assoc, List.cons_append, List.nil_append]
  have hbm : '/' ∉ "*<begin ".toList ++ lb ++ ">".toList := by rw [lit_sbegin_, lit_gt]; simp [hl.2.1]
  have e1 : cut (beginMarker lb) (a ++ (beginMarker lb ++ ("*/".toList ++ (body o n ++ (E ++ after))))) =
      some (a, "*/".toList ++ (body o n ++ (E ++ after))) := by
    rw [beginMarker_eq]
    rw [lit_gt] at ha hbm
    exact cut_head hbm ha
  have e2 : cut "*/".toList (beginMarker lb ++ ("*/".toList ++ (body o n ++ (E ++ after)))) =
      some (beginMarker lb, body o n ++ (E ++ after)) := by
    rw [← List.append_assoc]
    refine cut_append (by rw [lit_cc]; simp) ?_
    rw [lit_cc]
    refine notBefore_of_head (by decide) ?_
    rw [beginMarker_eq, lit_sbegin_]
    intro hi
    have h3 : '/' ∉ lb ++ ['>'] := by simp [hl.2.1]
    have h4 : ¬ ['*', '/'] <:+: lb ++ ['>'] := fun hi => h3 (hi.subset (by simp))
    simp [List.infix_cons_iff, List.cons_prefix_cons, h4] at hi
  have e3 : cut (endMarker lb) (body o n ++ (E ++ after)) = some (body o n, after) := by
    rw [hE, ← List.append_assoc]
    exact cut_append (endMarker_ne lb) (notBefore_endMarker hl hb)
  rw [e0, clearMarks.eq_def]
  split
  · rename_i h; rw [e1] at h; cases h
  · rename_i h
    rw [e1] at h
    injection h with h; injection h with ha hr
    subst ha hr
    split
    · rename_i h; rw [e2] at h; cases h
    · rename_i h
      rw [e2] at h
      injection h with h; injection h with ha hr
      subst ha hr
      split
      · rename_i h; rw [e3] at h; cases h
      · rename_i h
        rw [e3] at h
        injection h with h; injection h with ha hr
        subst ha hr
        rw [extractOld_body h1 h2]

theorem clearMarks_all {lb : Str} (hl : LabelOk lb) (l : List (Str × Mark)) (r : Str) :
    ∀ q, Undoable (UnmarkedOf lb) (· = lb) l r → UnmarkedOf lb (q ++ original l r) →
    clearMarks lb (q ++ plainLines l r) = q ++ original l r := by
  induction l with
  | nil => intro q _ h; exact clearMarks_none h.1
  | cons x l ih =>
    intro q hu hb
    obtain ⟨p, m⟩ := x
    obtain ⟨hlb, hn, hm, hu⟩ := hu
    cases m with
    | line lb' o n =>
      have := ih (q ++ p ++ o) hu (by simpa only [original, Mark.old, List.append_assoc] using hb)
      simpa only [plainLines, original, Mark.old, List.append_assoc] using this
    | region lb' o n =>
      simp only [Mark.label] at hlb
      subst hlb
      have e : q ++ plainLines ((p, Mark.region lb' o n) :: l) r =
          (q ++ p) ++ (Mark.region lb' o n).text ++ plainLines l r := by
        simp only [plainLines, List.append_assoc]
      simp only [original, Mark.old] at hb
      rw [e, clearMarks_step (a := q ++ p) (lb := lb') (n := n) (not_infix_sub hb.1 ⟨[], o ++ original l r, by simp⟩) hl
        (not_infix_sub hb.2.1 ⟨q ++ p, original l r, by simp⟩) hn.2.1 hm.1 hm.2]
      have := ih (q ++ p ++ o) hu (by simpa only [List.append_assoc] using hb)
      rw [this]
      simp only [original, Mark.old, List.append_assoc]

/-- **C25.** `clearPatch` removes the edits of one name, whatever else is in the file. -/
theorem C25_clear (f : Patched) (lb : Str) (hl : LabelOk lb) (ho : UnmarkedOf lb f.original)
    (hu : Undoable (UnmarkedOf lb) (· = lb) f.parts f.rest) : clearPatch f.text lb = f.original := by
  have h1 := undo_lines (annot_of hl) (un := UnmarkedOf lb) (ok := (· = lb)) (F := clearAnnots lb) (fun _ h => h.2.2)
    (fun _ h => by rw [h]; exact hl) (fun _ h => clearAnnots_none h)
    (fun _ _ _ _ _ ha hb hm => by subst hb; exact clearAnnots_step ha hl hm) f.parts f.rest [] [] hu
    (fun _ h => absurd h List.not_mem_nil) ho.2.2
  have h2 := clearMarks_all hl f.parts f.rest [] hu ho
  simp only [text, List.nil_append] at h1 h2
  have : clearPatch f.text lb = clearMarks lb (clearAnnots lb (text f.parts f.rest)) := rfl
  rw [this, h1, h2]
  rfl

end Verif.Instrument.PatchText
