/-
C42: undoing line edits; matching of statements.
-/
import Verif.Support.LineEditProps
import Verif.Instrument.PatchCleanProps

namespace Verif.Support.LineEdit
open Verif.Text Spec
open Verif.Instrument.PatchText (free_last free_skip free_cons not_infix_of_tail not_infix_of_append notBefore_endMarker)

/-- The lines that a file with edits is made of: lines of the source, blocks, and replaced lines. -/
inductive Item
  | line (l : Str)
  | added (id : Str) (ls : List Str)
  | old (id l : Str)

def Item.out : Item → List Str
  | line l => [l]
  | added id ls => beginMark id :: ls ++ [endMark id]
  | old id l => [beginMark id, replacedBegin, l, replacedEnd, endMark id]

/-- What is left after unpatching. -/
def Item.left : Item → List Str
  | line l => [l]
  | added _ _ => [[]]
  | old _ l => [[], l, []]

def Item.Ok : Item → Prop
  | line l => LineOk l
  | added id ls => IdOk id ∧ ls ≠ [] ∧ ∀ l ∈ ls, LineOk l
  | old id l => IdOk id ∧ LineOk l

/-! ### Lines with and without newlines -/

theorem text_cons {l : Str} {ls : List Str} (h : ls ≠ []) : text (l :: ls) = l ++ ['\n'] ++ text ls := by
  cases ls with
  | nil => exact absurd rfl h
  | cons x ls => rfl

theorem text_append {a b : List Str} (ha : a ≠ []) (hb : b ≠ []) : text (a ++ b) = text a ++ ['\n'] ++ text b := by
  induction a with
  | nil => exact absurd rfl ha
  | cons l a ih =>
    by_cases h : a = []
    · subst h
      rw [List.cons_append, List.nil_append, text_cons hb]
      rfl
    · rw [List.cons_append, text_cons (by simp [h]), ih h, text_cons h]
      simp only [List.append_assoc]

theorem free_text {w : Str} (hn : '\n' ∉ w) (hw : w ≠ []) {ls : List Str} (h : ∀ l ∈ ls, ¬ w <:+: l) : ¬ w <:+: text ls := by
  induction ls with
  | nil => rw [text, List.infix_nil]; exact hw
  | cons l ls ih =>
    have ih := ih fun l' hl => h l' (List.mem_cons_of_mem _ hl)
    by_cases hl : ls = []
    · subst hl; exact h l (by simp)
    · rw [text_cons hl, List.append_assoc]
      exact free_last hn (h l (by simp)) ih

/-! ### Markers -/

theorem lit_r : "/*<replaced>".toList = '/' :: '*' :: '<' :: 'r' :: "eplaced>".toList := by decide
theorem lit_b : "/*<begin ".toList = '/' :: '*' :: '<' :: 'b' :: "egin ".toList := by decide
theorem lit_e : "/*<end ".toList = '/' :: '*' :: '<' :: 'e' :: "nd ".toList := by decide

theorem free_lt {c d : Char} {b : Str} (hcd : c ≠ d) (hd : d ≠ '<') (hb : '<' ∉ b) :
    ¬ ['<', c] <:+: '/' :: '*' :: '<' :: d :: b := by
  intro h
  simp only [List.infix_cons_iff, List.cons_prefix_cons] at h
  rcases h with h | h | h | h | h
  · exact absurd h.1 (by decide)
  · exact absurd h.1 (by decide)
  · exact hcd h.2.1
  · exact hd h.1.symm
  · exact hb (h.subset (by simp))

theorem beginMark_eq (id : Str) : beginMark id = '/' :: '*' :: '<' :: 'b' :: ("egin ".toList ++ id ++ ">*/".toList) := by
  unfold beginMark
  rw [lit_b]
  simp only [List.cons_append]

theorem endMark_eq (id : Str) : endMark id = '/' :: '*' :: '<' :: 'e' :: ("nd ".toList ++ id ++ ">*/".toList) := by
  unfold endMark
  rw [lit_e]
  simp only [List.cons_append]

theorem begin_tail {id : Str} (h : IdOk id) : '<' ∉ "egin ".toList ++ id ++ ">*/".toList := by
  simp only [List.mem_append, not_or]
  exact ⟨⟨by decide, h.2.2.2.2⟩, by decide⟩

theorem end_tail {id : Str} (h : IdOk id) : '<' ∉ "nd ".toList ++ id ++ ">*/".toList := by
  simp only [List.mem_append, not_or]
  exact ⟨⟨by decide, h.2.2.2.2⟩, by decide⟩

theorem replaced_sub : ['<', 'r'] <:+: replacedBegin := ⟨['/', '*'], "eplaced>".toList, by decide⟩

theorem replaced_begin {id : Str} (h : IdOk id) : ¬ replacedBegin <:+: beginMark id := by
  intro hc
  have := replaced_sub.trans hc
  rw [beginMark_eq] at this
  exact free_lt (by decide) (by decide) (begin_tail h) this

theorem replaced_end {id : Str} (h : IdOk id) : ¬ replacedBegin <:+: endMark id := by
  intro hc
  have := replaced_sub.trans hc
  rw [endMark_eq] at this
  exact free_lt (by decide) (by decide) (end_tail h) this

/-- One region. -/
theorem findRange_region {a id body r : Str} (ha : ¬ "/*<begin ".toList <:+: a) (hid : IdOk id)
    (hb : ¬ "*<end ".toList <:+: body) :
    findRange (a ++ (beginMark id ++ body ++ endMark id) ++ r) =
      some (some (a, beginMark id ++ body ++ endMark id, r)) := by
  have e0 : "/*<begin ".toList = '/' :: "*<begin ".toList := by decide
  have c0 : cut "/*<begin ".toList (a ++ (beginMark id ++ body ++ endMark id) ++ r) =
      some (a, (id ++ ['>']) ++ "*/".toList ++ (body ++ endMark id ++ r)) := by
    have hn : NotBefore "/*<begin ".toList a := by
      rw [e0] at ha ⊢
      exact notBefore_of_head (by decide) ha
    rw [← cut_append (by decide) hn]
    congr 1
    unfold beginMark
    rw [show ">*/".toList = ['>'] ++ "*/".toList by decide]
    generalize "/*<begin ".toList = x
    generalize "*/".toList = y
    simp only [List.append_assoc]
  have c1 : cut "*/".toList ((id ++ ['>']) ++ "*/".toList ++ (body ++ endMark id ++ r)) =
      some (id ++ ['>'], body ++ endMark id ++ r) := by
    refine cut_append (by decide) ?_
    have hs : '*' ∉ id ++ ['>'] := by simp [hid.2.1]
    rw [show "*/".toList = '*' :: ['/'] by decide]
    exact notBefore_of_head (by decide) fun hc => hs (hc.subset (by simp))
  have c2 : cut (endMark id) (body ++ endMark id ++ r) = some (body, r) := by
    have hne : endMark id ≠ [] := by rw [endMark_eq]; simp
    refine cut_append hne ?_
    have := notBefore_endMarker (n := id) (a := body) ⟨hid.2.1, hid.2.2.1, hid.2.2.2.1⟩
      (by rw [List.append_assoc]; exact not_infix_of_append hb)
    exact this
  unfold findRange
  rw [c0]
  dsimp only
  rw [c1]
  dsimp only
  rw [if_neg (by simp), List.dropLast_concat, if_neg hid.1, c2]
  dsimp only
  congr 4
  unfold beginMark
  rw [show ">*/".toList = ['>'] ++ "*/".toList by decide]
  generalize "/*<begin ".toList = x
  generalize "*/".toList = y
  simp only [List.append_assoc]

theorem unpatch_region {a id body r o : Str} (ha : ¬ "/*<begin ".toList <:+: a) (hid : IdOk id)
    (hb : ¬ "*<end ".toList <:+: body) (ho : findReplaced (beginMark id ++ body ++ endMark id) = some o) :
    unpatch (a ++ (beginMark id ++ body ++ endMark id) ++ r) = (unpatch r).map fun r => a ++ o ++ r := by
  have h := findRange_region (r := r) ha hid hb
  rw [unpatch.eq_def]
  split
  · rename_i h'; rw [h] at h'; cases h'
  · rename_i h'; rw [h] at h'; cases h'
  · rename_i h'
    rw [h] at h'
    injection h' with h'
    injection h' with h'
    injection h' with h1 h2
    injection h2 with h2 h3
    subst h1 h2 h3
    rw [ho]
    rfl

theorem unpatch_none {s : Str} (h : ¬ "/*<begin ".toList <:+: s) : unpatch s = some s := by
  have h : findRange s = some none := by
    unfold findRange
    rw [cut_none.2 h]
  rw [unpatch.eq_def]
  split
  · rename_i h'; rw [h] at h'; cases h'
  · rfl
  · rename_i h'; rw [h] at h'; cases h'

/-! ### Items -/

theorem findReplaced_added {id : Str} {ls : List Str} (hid : IdOk id) (hl : ∀ l ∈ ls, LineOk l) :
    findReplaced (beginMark id ++ (['\n'] ++ text ls ++ ['\n']) ++ endMark id) = some [] := by
  unfold findReplaced
  have : cut replacedBegin (beginMark id ++ (['\n'] ++ text ls ++ ['\n']) ++ endMark id) = none := by
    rw [cut_none]
    have e : beginMark id ++ (['\n'] ++ text ls ++ ['\n']) ++ endMark id =
        beginMark id ++ '\n' :: (text ls ++ '\n' :: endMark id) := by
      simp only [List.append_assoc, List.cons_append, List.nil_append]
    rw [e]
    refine free_last (by decide) (replaced_begin hid) (free_last (by decide) ?_ (replaced_end hid))
    exact free_text (by decide) (by decide) fun l h => (hl l h).2.2.2.1
  rw [this]

theorem findReplaced_old {id l : Str} (hid : IdOk id) (hl : LineOk l) :
    findReplaced (beginMark id ++ (['\n'] ++ text [replacedBegin, l, replacedEnd] ++ ['\n']) ++ endMark id) =
      some (['\n'] ++ l ++ ['\n']) := by
  unfold findReplaced
  have e : beginMark id ++ (['\n'] ++ text [replacedBegin, l, replacedEnd] ++ ['\n']) ++ endMark id =
      (beginMark id ++ ['\n']) ++ replacedBegin ++ ((['\n'] ++ l ++ ['\n']) ++ replacedEnd ++ (['\n'] ++ endMark id)) := by
    rw [text_cons (by simp), text_cons (by simp)]
    show beginMark id ++ (['\n'] ++ (replacedBegin ++ ['\n'] ++ (l ++ ['\n'] ++ replacedEnd)) ++ ['\n']) ++ endMark id = _
    generalize beginMark id = x
    generalize replacedBegin = y
    generalize replacedEnd = z
    generalize endMark id = u
    simp only [List.append_assoc]
  have h1 : NotBefore replacedBegin (beginMark id ++ ['\n']) := by
    have : ¬ replacedBegin <:+: beginMark id ++ ['\n'] := free_last (b := []) (by decide) (replaced_begin hid) (by decide)
    rw [show replacedBegin = '/' :: "*<replaced>".toList by decide] at this ⊢
    exact notBefore_of_head (by decide) this
  have h2 : NotBefore replacedEnd (['\n'] ++ l ++ ['\n']) := by
    have : ¬ replacedEnd <:+: ['\n'] ++ l ++ ['\n'] := by
      have h := free_last (w := replacedEnd) (c := '\n') (a := []) (b := l ++ ['\n']) (by decide) (by decide)
        (free_last (b := []) (by decide) hl.2.2.2.2 (by decide))
      exact h
    rw [show replacedEnd = '<' :: "/replaced>*/".toList by decide] at this ⊢
    exact notBefore_of_head (by decide) this
  rw [e, cut_append (by decide) h1]
  dsimp only
  rw [cut_append (by decide) h2]
  rfl

theorem out_ne (i : Item) : i.out ≠ [] := by cases i <;> simp [Item.out]
theorem left_ne (i : Item) : i.left ≠ [] := by cases i <;> simp [Item.left]

theorem flat_ne {f : Item → List Str} (hf : ∀ i, f i ≠ []) {items : List Item} (h : items ≠ []) : items.flatMap f ≠ [] := by
  cases items with
  | nil => exact absurd rfl h
  | cons i items =>
    rw [List.flatMap_cons]
    exact List.append_ne_nil_of_left_ne_nil (hf i) _

/-- A line of text in front, ended by a newline. -/
def term : List Str → Str
  | [] => []
  | l :: ls => l ++ ['\n'] ++ term ls

theorem term_append (a : List Str) (l : Str) : term (a ++ [l]) = term a ++ l ++ ['\n'] := by
  induction a with
  | nil => simp [term]
  | cons x a ih => rw [List.cons_append, term, term, ih]; simp only [List.append_assoc]

theorem free_term {w : Str} (hn : '\n' ∉ w) (hw : w ≠ []) {ls : List Str} (h : ∀ l ∈ ls, ¬ w <:+: l) : ¬ w <:+: term ls := by
  induction ls with
  | nil => rw [term, List.infix_nil]; exact hw
  | cons l ls ih =>
    have ih := ih fun l' hl => h l' (List.mem_cons_of_mem _ hl)
    rw [term, List.append_assoc]
    exact free_last hn (h l (by simp)) ih

theorem region_text (id : Str) {ls : List Str} (h : ls ≠ []) :
    text (beginMark id :: ls ++ [endMark id]) = beginMark id ++ (['\n'] ++ text ls ++ ['\n']) ++ endMark id := by
  rw [List.cons_append, text_cons (by simp), text_append h (by simp)]
  show beginMark id ++ ['\n'] ++ (text ls ++ ['\n'] ++ endMark id) = _
  simp only [List.append_assoc]

/-- A region in a text: what is before it, what it becomes. -/
theorem unpatch_items_region {id : Str} {ls : List Str} (hid : IdOk id) (hne : ls ≠ [])
    (hb : ¬ "*<end ".toList <:+: ['\n'] ++ text ls ++ ['\n']) {o : Str} {left : List Str}
    (ho : findReplaced (beginMark id ++ (['\n'] ++ text ls ++ ['\n']) ++ endMark id) = some o) (hleft : left ≠ [])
    (hl : text left = o) (a : Str) (ha : ¬ "/*<begin ".toList <:+: a) (outs lefts : List Str)
    (hnil : outs = [] ↔ lefts = []) (ih : unpatch (['\n'] ++ text outs) = some (['\n'] ++ text lefts)) :
    unpatch (a ++ text ((beginMark id :: ls ++ [endMark id]) ++ outs)) = some (a ++ text (left ++ lefts)) := by
  by_cases hz : outs = []
  · have hz' := hnil.1 hz
    subst hz hz'
    rw [List.append_nil, List.append_nil, region_text id hne, hl]
    have := unpatch_region (r := []) ha hid hb ho
    rw [List.append_nil] at this
    rw [this, unpatch_none (by decide)]
    simp
  · have hz' : lefts ≠ [] := fun h => hz (hnil.2 h)
    rw [text_append (by simp) hz, region_text id hne, text_append hleft hz', hl]
    have := unpatch_region (r := ['\n'] ++ text outs) ha hid hb ho
    rw [← List.append_assoc] at this
    simp only [List.append_assoc] at this ih ⊢
    rw [this, ih]
    rfl

theorem unpatch_items (items : List Item) (h : ∀ i ∈ items, i.Ok) : ∀ pre : List Str, (∀ l ∈ pre, ¬ "/*<begin ".toList <:+: l) →
    unpatch (term pre ++ text (items.flatMap Item.out)) = some (term pre ++ text (items.flatMap Item.left)) := by
  have hnl : '\n' ∉ "/*<begin ".toList := by decide
  have hnil : ∀ items : List Item, items.flatMap Item.out = [] ↔ items.flatMap Item.left = [] := by
    intro items
    constructor
    · intro h
      cases items with
      | nil => rfl
      | cons i items => exact absurd h (flat_ne out_ne (by simp))
    · intro h
      cases items with
      | nil => rfl
      | cons i items => exact absurd h (flat_ne left_ne (by simp))
  induction items with
  | nil =>
    intro pre hp
    simp only [List.flatMap_nil, text, List.append_nil]
    exact unpatch_none (free_term hnl (by decide) hp)
  | cons i items ih =>
    intro pre hp
    have ih := ih fun i' hi => h i' (List.mem_cons_of_mem _ hi)
    have hi := h i (by simp)
    have ih0 : unpatch (['\n'] ++ text (items.flatMap Item.out)) = some (['\n'] ++ text (items.flatMap Item.left)) :=
      ih [[]] (by intro l hl; rw [List.mem_singleton] at hl; subst hl; decide)
    have hfree := free_term hnl (by decide) hp
    rw [List.flatMap_cons, List.flatMap_cons]
    cases i with
    | line l =>
      have hl : LineOk l := hi
      by_cases hz : items.flatMap Item.out = []
      · have hz' := (hnil items).1 hz
        rw [hz, hz']
        show unpatch (term pre ++ l) = some (term pre ++ l)
        refine unpatch_none ?_
        by_cases hp0 : pre = []
        · subst hp0; exact hl.2.1
        · obtain ⟨q, x, rfl⟩ : ∃ q x, pre = q ++ [x] := ⟨_, _, (List.dropLast_concat_getLast hp0).symm⟩
          rw [term_append]
          simp only [List.append_assoc, List.cons_append, List.nil_append]
          rw [← List.append_assoc]
          have h1 : ¬ "/*<begin ".toList <:+: term q ++ x := by
            intro hc
            apply hfree
            rw [term_append]
            exact hc.trans ⟨[], ['\n'], rfl⟩
          exact free_last hnl h1 hl.2.1
      · have hz' : items.flatMap Item.left ≠ [] := fun h => hz ((hnil items).2 h)
        show unpatch (term pre ++ text (l :: items.flatMap Item.out)) = some (term pre ++ text (l :: items.flatMap Item.left))
        rw [text_cons hz, text_cons hz']
        have := ih (pre ++ [l]) (by
          intro l' hl'
          rcases List.mem_append.1 hl' with h | h
          · exact hp l' h
          · rw [List.mem_singleton] at h; subst h; exact hl.2.1)
        rw [term_append] at this
        simp only [List.append_assoc] at this ⊢
        exact this
    | added id ls =>
      obtain ⟨hid, hne, hl⟩ := hi
      refine unpatch_items_region (o := []) (left := [[]]) hid hne ?_ (findReplaced_added hid hl) (by simp) rfl _ hfree _ _
        (hnil items) ih0
      have h1 : ¬ "*<end ".toList <:+: text ls := free_text (by decide) (by decide) fun l h => (hl l h).2.2.1
      exact free_last (a := []) (by decide) (by decide) (free_last (b := []) (by decide) h1 (by decide))
    | old id l =>
      obtain ⟨hid, hl⟩ := hi
      refine unpatch_items_region (ls := [replacedBegin, l, replacedEnd]) (o := ['\n'] ++ l ++ ['\n']) (left := [[], l, []]) hid
        (by simp) ?_ (findReplaced_old hid hl) (by simp) (by simp [text]) _ hfree _ _ (hnil items) ih0
      have h1 : ¬ "*<end ".toList <:+: text [replacedBegin, l, replacedEnd] := by
        refine free_text (by decide) (by decide) ?_
        intro x hx
        simp only [List.mem_cons, List.not_mem_nil, or_false] at hx
        rcases hx with rfl | rfl | rfl
        · rw [← cut_none]; decide +kernel
        · exact hl.2.2.1
        · rw [← cut_none]; decide +kernel
      exact free_last (a := []) (by decide) (by decide) (free_last (b := []) (by decide) h1 (by decide))

/-! ### The edits of a line are items -/

theorem block_items {id : Str} {ls : List Str} (hid : IdOk id) (hl : ∀ l ∈ ls, LineOk l) :
    ∃ items : List Item, (∀ i ∈ items, i.Ok) ∧ block id ls = items.flatMap Item.out ∧ nonblank (items.flatMap Item.left) = [] := by
  unfold block
  split
  · exact ⟨[], by simp, rfl, rfl⟩
  · rename_i hne
    rw [if_neg hid.1]
    refine ⟨[.added id ls], ?_, ?_, rfl⟩
    · intro i hi
      rw [List.mem_singleton] at hi
      subst hi
      exact ⟨hid, hne, hl⟩
    · simp [Item.out]

theorem nonblank_append (a b : List Str) : nonblank (a ++ b) = nonblank a ++ nonblank b := List.filter_append ..

theorem blocks_items (f : Edit → List Str) (es : List Edit) (h : ∀ e ∈ es, IdOk e.id ∧ ∀ l ∈ f e, LineOk l) :
    ∃ items : List Item, (∀ i ∈ items, i.Ok) ∧ (es.flatMap fun e => block e.id (f e)) = items.flatMap Item.out ∧
      nonblank (items.flatMap Item.left) = [] := by
  induction es with
  | nil => exact ⟨[], by simp, rfl, rfl⟩
  | cons e es ih =>
    obtain ⟨i1, a1, b1, c1⟩ := block_items (h e (by simp)).1 (h e (by simp)).2
    obtain ⟨i2, a2, b2, c2⟩ := ih fun e' he => h e' (List.mem_cons_of_mem _ he)
    refine ⟨i1 ++ i2, ?_, ?_, ?_⟩
    · intro i hi
      rcases List.mem_append.1 hi with hi | hi
      · exact a1 i hi
      · exact a2 i hi
    · rw [List.flatMap_cons, b1, b2, List.flatMap_append]
    · rw [List.flatMap_append, nonblank_append, c1, c2]; rfl

theorem editLine_items {es : List Edit} {l : Str} (h : ∀ e ∈ es, EditOk e) (hl : LineOk l) :
    ∃ items : List Item, (∀ i ∈ items, i.Ok) ∧ editLine es l = items.flatMap Item.out ∧
      nonblank (items.flatMap Item.left) = nonblank [l] := by
  obtain ⟨i1, a1, b1, c1⟩ := blocks_items Edit.prepend es fun e he => ⟨(h e he).id, (h e he).prepend⟩
  obtain ⟨i2, a2, b2, c2⟩ := blocks_items Edit.replace es fun e he => ⟨(h e he).id, (h e he).replace⟩
  obtain ⟨i4, a4, b4, c4⟩ := blocks_items Edit.append es fun e he => ⟨(h e he).id, (h e he).append⟩
  obtain ⟨i3, a3, b3, c3⟩ : ∃ i : Item, i.Ok ∧ keptLine es l = i.out ∧ nonblank i.left = nonblank [l] := by
    unfold keptLine
    cases hr : lastReplace es with
    | none => exact ⟨.line l, hl, rfl, rfl⟩
    | some id =>
      obtain ⟨es₁, e, es₂, rfl, h1, rfl, h3⟩ := lastReplace_some hr
      have hid := (h e (by simp)).id
      refine ⟨.old e.id l, ⟨hid, hl⟩, ?_, ?_⟩
      · dsimp only
        rw [if_neg hid.1, block, if_neg (by simp), if_neg hid.1]
        rfl
      · show nonblank ([[]] ++ [l] ++ [[]]) = _
        rw [nonblank_append, nonblank_append]
        show [] ++ nonblank [l] ++ [] = _
        simp
  refine ⟨i1 ++ i2 ++ [i3] ++ i4, ?_, ?_, ?_⟩
  · intro i hi
    simp only [List.mem_append, List.mem_singleton] at hi
    rcases hi with ((hi | hi) | rfl) | hi
    · exact a1 i hi
    · exact a2 i hi
    · exact a3
    · exact a4 i hi
  · unfold editLine
    rw [b1, b2, b4, b3]
    simp [List.flatMap_append]
  · simp only [List.flatMap_append, nonblank_append, c1, c2, c4, List.flatMap_cons, List.flatMap_nil, List.append_nil, c3,
      List.nil_append]

theorem allLines_items {es : List Edit} (h : ∀ e ∈ es, EditOk e) (i : Nat) (ls : List Str) (hl : ∀ l ∈ ls, LineOk l) :
    ∃ items : List Item, (∀ i ∈ items, i.Ok) ∧ allLines es i ls = items.flatMap Item.out ∧
      nonblank (items.flatMap Item.left) = nonblank ls := by
  induction ls generalizing i with
  | nil => exact ⟨[], by simp, rfl, rfl⟩
  | cons l ls ih =>
    obtain ⟨i1, a1, b1, c1⟩ := editLine_items (es := es.filter fun e => e.line = (i : Int))
      (fun e he => h e ((List.mem_filter.1 he).1)) (hl l (by simp))
    obtain ⟨i2, a2, b2, c2⟩ := ih (i + 1) fun l' hl' => hl l' (List.mem_cons_of_mem _ hl')
    refine ⟨i1 ++ i2, ?_, ?_, ?_⟩
    · intro i hi
      rcases List.mem_append.1 hi with hi | hi
      · exact a1 i hi
      · exact a2 i hi
    · rw [allLines, b1, b2, List.flatMap_append]
    · rw [List.flatMap_append, nonblank_append, c1, c2, ← nonblank_append]; rfl

/-- **C42.** Undoing the edits gives the lines back, but for empty lines. -/
theorem C42_unpatch (sorted : List Edit) (lines : List Str) (hs : Sorted sorted)
    (hl : ∀ e ∈ sorted, 1 ≤ e.line ∧ e.line ≤ lines.length) (he : ∀ e ∈ sorted, EditOk e) (hlines : ∀ l ∈ lines, LineOk l) :
    ∃ out left, apply sorted lines = some out ∧ unpatch (text out) = some (text left) ∧ nonblank left = nonblank lines := by
  obtain ⟨items, h1, h2, h3⟩ := allLines_items he 1 lines hlines
  have h0 : apply sorted lines = some (allLines sorted 1 lines) :=
    applyLoop_sorted lines.length 1 lines sorted hs hl (by omega)
  refine ⟨_, items.flatMap Item.left, h0, ?_, h3⟩
  rw [h2]
  have := unpatch_items items h1 [] (by simp)
  exact this

/-- **C42.** A text without markers is left as it is. -/
theorem C42_untouched (s : Str) (h : ¬ "/*<begin ".toList <:+: s) : unpatch s = some s := unpatch_none h

/-- Undoing the edits does not give the same text: each block leaves an empty line. Doing and undoing it again and again
    the file grows. -/
theorem C42_counterexample_blank :
    ∃ (es : List Edit) (lines out : List Str), apply es lines = some out ∧ unpatch (text out) = some "\na\nb".toList ∧
      text lines = "a\nb".toList :=
  ⟨[.mkPrepend 1 "x".toList ["y".toList]], ["a".toList, "b".toList],
    ["/*<begin x>*/", "y", "/*<end x>*/", "a", "b"].map String.toList, by decide +kernel, by decide +kernel, by decide +kernel⟩

/-- Edits without a name cannot be undone, and a line replaced by one is lost. -/
theorem C42_counterexample_unnamed :
    ∃ (es : List Edit) (lines out : List Str), apply es lines = some out ∧ unpatch (text out) = some "y".toList ∧
      lines = ["a".toList] :=
  ⟨[.mkReplace 1 [] ["y".toList]], ["a".toList], ["y".toList], by decide +kernel, by decide +kernel, rfl⟩

/-- The hypotheses of `C42_unpatch` are met. -/
example : let es := [Edit.mkPrepend 1 "a".toList ["x".toList], .mkReplace 2 "c".toList ["z".toList]]
    let lines := ["1".toList, "2".toList]
    Sorted es ∧ (∀ e ∈ es, 1 ≤ e.line ∧ e.line ≤ lines.length) ∧ (∀ e ∈ es, EditOk e) ∧ ∀ l ∈ lines, LineOk l := by
  have ok : ∀ c : Char, c ∈ ['x', 'z', '1', '2'] → LineOk [c] := by
    intro c hc
    simp only [List.mem_cons, List.not_mem_nil, or_false] at hc
    rcases hc with rfl | rfl | rfl | rfl <;>
      exact ⟨by decide, by rw [← cut_none]; decide +kernel, by rw [← cut_none]; decide +kernel,
        by rw [← cut_none]; decide +kernel, by rw [← cut_none]; decide +kernel⟩
  refine ⟨by unfold Sorted; decide, by decide, ?_, ?_⟩
  · intro e he
    simp only [List.mem_cons, List.not_mem_nil, or_false] at he
    rcases he with rfl | rfl
    · refine ⟨⟨by decide, by decide, by decide, by decide, by decide⟩, ?_, (fun l hl => by cases hl), (fun l hl => by cases hl)⟩
      intro l hl
      have : l = ['x'] := List.mem_singleton.1 hl
      rw [this]
      exact ok _ (by simp)
    · refine ⟨⟨by decide, by decide, by decide, by decide, by decide⟩, (fun l hl => by cases hl), (fun l hl => by cases hl), ?_⟩
      intro l hl
      have : l = ['z'] := List.mem_singleton.1 hl
      rw [this]
      exact ok _ (by simp)
  · intro l hl
    have : l = ['1'] ∨ l = ['2'] := by
      rcases List.mem_cons.1 hl with h | h
      · exact Or.inl h
      · exact Or.inr (List.mem_singleton.1 h)
    rcases this with rfl | rfl <;> exact ok _ (by simp)

/-! ### Matching -/

/-- **C42.** The statements of a patch are found in the source in order; if they are there, they are found. -/
theorem C42_match {α β : Type} (same : α → β → Bool) (src : List α) (ps : List β) (i : Nat) :
    (∀ js, matchNodes same src i ps = some js → Matches same src i ps js) ∧
    ((∃ js, Matches same src i ps js) → ∃ js, matchNodes same src i ps = some js) := by
  have widen : ∀ {ps : List β} {i i' : Nat} {js : List Nat}, i' ≤ i → Matches same src i ps js → Matches same src i' ps js := by
    intro ps i i' js h hm
    cases hm with
    | nil => exact .nil
    | cons h1 h2 h3 h4 => exact .cons (Nat.le_trans h h1) h2 h3 h4
  induction ps generalizing i with
  | nil =>
    refine ⟨?_, fun _ => ⟨[], rfl⟩⟩
    intro js h
    rw [matchNodes] at h
    injection h with h
    subst h
    exact .nil
  | cons p ps ih =>
    constructor
    · intro js h
      rw [matchNodes] at h
      split at h
      · cases h
      · cases hf : findMatch same (src.drop i) p with
        | none => rw [hf] at h; cases h
        | some m =>
          rw [hf] at h
          dsimp only at h
          rw [Option.map_eq_some_iff] at h
          obtain ⟨is, h1, rfl⟩ := h
          obtain ⟨hm, hs, -⟩ := List.findIdx?_eq_some_iff_getElem.1 hf
          refine .cons (a := (src.drop i)[m]) (by omega) ?_ hs ((ih (i + m)).1 is h1)
          rw [← List.getElem?_eq_getElem hm, List.getElem?_drop]
    · rintro ⟨js, h⟩
      cases h with
      | @cons _ j _ _ js a h1 h2 h3 h4 =>
        have hj : j < src.length := by
          rcases Nat.lt_or_ge j src.length with h | h
          · exact h
          · rw [List.getElem?_eq_none h] at h2; cases h2
        rw [matchNodes, if_neg (by omega)]
        have hget : (src.drop i)[j - i]? = some a := by
          rw [List.getElem?_drop, ← h2]
          congr 1
          omega
        cases hf : findMatch same (src.drop i) p with
        | none =>
          exfalso
          unfold findMatch at hf
          rw [List.findIdx?_eq_none_iff] at hf
          have := hf a (List.mem_of_getElem? hget)
          rw [h3] at this
          cases this
        | some m =>
          dsimp only
          have hm : m ≤ j - i := by
            rcases Nat.lt_or_ge (j - i) m with h | h
            · exfalso
              obtain ⟨hlt, hs, hmin⟩ := List.findIdx?_eq_some_iff_getElem.1 hf
              have := hmin (j - i) h
              have e : (src.drop i)[j - i] = a := by
                have hh : (src.drop i)[j - i]? = some (src.drop i)[j - i] := List.getElem?_eq_getElem (by omega)
                rw [hget] at hh
                injection hh with hh
                exact hh.symm
              rw [e, h3] at this
              exact this rfl
            · exact h
          obtain ⟨is, his⟩ := (ih (i + m)).2 ⟨js, widen (by omega) h4⟩
          exact ⟨_, by rw [his]; rfl⟩

/-- Two statements of a patch that look the same stand for one statement of the source, although there are two. -/
theorem C42_counterexample_match : matchNodes (fun (a b : Nat) => decide (a = b)) [7, 8, 7] 0 [7, 7] = some [0, 0] := by
  decide +kernel

example : Matches (fun (a b : Nat) => decide (a = b)) [7, 8, 7] 0 [7, 7] [0, 2] :=
  .cons (a := 7) (by decide) rfl rfl (.cons (a := 7) (by decide) rfl rfl .nil)

end Verif.Support.LineEdit
