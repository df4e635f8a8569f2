/-
C42: line edits.
-/
import Verif.Support.LineEdit
import Verif.Support.LineEditSpec

namespace Verif.Support.LineEdit
open Verif.Text Spec

theorem mem_takeWhile {α : Type} {p : α → Bool} {l : List α} {x : α} (h : x ∈ l.takeWhile p) : p x = true := by
  induction l with
  | nil => cases h
  | cons a l ih =>
    rw [List.takeWhile_cons] at h
    split at h
    · rcases List.mem_cons.1 h with rfl | h
      · assumption
      · exact ih h
    · cases h

/-! ### One line -/

theorem block_spec (id : Str) (ls : List Str) : Block id ls (block id ls) := by
  unfold block
  cases ls with
  | nil => exact Block.none id
  | cons l ls =>
    rw [if_neg (List.cons_ne_nil _ _)]
    cases id with
    | nil => exact Block.plain l ls
    | cons c id => exact Block.marked c id l ls

theorem blocks_spec (f : Edit → List Str) (es : List Edit) :
    Blocks (es.map fun e => (e.id, f e)) (es.flatMap fun e => block e.id (f e)) := by
  induction es with
  | nil => exact .nil
  | cons e es ih => exact .cons (block_spec _ _) ih

theorem lastReplace_none {es : List Edit} (h : lastReplace es = none) : ∀ e ∈ es, e.replace = [] := by
  induction es with
  | nil => intro e he; cases he
  | cons x es ih =>
    rw [lastReplace] at h
    cases hl : lastReplace es with
    | some id => rw [hl] at h; cases h
    | none =>
      rw [hl] at h
      intro e he
      rcases List.mem_cons.1 he with rfl | he
      · by_cases hr : e.replace = []
        · exact hr
        · simp [hr] at h
      · exact ih hl e he

theorem lastReplace_some {es : List Edit} {id : Str} (h : lastReplace es = some id) :
    ∃ es₁ e es₂, es = es₁ ++ e :: es₂ ∧ e.replace ≠ [] ∧ e.id = id ∧ ∀ e ∈ es₂, e.replace = [] := by
  induction es with
  | nil => cases h
  | cons x es ih =>
    rw [lastReplace] at h
    cases hl : lastReplace es with
    | some id' =>
      rw [hl] at h
      injection h with h
      obtain ⟨es₁, e, es₂, rfl, h1, h2, h3⟩ := ih (h ▸ hl)
      exact ⟨x :: es₁, e, es₂, rfl, h1, h2, h3⟩
    | none =>
      rw [hl] at h
      by_cases hr : x.replace = []
      · simp [hr] at h
      · simp only [hr, if_false, Option.some.injEq] at h
        exact ⟨[], x, es, rfl, hr, h, lastReplace_none hl⟩

theorem editLine_spec (es : List Edit) (line : Str) : Edited es line (editLine es line) := by
  refine ⟨_, _, _, _, blocks_spec Edit.prepend es, blocks_spec Edit.replace es, ?_, blocks_spec Edit.append es, rfl⟩
  unfold keptLine
  cases h : lastReplace es with
  | none => exact Kept.unchanged (lastReplace_none h)
  | some id =>
    obtain ⟨es₁, e, es₂, rfl, h1, rfl, h3⟩ := lastReplace_some h
    dsimp only
    split
    · rename_i hid
      exact Kept.dropped h1 h3 hid
    · rename_i hid
      exact Kept.comment h1 h3 hid (block_spec _ _)

/-! ### All lines -/

/-- The lines with their edits. -/
def allLines (es : List Edit) : Nat → List Str → List Str
  | _, [] => []
  | i, l :: ls => editLine (es.filter fun e => e.line = i) l ++ allLines es (i + 1) ls

theorem allLines_spec (es : List Edit) (i : Nat) (ls : List Str) : Lines es i ls (allLines es i ls) := by
  induction ls generalizing i with
  | nil => exact .nil
  | cons l ls ih => exact .cons (editLine_spec _ _) (ih _)

theorem editLine_nil (l : Str) : editLine [] l = [l] := rfl

theorem allLines_congr {es es' : List Edit} (i : Nat) (ls : List Str)
    (h : ∀ k : Nat, i ≤ k → (es.filter fun e => e.line = (k : Int)) = es'.filter fun e => e.line = (k : Int)) :
    allLines es i ls = allLines es' i ls := by
  induction ls generalizing i with
  | nil => rfl
  | cons l ls ih => rw [allLines, allLines, h i (Nat.le_refl _), ih (i + 1) fun k hk => h k (by omega)]

theorem allLines_skip {es : List Edit} (m i : Nat) (ls : List Str) (h : ∀ e ∈ es, ((i + m : Nat) : Int) ≤ e.line) :
    allLines es i ls = ls.take m ++ allLines es (i + m) (ls.drop m) := by
  induction m generalizing i ls with
  | zero => simp
  | succ m ih =>
    cases ls with
    | nil => simp [allLines]
    | cons l ls =>
      have : (es.filter fun e => e.line = (i : Int)) = [] := by
        rw [List.filter_eq_nil_iff]
        intro e he
        have := h e he
        simp only [decide_eq_true_eq]
        omega
      rw [allLines, this, editLine_nil, ih (i + 1) ls (fun e he => by have := h e he; omega), List.take_succ_cons,
        List.drop_succ_cons, Nat.add_right_comm i 1 m]
      rfl

theorem sorted_split {e : Edit} {es : List Edit} (hs : Sorted (e :: es)) :
    (es.filter fun x => x.line = e.line) = es.takeWhile (fun x => x.line = e.line) ∧
    ∀ x ∈ es.dropWhile (fun x => x.line = e.line), e.line < x.line := by
  rw [Sorted, List.pairwise_cons] at hs
  obtain ⟨h1, h2⟩ := hs
  induction es with
  | nil => exact ⟨rfl, by simp⟩
  | cons x es ih =>
    have hx := h1 x (by simp)
    by_cases he : x.line = e.line
    · obtain ⟨i1, i2⟩ := ih (fun a ha => h1 a (by simp [ha])) (List.pairwise_cons.1 h2).2
      rw [List.filter_cons_of_pos (by simp [he]), List.takeWhile_cons_of_pos (by simp [he]),
        List.dropWhile_cons_of_pos (by simp [he]), i1]
      exact ⟨rfl, i2⟩
    · rw [List.filter_cons_of_neg (by simp [he]), List.takeWhile_cons_of_neg (by simp [he]),
        List.dropWhile_cons_of_neg (by simp [he])]
      have hall : ∀ y ∈ x :: es, e.line < y.line := by
        intro y hy
        rcases List.mem_cons.1 hy with rfl | hy
        · omega
        · have := (List.pairwise_cons.1 h2).1 y hy
          omega
      refine ⟨?_, hall⟩
      rw [List.filter_eq_nil_iff]
      intro y hy
      have := hall y (by simp [hy])
      simp only [decide_eq_true_eq]
      omega

theorem applyLoop_sorted (n : Nat) (c : Nat) (rest : List Str) (es : List Edit) (hs : Sorted es)
    (hl : ∀ e ∈ es, (c : Int) ≤ e.line ∧ e.line ≤ n) (hn : c + rest.length = n + 1) :
    applyLoop n c rest es = some (allLines es c rest) := by
  match es with
  | [] =>
    rw [applyLoop]
    have : allLines [] c rest = rest := by
      clear hn
      induction rest generalizing c with
      | nil => rfl
      | cons l ls ih => rw [allLines, ih (c + 1) (by simp)]; rfl
    rw [this]
  | e :: es =>
    obtain ⟨h1, h2⟩ := hl e (by simp)
    obtain ⟨k, hk⟩ : ∃ k : Nat, e.line = ((c + k : Nat) : Int) := ⟨(e.line - c).toNat, by omega⟩
    rw [applyLoop, if_neg (by omega)]
    have hskip : (if (c : Int) < e.line then (e.line - c).toNat else 0) = k := by split <;> omega
    have hcur : (if (c : Int) < e.line then e.line else (c : Int)) + 1 = ((c + k + 1 : Nat) : Int) := by split <;> omega
    simp only [hskip, hcur]
    obtain ⟨s1, s2⟩ := sorted_split hs
    have hle : ∀ x ∈ e :: es, ((c + k : Nat) : Int) ≤ x.line := by
      intro x hx
      rcases List.mem_cons.1 hx with rfl | hx
      · omega
      · have := (List.pairwise_cons.1 hs).1 x hx
        omega
    rw [allLines_skip k c rest hle]
    cases hd : rest.drop k with
    | nil =>
      have := congrArg List.length hd
      simp only [List.length_drop, List.length_nil] at this
      omega
    | cons l rest' =>
      have hlen := congrArg List.length hd
      simp only [List.length_drop, List.length_cons] at hlen
      dsimp only
      have hsub : (es.dropWhile fun e' => decide (e'.line = e.line)) <:+ es := List.dropWhile_suffix _
      have hterm : (es.dropWhile fun e' => decide (e'.line = e.line)).length < (e :: es).length := by
        have := hsub.length_le
        simp only [List.length_cons]; omega
      rw [applyLoop_sorted n (c + k + 1) rest' (es.dropWhile fun e' => decide (e'.line = e.line))]
      · rw [Option.map_some, allLines, List.append_assoc]
        congr 3
        · have : ((e :: es).filter fun x => decide (x.line = ((c + k : Nat) : Int))) =
              e :: es.takeWhile (fun x => decide (x.line = e.line)) := by
            rw [List.filter_cons_of_pos (by simp only [decide_eq_true_eq]; omega), ← hk, s1]
          rw [this]
        · refine allLines_congr _ _ fun j hj => ?_
          have h3 : es = es.takeWhile (fun x => decide (x.line = e.line)) ++ es.dropWhile (fun x => decide (x.line = e.line)) :=
            List.takeWhile_append_dropWhile.symm
          rw [List.filter_cons_of_neg (by simp only [decide_eq_true_eq]; omega)]
          conv => rhs; rw [h3, List.filter_append]
          have h4 : (es.takeWhile (fun x => decide (x.line = e.line))).filter (fun x => decide (x.line = (j : Int))) = [] := by
            rw [List.filter_eq_nil_iff]
            intro x hx
            have hx := mem_takeWhile hx
            simp only [decide_eq_true_eq] at hx ⊢
            omega
          rw [h4, List.nil_append]
      · exact List.Pairwise.sublist hsub.sublist (List.pairwise_cons.1 hs).2
      · intro x hx
        have := s2 x hx
        have := hl x (by simp [hsub.subset hx])
        omega
      · omega
termination_by es.length

/-- **C42.** For every order into which the edits may be sorted, every line becomes the line with the edits made at it, in
    this order, and there are no other lines. -/
theorem C42_apply (sorted : List Edit) (lines : List Str) (hs : Sorted sorted)
    (hl : ∀ e ∈ sorted, 1 ≤ e.line ∧ e.line ≤ lines.length) :
    ∃ out, apply sorted lines = some out ∧ Lines sorted 1 lines out :=
  ⟨_, applyLoop_sorted lines.length 1 lines sorted hs hl (by omega), allLines_spec _ _ _⟩

/-- **C42.** Edits of lines that are not there are an error. -/
theorem C42_error (sorted : List Edit) (lines : List Str) (h : ∃ e ∈ sorted, (lines.length : Int) < e.line) :
    apply sorted lines = none := by
  have key : ∀ (k : Nat) (es : List Edit), es.length ≤ k → ∀ (c : Int) (rest : List Str),
      (∃ e ∈ es, (lines.length : Int) < e.line) → applyLoop lines.length c rest es = none := by
    intro k
    induction k with
    | zero =>
      intro es hk c rest ⟨e, he, _⟩
      have := List.length_pos_of_mem he
      omega
    | succ k ih =>
      intro es hk c rest ⟨e, he, hlt⟩
      cases es with
      | nil => cases he
      | cons x es =>
        rw [applyLoop]
        split
        · rfl
        · rename_i hx
          dsimp only
          split
          · rfl
          · rw [Option.map_eq_none_iff]
            have hsub : (es.dropWhile fun e' => decide (e'.line = x.line)) <:+ es := List.dropWhile_suffix _
            refine ih _ (by have := hsub.length_le; simp only [List.length_cons] at hk; omega) _ _ ⟨e, ?_, hlt⟩
            rcases List.mem_cons.1 he with rfl | he
            · exact absurd hlt hx
            · have h3 : es = es.takeWhile (fun e' => decide (e'.line = x.line)) ++ es.dropWhile (fun e' => decide (e'.line = x.line)) :=
                List.takeWhile_append_dropWhile.symm
              rw [h3] at he
              rcases List.mem_append.1 he with he | he
              · have := mem_takeWhile he
                simp only [decide_eq_true_eq] at this
                omega
              · exact he
  exact key sorted.length sorted (Nat.le_refl _) 1 lines h

/-! ### Order of edits -/

theorem insertEdit_perm (e : Edit) (l : List Edit) : (insertEdit e l).Perm (e :: l) := by
  induction l with
  | nil => exact List.Perm.refl _
  | cons x l ih =>
    rw [insertEdit]
    split
    · exact List.Perm.refl _
    · exact (ih.cons x).trans (List.Perm.swap e x l)

theorem insertEdit_sorted {e : Edit} {l : List Edit} (h : Sorted l) : Sorted (insertEdit e l) := by
  induction l with
  | nil => exact List.pairwise_singleton _ _
  | cons x l ih =>
    rw [Sorted, List.pairwise_cons] at h
    rw [insertEdit]
    split
    · rename_i hlt
      rw [Sorted, List.pairwise_cons, List.pairwise_cons]
      refine ⟨?_, h.1, h.2⟩
      intro y hy
      rcases List.mem_cons.1 hy with rfl | hy
      · omega
      · have := h.1 y hy
        omega
    · rename_i hlt
      rw [Sorted, List.pairwise_cons]
      refine ⟨?_, ih h.2⟩
      intro y hy
      rcases List.mem_cons.1 ((insertEdit_perm e l).subset hy) with rfl | hy
      · omega
      · exact h.1 y hy

theorem insertEdit_filter {e : Edit} {l : List Edit} (h : Sorted l) (i : Int) :
    (insertEdit e l).filter (fun x => x.line = i) = l.filter (fun x => x.line = i) ++ [e].filter (fun x => x.line = i) := by
  induction l with
  | nil => rfl
  | cons x l ih =>
    rw [Sorted, List.pairwise_cons] at h
    rw [insertEdit]
    split
    · rename_i hlt
      by_cases he : e.line = i
      · have : (x :: l).filter (fun x => decide (x.line = i)) = [] := by
          rw [List.filter_eq_nil_iff]
          intro y hy
          simp only [decide_eq_true_eq]
          rcases List.mem_cons.1 hy with rfl | hy
          · omega
          · have := h.1 y hy
            omega
        rw [List.filter_cons_of_pos (by simp [he]), this, List.filter_cons_of_pos (by simp [he])]
        rfl
      · rw [List.filter_cons_of_neg (by simp [he]), List.filter_cons_of_neg (a := e) (by simp [he]), List.filter_nil,
          List.append_nil]
    · by_cases hx : x.line = i
      · rw [List.filter_cons_of_pos (by simp [hx]), ih h.2, List.filter_cons_of_pos (l := l) (by simp [hx])]
        rfl
      · rw [List.filter_cons_of_neg (by simp [hx]), ih h.2, List.filter_cons_of_neg (l := l) (by simp [hx])]

/-- **C42.** The edits of one line are made in the order in which they were asked for, if there are few of them. (With more
    than 12 `sort.Slice` gives some sorted order, to which `C42_apply` applies.) -/
theorem C42_order (es : List Edit) : (sortEdits es).Perm es ∧ Sorted (sortEdits es) ∧ Stable es (sortEdits es) := by
  have key : ∀ (es l : List Edit), Sorted l →
      (es.foldl (fun l e => insertEdit e l) l).Perm (l ++ es) ∧ Sorted (es.foldl (fun l e => insertEdit e l) l) ∧
      ∀ i : Int, (es.foldl (fun l e => insertEdit e l) l).filter (fun x => x.line = i) =
        l.filter (fun x => x.line = i) ++ es.filter (fun x => x.line = i) := by
    intro es
    induction es with
    | nil => intro l hl; simp only [List.foldl_nil, List.append_nil, List.filter_nil]; exact ⟨List.Perm.refl _, hl, fun _ => trivial⟩
    | cons e es ih =>
      intro l hl
      obtain ⟨h1, h2, h3⟩ := ih (insertEdit e l) (insertEdit_sorted hl)
      rw [List.foldl_cons]
      refine ⟨h1.trans ?_, h2, ?_⟩
      · refine ((insertEdit_perm e l).append_right es).trans ?_
        rw [List.cons_append]
        exact List.perm_middle.symm
      · intro i
        rw [h3, insertEdit_filter hl]
        rw [show e :: es = [e] ++ es from rfl, List.filter_append, List.append_assoc]
  obtain ⟨h1, h2, h3⟩ := key es [] List.Pairwise.nil
  exact ⟨h1, h2, fun i => by have := h3 i; rw [List.filter_nil, List.nil_append] at this; exact this⟩

/-- With at most one edit of each kind at each line the order does not matter, see `C42_apply`. -/
example : apply (sortEdits [.mkAppend 2 "b".toList ["y".toList], .mkPrepend 1 "a".toList ["x".toList],
      .mkReplace 2 "c".toList ["z".toList]]) ["1".toList, "2".toList, "3".toList] =
    some (["/*<begin a>*/", "x", "/*<end a>*/", "1", "/*<begin c>*/", "z", "/*<end c>*/", "/*<begin c>*/", "/*<replaced>", "2",
      "</replaced>*/", "/*<end c>*/", "/*<begin b>*/", "y", "/*<end b>*/", "3"].map String.toList) := by decide +kernel

/-- An edit of line 0 is made at line 1, and the edits of line 1 are then made at line 2. -/
theorem C42_counterexample_zero :
    apply [.mkAppend 0 [] ["x".toList], .mkAppend 1 [] ["y".toList]] ["1".toList, "2".toList] =
      some (["1", "x", "2", "y"].map String.toList) := by decide +kernel

theorem block_only {id : Str} {ls b : List Str} (h : Block id ls b) : b = block id ls := by
  unfold block
  cases h with
  | none => rw [if_pos rfl]
  | plain l ls => rw [if_neg (List.cons_ne_nil _ _), if_pos rfl]
  | marked c id l ls => rw [if_neg (List.cons_ne_nil _ _), if_neg (List.cons_ne_nil _ _)]; rfl

/-- **C42** (one edit) `Prepend` puts lines before a line, `Append` after it, `Replace` in its place, between markers if there is an id
    (the line that is replaced is then kept in a comment); no other line is changed. -/
theorem C42_one (pre : List Str) (l : Str) (post : List Str) (id : Str) (ls : List Str) :
    ∃ b, Block id ls b ∧
      apply [.mkPrepend (pre.length + 1) id ls] (pre ++ l :: post) = some (pre ++ b ++ l :: post) ∧
      apply [.mkAppend (pre.length + 1) id ls] (pre ++ l :: post) = some (pre ++ l :: (b ++ post)) ∧
      (ls ≠ [] → id = [] → apply [.mkReplace (pre.length + 1) id ls] (pre ++ l :: post) = some (pre ++ ls ++ post)) ∧
      (ls ≠ [] → ∀ k, id ≠ [] → Block id ["/*<replaced>".toList, l, "</replaced>*/".toList] k →
        apply [.mkReplace (pre.length + 1) id ls] (pre ++ l :: post) = some (pre ++ b ++ k ++ post)) := by
  have key : ∀ e : Edit, e.line = pre.length + 1 → apply [e] (pre ++ l :: post) = some (pre ++ editLine [e] l ++ post) := by
    intro e he
    rw [apply, applyLoop, if_neg (by rw [he, List.length_append, List.length_cons]; omega)]
    have hsk : (if (1 : Int) < e.line then (e.line - 1).toNat else 0) = pre.length := by
      split <;> omega
    simp only [hsk, List.drop_left, List.takeWhile_nil, List.dropWhile_nil, List.take_left]
    rw [applyLoop]
    rfl
  refine ⟨block id ls, block_spec id ls, ?_, ?_, ?_, ?_⟩
  · rw [key _ rfl]
    simp [editLine, Edit.mkPrepend, keptLine, lastReplace, block]
  · rw [key _ rfl]
    simp [editLine, Edit.mkAppend, keptLine, lastReplace, block]
  · intro h hid
    rw [key _ rfl]
    simp [editLine, Edit.mkReplace, keptLine, lastReplace, block, h, hid]
  · intro h k hid hk
    rw [key _ rfl]
    have : k = block id [replacedBegin, l, replacedEnd] := block_only hk
    rw [this]
    have h1 : keptLine [Edit.mkReplace (pre.length + 1) id ls] l = block id [replacedBegin, l, replacedEnd] := by
      unfold keptLine lastReplace lastReplace Edit.mkReplace
      simp only [h, hid, if_false]
    rw [editLine, h1]
    have h2 : ∀ x, block x [] = [] := fun x => if_pos rfl
    simp only [List.flatMap_cons, List.flatMap_nil, List.append_nil, Edit.mkReplace, h2, List.nil_append]
    simp only [List.append_assoc]

end Verif.Support.LineEdit
