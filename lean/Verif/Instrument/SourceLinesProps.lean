/-
Lemmas: counting line breaks in an edited text, and in what xgo writes.
-/
import Verif.Instrument.SourceLinesSpec
import Verif.Instrument.FuncTrapNames

namespace Verif.Instrument.SourceLines
open Verif.Text Verif.Text.EditSpec Verif.Instrument.RegCode
open Verif.Instrument.FuncTrap (dec name2 blank fieldNames recvPrefix paramPrefix resultPrefix)
open Verif.Instrument.CoverNotes (quote)

/-! ### Counting -/

section count
variable {α : Type} [DecidableEq α]

/-- What an edit adds of `c`, if it begins before or at `i`. -/
def weight (c : α) (i : Nat) (e : Edit α) : Nat := if e.start ≤ i then e.new.count c else 0

/-- The new text before the character at `i`. -/
def before (old : List α) (es : List (Edit α)) (i : Nat) : List α := (List.range i).flatMap (at_ old es) ++ insertionsAt es i

omit [DecidableEq α] in
theorem at_split (old : List α) (es : List (Edit α)) (p : Nat) :
    at_ old es p = insertionsAt es p ++ (replacementAt es p ++ (if covered es p then [] else (old[p]?).toList)) := by
  simp [at_, List.append_assoc]

omit [DecidableEq α] in
theorem replacement_nil {es : List (Edit α)} {p : Nat} (h : covered es p = false) : replacementAt es p = [] := by
  unfold replacementAt
  rw [List.filter_eq_nil_iff.2]
  · rfl
  · intro e he hc
    rw [Bool.and_eq_true, beq_iff_eq, decide_eq_true_eq] at hc
    have : covered es p = true := List.any_eq_true.2 ⟨e, he, by simp; omega⟩
    rw [h] at this; cases this

omit [DecidableEq α] in
/-- The new text around the character at `i`. -/
theorem edited_around (old : List α) (es : List (Edit α)) (i : Nat) (hi : i < old.length) (hc : covered es i = false) :
    ∃ rest, edited old es = before old es i ++ old[i] :: rest := by
  refine ⟨(List.range' (i + 1) (old.length - i)).flatMap (at_ old es), ?_⟩
  unfold edited before
  have h1 : List.range (old.length + 1) = List.range i ++ i :: List.range' (i + 1) (old.length - i) := by
    rw [List.range_eq_range', List.range_eq_range', show old.length + 1 = i + (1 + (old.length - i)) by omega,
      ← List.range'_append_1, show 1 + (old.length - i) = (old.length - i) + 1 by omega, List.range'_succ]
    simp
  rw [h1, List.flatMap_append, List.flatMap_cons, at_split, replacement_nil hc, hc, List.getElem?_eq_getElem hi]
  simp [List.append_assoc]

omit [DecidableEq α] in
theorem before_mono (old : List α) (es : List (Edit α)) {i j : Nat} (h : i < j) (hi : i < old.length)
    (hc : covered es i = false) : (before old es i).length < (before old es j).length := by
  have h1 : List.range j = List.range i ++ i :: List.range' (i + 1) (j - i - 1) := by
    rw [List.range_eq_range', List.range_eq_range', show j = i + (1 + (j - i - 1)) by omega,
      ← List.range'_append_1, show 1 + (j - i - 1) = (j - i - 1) + 1 by omega, List.range'_succ]
    simp
  unfold before
  rw [h1, List.flatMap_append, List.flatMap_cons, at_split, replacement_nil hc, hc, List.getElem?_eq_getElem hi]
  simp only [List.length_append, Option.toList_some, Bool.false_eq_true, if_false, List.length_nil, List.length_singleton]
  omega

/-- The insertions and replacements at `p`, counted. -/
theorem count_at (c : α) (old : List α) (es : List (Edit α)) (p : Nat) (hcov : covered es p = true → old[p]? ≠ some c) :
    (at_ old es p).count c = (insertionsAt es p).count c + (replacementAt es p).count c + ((old[p]?).toList).count c := by
  rw [at_split, List.count_append, List.count_append]
  cases h : covered es p with
  | false => simp [Nat.add_assoc]
  | true =>
    have := hcov h
    cases ho : old[p]? with
    | none => simp
    | some d =>
      have hd : d ≠ c := by rw [ho] at this; exact fun e => this (by rw [e])
      simp [hd]

/-- The edits beginning at `p`, counted. -/
theorem count_edits (c : α) (es : List (Edit α)) (p : Nat) (hv : ∀ e ∈ es, e.start ≤ e.stop) :
    (insertionsAt es p).count c + (replacementAt es p).count c =
      (es.map fun e => if e.start = p then e.new.count c else 0).sum := by
  induction es with
  | nil => rfl
  | cons e es ih =>
    have ih := ih fun x hx => hv x (List.mem_cons_of_mem _ hx)
    have he := hv e List.mem_cons_self
    simp only [insertionsAt, replacementAt, List.filter_cons, List.map_cons, List.sum_cons] at ih ⊢
    by_cases h1 : e.start = p
    · by_cases h2 : e.stop = p
      · have h3 : ¬ p < e.stop := by omega
        simp only [h1, h2, beq_self_eq_true, Bool.and_self, if_true, Nat.lt_irrefl, decide_false, Bool.and_false,
          Bool.false_eq_true, if_false, List.flatMap_cons, List.count_append]
        omega
      · have h3 : p < e.stop := by omega
        have h4 : (e.stop == p) = false := by simp [h2]
        simp only [h1, h4, h3, beq_self_eq_true, Bool.and_false, Bool.false_eq_true, if_false, decide_true, Bool.and_self, if_true,
          List.flatMap_cons, List.count_append]
        omega
    · have h4 : (e.start == p) = false := by simp [h1]
      simp only [h4, h1, Bool.false_and, Bool.false_eq_true, if_false]
      omega

theorem sum_le (c : α) (es : List (Edit α)) (i : Nat) :
    ((List.range (i + 1)).map fun p => (es.map fun e => if e.start = p then e.new.count c else 0).sum).sum =
      (es.map (weight c i)).sum := by
  induction es with
  | nil =>
    have h0 : ∀ l : List Nat, (l.map fun _ => 0).sum = 0 := by
      intro l; induction l with
      | nil => rfl
      | cons a l ih => simp
    simp [h0]
  | cons e es ih =>
    have add : ∀ (l : List Nat) (f g : Nat → Nat), (l.map fun p => f p + g p).sum = (l.map f).sum + (l.map g).sum := by
      intro l f g
      induction l with
      | nil => rfl
      | cons a l ih => simp only [List.map_cons, List.sum_cons, ih]; omega
    simp only [List.map_cons, List.sum_cons]
    rw [add, ih]
    congr 1
    unfold weight
    clear ih
    generalize e.new.count c = w
    generalize e.start = s
    induction i with
    | zero => simp
    | succ i ih =>
      rw [List.range_succ, List.map_append, List.sum_append, ih]
      simp only [List.map_cons, List.map_nil, List.sum_cons, List.sum_nil]
      by_cases h1 : s ≤ i
      · have h2 : s ≤ i + 1 := by omega
        have h3 : ¬ s = i + 1 := by omega
        simp [h1, h2, h3]
      · by_cases h2 : s = i + 1
        · subst h2
          simp only [if_neg h1, Nat.le_refl, if_true]
          omega
        · have h3 : ¬ s ≤ i + 1 := by omega
          simp [h1, h2, h3]

/-- Counting `c` in the new text before the character at `i`. -/
theorem count_before (c : α) (old : List α) (es : List (Edit α)) (i : Nat) (hi : i < old.length)
    (hv : ∀ e ∈ es, e.start ≤ e.stop) (hc : covered es i = false)
    (hcov : ∀ p, covered es p = true → old[p]? ≠ some c) :
    (before old es i).count c = (old.take i).count c + (es.map (weight c i)).sum := by
  rw [← sum_le]
  have h0 : (insertionsAt es i).count c = (es.map fun e => if e.start = i then e.new.count c else 0).sum := by
    rw [← count_edits c es i hv, replacement_nil hc]; simp
  unfold before
  rw [List.count_append, h0, List.range_succ, List.map_append, List.sum_append]
  simp only [List.map_cons, List.map_nil, List.sum_cons, List.sum_nil, Nat.add_zero]
  suffices hs : ∀ k, k ≤ old.length → ((List.range k).flatMap (at_ old es)).count c = (old.take k).count c +
      ((List.range k).map fun p => (es.map fun e => if e.start = p then e.new.count c else 0).sum).sum by
    rw [hs i (by omega)]; omega
  intro k
  induction k with
  | zero => intro _; rfl
  | succ k ih =>
    intro hk
    rw [List.range_succ, List.flatMap_append, List.count_append, ih (by omega), List.map_append, List.sum_append,
      List.take_succ, List.count_append]
    simp only [List.flatMap_cons, List.flatMap_nil, List.append_nil, List.map_cons, List.map_nil, List.sum_cons, List.sum_nil]
    rw [count_at c old es k (hcov k), count_edits c es k hv]
    omega

end count

/-! ### Edits of a list of calls -/

/-- The edit of a call. -/
def editOf : Op Char → Edit Char
  | .insert p n => ⟨p.toNat, p.toNat, n⟩
  | .replace s e n => ⟨s.toNat, e.toNat, n⟩
  | .delete s e => ⟨s.toNat, e.toNat, []⟩
  | .bytes => ⟨0, 0, []⟩

/-- A call with offsets of a text. -/
def Plain : Op Char → Prop
  | .insert p _ => 0 ≤ p
  | .replace s e _ => 0 ≤ s ∧ 0 ≤ e
  | .delete s e => 0 ≤ s ∧ 0 ≤ e
  | .bytes => False

theorem runOps_q (ops : List (Op Char)) : ∀ {b b' : Buffer Char}, (∀ o ∈ ops, Plain o) → runOps b ops = some b' →
    b'.q = b.q ++ ops.map editOf := by
  induction ops with
  | nil => intro b b' _ h; cases h; simp
  | cons o ops ih =>
    intro b b' hp h
    have hp' := fun o ho => hp o (List.mem_cons_of_mem _ ho)
    have ho := hp o List.mem_cons_self
    have rep : ∀ (s e : Int) (n : Str) (m : Buffer Char), 0 ≤ e → b.replace s e n = some m → m.q = b.q ++ [⟨s.toNat, e.toNat, n⟩] := by
      intro s e n m he hm
      unfold Buffer.replace at hm
      rw [if_neg (show ¬ e = -1 by omega)] at hm
      simp only at hm
      split at hm
      · cases hm
      · cases hm; rfl
    cases o with
    | insert p n =>
      obtain ⟨m, h1, h2⟩ := Option.bind_eq_some_iff.1 h
      rw [ih hp' h2]
      unfold Buffer.insert at h1
      split at h1
      · cases h1
      · cases h1; simp [editOf]
    | replace s e n =>
      obtain ⟨m, h1, h2⟩ := Option.bind_eq_some_iff.1 h
      rw [ih hp' h2, rep s e n m ho.2 h1]
      simp [editOf]
    | delete s e =>
      obtain ⟨m, h1, h2⟩ := Option.bind_eq_some_iff.1 h
      rw [ih hp' h2, rep s e [] m ho.2 h1]
      simp [editOf]
    | bytes => exact ho.elim

end Verif.Instrument.SourceLines
