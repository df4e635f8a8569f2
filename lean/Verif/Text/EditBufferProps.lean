/-
C27: the edit buffer.
-/
import Verif.Text.EditBufferSpec

namespace Verif.Text
open EditSpec

variable {α : Type}

/-! ### Sorting -/

theorem Edit.le_iff (x y : Edit α) :
    Edit.le x y = true ↔ x.start < y.start ∨ (x.start = y.start ∧ x.stop ≤ y.stop) := by
  unfold Edit.le
  split
  · simp; omega
  · rename_i h; simp at h; simp [h]

theorem Edit.le_total (x y : Edit α) : Edit.le x y = true ∨ Edit.le y x = true := by
  rw [Edit.le_iff, Edit.le_iff]; omega

theorem Edit.le_trans {x y z : Edit α} (h1 : Edit.le x y = true) (h2 : Edit.le y z = true) :
    Edit.le x z = true := by
  rw [Edit.le_iff] at *; omega

theorem stableInsert_perm (e : Edit α) (l : List (Edit α)) : (stableInsert e l).Perm (e :: l) := by
  induction l with
  | nil => exact List.Perm.refl _
  | cons x l ih =>
    unfold stableInsert
    split
    · exact List.Perm.refl _
    · exact (List.Perm.cons x ih).trans (List.Perm.swap e x l)

theorem stableSort_perm (l : List (Edit α)) : (stableSort l).Perm l := by
  induction l with
  | nil => exact List.Perm.refl _
  | cons e l ih => exact (stableInsert_perm e _).trans (List.Perm.cons e ih)

def Sorted (l : List (Edit α)) : Prop := l.Pairwise fun a b => Edit.le a b = true

theorem stableInsert_sorted (e : Edit α) (l : List (Edit α)) (h : Sorted l) : Sorted (stableInsert e l) := by
  induction l with
  | nil => simp [stableInsert, Sorted]
  | cons x l ih =>
    unfold stableInsert
    unfold Sorted at h
    rw [List.pairwise_cons] at h
    split
    · rename_i hle
      unfold Sorted
      rw [List.pairwise_cons, List.pairwise_cons]
      refine ⟨?_, h⟩
      intro b hb
      rcases List.mem_cons.1 hb with rfl | hb
      · exact hle
      · exact Edit.le_trans hle (h.1 b hb)
    · rename_i hle
      unfold Sorted
      rw [List.pairwise_cons]
      refine ⟨?_, ih h.2⟩
      intro b hb
      have := (stableInsert_perm e l).mem_iff.1 hb
      rcases List.mem_cons.1 this with rfl | hb
      · rcases Edit.le_total b x with h1 | h1
        · exact absurd h1 hle
        · exact h1
      · exact h.1 b hb

theorem stableSort_sorted (l : List (Edit α)) : Sorted (stableSort l) := by
  induction l with
  | nil => exact List.Pairwise.nil
  | cons e l ih => exact stableInsert_sorted e _ ih

/-- Stability: elements with the same key keep their order. -/
theorem stableInsert_filter (e : Edit α) (l : List (Edit α)) (a b : Nat) :
    (stableInsert e l).filter (fun x => x.start == a && x.stop == b) =
      (e :: l).filter (fun x => x.start == a && x.stop == b) := by
  induction l with
  | nil => rfl
  | cons x l ih =>
    unfold stableInsert
    split
    · rfl
    · rename_i hle
      rw [List.filter_cons, ih, List.filter_cons, List.filter_cons, List.filter_cons]
      by_cases hx : (x.start == a && x.stop == b) = true <;>
        by_cases he : (e.start == a && e.stop == b) = true
      · exfalso
        apply hle
        simp at hx he
        rw [Edit.le_iff]; omega
      all_goals simp [hx, he]

theorem stableSort_filter (l : List (Edit α)) (a b : Nat) :
    (stableSort l).filter (fun x => x.start == a && x.stop == b) =
      l.filter (fun x => x.start == a && x.stop == b) := by
  induction l with
  | nil => rfl
  | cons e l ih =>
    rw [stableSort, stableInsert_filter, List.filter_cons, List.filter_cons, ih]

/-! ### The loop on a sorted, compatible queue -/

theorem Conflict.symm {a b : Edit α} (h : Conflict a b) : Conflict b a := by
  unfold Conflict at *; omega

theorem compatible_perm {l l' : List (Edit α)} (h : l.Perm l') : Compatible l ↔ Compatible l' :=
  h.pairwise_iff fun hab hba => hab (Verif.Text.Conflict.symm hba)

/-- In a sorted queue, compatible means that each edit ends before the later ones start. -/
theorem sorted_chain {l : List (Edit α)} (hs : Sorted l) (hv : ∀ e ∈ l, e.start ≤ e.stop) :
    Compatible l ↔ l.Pairwise fun a b => a.stop ≤ b.start := by
  unfold Compatible Sorted at *
  induction l with
  | nil => simp
  | cons e l ih =>
    rw [List.pairwise_cons] at hs
    rw [List.pairwise_cons, List.pairwise_cons, ih hs.2 fun x hx => hv x (by simp [hx])]
    refine and_congr_left fun _ => ?_
    constructor
    · intro h b hb
      have h1 := h b hb
      have h2 := (Edit.le_iff e b).1 (hs.1 b hb)
      have h3 := hv e (by simp)
      have h4 := hv b (by simp [hb])
      unfold Conflict at h1
      omega
    · intro h b hb
      have h1 := h b hb
      have h3 := hv e (by simp)
      have h4 := hv b (by simp [hb])
      unfold Conflict
      omega

/-- The part of the specification from position `k` on. -/
def editedFrom (old : List α) (es : List (Edit α)) (k : Nat) : List α :=
  (List.range' k (old.length + 1 - k)).flatMap (at_ old es)

theorem range'_split (k m n : Nat) (h1 : k ≤ m) (h2 : m ≤ n) :
    List.range' k (n - k) = List.range' k (m - k) ++ List.range' m (n - m) := by
  have : List.range' m (n - m) = List.range' (k + 1 * (m - k)) (n - m) := by
    congr 1; omega
  rw [this, List.range'_append]
  congr 1
  omega

theorem editedFrom_split (old : List α) (es : List (Edit α)) (k m : Nat) (h1 : k ≤ m)
    (h2 : m ≤ old.length + 1) :
    editedFrom old es k = (List.range' k (m - k)).flatMap (at_ old es) ++ editedFrom old es m := by
  unfold editedFrom
  rw [range'_split k m (old.length + 1) h1 h2, List.flatMap_append]

theorem at_none (old : List α) (es : List (Edit α)) (p : Nat) (h : ∀ e ∈ es, p < e.start) :
    at_ old es p = (old[p]?).toList := by
  have h1 : es.filter (fun e => e.start == p && e.stop == p) = [] := by
    rw [List.filter_eq_nil_iff]
    intro e he
    have := h e he
    simp; omega
  have h2 : es.filter (fun e => e.start == p && decide (p < e.stop)) = [] := by
    rw [List.filter_eq_nil_iff]
    intro e he
    have := h e he
    simp; omega
  have h3 : covered es p = false := by
    rw [covered, List.any_eq_false]
    intro e he
    have := h e he
    simp; omega
  simp [at_, insertionsAt, replacementAt, h1, h2, h3]

theorem range'_keep (old : List α) (k m : Nat) (hm : m ≤ old.length) :
    (List.range' k (m - k)).flatMap (fun p => (old[p]?).toList) = (old.drop k).take (m - k) := by
  generalize hd : m - k = d
  induction d generalizing k with
  | zero => simp
  | succ d ih =>
    have hk : k < old.length := by omega
    rw [List.range'_succ, List.flatMap_cons, ih (k + 1) (by omega), List.drop_eq_getElem_cons hk,
      List.take_succ_cons, List.getElem?_eq_getElem hk]
    rfl

theorem flatMap_congr' {β : Type} {l : List Nat} {f g : Nat → List β} (h : ∀ a ∈ l, f a = g a) :
    l.flatMap f = l.flatMap g := by
  induction l with
  | nil => rfl
  | cons a l ih =>
    rw [List.flatMap_cons, List.flatMap_cons, h a (by simp), ih fun x hx => h x (by simp [hx])]

/-- An edit that lies entirely before `p` contributes nothing at `p`. -/
theorem at_cons_before (old : List α) (e : Edit α) (es : List (Edit α)) (p : Nat) (h1 : e.start < p)
    (h2 : e.stop ≤ p) : at_ old (e :: es) p = at_ old es p := by
  have c1 : (e.start == p && e.stop == p) = false := by simp; omega
  have c2 : (e.start == p && decide (p < e.stop)) = false := by simp; omega
  have c3 : (decide (e.start ≤ p) && decide (p < e.stop)) = false := by simp; omega
  have i1 : insertionsAt (e :: es) p = insertionsAt es p := by
    unfold insertionsAt; rw [List.filter_cons, if_neg (by simp [c1])]
  have i2 : replacementAt (e :: es) p = replacementAt es p := by
    unfold replacementAt; rw [List.filter_cons, if_neg (by simp [c2])]
  have i3 : covered (e :: es) p = covered es p := by
    unfold covered; rw [List.any_cons, c3, Bool.false_or]
  unfold at_
  rw [i1, i2, i3]

/-- An insertion at `p` comes first among the later edits. -/
theorem at_cons_insertion (old : List α) (e : Edit α) (es : List (Edit α)) (he : e.start = e.stop) :
    at_ old (e :: es) e.start = e.new ++ at_ old es e.start := by
  have c1 : (e.start == e.start && e.stop == e.start) = true := by simp [he]
  have c2 : (e.start == e.start && decide (e.start < e.stop)) = false := by simp; omega
  have c3 : (decide (e.start ≤ e.start) && decide (e.start < e.stop)) = false := by simp; omega
  have i1 : insertionsAt (e :: es) e.start = e.new ++ insertionsAt es e.start := by
    unfold insertionsAt; rw [List.filter_cons, if_pos c1, List.flatMap_cons]
  have i2 : replacementAt (e :: es) e.start = replacementAt es e.start := by
    unfold replacementAt; rw [List.filter_cons, if_neg (by rw [c2]; simp)]
  have i3 : covered (e :: es) e.start = covered es e.start := by
    unfold covered; rw [List.any_cons, c3, Bool.false_or]
  unfold at_
  rw [i1, i2, i3]
  simp only [List.append_assoc]

/-- The loop computes the specification. -/
theorem applyFrom_eq (old : List α) : ∀ (es : List (Edit α)) (k : Nat),
    (∀ e ∈ es, Valid old.length e) → (es.Pairwise fun a b => a.stop ≤ b.start) →
    Sorted es → (∀ e ∈ es, k ≤ e.start) → k ≤ old.length →
    applyFrom old k es = some (editedFrom old es k) := by
  intro es
  induction es with
  | nil =>
    intro k _ _ _ _ hk
    unfold applyFrom editedFrom
    rw [flatMap_congr' (g := fun p => (old[p]?).toList) (fun p _ => at_none old [] p (by simp))]
    have hs := range'_split k old.length (old.length + 1) hk (by omega)
    rw [hs, List.flatMap_append, range'_keep old k old.length (Nat.le_refl _)]
    have h1 : old.length + 1 - old.length = 1 := by omega
    rw [h1, List.take_of_length_le (by simp)]
    simp
  | cons e es ih =>
    intro k hv hc hso hk hkl
    rw [List.pairwise_cons] at hc
    unfold Sorted at hso
    rw [List.pairwise_cons] at hso
    have hve := hv e (by simp)
    unfold Valid at hve
    have hke := hk e (by simp)
    have hle : ∀ x ∈ es, e.start ≤ x.start := fun x hx => by
      have := (Edit.le_iff e x).1 (hso.1 x hx); omega
    unfold applyFrom
    rw [if_neg (by omega), ih e.stop (fun x hx => hv x (by simp [hx])) hc.2 hso.2
      (fun x hx => hc.1 x hx) (by omega)]
    simp only [Option.some.injEq]
    -- positions before `e`
    rw [editedFrom_split old (e :: es) k e.start hke (by omega)]
    rw [flatMap_congr' (l := List.range' k (e.start - k)) (f := at_ old (e :: es))
      (g := fun p => (old[p]?).toList) (fun p hp => by
        rw [List.mem_range'_1] at hp
        apply at_none
        intro x hx
        rcases List.mem_cons.1 hx with rfl | hx
        · omega
        · have := hle x hx; omega)]
    rw [range'_keep old k e.start (by omega), List.append_assoc]
    congr 1
    by_cases he : e.start = e.stop
    · -- an insertion
      rw [← he]
      have hs : ∀ L : List (Edit α), editedFrom old L e.start = at_ old L e.start ++ editedFrom old L (e.start + 1) := by
        intro L
        rw [editedFrom_split old L e.start (e.start + 1) (by omega) (by omega)]
        simp
      rw [hs (e :: es), hs es, ← List.append_assoc]
      have h1 : at_ old (e :: es) e.start = e.new ++ at_ old es e.start := by
        exact at_cons_insertion old e es he
      rw [h1]
      congr 1
      unfold editedFrom
      apply flatMap_congr'
      intro p hp
      rw [List.mem_range'_1] at hp
      exact (at_cons_before old e es p (by omega) (by omega)).symm
    · -- a replacement of a non-empty range
      have hlt : e.start < e.stop := by omega
      rw [editedFrom_split old (e :: es) e.start e.stop (by omega) (by omega)]
      have hout : ∀ p, e.start ≤ p → p < e.stop →
          at_ old (e :: es) p = if p = e.start then e.new else [] := by
        intro p hp1 hp2
        have hes : ∀ x ∈ es, p < x.start := fun x hx => by have := hc.1 x hx; omega
        have f1 : es.filter (fun x => x.start == p && x.stop == p) = [] := by
          rw [List.filter_eq_nil_iff]; intro x hx; have := hes x hx; simp; omega
        have f2 : es.filter (fun x => x.start == p && decide (p < x.stop)) = [] := by
          rw [List.filter_eq_nil_iff]; intro x hx; have := hes x hx; simp; omega
        have c1 : (e.start == p && e.stop == p) = false := by simp; omega
        have c3 : covered (e :: es) p = true := by
          rw [covered, List.any_cons]
          have : (decide (e.start ≤ p) && decide (p < e.stop)) = true := by simp; omega
          rw [this, Bool.true_or]
        simp only [at_, insertionsAt, replacementAt]
        rw [List.filter_cons, List.filter_cons, f1, f2, if_neg (by simp [c1]), c3]
        by_cases hp : p = e.start
        · subst hp
          simp [hlt]
        · have c2 : (e.start == p && decide (p < e.stop)) = false := by simp; omega
          rw [if_neg (by simp [c2]), if_neg hp]
          simp
      rw [flatMap_congr' (l := List.range' e.start (e.stop - e.start)) (f := at_ old (e :: es))
        (g := fun p => if p = e.start then e.new else []) (fun p hp => by
          rw [List.mem_range'_1] at hp; exact hout p hp.1 (by omega))]
      have hsp : List.range' e.start (e.stop - e.start) =
          e.start :: List.range' (e.start + 1) (e.stop - e.start - 1) := by
        rw [← List.range'_succ]; congr 1; omega
      rw [hsp, List.flatMap_cons, if_pos rfl]
      have hz : (List.range' (e.start + 1) (e.stop - e.start - 1)).flatMap
          (fun p => if p = e.start then e.new else []) = [] := by
        rw [List.flatMap_eq_nil_iff]
        intro p hp
        rw [List.mem_range'_1] at hp
        rw [if_neg (by omega)]
      rw [hz, List.append_nil]
      congr 1
      unfold editedFrom
      apply flatMap_congr'
      intro p hp
      rw [List.mem_range'_1] at hp
      exact (at_cons_before old e es p (by omega) (by omega)).symm

/-- If the loop does not panic, each edit ends before the later ones start. -/
theorem applyFrom_chain (old : List α) : ∀ (es : List (Edit α)) (k : Nat), (∀ e ∈ es, e.start ≤ e.stop) →
    applyFrom old k es ≠ none → (es.Pairwise fun a b => a.stop ≤ b.start) ∧ ∀ e ∈ es, k ≤ e.start := by
  intro es
  induction es with
  | nil => intro k _ _; simp
  | cons e es ih =>
    intro k hv h
    unfold applyFrom at h
    split at h
    · exact absurd rfl h
    · rename_i hk
      have h' : applyFrom old e.stop es ≠ none := by
        intro hh; rw [hh] at h; exact h rfl
      obtain ⟨i1, i2⟩ := ih e.stop (fun x hx => hv x (by simp [hx])) h'
      have := hv e (by simp)
      refine ⟨List.pairwise_cons.2 ⟨i2, i1⟩, ?_⟩
      intro x hx
      rcases List.mem_cons.1 hx with rfl | hx
      · omega
      · have := i2 x hx; omega

/-! ### The specification does not depend on the order of compatible edits at different places -/

/-- Under compatibility, at most one non-empty range starts at `p`. -/
theorem replacement_le_one (es : List (Edit α)) (hc : Compatible es) (p : Nat) :
    (es.filter fun e => e.start == p && decide (p < e.stop)).length ≤ 1 := by
  have hp := hc.filter (fun e => e.start == p && decide (p < e.stop))
  generalize hl : es.filter (fun e => e.start == p && decide (p < e.stop)) = l at *
  match l, hl with
  | [], _ => simp
  | [_], _ => simp
  | a :: b :: l, hl =>
    exfalso
    have ha : a ∈ es.filter (fun e => e.start == p && decide (p < e.stop)) := by rw [hl]; simp
    have hb : b ∈ es.filter (fun e => e.start == p && decide (p < e.stop)) := by rw [hl]; simp
    simp at ha hb
    rw [List.pairwise_cons] at hp
    exact hp.1 b (by simp) (by unfold Conflict; omega)

theorem perm_le_one {β : Type} {l l' : List β} (h : l.Perm l') (hl : l.length ≤ 1) : l = l' := by
  match l, hl with
  | [], _ => exact h.nil_eq
  | [a], _ => exact List.singleton_perm.1 h

theorem edited_congr (old : List α) (es es' : List (Edit α)) (hp : es.Perm es') (hc : Compatible es)
    (hins : ∀ p, es.filter (fun e => e.start == p && e.stop == p) =
      es'.filter (fun e => e.start == p && e.stop == p)) :
    edited old es = edited old es' := by
  unfold edited
  apply flatMap_congr'
  intro p _
  have h1 : insertionsAt es p = insertionsAt es' p := by unfold insertionsAt; rw [hins p]
  have h2 : replacementAt es p = replacementAt es' p := by
    unfold replacementAt
    rw [perm_le_one (hp.filter _) (replacement_le_one es hc p)]
  have h3 : covered es p = covered es' p := by
    unfold covered
    rw [Bool.eq_iff_iff, List.any_eq_true, List.any_eq_true]
    constructor
    · rintro ⟨x, hx, h⟩; exact ⟨x, hp.mem_iff.1 hx, h⟩
    · rintro ⟨x, hx, h⟩; exact ⟨x, hp.mem_iff.2 hx, h⟩
  unfold at_
  rw [h1, h2, h3]

theorem edited_eq_from (old : List α) (es : List (Edit α)) : edited old es = editedFrom old es 0 := by
  unfold edited editedFrom
  rw [List.range_eq_range']
  rfl

/-! ### The properties -/

/-- The buffer was filled through its API only. -/
inductive Reachable (old : List α) : Buffer α → Prop
  | new : Reachable old (Buffer.mk' old)
  | insert {b b' : Buffer α} (pos : Int) (new : List α) : Reachable old b → b.insert pos new = some b' → Reachable old b'
  | replace {b b' : Buffer α} (s e : Int) (new : List α) : Reachable old b → b.replace s e new = some b' → Reachable old b'
  | delete {b b' : Buffer α} (s e : Int) : Reachable old b → b.delete s e = some b' → Reachable old b'
  | bytes {b : Buffer α} : Reachable old b → Reachable old b.bytes.2

theorem reachable_valid {old : List α} {b : Buffer α} (h : Reachable old b) :
    b.old = old ∧ ∀ e ∈ b.q, Valid old.length e := by
  have hrep : ∀ (b b' : Buffer α) (s e : Int) (new : List α), b.replace s e new = some b' → b.old = old →
      (∀ e ∈ b.q, Valid old.length e) → b'.old = old ∧ ∀ e ∈ b'.q, Valid old.length e := by
    intro b b' s e new h h1 h2
    unfold Buffer.replace at h
    simp only at h
    generalize hgen : (if e = -1 then (b.old.length : Int) else e) = e' at h
    split at h
    · cases h
    · rename_i hc
      cases h
      refine ⟨h1, ?_⟩
      intro x hx
      simp only [List.mem_append, List.mem_singleton] at hx
      rcases hx with hx | rfl
      · exact h2 x hx
      · simp only [not_or, Int.not_lt] at hc
        obtain ⟨hc1, hc2, hc3⟩ := hc
        rw [h1] at hc3
        unfold Valid
        simp only
        omega
  induction h with
  | new => exact ⟨rfl, by simp [Buffer.mk']⟩
  | insert pos new _ h ih =>
    unfold Buffer.insert at h
    split at h
    · cases h
    · rename_i hc
      cases h
      refine ⟨ih.1, ?_⟩
      intro x hx
      simp only [List.mem_append, List.mem_singleton] at hx
      rcases hx with hx | rfl
      · exact ih.2 x hx
      · rw [ih.1] at hc
        unfold Valid
        simp only
        omega
  | replace s e new _ h ih => exact hrep _ _ _ _ _ h ih.1 ih.2
  | delete s e _ h ih => exact hrep _ _ _ _ _ h ih.1 ih.2
  | bytes _ ih =>
    refine ⟨ih.1, ?_⟩
    intro x hx
    exact ih.2 x ((stableSort_perm _).mem_iff.1 hx)

/-- **C27** For a buffer filled through its API in any way: `Bytes` fails iff two edits are in conflict;
    otherwise every position contributes its insertions in call order, the replacement starting there, and its
    old byte unless replaced. -/
theorem C27_bytes {old : List α} {b : Buffer α} (h : Reachable old b) :
    (Compatible b.q → b.bytes.1 = some (edited old b.q)) ∧ (¬ Compatible b.q → b.bytes.1 = none) := by
  obtain ⟨h1, h2⟩ := reachable_valid h
  have hperm := stableSort_perm b.q
  have hsorted := stableSort_sorted b.q
  have hv : ∀ e ∈ stableSort b.q, Valid old.length e := fun e he => h2 e (hperm.mem_iff.1 he)
  have hv' : ∀ e ∈ stableSort b.q, e.start ≤ e.stop := fun e he => (hv e he).1
  constructor
  · intro hc
    have hc' := (compatible_perm hperm).2 hc
    unfold Buffer.bytes
    simp only
    rw [h1, applyFrom_eq old (stableSort b.q) 0 hv ((sorted_chain hsorted hv').1 hc') hsorted
      (fun _ _ => Nat.zero_le _) (Nat.zero_le _), ← edited_eq_from]
    congr 1
    exact edited_congr old _ _ hperm hc' fun p => stableSort_filter b.q p p
  · intro hc
    unfold Buffer.bytes
    simp only
    by_cases hn : applyFrom b.old 0 (stableSort b.q) = none
    · exact hn
    · exfalso
      have := (applyFrom_chain b.old _ 0 hv' hn).1
      exact hc ((compatible_perm hperm).1 ((sorted_chain hsorted hv').2 this))

/-- **C27** (order of calls) Two buffers over the same text holding the same edits, where insertions at one
    position come in the same order, produce the same result. -/
theorem C27_call_order_irrelevant {old : List α} {b b' : Buffer α} (h : Reachable old b)
    (h' : Reachable old b') (hp : b.q.Perm b'.q)
    (hins : ∀ p, b.q.filter (fun e => e.start == p && e.stop == p) =
      b'.q.filter (fun e => e.start == p && e.stop == p)) :
    b.bytes.1 = b'.bytes.1 := by
  by_cases hc : Compatible b.q
  · rw [(C27_bytes h).1 hc, (C27_bytes h').1 ((compatible_perm hp).1 hc), edited_congr old _ _ hp hc hins]
  · rw [(C27_bytes h).2 hc, (C27_bytes h').2 fun hh => hc ((compatible_perm hp).2 hh)]

/-- A call of the buffer's API. -/
inductive Op (α : Type)
  | insert (pos : Int) (new : List α)
  | replace (s e : Int) (new : List α)
  | delete (s e : Int)
  | bytes

/-- Is it a call of `Bytes`? -/
def Op.isBytes : Op α → Bool
  | .bytes => true
  | _ => false

/-- Perform the calls in order; `none` if one of the edits panics ("invalid edit position"). A `Bytes` that
    panics leaves the sorted queue. -/
def runOps : Buffer α → List (Op α) → Option (Buffer α)
  | b, [] => some b
  | b, .insert p n :: ops => (b.insert p n).bind (runOps · ops)
  | b, .replace s e n :: ops => (b.replace s e n).bind (runOps · ops)
  | b, .delete s e :: ops => (b.delete s e).bind (runOps · ops)
  | b, .bytes :: ops => runOps b.bytes.2 ops

theorem runOps_reachable {old : List α} (ops : List (Op α)) : ∀ {b b' : Buffer α}, Reachable old b →
    runOps b ops = some b' → Reachable old b' := by
  induction ops with
  | nil => intro b b' h hr; cases hr; exact h
  | cons o ops ih =>
    intro b b' h hr
    cases o with
    | insert p n =>
      obtain ⟨m, h1, h2⟩ := Option.bind_eq_some_iff.1 hr
      exact ih (.insert p n h h1) h2
    | replace s e n =>
      obtain ⟨m, h1, h2⟩ := Option.bind_eq_some_iff.1 hr
      exact ih (.replace s e n h h1) h2
    | delete s e =>
      obtain ⟨m, h1, h2⟩ := Option.bind_eq_some_iff.1 hr
      exact ih (.delete s e h h1) h2
    | bytes => exact ih (.bytes h) hr

/-- Same text, same edits, with equal edits in the same order. -/
def Same (b b' : Buffer α) : Prop :=
  b.old = b'.old ∧ b.q.Perm b'.q ∧ ∀ s e, b.q.filter (fun x => x.start == s && x.stop == e) =
    b'.q.filter (fun x => x.start == s && x.stop == e)

theorem Same.add {b b' : Buffer α} (h : Same b b') (x : Edit α) :
    Same { b with q := b.q ++ [x] } { b' with q := b'.q ++ [x] } :=
  ⟨h.1, h.2.1.append_right _, fun s e => by simp only [List.filter_append]; rw [h.2.2 s e]⟩

theorem Same.replace {b b' : Buffer α} (h : Same b b') (s e : Int) (n : List α) :
    (b.replace s e n = none ∧ b'.replace s e n = none) ∨
    ∃ x x', b.replace s e n = some x ∧ b'.replace s e n = some x' ∧ Same x x' := by
  unfold Buffer.replace
  simp only
  rw [h.1]
  generalize (if e = -1 then (b'.old.length : Int) else e) = e'
  split
  · exact Or.inl ⟨rfl, rfl⟩
  · refine Or.inr ⟨_, _, rfl, rfl, ?_⟩
    have := h.add ⟨s.toNat, e'.toNat, n⟩
    exact ⟨rfl, this.2⟩

theorem Same.insert {b b' : Buffer α} (h : Same b b') (p : Int) (n : List α) :
    (b.insert p n = none ∧ b'.insert p n = none) ∨
    ∃ x x', b.insert p n = some x ∧ b'.insert p n = some x' ∧ Same x x' := by
  unfold Buffer.insert
  rw [h.1]
  split
  · exact Or.inl ⟨rfl, rfl⟩
  · refine Or.inr ⟨_, _, rfl, rfl, ?_⟩
    have := h.add ⟨p.toNat, p.toNat, n⟩
    exact ⟨rfl, this.2⟩

theorem runOps_same (ops : List (Op α)) : ∀ {b b' : Buffer α}, Same b b' →
    (runOps b ops = none ∧ runOps b' (ops.filter (!·.isBytes)) = none) ∨
    ∃ x x', runOps b ops = some x ∧ runOps b' (ops.filter (!·.isBytes)) = some x' ∧ Same x x' := by
  induction ops with
  | nil => intro b b' h; exact Or.inr ⟨b, b', rfl, rfl, h⟩
  | cons o ops ih =>
    intro b b' h
    cases o with
    | insert p n =>
      rw [List.filter_cons, if_pos (by simp [Op.isBytes])]
      simp only [runOps]
      rcases h.insert p n with ⟨h1, h2⟩ | ⟨x, x', h1, h2, h3⟩
      · rw [h1, h2]; exact Or.inl ⟨rfl, rfl⟩
      · rw [h1, h2]; exact ih h3
    | replace s e n =>
      rw [List.filter_cons, if_pos (by simp [Op.isBytes])]
      simp only [runOps]
      rcases h.replace s e n with ⟨h1, h2⟩ | ⟨x, x', h1, h2, h3⟩
      · rw [h1, h2]; exact Or.inl ⟨rfl, rfl⟩
      · rw [h1, h2]; exact ih h3
    | delete s e =>
      rw [List.filter_cons, if_pos (by simp [Op.isBytes])]
      simp only [runOps, Buffer.delete]
      rcases h.replace s e [] with ⟨h1, h2⟩ | ⟨x, x', h1, h2, h3⟩
      · rw [h1, h2]; exact Or.inl ⟨rfl, rfl⟩
      · rw [h1, h2]; exact ih h3
    | bytes =>
      rw [List.filter_cons, if_neg (by simp [Op.isBytes])]
      simp only [runOps]
      apply ih
      refine ⟨h.1, (stableSort_perm b.q).trans h.2.1, fun s e => ?_⟩
      exact (stableSort_filter b.q s e).trans (h.2.2 s e)

/-- **C27** (reading is harmless) Calling `Bytes` in between (which sorts the queue in place) never changes
    what later calls do: the result after any sequence of calls is the result after the same sequence without
    its `Bytes` calls, including whether it panics. -/
theorem C27_bytes_no_effect (old : List α) (ops : List (Op α)) :
    (runOps (Buffer.mk' old) ops).map (·.bytes.1) =
      (runOps (Buffer.mk' old) (ops.filter (!·.isBytes))).map (·.bytes.1) := by
  have hs : Same (Buffer.mk' old) (Buffer.mk' old) := ⟨rfl, List.Perm.refl _, fun _ _ => rfl⟩
  rcases runOps_same ops hs with ⟨h1, h2⟩ | ⟨x, x', h1, h2, h3⟩
  · rw [h1, h2]
  · rw [h1, h2]
    simp only [Option.map_some]
    congr 1
    exact C27_call_order_irrelevant (runOps_reachable ops .new h1) (runOps_reachable _ .new h2) h3.2.1
      fun p => h3.2.2 p p

/-- **C27** (frame) Bytes before the first and after the last edited position are kept. -/
theorem C27_untouched_ends {old : List α} {b : Buffer α} (h : Reachable old b) (hc : Compatible b.q)
    (lo hi : Nat) (hlo : lo ≤ hi) (hhi : hi ≤ old.length)
    (hin : ∀ e ∈ b.q, lo ≤ e.start ∧ e.stop ≤ hi) :
    ∃ mid, b.bytes.1 = some (old.take lo ++ mid ++ old.drop hi) := by
  rw [(C27_bytes h).1 hc, edited_eq_from, editedFrom_split old b.q 0 lo (by omega) (by omega)]
  have h1 : (List.range' 0 (lo - 0)).flatMap (at_ old b.q) = old.take lo := by
    rw [flatMap_congr' (g := fun p => (old[p]?).toList) (fun p hp => by
      rw [List.mem_range'_1] at hp
      exact at_none old b.q p fun e he => by have := (hin e he).1; omega)]
    have := range'_keep old 0 lo (by omega)
    simpa using this
  rw [h1, editedFrom_split old b.q lo hi hlo (by omega)]
  -- at `hi` there may still be insertions
  have hs : editedFrom old b.q hi = at_ old b.q hi ++ editedFrom old b.q (hi + 1) := by
    rw [editedFrom_split old b.q hi (hi + 1) (by omega) (by omega)]
    simp
  have hcov : covered b.q hi = false := by
    rw [covered, List.any_eq_false]
    intro e he
    have := (hin e he).2
    simp; omega
  have hat : at_ old b.q hi = (insertionsAt b.q hi ++ replacementAt b.q hi) ++ (old[hi]?).toList := by
    unfold at_; rw [hcov]; simp
  have htail : (old[hi]?).toList ++ editedFrom old b.q (hi + 1) = old.drop hi := by
    have hrest : editedFrom old b.q (hi + 1) = old.drop (hi + 1) := by
      unfold editedFrom
      rw [flatMap_congr' (g := fun p => (old[p]?).toList) (fun p hp => by
        rw [List.mem_range'_1] at hp
        have hh : ∀ e ∈ b.q, e.start ≤ e.stop := fun e he => ((reachable_valid h).2 e he).1
        have f1 : b.q.filter (fun e => e.start == p && e.stop == p) = [] := by
          rw [List.filter_eq_nil_iff]; intro e he; have := (hin e he).2; have := hh e he; simp; omega
        have f2 : b.q.filter (fun e => e.start == p && decide (p < e.stop)) = [] := by
          rw [List.filter_eq_nil_iff]; intro e he; have := (hin e he).2; simp; omega
        have f3 : covered b.q p = false := by
          rw [covered, List.any_eq_false]; intro e he; have := (hin e he).2; simp; omega
        simp [at_, insertionsAt, replacementAt, f1, f2, f3])]
      by_cases hl : hi + 1 ≤ old.length
      · rw [range'_split (hi + 1) old.length (old.length + 1) hl (by omega), List.flatMap_append,
          range'_keep old (hi + 1) old.length (Nat.le_refl _),
          show old.length + 1 - old.length = 1 by omega, List.take_of_length_le (by simp)]
        simp
      · rw [show old.length + 1 - (hi + 1) = 0 by omega, List.drop_eq_nil_of_le (by omega)]
        rfl
    rw [hrest]
    by_cases hl : hi < old.length
    · rw [List.drop_eq_getElem_cons hl, List.getElem?_eq_getElem hl]; rfl
    · rw [List.drop_eq_nil_of_le (by omega), List.drop_eq_nil_of_le (by omega),
        List.getElem?_eq_none_iff.2 (by omega)]; rfl
  refine ⟨(List.range' lo (hi - lo)).flatMap (at_ old b.q) ++ (insertionsAt b.q hi ++ replacementAt b.q hi), ?_⟩
  rw [hs, hat, List.append_assoc (insertionsAt b.q hi ++ replacementAt b.q hi), htail]
  simp only [List.append_assoc]

/-- **C27** (one insertion) Exactly the positions from the start of the text to its end, both included, are accepted. -/
theorem C27_one_insert (old : List α) (pos : Int) (new : List α) :
    ((Buffer.mk' old).insert pos new).map (·.bytes.1) =
      if 0 ≤ pos ∧ pos ≤ old.length then some (some (old.take pos.toNat ++ new ++ old.drop pos.toNat)) else none := by
  unfold Buffer.insert Buffer.mk'
  by_cases h : 0 ≤ pos ∧ pos ≤ old.length
  · rw [if_pos h, if_neg (by simp only; omega)]
    simp [Buffer.bytes, stableSort, stableInsert, applyFrom]
  · rw [if_neg h, if_pos (by simp only; omega)]
    rfl

/-- **C27** (one replacement or deletion) Exactly the ranges within the text are accepted; an end of -1 is the end of the text. -/
theorem C27_one_replace (old : List α) (start stop : Int) (new : List α) :
    ((Buffer.mk' old).replace start stop new).map (·.bytes.1) =
      let e : Int := if stop = -1 then old.length else stop
      if 0 ≤ start ∧ start ≤ e ∧ e ≤ old.length then some (some (old.take start.toNat ++ new ++ old.drop e.toNat)) else none := by
  unfold Buffer.replace Buffer.mk'
  simp only
  generalize (if stop = -1 then (old.length : Int) else stop) = e
  by_cases h : 0 ≤ start ∧ start ≤ e ∧ e ≤ old.length
  · rw [if_pos h, if_neg (by omega)]
    simp [Buffer.bytes, stableSort, stableInsert, applyFrom]
  · rw [if_neg h, if_pos (by omega)]
    rfl

example : ((Buffer.mk' "abc".toList).insert 3 ['x']).map (·.bytes.1) = some (some "abcx".toList) := by decide
example : ((Buffer.mk' "abc".toList).replace 1 (-1) ['x']).map (·.bytes.1) = some (some "ax".toList) := by decide
example : ((Buffer.mk' "abc".toList).insert 4 ['x']).map (·.bytes.1) = none := by decide

/-! Example: text "abcdef"; replace "cd" by "XY", insert "1" and "2" before "c", insert "3" at the
end. -/

def exBuf : Buffer Char :=
  ⟨"abcdef".toList, [⟨2, 4, "XY".toList⟩, ⟨2, 2, "1".toList⟩, ⟨6, 6, "3".toList⟩, ⟨2, 2, "2".toList⟩]⟩

example : Reachable "abcdef".toList exBuf :=
  .insert (b := ⟨_, [⟨2, 4, "XY".toList⟩, ⟨2, 2, "1".toList⟩, ⟨6, 6, "3".toList⟩]⟩) 2 "2".toList
    (.insert (b := ⟨_, [⟨2, 4, "XY".toList⟩, ⟨2, 2, "1".toList⟩]⟩) 6 "3".toList
      (.insert (b := ⟨_, [⟨2, 4, "XY".toList⟩]⟩) 2 "1".toList
        (.replace (b := Buffer.mk' _) 2 4 "XY".toList .new rfl) rfl) rfl) rfl

example : exBuf.bytes.1 = some "ab12XYef3".toList := by decide
example : Compatible exBuf.q := by
  unfold Compatible exBuf Conflict; decide
example : (runOps (Buffer.mk' "abc".toList) [.insert 1 ['x'], .bytes, .insert 1 ['y'], .bytes, .delete 2 (-1)]).map
    (·.bytes.1) = some (some "axyb".toList) := by decide
/-- conflicting edits are rejected -/
example : (⟨"abcdef".toList, [⟨1, 4, []⟩, ⟨2, 2, ['x']⟩]⟩ : Buffer Char).bytes.1 = none := by decide

end Verif.Text
