/-
Properties of goroutine-local storage (C41).
-/
import Verif.Runtime.TlsSpec

namespace Verif.Runtime.Tls
open Spec

variable {V : Type}

/-- The state after a history with the newest event first. -/
def runR (h : List (Ev V)) : St V := run h.reverse

theorem runR_cons (e : Ev V) (h : List (Ev V)) : runR (e :: h) = step (runR h) e := by
  simp [runR, run, List.foldl_append]

theorem inheritLoop_get (g1 : Gls V) : ∀ (keys : List Bool) (loc : Nat) (g2 : Gls V) (k : Nat),
    inheritLoop g1 keys loc g2 k =
      if loc ≤ k ∧ (keys[k - loc]?).getD false = true ∧ g1 k ≠ none then g1 k else g2 k := by
  intro keys
  induction keys with
  | nil => intro loc g2 k; simp [inheritLoop]
  | cons inh rest ih =>
    intro loc g2 k
    have hidx : ∀ h : loc + 1 ≤ k, (inh :: rest)[k - loc]? = rest[k - (loc + 1)]? := by
      intro h
      have : k - loc = (k - (loc + 1)) + 1 := by omega
      rw [this, List.getElem?_cons_succ]
    unfold inheritLoop
    by_cases hk : loc + 1 ≤ k
    · have hle : loc ≤ k := by omega
      rw [hidx hk]
      cases inh
      · simp [ih, hk, hle]
      · cases hg : g1 loc with
        | none => simp [ih, hk, hle]
        | some v =>
          have hne : k ≠ loc := by omega
          simp [ih, hk, hle, Gls.set, hne]
    · by_cases he : k = loc
      · subst he
        have hf : ∀ g, inheritLoop g1 rest (k + 1) g k = g k := by
          intro g
          rw [ih, if_neg (fun h => hk h.1)]
        cases inh
        · simp [hf]
        · cases hg : g1 k with
          | none => simp [hf]
          | some v => simp [hf, Gls.set]
      · have hlt : ¬ loc ≤ k := by omega
        cases inh
        · simp [ih, hk, hlt]
        · cases hg : g1 loc with
          | none => simp [ih, hk, hlt]
          | some v => simp [ih, hk, hlt, Gls.set, he]

theorem keys_run : ∀ h : List (Ev V), (runR h).keys.length = declared h ∧
    ∀ k : Nat, ((runR h).keys[k]?).getD false = inheritable h k := by
  intro h
  induction h with
  | nil => exact ⟨rfl, fun k => rfl⟩
  | cons e h ih =>
    rw [runR_cons]
    cases e with
    | declare b =>
      refine ⟨by simp [step, declared, ih.1], fun k => ?_⟩
      simp only [step, inheritable]
      by_cases hk : k = declared h
      · subst hk
        rw [if_pos rfl, ← ih.1, List.getElem?_append_right (Nat.le_refl _)]
        simp
      · rw [if_neg hk, ← ih.2 k]
        by_cases hlt : k < (runR h).keys.length
        · rw [List.getElem?_append_left hlt]
        · have h1 : (runR h).keys[k]? = none := List.getElem?_eq_none (Nat.le_of_not_lt hlt)
          have h2 : ((runR h).keys ++ [b])[k]? = none := by
            apply List.getElem?_eq_none
            have h3 : k ≠ (runR h).keys.length := fun h => hk (h.trans ih.1)
            simp only [List.length_append, List.length_singleton]
            omega
          rw [h1, h2]
    | init => exact ih
    | set g k v => exact ih
    | spawn p c s => exact ih
    | exit g => exact ih

theorem hooked_run : ∀ h : List (Ev V), (runR h).hooked = inited h := by
  intro h
  induction h with
  | nil => rfl
  | cons e h ih =>
    rw [runR_cons]
    cases e <;> first | rfl | exact ih

theorem slotOf_run : ∀ (h : List (Ev V)) (g : Gid), (runR h).slotOf g = Spec.slotOf h g := by
  intro h
  induction h with
  | nil => intro g; rfl
  | cons e h ih =>
    intro g
    rw [runR_cons]
    cases e <;> simp [step, Spec.slotOf, ih]

theorem known_of_live : ∀ (h : List (Ev V)) (g : Gid), live h g = true → known h g = true := by
  intro h
  induction h with
  | nil => intro g hg; exact hg
  | cons e h ih =>
    intro g hg
    cases e with
    | spawn p c s =>
      simp only [live] at hg
      simp only [known]
      split
      · rfl
      · rename_i hne; rw [if_neg hne] at hg; exact ih g hg
    | exit c =>
      simp only [live] at hg
      split at hg
      · cases hg
      · exact ih g hg
    | init => exact ih g hg
    | declare b => exact ih g hg
    | set g' k v => exact ih g hg

/-- Live goroutines run in different structs. -/
theorem slots_differ : ∀ (h : List (Ev V)), WF h → ∀ g g', live h g = true → live h g' = true → g ≠ g' →
    Spec.slotOf h g ≠ Spec.slotOf h g' := by
  intro h
  induction h with
  | nil =>
    intro _ g g' hg hg' hne
    simp only [live, decide_eq_true_eq] at hg hg'
    exact absurd (hg.trans hg'.symm) hne
  | cons e h ih =>
    intro hwf g g' hg hg' hne
    cases e with
    | init => exact ih hwf g g' hg hg' hne
    | declare b => exact ih hwf g g' hg hg' hne
    | set a k v => exact ih hwf.2.2 g g' hg hg' hne
    | exit c =>
      simp only [live] at hg hg'
      split at hg
      · cases hg
      · split at hg'
        · cases hg'
        · exact ih hwf.2 g g' hg hg' hne
    | spawn p c s =>
      obtain ⟨_, _, hfree, hwf⟩ := hwf
      simp only [live] at hg hg'
      simp only [Spec.slotOf]
      split
      · rename_i hc
        have hc' : g' ≠ c := fun h => hne (hc.trans h.symm)
        rw [if_neg hc'] at hg' ⊢
        exact (hfree g' hg').symm
      · rename_i hc
        rw [if_neg hc] at hg
        split
        · exact hfree g hg
        · rename_i hc'
          rw [if_neg hc'] at hg'
          exact ih hwf g g' hg hg' hne

/-- **C41.** In every history, whatever `g` structs are reused, each live goroutine reads the value it set last, or else,
    for inheritable keys, the one its creator had at the time. -/
theorem C41_values (h : List (Ev V)) (hwf : WF h) (g : Gid) (hg : live h g = true) (k : Key) :
    getOK (runR h) g k = value h g k := by
  induction h generalizing g k with
  | nil => rfl
  | cons e h ih =>
    rw [runR_cons]
    cases e with
    | init => exact ih hwf g hg k
    | declare b => exact ih hwf g hg k
    | set a k' v =>
      obtain ⟨ha, -, hwf⟩ := hwf
      simp only [live] at hg
      have hi := ih hwf g hg k
      simp only [getOK, step, value] at hi ⊢
      by_cases hga : g = a
      · subst hga
        rw [if_pos rfl]
        by_cases hk : k = k'
        · simp [Gls.set, hk]
        · simp only [Gls.set, hk, if_false, and_false]
          exact hi
      · have hd := slots_differ h hwf g a hg ha hga
        rw [slotOf_run, slotOf_run, if_neg hd, if_neg (fun x => hga x.1), ← slotOf_run]
        exact hi
    | exit a =>
      obtain ⟨ha, hwf⟩ := hwf
      simp only [live] at hg
      split at hg
      · cases hg
      · rename_i hga
        have hd := slots_differ h hwf g a hg ha hga
        have hi := ih hwf g hg k
        simp only [getOK, step, value] at hi ⊢
        rw [slotOf_run, slotOf_run, if_neg hd, ← slotOf_run]
        exact hi
    | spawn p c s =>
      obtain ⟨hp, hnew, hfree, hwf⟩ := hwf
      simp only [live] at hg
      simp only [getOK, step, value]
      by_cases hgc : g = c
      · subst hgc
        rw [if_pos rfl, if_pos rfl, if_pos rfl]
        unfold onCreate
        cases p with
        | none => rfl
        | some q =>
          have hi := ih hwf q (hp q rfl) k
          simp only [getOK] at hi
          have hk := (keys_run h).2 k
          simp only
          rw [hooked_run]
          cases hin : inited h
          · simp [Gls.zero]
          · simp only [if_true, Bool.true_and]
            rw [inheritLoop_get, hi]
            simp only [Nat.zero_le, Nat.sub_zero, hk, true_and]
            cases hb : inheritable h k
            · simp [Gls.zero]
            · cases hv : value h q k <;> simp [Gls.zero]
      · rw [if_neg hgc] at hg
        rw [if_neg hgc, if_neg hgc]
        have hd := hfree g hg
        have hi := ih hwf g hg k
        simp only [getOK] at hi
        rw [slotOf_run, if_neg hd, ← slotOf_run]
        exact hi

/-- A history with a reused struct: goroutine 1 sets a key and ends, goroutine 2 gets its struct. -/
example : WF (V := Nat) [.spawn (some 0) 2 1, .exit 1, .set 1 0 7, .spawn (some 0) 1 1, .set 0 1 5, .declare true,
      .declare false, .init] ∧
    value (V := Nat) [.spawn (some 0) 2 1, .exit 1, .set 1 0 7, .spawn (some 0) 1 1, .set 0 1 5, .declare true,
      .declare false, .init] 2 1 = some 5 := by
  refine ⟨?_, by decide⟩
  have hl : ∀ g, (if g = 1 then false else if g = 1 then true else decide (g = 0)) = true → g = 0 := by
    intro g h; split at h
    · cases h
    · simpa using h
  simp only [WF, live, known, slotOf, declared]
  refine ⟨by simp, by simp, ?_, by simp, by simp, by decide, by simp, by simp, ?_, by simp, by decide, trivial⟩
  · intro g hg; rw [hl g hg]; simp
  · intro g hg; simp at hg; simp

/-- **C41.** What one goroutine sets, no other goroutine sees. -/
theorem C41_isolated (h : List (Ev V)) (g g' : Gid) (k k' : Key) (v : V) (hwf : WF (.set g' k' v :: h))
    (hg : live h g = true) (hne : g ≠ g') : getOK (runR (.set g' k' v :: h)) g k = getOK (runR h) g k := by
  rw [C41_values _ hwf g hg, C41_values h hwf.2.2 g hg]
  simp [value, hne]

/-- **C41.** Reading after writing: `Set` then `Get` in the same goroutine. -/
theorem C41_own (h : List (Ev V)) (g : Gid) (k : Key) (v : V) (hwf : WF (.set g k v :: h)) :
    getOK (runR (.set g k v :: h)) g k = some v := by
  rw [C41_values _ hwf g hwf.1]
  simp [value]

/-- **C41.** A new goroutine has its creator's values of the inheritable keys, and no others, even if its struct was
    used before. -/
theorem C41_inherit (h : List (Ev V)) (p c : Gid) (s : Slot) (hwf : WF (.spawn (some p) c s :: h))
    (hi : inited h = true) (k : Key) :
    getOK (runR (.spawn (some p) c s :: h)) c k = if inheritable h k then getOK (runR h) p k else none := by
  rw [C41_values _ hwf c (by simp [live]), C41_values h hwf.2.2.2 p (hwf.1 p rfl)]
  simp [value, hi]

/-- **C41.** Goroutines ending, keys being declared and goroutines being created do not change a goroutine's values. -/
theorem C41_stable (h : List (Ev V)) (e : Ev V) (hwf : WF (e :: h)) (g : Gid) (hg : live h g = true)
    (hg' : live (e :: h) g = true) (he : ∀ k v, e ≠ .set g k v) (k : Key) :
    getOK (runR (e :: h)) g k = getOK (runR h) g k := by
  have hwf' : WF h := by
    cases e with
    | init => exact hwf
    | declare b => exact hwf
    | set a k' v => exact hwf.2.2
    | spawn p c s => exact hwf.2.2.2
    | exit a => exact hwf.2
  rw [C41_values _ hwf g hg', C41_values h hwf' g hg]
  cases e with
  | set a k' v =>
    have : g ≠ a := fun hga => he k' v (by rw [hga])
    simp [value, this]
  | spawn p c s =>
    have : g ≠ c := by
      intro hc
      have := known_of_live h g hg
      rw [hc, hwf.2.1] at this
      cases this
    simp [value, this]
  | init => rfl
  | declare b => rfl
  | exit a => rfl

end Verif.Runtime.Tls
