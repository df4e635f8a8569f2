import Verif.Runtime.TraceJsonSpec
/-
C75: reading JSON in a context.
-/
namespace Verif.Runtime.TraceJson
open Spec

/-! ### Blanks -/

theorem skip_append {s : Str} {c : Ch} {r : Str} (t : Str) (h : skip s = c :: r) : skip (s ++ t) = c :: (r ++ t) := by
  unfold skip at h ⊢
  rw [List.dropWhile_append, h]
  rfl

theorem skip_blank {s : Str} (t : Str) (h : skip s = []) : skip (s ++ t) = skip t := by
  unfold skip at h ⊢
  rw [List.dropWhile_append, h]
  rfl

theorem skip_cons {c : Ch} (r : Str) (h : blank c = false) : skip (c :: r) = c :: r := by
  unfold skip
  rw [List.dropWhile_cons, h]
  rfl

/-! ### Strings -/

theorem string_append (t : Str) : ∀ (s k r : Str), string s = some (k, r) → string (s ++ t) = some (k, r ++ t) := by
  intro s
  induction h : s.length using Nat.strongRecOn generalizing s with
  | ind n ih =>
    intro k r hs
    cases s with
    | nil => rw [string] at hs; cases hs
    | cons c s =>
      have hih : ∀ s' : Str, s'.length < n → ∀ k r, string s' = some (k, r) → string (s' ++ t) = some (k, r ++ t) :=
        fun s' hl k r => ih s'.length hl s' rfl k r
      simp only [List.length_cons] at h
      cases c with
      | bad b =>
        rw [string] at hs
        rw [List.cons_append, string]
        obtain ⟨⟨k', r'⟩, h1, h2⟩ := Option.map_eq_some_iff.mp hs
        rw [hih s (by omega) k' r' h1]
        simp only [Prod.mk.injEq] at h2
        rw [← h2.1, ← h2.2]; rfl
      | rune c =>
        rw [string.eq_def] at hs
        rw [List.cons_append, string.eq_def]
        simp only at hs ⊢
        by_cases h1 : c = '"'
        · rw [if_pos h1] at hs ⊢
          cases hs; rfl
        rw [if_neg h1] at hs ⊢
        by_cases h2 : c = '\\'
        · rw [if_pos h2] at hs ⊢
          cases s with
          | nil => cases hs
          | cons e s =>
            cases e with
            | bad b => cases hs
            | rune e =>
              rw [List.cons_append]
              simp only at hs ⊢
              by_cases h3 : e = 'u'
              · rw [if_pos h3] at hs ⊢
                match s, hs with
                | x1 :: x2 :: x3 :: x4 :: s, hs =>
                  simp only [List.cons_append] at hs ⊢
                  cases hx : hex4 x1 x2 x3 x4 with
                  | none => rw [hx] at hs; cases hs
                  | some n =>
                    rw [hx, Option.bind_some] at hs
                    obtain ⟨⟨k', r'⟩, g1, g2⟩ := Option.map_eq_some_iff.mp hs
                    simp only [List.length_cons] at h
                    rw [Option.bind_some, hih s (by omega) k' r' g1]
                    simp only [Prod.mk.injEq] at g2
                    rw [← g2.1, ← g2.2]; rfl
              · rw [if_neg h3] at hs ⊢
                cases hx : simpleEscape e with
                | none => rw [hx] at hs; cases hs
                | some d =>
                  rw [hx, Option.bind_some] at hs
                  obtain ⟨⟨k', r'⟩, g1, g2⟩ := Option.map_eq_some_iff.mp hs
                  simp only [List.length_cons] at h
                  rw [Option.bind_some, hih s (by omega) k' r' g1]
                  simp only [Prod.mk.injEq] at g2
                  rw [← g2.1, ← g2.2]; rfl
        rw [if_neg h2] at hs ⊢
        by_cases h3 : c.toNat < 32
        · rw [if_pos h3] at hs; cases hs
        rw [if_neg h3] at hs ⊢
        obtain ⟨⟨k', r'⟩, g1, g2⟩ := Option.map_eq_some_iff.mp hs
        rw [hih s (by omega) k' r' g1]
        simp only [Prod.mk.injEq] at g2
        rw [← g2.1, ← g2.2]; rfl

/-! ### Values -/

/-- No number goes on here. -/
def Stops (t : Str) : Prop := ∀ c ∈ t.head?, numeric c = false

theorem run_append {t : Str} (ht : Stops t) : ∀ s : Str, (s ++ t).takeWhile numeric = s.takeWhile numeric ∧ (s ++ t).dropWhile numeric = s.dropWhile numeric ++ t := by
  intro s
  induction s with
  | nil =>
    cases t with
    | nil => exact ⟨rfl, rfl⟩
    | cons c t =>
      have := ht c rfl
      simp [this]
  | cons c s ih =>
    cases hc : numeric c with
    | true => simp [hc, ih.1, ih.2]
    | false => simp [hc]

theorem keyword_append {w : String} {v : Json} {s : Str} {x : Json × Str} (t : Str) (h : keyword w v s = some x) :
    keyword w v (s ++ t) = some (x.1, x.2 ++ t) := by
  unfold keyword at h ⊢
  split at h
  · rename_i hp
    obtain ⟨u, hu⟩ := List.isPrefixOf_iff_prefix.mp hp
    rw [if_pos (List.isPrefixOf_iff_prefix.mpr ⟨u ++ t, by rw [← hu, List.append_assoc]⟩)]
    injection h with h
    rw [← h, ← hu, List.append_assoc, List.drop_left, List.drop_left]
  · cases h

theorem local_all (t : Str) (ht : Stops t) : ∀ n : Nat,
    (∀ s v r, value n s = some (v, r) → value n (s ++ t) = some (v, r ++ t)) ∧
    (∀ s v r, members n s = some (v, r) → members n (s ++ t) = some (v, r ++ t)) ∧
    (∀ s v r, elements n s = some (v, r) → elements n (s ++ t) = some (v, r ++ t)) := by
  intro n
  induction n with
  | zero => exact ⟨fun _ _ _ h => (by rw [value] at h; cases h), fun _ _ _ h => (by rw [members] at h; cases h), fun _ _ _ h => (by rw [elements] at h; cases h)⟩
  | succ n ih =>
    obtain ⟨ihv, ihm, ihe⟩ := ih
    refine ⟨?_, ?_, ?_⟩
    · intro s v r h
      rw [value] at h ⊢
      cases hs : skip s with
      | nil => rw [hs] at h; cases h
      | cons c u =>
        rw [hs] at h
        rw [skip_append t hs]
        simp only at h ⊢
        by_cases h1 : c = .rune '"'
        · rw [if_pos h1] at h ⊢
          obtain ⟨⟨k', r'⟩, g1, g2⟩ := Option.map_eq_some_iff.mp h
          rw [string_append t _ _ _ g1]
          simp only [Prod.mk.injEq] at g2
          rw [← g2.1, ← g2.2]; rfl
        rw [if_neg h1] at h ⊢
        by_cases h2 : c = .rune '{'
        · rw [if_pos h2] at h ⊢
          by_cases h3 : (skip u).head? = some (.rune '}')
          · rw [if_pos h3] at h
            obtain ⟨x, hx⟩ : ∃ x, skip u = .rune '}' :: x := by
              cases hu : skip u with
              | nil => rw [hu] at h3; cases h3
              | cons a b => rw [hu] at h3; injection h3 with h3; exact ⟨b, by rw [h3]⟩
            rw [skip_append t hx]
            rw [hx] at h
            cases h; rfl
          · rw [if_neg h3] at h
            rw [if_neg (fun e => h3 (by
              cases hu : skip u with
              | nil =>
                exfalso
                cases hm : members n u with
                | none => rw [hm] at h; cases h
                | some x =>
                  cases n with
                  | zero => rw [members] at hm; cases hm
                  | succ n => rw [members, hu] at hm; cases hm
              | cons a b => rw [skip_append t hu] at e; exact e))]
            obtain ⟨⟨k', r'⟩, g1, g2⟩ := Option.map_eq_some_iff.mp h
            rw [ihm _ _ _ g1]
            simp only [Prod.mk.injEq] at g2
            rw [← g2.1, ← g2.2]; rfl
        rw [if_neg h2] at h ⊢
        by_cases h4 : c = .rune '['
        · rw [if_pos h4] at h ⊢
          by_cases h3 : (skip u).head? = some (.rune ']')
          · rw [if_pos h3] at h
            obtain ⟨x, hx⟩ : ∃ x, skip u = .rune ']' :: x := by
              cases hu : skip u with
              | nil => rw [hu] at h3; cases h3
              | cons a b => rw [hu] at h3; injection h3 with h3; exact ⟨b, by rw [h3]⟩
            rw [skip_append t hx]
            rw [hx] at h
            cases h; rfl
          · rw [if_neg h3] at h
            rw [if_neg (fun e => h3 (by
              cases hu : skip u with
              | nil =>
                exfalso
                cases hm : elements n u with
                | none => rw [hm] at h; cases h
                | some x =>
                  cases n with
                  | zero => rw [elements] at hm; cases hm
                  | succ n =>
                    rw [elements] at hm
                    cases n with
                    | zero => rw [value] at hm; cases hm
                    | succ n => rw [value, hu] at hm; cases hm
              | cons a b => rw [skip_append t hu] at e; exact e))]
            obtain ⟨⟨k', r'⟩, g1, g2⟩ := Option.map_eq_some_iff.mp h
            rw [ihe _ _ _ g1]
            simp only [Prod.mk.injEq] at g2
            rw [← g2.1, ← g2.2]; rfl
        rw [if_neg h4] at h ⊢
        by_cases h5 : c = .rune 't'
        · rw [if_pos h5] at h ⊢; exact keyword_append t h
        rw [if_neg h5] at h ⊢
        by_cases h6 : c = .rune 'f'
        · rw [if_pos h6] at h ⊢; exact keyword_append t h
        rw [if_neg h6] at h ⊢
        by_cases h7 : c = .rune 'n'
        · rw [if_pos h7] at h ⊢; exact keyword_append t h
        rw [if_neg h7] at h ⊢
        by_cases h8 : numeric c = true
        · rw [if_pos h8] at h ⊢
          have := run_append ht (c :: u)
          rw [List.cons_append] at this
          rw [this.1, this.2]
          cases h; rfl
        · rw [if_neg h8] at h; cases h
    · intro s v r h
      rw [members] at h ⊢
      cases hs : skip s with
      | nil => rw [hs] at h; cases h
      | cons c u =>
        rw [hs] at h
        rw [skip_append t hs]
        simp only at h ⊢
        by_cases h1 : c = .rune '"'
        · rw [if_pos h1] at h ⊢
          obtain ⟨⟨k, r1⟩, g1, g2⟩ := Option.bind_eq_some_iff.mp h
          rw [string_append t _ _ _ g1, Option.bind_some]
          simp only at g2 ⊢
          cases h2 : skip r1 with
          | nil => rw [h2] at g2; cases g2
          | cons d r2 =>
            rw [h2] at g2
            rw [skip_append t h2]
            simp only at g2 ⊢
            by_cases h3 : d = .rune ':'
            · rw [if_pos h3] at g2 ⊢
              obtain ⟨⟨w, r3⟩, g3, g4⟩ := Option.bind_eq_some_iff.mp g2
              rw [ihv _ _ _ g3, Option.bind_some]
              simp only at g4 ⊢
              cases h4 : skip r3 with
              | nil => rw [h4] at g4; cases g4
              | cons e r4 =>
                rw [h4] at g4
                rw [skip_append t h4]
                simp only at g4 ⊢
                by_cases h5 : e = .rune ','
                · rw [if_pos h5] at g4 ⊢
                  obtain ⟨⟨k', r'⟩, g5, g6⟩ := Option.map_eq_some_iff.mp g4
                  rw [ihm _ _ _ g5]
                  simp only [Prod.mk.injEq] at g6
                  rw [← g6.1, ← g6.2]; rfl
                · rw [if_neg h5] at g4 ⊢
                  by_cases h6 : e = .rune '}'
                  · rw [if_pos h6] at g4 ⊢; cases g4; rfl
                  · rw [if_neg h6] at g4; cases g4
            · rw [if_neg h3] at g2; cases g2
        · rw [if_neg h1] at h; cases h
    · intro s v r h
      rw [elements] at h ⊢
      obtain ⟨⟨w, r3⟩, g3, g4⟩ := Option.bind_eq_some_iff.mp h
      rw [ihv _ _ _ g3, Option.bind_some]
      simp only at g4 ⊢
      cases h4 : skip r3 with
      | nil => rw [h4] at g4; cases g4
      | cons e r4 =>
        rw [h4] at g4
        rw [skip_append t h4]
        simp only at g4 ⊢
        by_cases h5 : e = .rune ','
        · rw [if_pos h5] at g4 ⊢
          obtain ⟨⟨k', r'⟩, g5, g6⟩ := Option.map_eq_some_iff.mp g4
          rw [ihe _ _ _ g5]
          simp only [Prod.mk.injEq] at g6
          rw [← g6.1, ← g6.2]; rfl
        · rw [if_neg h5] at g4 ⊢
          by_cases h6 : e = .rune ']'
          · rw [if_pos h6] at g4 ⊢; cases g4; rfl
          · rw [if_neg h6] at g4; cases g4

theorem mono_all : ∀ n : Nat,
    (∀ s x, value n s = some x → value (n + 1) s = some x) ∧
    (∀ s x, members n s = some x → members (n + 1) s = some x) ∧
    (∀ s x, elements n s = some x → elements (n + 1) s = some x) := by
  intro n
  induction n with
  | zero => exact ⟨fun _ _ h => (by rw [value] at h; cases h), fun _ _ h => (by rw [members] at h; cases h), fun _ _ h => (by rw [elements] at h; cases h)⟩
  | succ n ih =>
    obtain ⟨ihv, ihm, ihe⟩ := ih
    refine ⟨?_, ?_, ?_⟩
    · intro s x h
      rw [value] at h ⊢
      cases hs : skip s with
      | nil => rw [hs] at h; cases h
      | cons c u =>
        rw [hs] at h
        simp only at h ⊢
        by_cases h1 : c = .rune '"'
        · rw [if_pos h1] at h ⊢; exact h
        rw [if_neg h1] at h ⊢
        by_cases h2 : c = .rune '{'
        · rw [if_pos h2] at h ⊢
          by_cases h3 : (skip u).head? = some (.rune '}')
          · rw [if_pos h3] at h ⊢; exact h
          · rw [if_neg h3] at h ⊢
            obtain ⟨y, g1, g2⟩ := Option.map_eq_some_iff.mp h
            rw [ihm _ _ g1, ← g2]; rfl
        rw [if_neg h2] at h ⊢
        by_cases h4 : c = .rune '['
        · rw [if_pos h4] at h ⊢
          by_cases h3 : (skip u).head? = some (.rune ']')
          · rw [if_pos h3] at h ⊢; exact h
          · rw [if_neg h3] at h ⊢
            obtain ⟨y, g1, g2⟩ := Option.map_eq_some_iff.mp h
            rw [ihe _ _ g1, ← g2]; rfl
        rw [if_neg h4] at h ⊢
        exact h
    · intro s x h
      rw [members] at h ⊢
      cases hs : skip s with
      | nil => rw [hs] at h; cases h
      | cons c u =>
        rw [hs] at h
        simp only at h ⊢
        by_cases h1 : c = .rune '"'
        · rw [if_pos h1] at h ⊢
          obtain ⟨⟨k, r1⟩, g1, g2⟩ := Option.bind_eq_some_iff.mp h
          rw [g1, Option.bind_some]
          simp only at g2 ⊢
          cases h2 : skip r1 with
          | nil => rw [h2] at g2; cases g2
          | cons d r2 =>
            rw [h2] at g2
            simp only at g2 ⊢
            by_cases h3 : d = .rune ':'
            · rw [if_pos h3] at g2 ⊢
              obtain ⟨⟨w, r3⟩, g3, g4⟩ := Option.bind_eq_some_iff.mp g2
              rw [ihv _ _ g3, Option.bind_some]
              simp only at g4 ⊢
              cases h4 : skip r3 with
              | nil => rw [h4] at g4; cases g4
              | cons e r4 =>
                rw [h4] at g4
                simp only at g4 ⊢
                by_cases h5 : e = .rune ','
                · rw [if_pos h5] at g4 ⊢
                  obtain ⟨y, g5, g6⟩ := Option.map_eq_some_iff.mp g4
                  rw [ihm _ _ g5, ← g6]; rfl
                · rw [if_neg h5] at g4 ⊢; exact g4
            · rw [if_neg h3] at g2; cases g2
        · rw [if_neg h1] at h; cases h
    · intro s x h
      rw [elements] at h ⊢
      obtain ⟨⟨w, r3⟩, g3, g4⟩ := Option.bind_eq_some_iff.mp h
      rw [ihv _ _ g3, Option.bind_some]
      simp only at g4 ⊢
      cases h4 : skip r3 with
      | nil => rw [h4] at g4; cases g4
      | cons e r4 =>
        rw [h4] at g4
        simp only at g4 ⊢
        by_cases h5 : e = .rune ','
        · rw [if_pos h5] at g4 ⊢
          obtain ⟨y, g5, g6⟩ := Option.map_eq_some_iff.mp g4
          rw [ihe _ _ g5, ← g6]; rfl
        · rw [if_neg h5] at g4 ⊢; exact g4

theorem value_mono {n m : Nat} (h : n ≤ m) {s : Str} {x : Json × Str} (hv : value n s = some x) : value m s = some x := by
  induction h with
  | refl => exact hv
  | step _ ih => exact (mono_all _).1 s x ih

/-- A JSON text is read within another as it is alone. -/
theorem reads {t : Str} {j : Json} (h : parse t = some j) : ∃ r, skip r = [] ∧ ∀ n, t.length + 1 ≤ n → ∀ rest, Stops rest →
    value n (t ++ rest) = some (j, r ++ rest) := by
  unfold parse at h
  obtain ⟨⟨v, r⟩, g1, g2⟩ := Option.bind_eq_some_iff.mp h
  simp only at g2
  split at g2
  · rename_i hr
    injection g2 with g2
    subst g2
    exact ⟨r, hr, fun n hn rest hs => (local_all rest hs n).1 _ _ _ (value_mono hn g1)⟩
  · cases g2

end Verif.Runtime.TraceJson
