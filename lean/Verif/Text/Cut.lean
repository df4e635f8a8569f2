/-
Finding a text in a text: Go's `strings.Index`, in the form the code uses it (the text before, the text after).
-/

namespace Verif.Text

abbrev Str := List Char

/-- `strings.Index(s, sep)`: the text before the first occurrence of `sep` and the text after it; `none` for -1.
    (Go standard library; the index is the length of the first component.) -/
def cut (sep : Str) : Str → Option (Str × Str)
  | [] => if sep.isPrefixOf [] then some ([], []) else none
  | c :: cs =>
    if sep.isPrefixOf (c :: cs) then some ([], (c :: cs).drop sep.length)
    else (cut sep cs).map fun p => (c :: p.1, p.2)

/-- `strings.Contains`. -/
def contains (s sub : Str) : Bool := (cut sub s).isSome

theorem cut_eq {sep s a b : Str} (h : cut sep s = some (a, b)) : s = a ++ sep ++ b := by
  induction s generalizing a with
  | nil =>
    unfold cut at h
    split at h
    · rename_i hp
      have : sep = [] := by simpa using hp
      injection h with h; injection h with h1 h2
      subst h1 h2 this
      rfl
    · cases h
  | cons c cs ih =>
    unfold cut at h
    split at h
    · rename_i hp
      injection h with h; injection h with h1 h2
      subst h1
      rw [List.isPrefixOf_iff_prefix] at hp
      obtain ⟨t, ht⟩ := hp
      rw [← ht] at h2 ⊢
      rw [List.drop_left] at h2
      rw [h2]; rfl
    · cases hc : cut sep cs with
      | none => rw [hc] at h; cases h
      | some p =>
        rw [hc] at h
        simp only [Option.map_some, Option.some.injEq, Prod.mk.injEq] at h
        obtain ⟨h1, h2⟩ := h
        have := ih (a := p.1) (by rw [hc, ← h2])
        rw [← h1, this]; rfl

/-- `sep` does not begin before the end of `a` in `a ++ sep`. -/
def NotBefore (sep a : Str) : Prop := ¬ sep <:+: (a ++ sep).dropLast

theorem cut_none {sep s : Str} : cut sep s = none ↔ ¬ sep <:+: s := by
  induction s with
  | nil =>
    unfold cut
    cases sep <;> simp
  | cons c cs ih =>
    unfold cut
    split
    · rename_i hp
      rw [List.isPrefixOf_iff_prefix] at hp
      simp [hp.isInfix]
    · rename_i hp
      rw [List.isPrefixOf_iff_prefix] at hp
      rw [Option.map_eq_none_iff, ih, List.infix_cons_iff]
      simp [hp]

theorem contains_iff {s sub : Str} : contains s sub = true ↔ sub <:+: s := by
  unfold contains
  cases h : cut sub s with
  | none => simpa using cut_none.1 h
  | some p =>
    have := cut_eq (a := p.1) (b := p.2) h
    simp only [Option.isSome_some, true_iff]
    exact ⟨p.1, p.2, by simpa using this.symm⟩

/-- The first occurrence: there is none that ends before the last character of the one in question. -/
theorem cut_append {sep a b : Str} (hs : sep ≠ []) (h : NotBefore sep a) : cut sep (a ++ sep ++ b) = some (a, b) := by
  induction a with
  | nil =>
    cases sep with
    | nil => exact absurd rfl hs
    | cons c cs =>
      simp only [List.nil_append, List.cons_append]
      unfold cut
      rw [if_pos]
      · simp
      · rw [List.isPrefixOf_iff_prefix]; exact ⟨b, by simp⟩
  | cons x a ih =>
    have hne : a ++ sep ≠ [] := by simp [hs]
    have h' : NotBefore sep a := by
      intro hc
      refine h ?_
      rw [List.cons_append, List.dropLast_cons_of_ne_nil hne]
      exact hc.trans (List.infix_cons (List.infix_refl _))
    have hnp : ¬ sep <+: x :: (a ++ sep ++ b) := by
      intro hp
      refine h ?_
      rw [List.cons_append, List.dropLast_cons_of_ne_nil hne]
      have h1 : (x :: (a ++ sep).dropLast) <+: x :: (a ++ sep ++ b) := by
        refine (List.cons_prefix_cons.2 ⟨rfl, ?_⟩)
        exact (List.dropLast_prefix _).trans (List.prefix_append _ _)
      have hlen : sep.length ≤ (x :: (a ++ sep).dropLast).length := by
        simp only [List.length_cons, List.length_dropLast, List.length_append]; omega
      exact (List.prefix_of_prefix_length_le hp h1 hlen).isInfix
    simp only [List.cons_append]
    unfold cut
    rw [if_neg (by rw [List.isPrefixOf_iff_prefix]; exact hnp), ih h']
    rfl

theorem cut_length {sep s a b : Str} (h : cut sep s = some (a, b)) : s.length = a.length + sep.length + b.length := by
  rw [cut_eq h]; simp; omega

/-! ### Occurrences in concatenations -/

theorem infix_append_cases {w a b : Str} (h : w <:+: a ++ b) :
    w <:+: a ∨ w <:+: b ∨ ∃ x y, x ≠ [] ∧ y ≠ [] ∧ w = x ++ y ∧ x <:+ a ∧ y <+: b := by
  obtain ⟨s, t, h⟩ := h
  rw [List.append_assoc] at h
  rcases List.append_eq_append_iff.1 h with ⟨u, h1, h2⟩ | ⟨u, h1, h2⟩
  · -- a = s ++ u, w ++ t = u ++ b
    rcases List.append_eq_append_iff.1 h2 with ⟨v, h3, h4⟩ | ⟨v, h3, h4⟩
    · -- u = w ++ v
      exact Or.inl ⟨s, v, by rw [h1, h3]; simp⟩
    · -- w = u ++ v
      by_cases hu : u = []
      · exact Or.inr (Or.inl ⟨[], t, by rw [h4, h3, hu]; simp⟩)
      · by_cases hv : v = []
        · exact Or.inl ⟨s, [], by rw [h1, h3, hv]; simp⟩
        · exact Or.inr (Or.inr ⟨u, v, hu, hv, h3, ⟨s, h1.symm⟩, ⟨t, h4.symm⟩⟩)
  · exact Or.inr (Or.inl ⟨u, t, by rw [h2]; simp⟩)

/-- If nothing that `sep` begins with is something `sep` ends with, the first occurrence of `sep` in `a ++ sep` is the one
    at the end, unless `a` has one. -/
theorem notBefore_of_not_infix {sep a : Str} (hb : ∀ x y z, x ≠ [] → y ≠ [] → z ≠ [] → sep = x ++ y → sep = y ++ z → False)
    (h : ¬ sep <:+: a) : NotBefore sep a := by
  intro hc
  by_cases hs : sep = []
  · exact h (by rw [hs]; exact List.nil_infix)
  rw [List.dropLast_append_of_ne_nil hs] at hc
  rcases infix_append_cases hc with hc | hc | ⟨x, y, hx, hy, he, -, hp⟩
  · exact h hc
  · have := hc.length_le
    rw [List.length_dropLast] at this
    have : 0 < sep.length := List.length_pos_iff.2 hs
    omega
  · obtain ⟨z, hz⟩ := hp.trans (List.dropLast_prefix sep)
    refine hb x y z hx hy ?_ he hz.symm
    rintro rfl
    rw [List.append_nil] at hz
    have : x = [] := by
      have := congrArg List.length he
      rw [← hz] at this
      simp at this
      exact this
    exact hx this

/-- A text whose first character occurs nowhere else in it does not overlap with itself. -/
theorem notBefore_of_head {c : Char} {cs a : Str} (hc : c ∉ cs) (h : ¬ (c :: cs) <:+: a) : NotBefore (c :: cs) a := by
  refine notBefore_of_not_infix ?_ h
  intro x y z hx hy hz h1 h2
  cases y with
  | nil => exact hy rfl
  | cons d y =>
    have hd : d = c := by simp only [List.cons_append] at h2; injection h2 with e _; exact e.symm
    cases x with
    | nil => exact hx rfl
    | cons e x =>
      simp only [List.cons_append] at h1
      injection h1 with _ h1
      exact hc (by rw [h1, hd]; simp)

end Verif.Text
