/-
C94: the list of versions, and `Download`.
-/
import Verif.Support.GetGoZip

namespace Verif.Support.GetGo
open Spec
open Verif.Cmd.Vendor (trimSpace split)

/-! ### The list of versions -/

theorem behind_some {pat : Str} : ∀ {s r : Str}, behind pat s = some r →
    ∃ a, s = a ++ pat ++ r ∧ ∀ b b', s = b ++ pat ++ b' → a.length ≤ b.length := by
  intro s
  induction s with
  | nil =>
    intro r h
    rw [behind] at h
    split at h
    · rename_i hp
      have : pat = [] := List.prefix_nil.1 (List.isPrefixOf_iff_prefix.1 hp)
      cases h
      exact ⟨[], by rw [this]; rfl, fun b b' _ => Nat.zero_le _⟩
    · cases h
  | cons c s ih =>
    intro r h
    rw [behind] at h
    split at h
    · rename_i hp
      obtain ⟨x, hx⟩ := List.isPrefixOf_iff_prefix.1 hp
      rw [← hx, List.drop_left] at h
      cases h
      exact ⟨[], by rw [← hx]; rfl, fun b b' _ => Nat.zero_le _⟩
    · rename_i hp
      obtain ⟨a, h1, h2⟩ := ih h
      refine ⟨c :: a, by rw [h1]; simp, ?_⟩
      intro b b' e
      cases b with
      | nil => exact absurd (List.isPrefixOf_iff_prefix.2 ⟨b', by rw [e]; rfl⟩) hp
      | cons d b =>
        have := (List.cons.inj e).2
        have := h2 b b' this
        simp only [List.length_cons]
        omega

theorem behind_first {pat : Str} : ∀ {s a r : Str}, s = a ++ pat ++ r → (∀ b b', s = b ++ pat ++ b' → a.length ≤ b.length) →
    behind pat s = some r := by
  intro s
  induction s with
  | nil =>
    intro a r h _
    have h : a = [] ∧ pat = [] ∧ r = [] := by
      have := congrArg List.length h
      simp at this
      exact ⟨List.length_eq_zero_iff.1 (by omega), List.length_eq_zero_iff.1 (by omega), List.length_eq_zero_iff.1 (by omega)⟩
    rw [behind, h.2.1, h.2.2]
    rfl
  | cons c s ih =>
    intro a r h hm
    rw [behind]
    cases a with
    | nil =>
      have h : c :: s = pat ++ r := h
      rw [if_pos (List.isPrefixOf_iff_prefix.2 ⟨r, h.symm⟩), h, List.drop_left]
    | cons d a =>
      rw [if_neg]
      · refine ih (a := a) (List.cons.inj h).2 ?_
        intro b b' e
        have := hm (c :: b) b' (by rw [e]; simp)
        simp only [List.length_cons] at this
        omega
      · intro hp
        obtain ⟨x, hx⟩ := List.isPrefixOf_iff_prefix.1 hp
        have := hm [] x (by rw [← hx]; rfl)
        simp at this

theorem quoted_some : ∀ {r v : Str}, quoted r = some v ↔ '"' ∉ v ∧ ∃ rest, r = v ++ '"' :: rest := by
  intro r
  induction r with
  | nil => intro v; simp [quoted]
  | cons c r ih =>
    intro v
    rw [quoted]
    by_cases hc : c = '"'
    · subst hc
      rw [if_pos rfl]
      constructor
      · intro h; cases h; exact ⟨by simp, r, rfl⟩
      · rintro ⟨h1, rest, h2⟩
        cases v with
        | nil => rfl
        | cons d v =>
          have : '"' = d := (List.cons.inj h2).1
          subst this
          exact absurd List.mem_cons_self h1
    · rw [if_neg hc, Option.map_eq_some_iff]
      constructor
      · rintro ⟨w, hw, rfl⟩
        obtain ⟨h1, rest, h2⟩ := ih.1 hw
        refine ⟨fun h => ?_, rest, by rw [h2]; rfl⟩
        rcases List.mem_cons.1 h with h | h
        · exact hc h.symm
        · exact h1 h
      · rintro ⟨h1, rest, h2⟩
        cases v with
        | nil => exact absurd (List.cons.inj h2).1 hc
        | cons d v =>
          obtain ⟨e1, e2⟩ := List.cons.inj h2
          subst e1
          exact ⟨v, ih.2 ⟨fun h => h1 (List.mem_cons_of_mem _ h), rest, e2⟩, rfl⟩

/-- **C94** (`C94_list`): the versions are those that lines of the page name, in their order, and no others. -/
theorem C94_list (line v : Str) : versionOf line = some v ↔ Names (trimSpace line) v := by
  unfold versionOf
  simp only
  generalize trimSpace line = l
  have hdiv : "<div ".toList = ['<', 'd', 'i', 'v', ' '] := by decide
  have hid : "id=\"go".toList = ['i', 'd', '=', '"', 'g', 'o'] := by decide
  constructor
  · intro h
    split at h
    · rename_i hp
      cases hb : behind "id=\"go".toList l with
      | none => rw [hb] at h; cases h
      | some r =>
        rw [hb] at h
        simp only at h
        cases hq : quoted r with
        | none => rw [hq] at h; cases h
        | some w =>
          rw [hq] at h
          cases w with
          | nil => cases h
          | cons c w =>
            cases h
            obtain ⟨a, h1, h2⟩ := behind_some hb
            obtain ⟨h3, rest, h4⟩ := quoted_some.1 hq
            refine ⟨by simp, h3, a, rest, ?_, by rw [h1, h4]; simp, h2⟩
            obtain ⟨x, hx⟩ := List.isPrefixOf_iff_prefix.1 hp
            -- the beginning of the line is not part of `id="go`
            have key : "<div ".toList ++ x = a ++ ("id=\"go".toList ++ r) := by rw [hx, h1]; simp
            rcases List.append_eq_append_iff.1 key with ⟨y, k1, _⟩ | ⟨y, k1, k2⟩
            · exact ⟨y, k1.symm⟩
            · cases y with
              | nil => rw [List.append_nil] at k1; rw [← k1]; exact List.prefix_refl _
              | cons z y =>
                exfalso
                rw [hid] at k2
                have hz : z = 'i' := ((List.cons.inj k2).1).symm
                rw [hz, hdiv] at k1
                match a, k1 with
                | [], k1 => exact absurd (List.cons.inj k1).1 (by decide)
                | [a1], k1 => exact absurd (List.cons.inj (List.cons.inj k1).2).1 (by decide)
                | [a1, a2], k1 =>
                  have k3 := (List.cons.inj (List.cons.inj (List.cons.inj k1).2).2).2
                  rw [← k3] at k2
                  exact absurd (List.cons.inj (List.cons.inj k2).2).1 (by decide)
                | [a1, a2, a3], k1 =>
                  exact absurd (List.cons.inj (List.cons.inj (List.cons.inj (List.cons.inj k1).2).2).2).1 (by decide)
                | [a1, a2, a3, a4], k1 =>
                  exact absurd (List.cons.inj (List.cons.inj (List.cons.inj (List.cons.inj (List.cons.inj k1).2).2).2).2).1 (by decide)
                | a1 :: a2 :: a3 :: a4 :: a5 :: a6, k1 =>
                  have := congrArg List.length k1
                  simp at this
    · cases h
  · rintro ⟨h1, h2, a, rest, ⟨x, hx⟩, h4, h5⟩
    have h4' : l = a ++ "id=\"go".toList ++ (v ++ '"' :: rest) := by rw [h4]; simp
    rw [if_pos (List.isPrefixOf_iff_prefix.2 ⟨x ++ ("id=\"go".toList ++ (v ++ '"' :: rest)), by rw [h4', ← hx]; simp⟩),
      behind_first h4' h5]
    simp only
    rw [quoted_some.2 ⟨h2, rest, rfl⟩]
    cases v with
    | nil => exact absurd rfl h1
    | cons c v => rfl

/-- A page with two versions. -/
example : versions "<html>\n  <div class=\"toggle\" id=\"go1.22.1\">\n<p id=\"go1.0\">\n<div id=\"archive\">\n<div class=\"toggleVisible\" id=\"go1.21rc2\">\n".toList =
    ["1.22.1".toList, "1.21rc2".toList] := by decide +kernel

/-- **C94** (`C94_spelling`): `go1.22` and `1.22` are one version: the same directory and the same archive, and other versions have others. -/
theorem C94_spelling (v v' : Str) : (dirName v = dirName v' ↔ Same v v' ) ∧ (dirName v = "go".toList ++ naked v) := by
  have hn : ∀ v : Str, dirName v = "go".toList ++ naked v := by
    intro v
    unfold dirName naked
    split
    · rename_i h
      obtain ⟨x, hx⟩ := List.isPrefixOf_iff_prefix.1 h
      have : v.drop 2 = x := by rw [← hx]; rfl
      rw [this, hx]
    · rfl
  refine ⟨?_, hn v⟩
  have hpre : ∀ v : Str, "go".toList <+: v → dirName v = v := fun v h => if_pos (List.isPrefixOf_iff_prefix.2 h)
  have hno : ∀ v : Str, ¬ "go".toList <+: v → dirName v = "go".toList ++ v := fun v h => if_neg fun h' => h (List.isPrefixOf_iff_prefix.1 h')
  constructor
  · intro h
    by_cases h1 : "go".toList <+: v <;> by_cases h2 : "go".toList <+: v'
    · rw [hpre v h1, hpre v' h2] at h; exact .inl h
    · rw [hpre v h1, hno v' h2] at h; exact .inr (.inl ⟨h, h2⟩)
    · rw [hno v h1, hpre v' h2] at h; exact .inr (.inr ⟨h.symm, h1⟩)
    · rw [hno v h1, hno v' h2] at h; exact .inl (List.append_cancel_left h)
  · rintro (rfl | ⟨rfl, h⟩ | ⟨rfl, h⟩)
    · rfl
    · rw [hpre _ (List.prefix_append _ _), hno _ h]
    · rw [hpre _ (List.prefix_append _ _), hno _ h]

example : Same "go1.22".toList "1.22".toList := .inr (.inl ⟨by decide, by decide⟩)

/-! ### `Download` -/

variable {τ π : Type}

/-- What holds at all times, if it began with `d` in the directory. -/
def Inv (w : World τ π) (d : Option τ) (s : St τ) : Prop :=
  (∀ t, d = some t → s.dest = some t) ∧
  (∀ t, s.dest = some t → d = some t ∨ (Listed w ∧ ∃ i, w.made (w.plat i) t)) ∧
  ∀ i, match s.at_ i with
    | .fetching => Listed w
    | .unpacking none => Listed w
    | .unpacking (some t) => Listed w ∧ w.made (w.plat i) t
    | .done => s.dest ≠ none
    | _ => True

theorem go_self (s : St τ) (i : Nat) (pc : Pc τ) : (s.go i pc).at_ i = pc := if_pos rfl

theorem go_other (s : St τ) {i j : Nat} (pc : Pc τ) (h : j ≠ i) : (s.go i pc).at_ j = s.at_ j := if_neg h

theorem inv_step {w : World τ π} {d : Option τ} {s s' : St τ} {i : Nat} (h : Inv w d s) (hs : Step w s i s') : Inv w d s' := by
  obtain ⟨h1, h2, h3⟩ := h
  -- a step of run `i` that leaves the directory as it is
  have move : ∀ pc, (match pc with
      | .fetching => Listed w
      | .unpacking none => Listed w
      | .unpacking (some t) => Listed w ∧ w.made (w.plat i) t
      | .done => s.dest ≠ none
      | _ => True) → Inv w d (s.go i pc) := by
    intro pc hpc
    refine ⟨h1, h2, fun j => ?_⟩
    by_cases hj : j = i
    · subst hj; rw [go_self]; exact hpc
    · rw [go_other _ _ hj]; exact h3 j
  have hi := h3 i
  cases hs with
  | found t a b => exact move _ (by rw [b]; simp)
  | notFound a b => exact move _ trivial
  | unlisted a b => exact move _ trivial
  | listed a b => exact move _ b
  | fetches a b => exact ⟨h1, h2, h3⟩
  | fetched a => rw [a] at hi; exact move _ hi
  | unpacked t a b => rw [a] at hi; exact move _ ⟨hi, b⟩
  | renamed t a b =>
    rw [a] at hi
    refine ⟨fun t' ht => ?_, fun t' ht => ?_, fun j => ?_⟩
    · have := h1 t' ht; rw [b] at this; cases this
    · cases ht; exact .inr ⟨hi.1, i, hi.2⟩
    · by_cases hj : j = i
      · subst hj
        show match (s.go j .done).at_ j with
          | .fetching => _ | .unpacking none => _ | .unpacking (some t) => _ | .done => _ | _ => _
        rw [go_self]
        simp
      · have hj3 := h3 j
        show match (s.go i .done).at_ j with
          | .fetching => _ | .unpacking none => _ | .unpacking (some t) => _ | .done => _ | _ => _
        rw [go_other _ _ hj]
        split <;> simp_all
  | taken t t' a b => exact move _ trivial
  | fails a => exact move _ trivial

theorem inv_steps {w : World τ π} {d : Option τ} {s s' : St τ} (h : Inv w d s) (hs : Steps w s s') : Inv w d s' := by
  induction hs with
  | refl => exact h
  | step s' s'' i _ hst ih => exact inv_step ih hst

/-- **C94** (`C94_install_partial`): with any number of runs, each killed anywhere or not, the directory of a version is not there, or it is what it was, or it is
    the whole of an unpacked archive of that version; a run that reports success has it there. Missing: that the archive was for the
    platform that the run asks for. -/
theorem C94_install_partial (w : World τ π) (s s' : St τ) (hb : Begins s) (h : Steps w s s') :
    (∀ t, s'.dest = some t → s.dest = some t ∨ ∃ i, w.made (w.plat i) t) ∧ ∀ i, s'.at_ i = .done → s'.dest ≠ none := by
  have h0 : Inv w s.dest s := ⟨fun t h => h, fun t h => .inl h, fun i => by rw [hb i]; trivial⟩
  obtain ⟨_, h2, h3⟩ := inv_steps h0 h
  refine ⟨fun t ht => (h2 t ht).imp id (·.2), fun i hi => ?_⟩
  have := h3 i
  rw [hi] at this
  exact this

/-- **C94** (`C94_kept`): what is in the directory stays as it is, whatever runs do. -/
theorem C94_kept (w : World τ π) (s s' : St τ) (h : Steps w s s') (t : τ) (ht : s.dest = some t) : s'.dest = some t := by
  induction h with
  | refl => exact ht
  | step s' s'' i _ hst ih =>
    cases hst with
    | renamed t' a b => rw [ih] at b; cases b
    | fetches a b => exact ih
    | _ => exact ih

/-- **C94** (`C94_unlisted`): a version that the list does not have is not installed. -/
theorem C94_unlisted (w : World τ π) (l : List Str) (hl : w.list = some l) (hv : naked w.version ∉ l) (s s' : St τ) (hb : Begins s)
    (h : Steps w s s') : s'.dest = s.dest ∧ s'.archive = s.archive := by
  have h0 : Inv w s.dest s := ⟨fun t h => h, fun t h => .inl h, fun i => by rw [hb i]; trivial⟩
  have hn : ¬ Listed w := fun h => hv (h l hl)
  constructor
  · obtain ⟨h1, h2, _⟩ := inv_steps h0 h
    cases hd : s'.dest with
    | none =>
      cases hd0 : s.dest with
      | none => rfl
      | some t => rw [h1 t hd0] at hd; cases hd
    | some t =>
      rcases h2 t hd with h | h
      · exact h.symm
      · exact absurd h.1 hn
  · induction h with
    | refl => rfl
    | step s' s'' i hs hst ih =>
      have hinv := (inv_steps h0 hs).2.2 i
      cases hst with
      | fetches a b => rw [b] at hinv; exact absurd hinv hn
      | _ => exact ih

/-- A run can succeed: the hypotheses are met, and something is installed. -/
example (w : World Nat Nat) (hl : Listed w) (hm : w.made (w.plat 0) 7) :
    ∃ s', Steps w ⟨none, none, fun _ => .start⟩ s' ∧ s'.dest = some 7 ∧ s'.at_ 0 = .done := by
  refine ⟨_, .step _ _ _ 0 (.step _ _ _ 0 (.step _ _ _ 0 (.step _ _ _ 0 (.step _ _ _ 0 (.refl _) (.notFound _ 0 rfl rfl)) (.listed _ 0 rfl hl))
    (.fetched _ 0 rfl)) (.unpacked _ 0 7 rfl hm)) (.renamed _ 0 7 rfl rfl), rfl, rfl⟩

/-- **C94**, where it fails (`C94_platform_counterexample`): a run that asks for one platform is given what was installed for another. -/
theorem C94_platform_counterexample (w : World τ π) (hl : Listed w) (t : τ) (hm : w.made (w.plat 0) t) (hn : ¬ w.made (w.plat 1) t) :
    ∃ s', Steps w ⟨none, none, fun _ => .start⟩ s' ∧ s'.at_ 1 = .done ∧ s'.dest = some t ∧ ¬ w.made (w.plat 1) t := by
  refine ⟨_, .step _ _ _ 1 (.step _ _ _ 0 (.step _ _ _ 0 (.step _ _ _ 0 (.step _ _ _ 0 (.step _ _ _ 0 (.refl _) (.notFound _ 0 rfl rfl)) (.listed _ 0 rfl hl))
    (.fetched _ 0 rfl)) (.unpacked _ 0 t rfl hm)) (.renamed _ 0 t rfl rfl)) (.found _ 1 t rfl rfl), rfl, rfl, hn⟩

theorem versionOf_nil : versionOf [] = none := by decide +kernel

/-- **C94** (the page) The versions of a page are those its lines name, in the order of the page, and no others. -/
theorem C94_page (ls : List Str) (hn : ∀ l ∈ ls, '\n' ∉ l) :
    (∀ v, v ∈ versions (ls.flatMap (· ++ ['\n'])) ↔ ∃ l ∈ ls, Names (trimSpace l) v) ∧
    (∀ a b, ls = a ++ b → versions (ls.flatMap (· ++ ['\n'])) = versions (a.flatMap (· ++ ['\n'])) ++ versions (b.flatMap (· ++ ['\n']))) := by
  have key : ∀ l : List Str, (∀ x ∈ l, '\n' ∉ x) → versions (l.flatMap (· ++ ['\n'])) = l.filterMap versionOf := by
    intro l h
    rw [versions, Verif.Cmd.Vendor.split_lines h, List.filterMap_append]
    simp [versionOf_nil]
  refine ⟨fun v => ?_, ?_⟩
  · rw [key ls hn, List.mem_filterMap]
    exact exists_congr fun l => and_congr_right fun _ => C94_list l v
  · rintro a b rfl
    rw [key _ hn, key a fun x hx => hn x (List.mem_append_left _ hx), key b fun x hx => hn x (List.mem_append_right _ hx), List.filterMap_append]

end Verif.Support.GetGo
