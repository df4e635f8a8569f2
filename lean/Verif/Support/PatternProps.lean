/-
C28: path patterns.
-/
import Verif.Support.Pattern
import Verif.Support.PatternSpec

namespace Verif.Support.Pattern
open Spec

/-! ### Splitting -/

theorem splitLoop_word (w : Str) (hw : '/' ∉ w) : ∀ (acc rest : Str),
    splitLoop acc (w ++ rest) = splitLoop (acc ++ w) rest := by
  induction w with
  | nil => intro acc rest; simp
  | cons c w ih =>
    intro acc rest
    have hc : ¬ c = '/' := fun h => hw (by simp [h])
    rw [List.cons_append, splitLoop, if_neg hc, ih (fun h => hw (by simp [h]))]
    simp

/-- The code's split is the specified one. -/
theorem segs_split {s : Str} {l : List Str} (h : Segs s l) : splitPath s = l := by
  unfold splitPath
  induction h with
  | nil => rfl
  | slash _ ih => rw [splitLoop, if_pos rfl, if_pos rfl, ih]
  | @seg w rest l hw hns hr _ ih =>
    rw [splitLoop_word w hns]
    simp only [List.nil_append]
    rcases hr with rfl | ⟨r, rfl⟩
    · rw [splitLoop, if_neg hw]
      rw [splitLoop, if_pos rfl] at ih
      rw [← ih]
    · rw [splitLoop, if_pos rfl, if_neg hw]
      rw [splitLoop, if_pos rfl, if_pos rfl] at ih
      rw [ih]

theorem split_segs_aux : ∀ (s acc : Str), '/' ∉ acc → Segs (acc ++ s) (splitLoop acc s) := by
  intro s
  induction s with
  | nil =>
    intro acc ha
    rw [splitLoop]
    split
    · rename_i h; subst h; exact .nil
    · rename_i h; exact .seg h ha (Or.inl rfl) .nil
  | cons c s ih =>
    intro acc ha
    rw [splitLoop]
    have h0 : Segs s (splitLoop [] s) := by
      have := ih [] (by simp); simpa using this
    split
    · rename_i hc
      subst hc
      split
      · rename_i h; subst h; exact .slash h0
      · rename_i h; exact .seg h ha (Or.inr ⟨s, rfl⟩) (.slash h0)
    · rename_i hc
      have := ih (acc ++ [c]) (by simp; exact ⟨ha, fun h => hc h.symm⟩)
      simpa using this

/-- Every string has its segments. -/
theorem split_segs (s : Str) : Segs s (splitPath s) := by
  have := split_segs_aux s [] (by simp); simpa [splitPath] using this

theorem matches_iff (pattern path : Str) : Matches pattern path ↔ Path (splitPath pattern) (splitPath path) := by
  constructor
  · rintro ⟨ps, xs, h1, h2, h3⟩; rw [segs_split h1, segs_split h2]; exact h3
  · intro h; exact ⟨_, _, split_segs _, split_segs _, h⟩

theorem matchesPrefix_iff (pattern path : Str) :
    MatchesPrefix pattern path ↔ ∃ xs ys, splitPath path = xs ++ ys ∧ Path (splitPath pattern) xs := by
  constructor
  · rintro ⟨ps, xs, ys, h1, h2, h3⟩; exact ⟨xs, ys, segs_split h2, segs_split h1 ▸ h3⟩
  · rintro ⟨xs, ys, h1, h2⟩; exact ⟨_, xs, ys, split_segs _, h1 ▸ split_segs _, h2⟩

theorem split_nonempty (s : Str) : ∀ w ∈ splitPath s, w ≠ [] := by
  have : ∀ {s l}, Segs s l → ∀ w ∈ l, w ≠ [] := by
    intro s l h
    induction h with
    | nil => simp
    | slash _ ih => exact ih
    | seg hw _ _ _ ih =>
      intro x hx
      rcases List.mem_cons.1 hx with rfl | hx
      · exact hw
      · exact ih x hx
  exact this (split_segs s)

/-! ### Loops -/

theorem starLoop_iff (f : Str → Bool) (s : Str) : starLoop f s = true ↔ ∃ run t, s = run ++ t ∧ f t = true := by
  induction s with
  | nil =>
    rw [starLoop]
    constructor
    · intro h; exact ⟨[], [], rfl, h⟩
    · rintro ⟨run, t, h, h2⟩
      rw [eq_comm, List.append_eq_nil_iff] at h
      rw [h.2] at h2; exact h2
  | cons c s ih =>
    rw [starLoop, Bool.or_eq_true, ih]
    constructor
    · rintro (h | ⟨run, t, rfl, h⟩)
      · exact ⟨[], _, rfl, h⟩
      · exact ⟨c :: run, t, rfl, h⟩
    · rintro ⟨run, t, h, h2⟩
      cases run with
      | nil => left; rw [List.nil_append] at h; rw [h]; exact h2
      | cons d run =>
        right
        rw [List.cons_append, List.cons.injEq] at h
        exact ⟨run, t, h.2, h2⟩

theorem dblLoop_iff (f : List Str → Bool) (s : List Str) :
    dblLoop f s = true ↔ ∃ run t, s = run ++ t ∧ f t = true := by
  induction s with
  | nil =>
    rw [dblLoop]
    constructor
    · intro h; exact ⟨[], [], rfl, h⟩
    · rintro ⟨run, t, h, h2⟩
      rw [eq_comm, List.append_eq_nil_iff] at h
      rw [h.2] at h2; exact h2
  | cons c s ih =>
    rw [dblLoop, Bool.or_eq_true, ih]
    constructor
    · rintro (⟨run, t, rfl, h⟩ | h)
      · exact ⟨c :: run, t, rfl, h⟩
      · exact ⟨[], _, rfl, h⟩
    · rintro ⟨run, t, h, h2⟩
      cases run with
      | nil => right; rw [List.nil_append] at h; rw [h]; exact h2
      | cons d run =>
        left
        rw [List.cons_append, List.cons.injEq] at h
        exact ⟨run, t, h.2, h2⟩

/-! ### Segments made of stars followed by a literal -/

/-- Any number of stars followed by at least one ordinary character and no further star: `foo`, `*_test.go`. -/
def SuffixSeg (w : Str) : Prop := ∃ n lit, w = List.replicate n '*' ++ lit ∧ lit ≠ [] ∧ '*' ∉ lit

theorem compileLoop_lit (lit : Str) (h : '*' ∉ lit) : ∀ acc b, acc ++ lit ≠ [] →
    compileLoop acc b lit = [.plain (acc ++ lit)] := by
  induction lit with
  | nil =>
    intro acc b ha
    rw [List.append_nil] at ha
    rw [compileLoop, if_neg ha, List.append_nil]
  | cons c lit ih =>
    intro acc b _
    have hc : c ≠ '*' := fun e => h (by simp [e])
    rw [compileLoop, if_pos hc, ih (fun e => h (by simp [e])) _ _ (by simp)]
    simp

theorem compileLoop_stars (n : Nat) (lit : Str) (hl : lit ≠ []) (h : '*' ∉ lit) :
    compileLoop [] true (List.replicate n '*' ++ lit) = [.plain lit] := by
  induction n with
  | zero =>
    rw [List.replicate_zero, List.nil_append, compileLoop_lit lit h [] true (by simpa using hl)]; rfl
  | succ n ih =>
    rw [List.replicate_succ, List.cons_append, compileLoop, if_neg (by simp), if_pos rfl, if_pos rfl, ih]
    rfl

theorem compileExpr_suffix (n : Nat) (lit : Str) (hl : lit ≠ []) (h : '*' ∉ lit) :
    compileExpr (List.replicate n '*' ++ lit) =
      ⟨false, if n = 0 then [.plain lit] else [.star, .plain lit]⟩ := by
  have h1 : List.replicate n '*' ++ lit ≠ [] := by simp [hl]
  have h2 : List.replicate n '*' ++ lit ≠ ['*', '*'] := by
    intro e
    obtain ⟨c, hc⟩ := List.exists_mem_of_ne_nil lit hl
    have : c ∈ (['*', '*'] : Str) := by rw [← e]; simp [hc]
    have hcs : c = '*' := by simpa using this
    exact h (hcs ▸ hc)
  unfold compileExpr
  rw [if_neg h1, if_neg h2]
  cases n with
  | zero =>
    rw [List.replicate_zero, List.nil_append, compileLoop_lit lit h [] false (by simpa using hl)]; rfl
  | succ n =>
    rw [List.replicate_succ, List.cons_append, compileLoop, if_neg (by simp), if_pos rfl, if_neg (by simp),
      compileLoop_stars n lit hl h]
    simp

theorem seg_lit_iff (lit : Str) (h : '*' ∉ lit) (s : Str) : Seg lit s ↔ s = lit := by
  induction lit generalizing s with
  | nil =>
    constructor
    · intro hs; cases hs; rfl
    · rintro rfl; exact .nil
  | cons c lit ih =>
    have hc : c ≠ '*' := fun e => h (by simp [e])
    have hl : '*' ∉ lit := fun e => h (by simp [e])
    constructor
    · intro hs
      cases hs with
      | lit _ hs => rw [(ih hl _).1 hs]
      | star => exact absurd rfl hc
    · rintro rfl; exact .lit hc ((ih hl _).2 rfl)

theorem seg_suffix_iff (n : Nat) (lit : Str) (h : '*' ∉ lit) (s : Str) :
    Seg (List.replicate n '*' ++ lit) s ↔ if n = 0 then s = lit else ∃ run, s = run ++ lit := by
  induction n generalizing s with
  | zero => rw [List.replicate_zero, List.nil_append, if_pos rfl]; exact seg_lit_iff lit h s
  | succ n ih =>
    rw [if_neg (by omega), List.replicate_succ, List.cons_append]
    constructor
    · intro hs
      cases hs with
      | lit hc _ => exact absurd rfl hc
      | star run hs =>
        have := (ih _).1 hs
        split at this
        · exact ⟨run, by rw [this]⟩
        · obtain ⟨r, hr⟩ := this; exact ⟨run ++ r, by rw [hr, List.append_assoc]⟩
    · rintro ⟨run, rfl⟩
      refine .star run ((ih _).2 ?_)
      split
      · rfl
      · exact ⟨[], rfl⟩

theorem matchRunes_plain_full (lit : Str) (s : Str) : matchRunes false [.plain lit] s = true ↔ s = lit := by
  simp only [matchRunes, Bool.not_false, Bool.true_and, Bool.false_and, Bool.or_false]
  split
  · rename_i h
    simp at h
    constructor
    · intro h; cases h
    · rintro rfl; exact absurd rfl h
  · rename_i h
    simp at h
    rw [beq_iff_eq, List.take_of_length_le (by omega)]

theorem matchRunes_suffix (n : Nat) (lit s : Str) :
    matchRunes false (if n = 0 then [.plain lit] else [.star, .plain lit]) s = true ↔
      if n = 0 then s = lit else ∃ run, s = run ++ lit := by
  split
  · exact matchRunes_plain_full lit s
  · rw [matchRunes, starLoop_iff]
    constructor
    · rintro ⟨run, t, rfl, h⟩; exact ⟨run, by rw [(matchRunes_plain_full lit t).1 h]⟩
    · rintro ⟨run, rfl⟩; exact ⟨run, lit, rfl, (matchRunes_plain_full lit lit).2 rfl⟩

theorem doMatch_cons (b : Bool) (e : Expr) (es : List Expr) (segs : List Str) :
    doMatch b (e :: es) segs = if e.doubleStar then dblLoop (doMatch b es) segs
      else match segs with
        | [] => e.matchEmpty
        | s :: rest => if !matchRunes b e.elements s then false else doMatch b es rest := by
  cases segs <;> rfl

theorem doMatch_full_iff (ps : List Str) (hp : ∀ p ∈ ps, p = ['*', '*'] ∨ SuffixSeg p) : ∀ xs,
    doMatch false (ps.map compileExpr) xs = true ↔ Path ps xs := by
  induction ps with
  | nil =>
    intro xs
    rw [List.map_nil, doMatch]
    constructor
    · intro h; cases xs with
      | nil => exact .nil
      | cons => cases h
    · intro h; cases h; rfl
  | cons p ps ih =>
    intro xs
    have ih := ih fun q hq => hp q (by simp [hq])
    rw [List.map_cons, doMatch_cons]
    rcases hp p (by simp) with rfl | hs
    · rw [show (compileExpr ['*', '*']).doubleStar = true from rfl, if_pos rfl, dblLoop_iff]
      constructor
      · rintro ⟨run, t, rfl, h⟩; exact .dbl run ((ih t).1 h)
      · intro h
        cases h with
        | dbl run h => exact ⟨run, _, rfl, (ih _).2 h⟩
        | seg hne => exact absurd rfl hne
    · obtain ⟨n, lit, rfl, hl, hns⟩ := hs
      have hne : List.replicate n '*' ++ lit ≠ ['*', '*'] := by
        intro e
        obtain ⟨c, hc⟩ := List.exists_mem_of_ne_nil lit hl
        have : c ∈ (['*', '*'] : Str) := by rw [← e]; simp [hc]
        have hcs : c = '*' := by simpa using this
        exact hns (hcs ▸ hc)
      rw [compileExpr_suffix n lit hl hns, if_neg (by simp)]
      cases xs with
      | nil =>
        simp only
        constructor
        · intro h
          exfalso
          unfold Expr.matchEmpty at h
          simp only at h
          split at h <;> simp at h
        · intro h
          generalize hg : List.replicate n '*' ++ lit = w at h hne
          generalize hx : ([] : List Str) = xs at h
          cases h with
          | dbl => exact absurd rfl hne
          | seg => cases hx
      | cons x xs =>
        simp only
        have hm := matchRunes_suffix n lit x
        rw [← seg_suffix_iff n lit hns] at hm
        generalize (if n = 0 then [Elem.plain lit] else [.star, .plain lit]) = els at hm ⊢
        constructor
        · intro h
          split at h
          · cases h
          · rename_i hb
            exact .seg hne (hm.1 (by simpa using hb)) ((ih xs).1 h)
        · intro h
          generalize hg : List.replicate n '*' ++ lit = w at h hne hm
          generalize hx : x :: xs = zs at h
          cases h with
          | dbl => exact absurd rfl hne
          | seg _ hs ht =>
            cases hx
            rw [if_neg (by rw [hm.2 hs]; simp)]
            exact (ih xs).2 ht

/-- **C28** (partial) For patterns whose segments are `**`, a literal, or stars followed by a literal
    (`**/vendor/*_test.go`), `Match` is exactly the specified match, for all paths. Missing: segments with a
    star after a literal, and segments of stars only — see the counterexamples. -/
theorem C28_match_partial (pattern path : Str)
    (h : ∀ p ∈ splitPath pattern, p = ['*', '*'] ∨ SuffixSeg p) :
    match_ pattern path = true ↔ Matches pattern path := by
  rw [matches_iff]
  exact doMatch_full_iff _ h _

/-- **C28** (partial) The same for a list of patterns. -/
theorem C28_match_any_partial (patterns : List Str) (path : Str)
    (h : ∀ pattern ∈ patterns, ∀ p ∈ splitPath pattern, p = ['*', '*'] ∨ SuffixSeg p) :
    matchAny patterns path = true ↔ ∃ pattern ∈ patterns, Matches pattern path := by
  unfold matchAny
  rw [List.any_eq_true]
  constructor
  · rintro ⟨p, hp, hm⟩; exact ⟨p, hp, (C28_match_partial p path (h p hp)).1 hm⟩
  · rintro ⟨p, hp, hm⟩; exact ⟨p, hp, (C28_match_partial p path (h p hp)).2 hm⟩

/-! ### Prefix matching never misses -/

theorem seg_prefix (acc : Str) (ha : '*' ∉ acc) : ∀ {rest s : Str}, Seg (acc ++ rest) s → ∃ t, s = acc ++ t := by
  induction acc with
  | nil => intro rest s _; exact ⟨s, rfl⟩
  | cons c acc ih =>
    intro rest s h
    have hc : c ≠ '*' := fun e => ha (by simp [e])
    rw [List.cons_append] at h
    cases h with
    | lit _ h =>
      obtain ⟨t, rfl⟩ := ih (fun e => ha (by simp [e])) h
      exact ⟨t, rfl⟩
    | star => exact absurd rfl hc

theorem matchRunes_plain_prefix (lit : Str) (es : List Elem) (t : Str) :
    matchRunes true (.plain lit :: es) (lit ++ t) = true := by
  simp only [matchRunes]
  rw [if_neg (by simp), beq_iff_eq, List.take_left]

theorem seg_prefix_complete : ∀ (rest : Str),
    (∀ (acc s : Str), '*' ∉ acc → Seg (acc ++ rest) s → matchRunes true (compileLoop acc false rest) s = true) ∧
    (∀ s : Str, Seg ('*' :: rest) s → matchRunes true (.star :: compileLoop [] true rest) s = true) := by
  intro rest
  induction rest with
  | nil =>
    constructor
    · intro acc s ha hs
      rw [List.append_nil, seg_lit_iff acc ha] at hs
      subst hs
      rw [compileLoop]
      split
      · rename_i h; subst h; rfl
      · have := matchRunes_plain_prefix s [] []
        simpa using this
    · intro s hs
      rw [matchRunes, starLoop_iff]
      exact ⟨s, [], by simp, rfl⟩
  | cons c rest ih =>
    obtain ⟨ih1, ih2⟩ := ih
    have h1 : ∀ (acc s : Str), '*' ∉ acc → Seg (acc ++ c :: rest) s →
        matchRunes true (compileLoop acc false (c :: rest)) s = true := by
      intro acc s ha hs
      rw [compileLoop]
      split
      · rename_i hc
        refine ih1 (acc ++ [c]) s (by simp; exact ⟨ha, fun e => hc e.symm⟩) ?_
        simpa using hs
      · rename_i hc
        have hc : c = '*' := by simpa using hc
        subst hc
        by_cases hacc : acc = []
        · subst hacc
          rw [if_pos rfl]
          simp only [List.nil_append, Bool.false_eq_true, if_false]
          exact ih2 s hs
        · rw [if_neg hacc]
          obtain ⟨t, rfl⟩ := seg_prefix acc ha hs
          exact matchRunes_plain_prefix acc _ t
    refine ⟨h1, ?_⟩
    intro s hs
    by_cases hc : c = '*'
    · subst hc
      have he : compileLoop [] true ('*' :: rest) = compileLoop [] true rest := by
        rw [compileLoop, if_neg (by simp), if_pos rfl, if_pos rfl]; rfl
      rw [he]
      apply ih2
      generalize hg : ('*' :: '*' :: rest) = w at hs
      cases hs with
      | nil => cases hg
      | lit hne _ => cases hg; exact absurd rfl hne
      | star run hs =>
        cases hg
        generalize hg : ('*' :: rest) = w at hs
        cases hs with
        | nil => cases hg
        | lit hne _ => cases hg; exact absurd rfl hne
        | star run2 hs => cases hg; rw [← List.append_assoc]; exact .star (run ++ run2) hs
    · have he : compileLoop [] true (c :: rest) = compileLoop [] false (c :: rest) := by
        rw [compileLoop, if_pos hc, compileLoop, if_pos hc]
      rw [he, matchRunes, starLoop_iff]
      generalize hg : ('*' :: c :: rest) = w at hs
      cases hs with
      | nil => cases hg
      | lit hne _ => cases hg; exact absurd rfl hne
      | star run hs => cases hg; exact ⟨run, _, rfl, h1 [] _ (by simp) hs⟩

theorem doMatch_prefix_complete {ps xs : List Str} (h : Path ps xs) : (∀ p ∈ ps, p ≠ []) → ∀ ys,
    doMatch true (ps.map compileExpr) (xs ++ ys) = true := by
  induction h with
  | nil => intro _ ys; rfl
  | @dbl ps run xs _ ih =>
    intro hn ys
    rw [List.map_cons, doMatch_cons, show (compileExpr ['*', '*']).doubleStar = true from rfl, if_pos rfl,
      dblLoop_iff]
    exact ⟨run, xs ++ ys, by simp, ih (fun p hp => hn p (by simp [hp])) ys⟩
  | @seg p ps x xs hne hs _ ih =>
    intro hn ys
    have hp : p ≠ [] := hn p (by simp)
    rw [List.map_cons, doMatch_cons]
    have he : compileExpr p = ⟨false, compileLoop [] false p⟩ := by
      unfold compileExpr; rw [if_neg hp, if_neg hne]
    rw [he, if_neg (by simp)]
    simp only [List.cons_append]
    rw [if_neg (by rw [(seg_prefix_complete p).1 [] x (by simp) hs]; simp)]
    exact ih (fun p hp => hn p (by simp [hp])) ys

/-- **C28** (prefix, one direction, all patterns and paths) Whenever a pattern matches a leading run of a path's
    segments — in particular when it matches the path — `MatchPrefix` says so: an excluded directory is always
    excluded with everything below it. -/
theorem C28_prefix_complete_partial (pattern path : Str) (h : MatchesPrefix pattern path) :
    matchPrefix pattern path = true := by
  rw [matchesPrefix_iff] at h
  obtain ⟨xs, ys, h1, h2⟩ := h
  unfold matchPrefix compilePattern
  rw [h1]
  exact doMatch_prefix_complete h2 (split_nonempty pattern) ys

/-- **C28** (partial) The same for a list of patterns: what one of them excludes is excluded. -/
theorem C28_any_prefix_partial (patterns : List Str) (path : Str) :
    ((∃ pattern ∈ patterns, MatchesPrefix pattern path) → matchAnyPrefix patterns path = true) ∧
    (matchAnyPrefix patterns path = true ↔ ∃ pattern ∈ patterns, matchPrefix pattern path = true) := by
  have h : matchAnyPrefix patterns path = true ↔ ∃ pattern ∈ patterns, matchPrefix pattern path = true := List.any_eq_true
  exact ⟨fun ⟨p, hp, hm⟩ => h.2 ⟨p, hp, C28_prefix_complete_partial p path hm⟩, h⟩

example : matchAnyPrefix ["x".toList, "a/b".toList] "a/b/c".toList = true ∧ matchAnyPrefix [] "a".toList = false := by decide +kernel

/-! ### Counterexamples -/

theorem not_star_after {s : Str} (h : matchRunes false [.plain "test".toList, .star] s = true) :
    s = "test".toList := by
  simp only [matchRunes] at h
  split at h
  · cases h
  · rename_i hc
    simp at hc
    rw [beq_iff_eq, List.take_of_length_le (by simp; omega)] at h
    exact h

/-- `test*` spells `test_x`, `Match` says no; `a*b` does not spell `a`, `Match` says yes; `a/*/b` does not spell
    `a`, `Match` says yes. (pattern.go:187-203 compares a literal with the whole rest and ignores the elements
    after it; pattern.go:158-160 ignores the expressions after the first when the path is used up.) -/
theorem C28_counterexample :
    (match_ "test*".toList "test_x".toList = false ∧ Matches "test*".toList "test_x".toList) ∧
    (match_ "a*b".toList "a".toList = true ∧ ¬ Matches "a*b".toList "a".toList) ∧
    (match_ "a/*/b".toList "a".toList = true ∧ ¬ Matches "a/*/b".toList "a".toList) := by
  refine ⟨⟨by decide, ?_⟩, ⟨by decide, ?_⟩, ⟨by decide, ?_⟩⟩
  · rw [matches_iff]
    have h1 : splitPath "test*".toList = ["test*".toList] := by decide
    have h2 : splitPath "test_x".toList = ["test_x".toList] := by decide
    rw [h1, h2]
    refine .seg (by decide) ?_ .nil
    exact .lit (by decide) (.lit (by decide) (.lit (by decide) (.lit (by decide) (.star "_x".toList (s := []) .nil))))
  · rw [matches_iff]
    have h1 : splitPath "a*b".toList = [['a', '*', 'b']] := by decide
    have h2 : splitPath "a".toList = [['a']] := by decide
    rw [h1, h2]
    intro h
    cases h with
    | seg _ hs _ =>
      cases hs with
      | lit _ hs =>
        generalize hx : ([] : Str) = x at hs
        cases hs with
        | lit hne => exact absurd rfl hne
        | star run hs =>
          rw [eq_comm, List.append_eq_nil_iff] at hx
          rw [hx.2] at hs
          cases hs
  · rw [matches_iff]
    have h1 : splitPath "a/*/b".toList = [['a'], ['*'], ['b']] := by decide
    have h2 : splitPath "a".toList = [['a']] := by decide
    rw [h1, h2]
    intro h
    cases h with
    | seg _ _ h => cases h

/-- `MatchPrefix` also accepts paths none of whose leading runs match: `a/b` against `ax/bx`. -/
theorem C28_prefix_counterexample :
    matchPrefix "a/b".toList "ax/bx".toList = true ∧ ¬ MatchesPrefix "a/b".toList "ax/bx".toList := by
  refine ⟨by decide, ?_⟩
  rw [matchesPrefix_iff]
  have h1 : splitPath "a/b".toList = [['a'], ['b']] := by decide
  have h2 : splitPath "ax/bx".toList = [['a', 'x'], ['b', 'x']] := by decide
  rw [h1, h2]
  rintro ⟨xs, ys, h, hp⟩
  cases hp with
  | seg _ hs _ =>
    rw [List.cons_append, List.cons.injEq] at h
    have := (seg_lit_iff ['a'] (by decide) _).1 hs
    rw [this] at h
    exact absurd h.1 (by decide)

/-! Non-vacuity. -/
example : ∀ p ∈ splitPath "**/vendor/*_test.go".toList, p = ['*', '*'] ∨ SuffixSeg p := by
  have h : splitPath "**/vendor/*_test.go".toList = [['*', '*'], "vendor".toList, "*_test.go".toList] := by decide
  rw [h]
  intro p hp
  simp only [List.mem_cons, List.not_mem_nil, or_false] at hp
  rcases hp with rfl | rfl | rfl
  · exact Or.inl rfl
  · exact Or.inr ⟨0, "vendor".toList, by decide, by decide, by decide⟩
  · exact Or.inr ⟨1, "_test.go".toList, by decide, by decide, by decide⟩
example : match_ "**/vendor/*_test.go".toList "a/b/vendor/x_test.go".toList = true := by decide
example : match_ "**/vendor/*_test.go".toList "a/b/vendor/c/x_test.go".toList = false := by decide
example : MatchesPrefix "a/*b".toList "/a//xb/c/d".toList := by
  rw [matchesPrefix_iff]
  refine ⟨[['a'], ['x', 'b']], [['c'], ['d']], by decide, ?_⟩
  have : splitPath "a/*b".toList = [['a'], ['*', 'b']] := by decide
  rw [this]
  exact .seg (by decide) (.lit (by decide) .nil) (.seg (by decide) (.star ['x'] (.lit (by decide) .nil)) .nil)

end Verif.Support.Pattern
