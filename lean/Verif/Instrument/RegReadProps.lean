/-
Lemmas: texts whose brackets match, and how they are split.
-/
import Verif.Instrument.RegReadSpec
import Verif.Instrument.CoverNotesProps

namespace Verif.Instrument.RegRead
open Spec
open Verif.Instrument.CoverNotes (quote escape unquote unquote_quote hex hexDigit escape_self)

/-! ### Scanning -/

/-- The reader behind a text; `none` if a separator outside of brackets and strings was met. -/
def scan (sep : Option Char) : Nat → Mode → Str → Option (Nat × Mode)
  | d, m, [] => some (d, m)
  | d, m, c :: r => if sep = some c ∧ d = 0 ∧ m = .code then none else (step d m c).bind fun x => scan sep x.1 x.2 r

theorem scan_append (sep : Option Char) (a b : Str) : ∀ d m, scan sep d m (a ++ b) = (scan sep d m a).bind fun x => scan sep x.1 x.2 b := by
  induction a with
  | nil => intro d m; rfl
  | cons c a ih =>
    intro d m
    rw [List.cons_append, scan, scan]
    split
    · rfl
    · cases step d m c with
      | none => rfl
      | some x => exact ih x.1 x.2

theorem split_scan {sep : Char} {p : Str} (r : Str) : ∀ {d m d' m'} (cur : Str), scan (some sep) d m p = some (d', m') →
    split sep d m cur (p ++ r) = split sep d' m' (p.reverse ++ cur) r := by
  induction p with
  | nil => intro d m d' m' cur h; cases h; rfl
  | cons c p ih =>
    intro d m d' m' cur h
    rw [scan] at h
    rw [List.cons_append, split]
    by_cases hc : c = sep ∧ d = 0 ∧ m = .code
    · rw [if_pos ⟨congrArg some hc.1.symm, hc.2⟩] at h; cases h
    · rw [if_neg hc]
      rw [if_neg (fun hx => hc ⟨(Option.some.inj hx.1).symm, hx.2⟩)] at h
      cases hs : step d m c with
      | none => rw [hs] at h; cases h
      | some x =>
        rw [hs] at h
        rw [Option.bind_some, ih (c :: cur) h, List.reverse_cons, List.append_assoc]
        rfl

/-- At any depth the text leaves the reader where it was, without a separator at depth 0. -/
def Good (sep : Option Char) (p : Str) : Prop :=
  ∀ d sep', (d = 0 → sep' = sep ∨ sep' = none) → scan sep' d .code p = some (d, .code)

theorem good_nil {sep} : Good sep [] := fun _ _ _ => rfl

theorem good_app {sep} {a b : Str} (ha : Good sep a) (hb : Good sep b) : Good sep (a ++ b) := by
  intro d s h
  rw [scan_append, ha d s h]
  exact hb d s h

theorem good_none {sep} {a : Str} (ha : Good sep a) : Good none a := by
  intro d s h
  exact ha d s fun hd => (h hd).elim .inr .inr

/-- A character that is no bracket and no quote. -/
def plain (c : Char) : Bool :=
  c ≠ '"' && c ≠ '(' && c ≠ '[' && c ≠ '{' && c ≠ ')' && c ≠ ']' && c ≠ '}'

theorem step_plain {c : Char} (h : plain c = true) (d : Nat) : step d .code c = some (d, .code) := by
  unfold plain at h
  simp only [Bool.and_eq_true, decide_eq_true_eq] at h
  obtain ⟨⟨⟨⟨⟨⟨h1, h2⟩, h3⟩, h4⟩, h5⟩, h6⟩, h7⟩ := h
  unfold step
  simp only
  rw [if_neg h1, if_neg (by simp only [not_or]; exact ⟨h2, h3, h4⟩), if_neg (by simp only [not_or]; exact ⟨h5, h6, h7⟩)]

theorem good_cons {sep : Option Char} {c : Char} {a : Str} (hc : plain c = true) (hs : sep ≠ some c) (ha : Good sep a) : Good sep (c :: a) := by
  intro d s h
  rw [scan, step_plain hc, if_neg]
  · exact ha d s h
  · rintro ⟨h1, h2, _⟩
    rcases h h2 with h | h
    · exact hs (h ▸ h1)
    · rw [h] at h1; cases h1

theorem good_word {sep : Option Char} {a : Str} (h : ∀ c ∈ a, plain c = true ∧ sep ≠ some c) : Good sep a := by
  induction a with
  | nil => exact good_nil
  | cons c a ih => exact good_cons (h c List.mem_cons_self).1 (h c List.mem_cons_self).2 (ih fun x hx => h x (List.mem_cons_of_mem _ hx))

theorem good_sep {sep : Option Char} {a : Str} (h : Good none a) (hs : ∀ c, sep = some c → c ∉ a) : Good sep a := by
  have key : ∀ (a : Str) (d : Nat) (m : Mode) (s : Option Char), (∀ c, s = some c → c ∉ a) → scan s d m a = scan none d m a := by
    intro a
    induction a with
    | nil => intros; rfl
    | cons c a ih =>
      intro d m s hs
      rw [scan, scan, if_neg (fun hx => hs c hx.1 List.mem_cons_self), if_neg (by rintro ⟨h, _⟩; cases h)]
      cases step d m c with
      | none => rfl
      | some x => exact ih x.1 x.2 s fun e he hm => hs e he (List.mem_cons_of_mem _ hm)
  intro d s hd
  by_cases h0 : d = 0
  · rcases hd h0 with rfl | rfl
    · rw [key a d _ _ hs]; exact h d none fun _ => .inl rfl
    · exact h d none fun _ => .inl rfl
  · exact h d s fun hz => absurd hz h0

theorem good_bracket {sep : Option Char} {o c : Char} {a : Str} (ho : (o = '(' ∧ c = ')') ∨ (o = '[' ∧ c = ']') ∨ (o = '{' ∧ c = '}'))
    (hs : sep ≠ some o) (h : Good none a) : Good sep (o :: (a ++ [c])) := by
  intro d s hd
  have h1 : step d .code o = some (d + 1, .code) := by
    rcases ho with ⟨rfl, _⟩ | ⟨rfl, _⟩ | ⟨rfl, _⟩ <;> rfl
  have h2 : step (d + 1) .code c = some (d, .code) := by
    rcases ho with ⟨_, rfl⟩ | ⟨_, rfl⟩ | ⟨_, rfl⟩ <;> rfl
  rw [scan, h1, if_neg, Option.bind_some, scan_append, h (d + 1) s (by intro hz; cases hz), Option.bind_some, scan, h2, if_neg]
  · rfl
  · rintro ⟨_, hz, _⟩; cases hz
  · rintro ⟨h1, h2, _⟩
    rcases hd h2 with h | h
    · exact hs (h ▸ h1)
    · rw [h] at h1; cases h1

/-! ### Quoted texts -/

/-- Inside of a string: no quote and no backslash. -/
theorem scan_str {sep : Option Char} {d : Nat} {a : Str} (h : ∀ c ∈ a, c ≠ '"' ∧ c ≠ '\\') : scan sep d .str a = some (d, .str) := by
  induction a with
  | nil => rfl
  | cons c a ih =>
    have hc := h c List.mem_cons_self
    rw [scan, if_neg (by rintro ⟨_, _, h⟩; cases h), step, if_neg hc.2, if_neg hc.1]
    exact ih fun x hx => h x (List.mem_cons_of_mem _ hx)

theorem hexDigit_plain : ∀ n, n < 16 → hexDigit n ≠ '"' ∧ hexDigit n ≠ '\\' := by decide

theorem hex_plain (k n : Nat) : ∀ c ∈ hex k n, c ≠ '"' ∧ c ≠ '\\' := by
  induction k with
  | zero => intro c h; cases h
  | succ k ih =>
    intro c h
    rcases List.mem_cons.1 h with rfl | h
    · exact hexDigit_plain _ (Nat.mod_lt _ (by decide))
    · exact ih c h

theorem escape_cases (pr : Char → Bool) (c : Char) : (escape pr c = [c] ∧ c ≠ '"' ∧ c ≠ '\\') ∨
    ∃ e r, escape pr c = '\\' :: e :: r ∧ ∀ x ∈ r, x ≠ '"' ∧ x ≠ '\\' := by
  unfold escape
  by_cases h0 : c = '"' ∨ c = '\\'
  · rw [if_pos h0]; exact .inr ⟨c, [], rfl, by simp⟩
  · rw [if_neg h0]
    by_cases h1 : pr c = true
    · rw [if_pos h1]; exact .inl ⟨rfl, fun h => h0 (.inl h), fun h => h0 (.inr h)⟩
    · rw [if_neg h1]
      right
      repeat' split
      all_goals first
        | exact ⟨_, [], rfl, by simp⟩
        | exact ⟨_, _, rfl, hex_plain _ _⟩

theorem scan_escape {sep : Option Char} {d : Nat} (pr : Char → Bool) (c : Char) : scan sep d .str (escape pr c) = some (d, .str) := by
  rcases escape_cases pr c with ⟨h, h1, h2⟩ | ⟨e, r, h, hr⟩
  · rw [h]; exact scan_str (by simp [h1, h2])
  · rw [h, scan, if_neg (by rintro ⟨_, _, h⟩; cases h)]
    show scan sep d .esc (e :: r) = _
    rw [scan, if_neg (by rintro ⟨_, _, h⟩; cases h)]
    exact scan_str hr

theorem scan_escapes {sep : Option Char} {d : Nat} (pr : Char → Bool) (s : Str) : scan sep d .str (s.flatMap (escape pr)) = some (d, .str) := by
  induction s with
  | nil => rfl
  | cons c s ih => rw [List.flatMap_cons, scan_append, scan_escape, Option.bind_some, ih]

theorem good_quote {sep : Option Char} (hs : sep ≠ some '"') (pr : Char → Bool) (s : Str) : Good sep (quote pr s) := by
  intro d s' hd
  rw [quote, List.cons_append, scan, if_neg]
  · show scan s' d .str _ = _
    rw [scan_append, scan_escapes, Option.bind_some]
    rw [scan, if_neg (by rintro ⟨_, _, h⟩; cases h)]
    rfl
  · rintro ⟨h1, h2, _⟩
    rcases hd h2 with h | h
    · exact hs (h ▸ h1)
    · rw [h] at h1; cases h1

/-! ### Parts -/

theorem split_cons {sep : Char} {p : Str} (h : Good (some sep) p) (r : Str) :
    split sep 0 .code [] (p ++ sep :: r) = (split sep 0 .code [] r).map (p :: ·) := by
  rw [split_scan _ _ (h 0 (some sep) fun _ => .inl rfl), split, if_pos ⟨rfl, rfl, rfl⟩]
  simp

theorem split_one {sep : Char} {p : Str} (h : Good (some sep) p) : split sep 0 .code [] p = some [p] := by
  have := split_scan (p := p) [] (sep := sep) [] (h 0 (some sep) fun _ => .inl rfl)
  rw [List.append_nil, List.append_nil] at this
  rw [this, split, if_pos ⟨rfl, rfl⟩, List.reverse_reverse]

/-- The text is read as these parts, also when more follows behind a separator. -/
def Reads (sep : Char) (t : Str) (ps : List Str) : Prop :=
  parts sep t = some ps ∧ ∀ r, parts sep (t ++ sep :: r) = (parts sep r).map (ps ++ ·)

theorem reads_nil (sep : Char) : Reads sep [] [] := by
  refine ⟨rfl, fun r => ?_⟩
  rw [List.nil_append, parts, split, if_pos ⟨rfl, rfl, rfl⟩, parts]
  cases split sep 0 .code [] r <;> simp

theorem reads_one {sep : Char} {p : Str} (h : Good (some sep) p) (hn : p ≠ []) : Reads sep p [p] := by
  constructor
  · rw [parts, split_one h]; simp [hn]
  · intro r
    rw [parts, split_cons h, parts]
    cases split sep 0 .code [] r <;> simp [hn]

theorem reads_app {sep : Char} {a b : Str} {ps qs : List Str} (ha : Reads sep a ps) (hb : Reads sep b qs) : Reads sep (a ++ sep :: b) (ps ++ qs) := by
  constructor
  · rw [ha.2, hb.1]; rfl
  · intro r
    rw [List.append_assoc, List.cons_append, ha.2, hb.2]
    cases parts sep r <;> simp

theorem reads_end {sep : Char} {a : Str} {ps : List Str} (ha : Reads sep a ps) : parts sep (a ++ [sep]) = some ps := by
  rw [ha.2, show parts sep [] = some [] from rfl, Option.map_some, List.append_nil]

/-! ### Joined statements -/

open RegCode (join joinFrom needsSep commas semis)

/-- The text ends in something that a separator may follow. -/
def Ends (s : Str) : Prop := s ≠ [] → needsSep s = true

theorem ends_last {a : Str} {c : Char} (h : c ≠ ';' ∧ c ≠ '\n') : Ends (a ++ [c]) := by
  intro _
  unfold needsSep
  simp [h.1, h.2]

theorem joinFrom_nonempty (l : List Str) (last : Str) : joinFrom last l = joinFrom last (l.filter (· ≠ [])) := by
  induction l generalizing last with
  | nil => rfl
  | cons s l ih =>
    by_cases h : s = []
    · subst h; rw [joinFrom, if_pos rfl, ih]; simp
    · rw [List.filter_cons, if_pos (by simpa using h), joinFrom, joinFrom, if_neg h, if_neg h, ih]

theorem join_cons {s : Str} {l : List Str} (hs : s ≠ []) (he : Ends s) : join (s :: l) = if join l = [] then s else s ++ ';' :: join l := by
  have key : ∀ l : List Str, joinFrom s l = if joinFrom [] l = [] then [] else ';' :: joinFrom [] l := by
    intro l
    induction l with
    | nil => rfl
    | cons x l ih =>
      rw [joinFrom, joinFrom]
      by_cases hx : x = []
      · rw [if_pos hx, if_pos hx, ih]
      · rw [if_neg hx, if_neg hx, he hs]
        rw [show needsSep [] = false from rfl]
        simp [hx]
  unfold join
  rw [joinFrom, if_neg hs, show needsSep [] = false from rfl, key l]
  by_cases h : joinFrom [] l = []
  · rw [if_pos h, if_pos h]; simp
  · rw [if_neg h, if_neg h]; simp

theorem join_nil_cons (l : List Str) : join ([] :: l) = join l := by rw [join, joinFrom, if_pos rfl, join]

/-- Statements joined are read as the statements. -/
theorem reads_join : ∀ (l : List (Str × List Str)), (∀ x ∈ l, Ends x.1 ∧ Reads ';' x.1 x.2) →
    Reads ';' (join (l.map (·.1))) (l.map (·.2)).flatten := by
  intro l
  induction l with
  | nil => intro _; exact reads_nil _
  | cons x l ih =>
    intro h
    obtain ⟨h1, h2⟩ := h x List.mem_cons_self
    have ih := ih fun y hy => h y (List.mem_cons_of_mem _ hy)
    rw [List.map_cons, List.map_cons, List.flatten_cons]
    by_cases hx : x.1 = []
    · rw [hx, join_nil_cons]
      rw [hx] at h2
      have : x.2 = [] := by
        have := h2.1.symm.trans (show parts ';' [] = some [] from rfl)
        exact Option.some.inj this
      rw [this]; exact ih
    · rw [join_cons hx h1]
      split
      · rename_i hj
        rw [hj] at ih
        have : (l.map (·.2)).flatten = [] := Option.some.inj (ih.1.symm.trans (show parts ';' [] = some [] from rfl))
        rw [this, List.append_nil]; exact h2
      · exact reads_app h2 ih

theorem ends_join : ∀ (l : List Str), (∀ x ∈ l, Ends x) → Ends (join l) := by
  intro l
  induction l with
  | nil => intro _ h; exact absurd rfl h
  | cons x l ih =>
    intro h
    have ih := ih fun y hy => h y (List.mem_cons_of_mem _ hy)
    by_cases hx : x = []
    · rw [hx, join_nil_cons]; exact ih
    · rw [join_cons hx (h x List.mem_cons_self)]
      split
      · exact h x List.mem_cons_self
      · rename_i hj
        intro _
        have := ih hj
        unfold needsSep at this ⊢
        rw [List.getLast?_append, List.getLast?_cons]
        revert this
        cases hl : (join l).getLast? with
        | none => rw [List.getLast?_eq_none_iff] at hl; exact absurd hl hj
        | some c => simp

theorem good_join : ∀ (l : List Str), (∀ x ∈ l, Ends x ∧ Good none x) → Good none (join l) := by
  intro l
  induction l with
  | nil => intro _; exact good_nil
  | cons x l ih =>
    intro h
    have ih := ih fun y hy => h y (List.mem_cons_of_mem _ hy)
    by_cases hx : x = []
    · rw [hx, join_nil_cons]; exact ih
    · rw [join_cons hx (h x List.mem_cons_self).1]
      split
      · exact (h x List.mem_cons_self).2
      · exact good_app (h x List.mem_cons_self).2 (good_cons (by decide) (by decide) ih)

theorem good_commas : ∀ (l : List Str), (∀ x ∈ l, Good none x) → Good none (commas l) := by
  intro l
  induction l with
  | nil => intro _; exact good_nil
  | cons x l ih =>
    intro h
    cases l with
    | nil => exact h x List.mem_cons_self
    | cons y l =>
      rw [commas]
      · exact good_app (h x List.mem_cons_self) (good_cons (by decide) (by decide) (ih fun z hz => h z (List.mem_cons_of_mem _ hz)))
      · intro hh; cases hh

theorem parts_commas : ∀ (l : List Str), (∀ x ∈ l, Good (some ',') x ∧ x ≠ []) → Reads ',' (commas l) l := by
  intro l
  induction l with
  | nil => intro _; exact reads_nil _
  | cons x l ih =>
    intro h
    have hx := reads_one (h x List.mem_cons_self).1 (h x List.mem_cons_self).2
    cases l with
    | nil => exact hx
    | cons y l =>
      rw [commas]
      · exact reads_app hx (ih fun z hz => h z (List.mem_cons_of_mem _ hz))
      · intro hh; cases hh

end Verif.Instrument.RegRead
