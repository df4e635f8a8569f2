import Verif.Cmd.TraceViewMain
import Verif.Runtime.TraceJsonMain
/-
C77: the texts of the page and of the file.
-/
namespace Verif.Cmd.TraceView
open Verif.Runtime.TraceJson Spec

/-! ### A value in a longer text -/

theorem run_open {t : Str} (s : Str) (h : Stops t ∨ s.dropWhile numeric ≠ []) :
    (s ++ t).takeWhile numeric = s.takeWhile numeric ∧ (s ++ t).dropWhile numeric = s.dropWhile numeric ++ t := by
  rcases h with h | h
  · exact run_append h s
  induction s with
  | nil => exact absurd rfl h
  | cons c s ih =>
    cases hc : numeric c with
    | true =>
      rw [List.dropWhile_cons, hc] at h
      have := ih h
      simp [hc, this.1, this.2]
    | false => simp [hc]

theorem ne_of_skip {r : Str} {c : Ch} {u : Str} (h : skip r = c :: u) : r ≠ [] := by
  intro e
  rw [e] at h
  cases h

theorem local_open (t : Str) : ∀ n : Nat,
    (∀ s v r, value n s = some (v, r) → Stops t ∨ r ≠ [] ∨ (skip s).head? = some (.rune '{') → value n (s ++ t) = some (v, r ++ t)) ∧
    (∀ s v r, members n s = some (v, r) → members n (s ++ t) = some (v, r ++ t)) ∧
    (∀ s v r, elements n s = some (v, r) → elements n (s ++ t) = some (v, r ++ t)) := by
  intro n
  induction n with
  | zero => exact ⟨fun _ _ _ h _ => (by rw [value] at h; cases h), fun _ _ _ h => (by rw [members] at h; cases h), fun _ _ _ h => (by rw [elements] at h; cases h)⟩
  | succ n ih =>
    obtain ⟨ihv, ihm, ihe⟩ := ih
    refine ⟨?_, ?_, ?_⟩
    · intro s v r h hor
      rw [value] at h ⊢
      cases hs : skip s with
      | nil => rw [hs] at h; cases h
      | cons c u =>
        rw [hs] at h
        rw [skip_append t hs]
        simp only at h ⊢
        by_cases h1 : c = .rune '"'
        · rw [if_pos h1] at h ⊢
          obtain ⟨⟨k', r'⟩, g1, g2⟩ := Option.map_eq_some_iff.mp h
          rw [string_append t _ _ _ g1]
          simp only [Prod.mk.injEq] at g2
          rw [← g2.1, ← g2.2]; rfl
        rw [if_neg h1] at h ⊢
        by_cases h2 : c = .rune '{'
        · rw [if_pos h2] at h ⊢
          by_cases h3 : (skip u).head? = some (.rune '}')
          · rw [if_pos h3] at h
            obtain ⟨x, hx⟩ : ∃ x, skip u = .rune '}' :: x := by
              cases hu : skip u with
              | nil => rw [hu] at h3; cases h3
              | cons a b => rw [hu] at h3; injection h3 with h3; exact ⟨b, by rw [h3]⟩
            rw [skip_append t hx]
            rw [hx] at h
            cases h; rfl
          · rw [if_neg h3] at h
            rw [if_neg (fun e => h3 (by
              cases hu : skip u with
              | nil =>
                exfalso
                cases hm : members n u with
                | none => rw [hm] at h; cases h
                | some x =>
                  cases n with
                  | zero => rw [members] at hm; cases hm
                  | succ n => rw [members, hu] at hm; cases hm
              | cons a b => rw [skip_append t hu] at e; exact e))]
            obtain ⟨⟨k', r'⟩, g1, g2⟩ := Option.map_eq_some_iff.mp h
            rw [ihm _ _ _ g1]
            simp only [Prod.mk.injEq] at g2
            rw [← g2.1, ← g2.2]; rfl
        rw [if_neg h2] at h ⊢
        by_cases h4 : c = .rune '['
        · rw [if_pos h4] at h ⊢
          by_cases h3 : (skip u).head? = some (.rune ']')
          · rw [if_pos h3] at h
            obtain ⟨x, hx⟩ : ∃ x, skip u = .rune ']' :: x := by
              cases hu : skip u with
              | nil => rw [hu] at h3; cases h3
              | cons a b => rw [hu] at h3; injection h3 with h3; exact ⟨b, by rw [h3]⟩
            rw [skip_append t hx]
            rw [hx] at h
            cases h; rfl
          · rw [if_neg h3] at h
            rw [if_neg (fun e => h3 (by
              cases hu : skip u with
              | nil =>
                exfalso
                cases hm : elements n u with
                | none => rw [hm] at h; cases h
                | some x =>
                  cases n with
                  | zero => rw [elements] at hm; cases hm
                  | succ n =>
                    rw [elements] at hm
                    cases n with
                    | zero => rw [value] at hm; cases hm
                    | succ n => rw [value, hu] at hm; cases hm
              | cons a b => rw [skip_append t hu] at e; exact e))]
            obtain ⟨⟨k', r'⟩, g1, g2⟩ := Option.map_eq_some_iff.mp h
            rw [ihe _ _ _ g1]
            simp only [Prod.mk.injEq] at g2
            rw [← g2.1, ← g2.2]; rfl
        rw [if_neg h4] at h ⊢
        by_cases h5 : c = .rune 't'
        · rw [if_pos h5] at h ⊢; exact keyword_append t h
        rw [if_neg h5] at h ⊢
        by_cases h6 : c = .rune 'f'
        · rw [if_pos h6] at h ⊢; exact keyword_append t h
        rw [if_neg h6] at h ⊢
        by_cases h7 : c = .rune 'n'
        · rw [if_pos h7] at h ⊢; exact keyword_append t h
        rw [if_neg h7] at h ⊢
        by_cases h8 : numeric c = true
        · rw [if_pos h8] at h ⊢
          have hr : r = (c :: u).dropWhile numeric := by injection h with h; exact (congrArg Prod.snd h).symm
          have := run_open (t := t) (c :: u) (by
            rcases hor with hor | hor | hor
            · exact Or.inl hor
            · exact Or.inr (hr ▸ hor)
            · rw [hs] at hor; injection hor with hor; exact absurd hor h2)
          rw [List.cons_append] at this
          rw [this.1, this.2]
          cases h; rfl
        · rw [if_neg h8] at h; cases h
    · intro s v r h
      rw [members] at h ⊢
      cases hs : skip s with
      | nil => rw [hs] at h; cases h
      | cons c u =>
        rw [hs] at h
        rw [skip_append t hs]
        simp only at h ⊢
        by_cases h1 : c = .rune '"'
        · rw [if_pos h1] at h ⊢
          obtain ⟨⟨k, r1⟩, g1, g2⟩ := Option.bind_eq_some_iff.mp h
          rw [string_append t _ _ _ g1, Option.bind_some]
          simp only at g2 ⊢
          cases h2 : skip r1 with
          | nil => rw [h2] at g2; cases g2
          | cons d r2 =>
            rw [h2] at g2
            rw [skip_append t h2]
            simp only at g2 ⊢
            by_cases h3 : d = .rune ':'
            · rw [if_pos h3] at g2 ⊢
              obtain ⟨⟨w, r3⟩, g3, g4⟩ := Option.bind_eq_some_iff.mp g2
              simp only at g4
              cases h4 : skip r3 with
              | nil => rw [h4] at g4; cases g4
              | cons e r4 =>
                rw [ihv _ _ _ g3 (Or.inr (Or.inl (ne_of_skip h4))), Option.bind_some]
                simp only
                rw [h4] at g4
                rw [skip_append t h4]
                simp only at g4 ⊢
                by_cases h5 : e = .rune ','
                · rw [if_pos h5] at g4 ⊢
                  obtain ⟨⟨k', r'⟩, g5, g6⟩ := Option.map_eq_some_iff.mp g4
                  rw [ihm _ _ _ g5]
                  simp only [Prod.mk.injEq] at g6
                  rw [← g6.1, ← g6.2]; rfl
                · rw [if_neg h5] at g4 ⊢
                  by_cases h6 : e = .rune '}'
                  · rw [if_pos h6] at g4 ⊢; cases g4; rfl
                  · rw [if_neg h6] at g4; cases g4
            · rw [if_neg h3] at g2; cases g2
        · rw [if_neg h1] at h; cases h
    · intro s v r h
      rw [elements] at h ⊢
      obtain ⟨⟨w, r3⟩, g3, g4⟩ := Option.bind_eq_some_iff.mp h
      simp only at g4
      cases h4 : skip r3 with
      | nil => rw [h4] at g4; cases g4
      | cons e r4 =>
        rw [ihv _ _ _ g3 (Or.inr (Or.inl (ne_of_skip h4))), Option.bind_some]
        simp only
        rw [h4] at g4
        rw [skip_append t h4]
        simp only at g4 ⊢
        by_cases h5 : e = .rune ','
        · rw [if_pos h5] at g4 ⊢
          obtain ⟨⟨k', r'⟩, g5, g6⟩ := Option.map_eq_some_iff.mp g4
          rw [ihe _ _ _ g5]
          simp only [Prod.mk.injEq] at g6
          rw [← g6.1, ← g6.2]; rfl
        · rw [if_neg h5] at g4 ⊢
          by_cases h6 : e = .rune ']'
          · rw [if_pos h6] at g4 ⊢; cases g4; rfl
          · rw [if_neg h6] at g4; cases g4

/-! ### Strings -/

theorem escCh_hex {c : Char} (h1 : c ≠ '"') (h2 : c ≠ '\\') (h3 : c ≠ '\x08') (h4 : c ≠ '\x0c') (h5 : c ≠ '\n') (h6 : c ≠ '\r') (h7 : c ≠ '\t') :
    escCh (.rune c) = if c.toNat < 32 ∨ c = '<' ∨ c = '>' ∨ c = '&' ∨ c.toNat = 0x2028 ∨ c.toNat = 0x2029 then lit "\\u" ++ hex 4 c.toNat else [.rune c] := by
  rw [escCh, if_neg h1, if_neg h2, if_neg h3, if_neg h4, if_neg h5, if_neg h6, if_neg h7]

theorem string_escCh (c : Char) (u : Str) : string (escCh (.rune c) ++ u) = (string u).map fun p => (.rune c :: p.1, p.2) := by
  by_cases h1 : c = '"'
  · subst h1; exact string_escape '"' u (by decide)
  by_cases h2 : c = '\\'
  · subst h2; exact string_escape '\\' u (by decide)
  by_cases h3 : c = '\x08'
  · subst h3; exact string_escape 'b' u (by decide)
  by_cases h4 : c = '\x0c'
  · subst h4; exact string_escape 'f' u (by decide)
  by_cases h5 : c = '\n'
  · subst h5; exact string_escape 'n' u (by decide)
  by_cases h6 : c = '\r'
  · subst h6; exact string_escape 'r' u (by decide)
  by_cases h7 : c = '\t'
  · subst h7; exact string_escape 't' u (by decide)
  rw [escCh_hex h1 h2 h3 h4 h5 h6 h7]
  split
  · rename_i h
    have hlt : c.toNat < 65536 := by
      rcases h with h | h | h | h | h | h
      · omega
      · subst h; decide
      · subst h; decide
      · subst h; decide
      · omega
      · omega
    rw [hex_four]
    show string (.rune '\\' :: .rune 'u' :: _ :: _ :: _ :: _ :: u) = _
    rw [string.eq_def]
    simp only
    rw [if_neg (by decide), if_pos trivial, if_pos trivial, hex4_four hlt, Option.bind_some, ofCode_toNat]
  · rename_i h
    exact string_plain c u h1 h2 fun hl => h (Or.inl hl)

theorem string_enc (rest : Str) : ∀ s : Str, Runes s → string (s.flatMap escCh ++ .rune '"' :: rest) = some (s, rest) := by
  intro s
  induction s with
  | nil => intro _; exact string_end rest
  | cons x s ih =>
    intro h
    obtain ⟨c, rfl⟩ := h x List.mem_cons_self
    rw [List.flatMap_cons, List.append_assoc, string_escCh, ih fun y hy => h y (List.mem_cons_of_mem _ hy)]
    rfl

theorem encStr_append (s rest : Str) : encStr s ++ rest = .rune '"' :: (s.flatMap escCh ++ .rune '"' :: rest) := by
  simp [encStr]

/-! ### Values -/

theorem value_str {s : Str} (h : Runes s) (n : Nat) (rest : Str) : value (n + 1) (encStr s ++ rest) = some (.str s, rest) := by
  rw [encStr_append, value, skip_cons _ (by decide)]
  simp only
  rw [if_pos trivial, string_enc rest s h]
  rfl

theorem value_word (w : String) (v : Json) (c : Char) (t : Str) (hw : lit w = .rune c :: t) (hc : c = 't' ∧ w = "true" ∧ v = .bool true ∨ c = 'f' ∧ w = "false" ∧ v = .bool false ∨ c = 'n' ∧ w = "null" ∧ v = .null)
    (n : Nat) (rest : Str) : value (n + 1) (lit w ++ rest) = some (v, rest) := by
  have hk : keyword w v (lit w ++ rest) = some (v, rest) := by
    unfold keyword
    rw [if_pos (List.isPrefixOf_iff_prefix.mpr ⟨rest, rfl⟩), List.drop_left]
  rw [hw] at hk ⊢
  rw [List.cons_append] at hk ⊢
  rcases hc with ⟨rfl, rfl, rfl⟩ | ⟨rfl, rfl, rfl⟩ | ⟨rfl, rfl, rfl⟩
  · rw [value, skip_cons _ (by decide)]; exact hk
  · rw [value, skip_cons _ (by decide)]; exact hk
  · rw [value, skip_cons _ (by decide)]; exact hk

theorem numeric_blank {c : Ch} (h : numeric c = true) : blank c = false ∧ c ≠ .rune '"' ∧ c ≠ .rune '{' ∧ c ≠ .rune '[' ∧ c ≠ .rune 't' ∧ c ≠ .rune 'f' ∧ c ≠ .rune 'n' := by
  refine ⟨?_, ?_, ?_, ?_, ?_, ?_, ?_⟩
  · cases c with
    | bad b => rfl
    | rune c =>
      cases hb : blank (.rune c) with
      | false => rfl
      | true =>
        simp only [blank, Bool.or_eq_true, decide_eq_true_eq] at hb
        rcases hb with ((rfl | rfl) | rfl) | rfl <;> exact absurd h (by decide)
  all_goals (rintro rfl; exact absurd h (by decide))

theorem run_all {s : Str} (h : ∀ x ∈ s, numeric x = true) : s.takeWhile numeric = s ∧ s.dropWhile numeric = [] := by
  induction s with
  | nil => exact ⟨rfl, rfl⟩
  | cons c s ih =>
    have := ih fun x hx => h x (List.mem_cons_of_mem _ hx)
    simp [h c List.mem_cons_self, this.1, this.2]

theorem value_num {t : List Char} (hne : t ≠ []) (h : ∀ c ∈ t, numeric (.rune c) = true) (n : Nat) {rest : Str} (hr : Stops rest) :
    value (n + 1) (t.map .rune ++ rest) = some (.num t, rest) := by
  have hall : ∀ x ∈ t.map Ch.rune, numeric x = true := by
    intro x hx
    obtain ⟨c, hc, rfl⟩ := List.mem_map.mp hx
    exact h c hc
  have hrun := run_append hr (t.map .rune)
  have hself := run_all hall
  rw [hself.1, hself.2, List.nil_append] at hrun
  have hchars : chars (t.map .rune) = t := by
    unfold chars
    rw [List.filterMap_map]
    exact List.filterMap_some
  cases t with
  | nil => exact absurd rfl hne
  | cons c t =>
    obtain ⟨hb, g1, g2, g3, g4, g5, g6⟩ := numeric_blank (h c List.mem_cons_self)
    rw [List.map_cons, List.cons_append] at hrun ⊢
    rw [value, skip_cons _ hb]
    simp only
    rw [if_neg g1, if_neg g2, if_neg g3, if_neg g4, if_neg g5, if_neg g6, if_pos (h c List.mem_cons_self), hrun.1, hrun.2]
    rw [List.map_cons] at hchars
    rw [hchars]

theorem stops_of {c : Ch} (r : Str) (h : numeric c = false) : Stops (c :: r) := by
  intro x hx
  simp at hx
  subst hx
  exact h

/-- The first character of a value. -/
theorem enc_head {j : Json} (h : Clean j) (rest : Str) : ∃ c r, enc j ++ rest = c :: r ∧ blank c = false ∧ c ≠ .rune ']' ∧ c ≠ .rune '}' := by
  cases h with
  | null => exact ⟨.rune 'n', _, rfl, by decide, by decide, by decide⟩
  | @bool b => cases b <;> exact ⟨_, _, rfl, by decide, by decide, by decide⟩
  | @num t hne hn =>
    cases t with
    | nil => exact absurd rfl hne
    | cons c t =>
      have := numeric_blank (hn c List.mem_cons_self)
      refine ⟨.rune c, _, rfl, this.1, ?_, ?_⟩ <;> (intro e; have := hn c List.mem_cons_self; rw [e] at this; exact absurd this (by decide))
  | str _ => exact ⟨.rune '"', _, rfl, by decide, by decide, by decide⟩
  | arr _ => exact ⟨.rune '[', _, rfl, by decide, by decide, by decide⟩
  | obj _ => exact ⟨.rune '{', _, rfl, by decide, by decide, by decide⟩

theorem encMember_head (k : Str) (j : Json) (rest : Str) : ∃ r, encMember (k, j) ++ rest = .rune '"' :: r := ⟨_, rfl⟩

mutual
theorem enc_value : ∀ (j : Json), Clean j → ∀ (n : Nat) (rest : Str), (enc j).length + 1 ≤ n → Stops rest → value n (enc j ++ rest) = some (j, rest)
  | .null, _, n, rest, hn, _ => by
    obtain ⟨m, rfl⟩ : ∃ m, n = m + 1 := ⟨n - 1, by omega⟩
    rw [enc]
    exact value_word "null" .null 'n' _ rfl (Or.inr (Or.inr ⟨rfl, rfl, rfl⟩)) m rest
  | .bool true, _, n, rest, hn, _ => by
    obtain ⟨m, rfl⟩ : ∃ m, n = m + 1 := ⟨n - 1, by omega⟩
    rw [enc, if_pos rfl]
    exact value_word "true" (.bool true) 't' _ rfl (Or.inl ⟨rfl, rfl, rfl⟩) m rest
  | .bool false, _, n, rest, hn, _ => by
    obtain ⟨m, rfl⟩ : ∃ m, n = m + 1 := ⟨n - 1, by omega⟩
    rw [enc, if_neg (by decide)]
    exact value_word "false" (.bool false) 'f' _ rfl (Or.inr (Or.inl ⟨rfl, rfl, rfl⟩)) m rest
  | .num t, h, n, rest, hn, hs => by
    obtain ⟨m, rfl⟩ : ∃ m, n = m + 1 := ⟨n - 1, by omega⟩
    cases h with
    | num h1 h2 => rw [enc]; exact value_num h1 h2 m hs
  | .str s, h, n, rest, hn, _ => by
    obtain ⟨m, rfl⟩ : ∃ m, n = m + 1 := ⟨n - 1, by omega⟩
    cases h with
    | str h => rw [enc]; exact value_str h m rest
  | .arr l, h, n, rest, hn, _ => by
    obtain ⟨m, rfl⟩ : ∃ m, n = m + 1 := ⟨n - 1, by omega⟩
    cases h with
    | arr h =>
      rw [enc] at hn ⊢
      rw [List.cons_append, value, skip_cons _ (by decide)]
      simp only
      rw [if_neg (by decide), if_neg (by decide), if_pos trivial]
      cases l with
      | nil => rw [encElems, List.cons_append, skip_cons _ (by decide)]; rfl
      | cons x l =>
        have hx : Clean x := by cases h with | cons h _ => exact h
        have hh : (skip (encElems (x :: l) ++ rest)).head? ≠ some (.rune ']') := by
          cases l with
          | nil =>
            rw [encElems, List.append_assoc]
            obtain ⟨c, r, e, hb, hc, _⟩ := enc_head hx ([.rune ']'] ++ rest)
            rw [e, skip_cons _ hb]
            intro g; injection g with g; exact hc g
          | cons y l =>
            rw [encElems, List.append_assoc]
            obtain ⟨c, r, e, hb, hc, _⟩ := enc_head hx (.rune ',' :: encElems (y :: l) ++ rest)
            rw [e, skip_cons _ hb]
            intro g; injection g with g; exact hc g
        rw [if_neg hh, enc_elems (x :: l) h m rest (by simpa using hn) (by simp)]
        rfl
  | .obj l, h, n, rest, hn, _ => by
    obtain ⟨m, rfl⟩ : ∃ m, n = m + 1 := ⟨n - 1, by omega⟩
    cases h with
    | obj h =>
      rw [enc] at hn ⊢
      rw [List.cons_append, value, skip_cons _ (by decide)]
      simp only
      rw [if_neg (by decide), if_pos trivial]
      cases l with
      | nil => rw [encMembers, List.cons_append, skip_cons _ (by decide)]; rfl
      | cons x l =>
        have hh : (skip (encMembers (x :: l) ++ rest)).head? ≠ some (.rune '}') := by
          obtain ⟨k, v⟩ := x
          cases l with
          | nil =>
            rw [encMembers, List.append_assoc]
            obtain ⟨r, e⟩ := encMember_head k v ([.rune '}'] ++ rest)
            rw [e, skip_cons _ (by decide)]
            intro g; injection g with g; exact absurd g (by decide)
          | cons y l =>
            rw [encMembers, List.append_assoc]
            obtain ⟨r, e⟩ := encMember_head k v (.rune ',' :: encMembers (y :: l) ++ rest)
            rw [e, skip_cons _ (by decide)]
            intro g; injection g with g; exact absurd g (by decide)
        rw [if_neg hh, enc_members (x :: l) h m rest (by simpa using hn) (by simp)]
        rfl

theorem enc_elems : ∀ (l : List Json), CleanList l → ∀ (n : Nat) (rest : Str), (encElems l).length + 1 ≤ n → l ≠ [] → elements n (encElems l ++ rest) = some (l, rest)
  | [], _, _, _, _, h => absurd rfl h
  | [x], h, n, rest, hn, _ => by
    obtain ⟨m, rfl⟩ : ∃ m, n = m + 1 := ⟨n - 1, by omega⟩
    cases h with
    | cons hx _ =>
      rw [encElems] at hn ⊢
      simp only [List.length_append, List.length_cons, List.length_nil] at hn
      rw [List.append_assoc, List.cons_append, List.nil_append, elements, enc_value x hx m _ (by omega) (stops_of _ (by decide)), Option.bind_some]
      simp only
      rw [skip_cons _ (by decide)]
      rfl
  | x :: y :: l, h, n, rest, hn, _ => by
    obtain ⟨m, rfl⟩ : ∃ m, n = m + 1 := ⟨n - 1, by omega⟩
    cases h with
    | cons hx hl =>
      rw [encElems] at hn ⊢
      simp only [List.length_append, List.length_cons] at hn
      rw [List.append_assoc, List.cons_append, elements, enc_value x hx m _ (by omega) (stops_of _ (by decide)), Option.bind_some]
      simp only
      rw [skip_cons _ (by decide)]
      simp only
      rw [if_pos trivial, enc_elems (y :: l) hl m rest (by omega) (by simp)]
      rfl

theorem enc_member : ∀ (x : Str × Json), Runes x.1 → Clean x.2 → ∀ (n : Nat) (rest : Str), (encMember x).length + 1 ≤ n → Stops rest →
    members (n + 1) (encMember x ++ rest) = match skip rest with
      | [] => none
      | d :: r2 =>
        if d = .rune ',' then (members n r2).map fun p => (x :: p.1, p.2)
        else if d = .rune '}' then some ([x], r2)
        else none
  | (k, v), hk, hv, n, rest, hn, hs => by
    rw [encMember] at hn ⊢
    simp only [List.length_append, List.length_cons] at hn
    rw [List.append_assoc, encStr_append, members, skip_cons _ (by decide)]
    simp only
    rw [if_pos trivial, string_enc _ k hk, Option.bind_some]
    simp only [List.cons_append]
    rw [skip_cons _ (by decide)]
    simp only
    rw [if_pos trivial, enc_value v hv n rest (by omega) hs, Option.bind_some]
    rfl

theorem enc_members : ∀ (l : List (Str × Json)), CleanFields l → ∀ (n : Nat) (rest : Str), (encMembers l).length + 1 ≤ n → l ≠ [] → members n (encMembers l ++ rest) = some (l, rest)
  | [], _, _, _, _, h => absurd rfl h
  | [x], h, n, rest, hn, _ => by
    obtain ⟨m, rfl⟩ : ∃ m, n = m + 1 := ⟨n - 1, by omega⟩
    cases h with
    | cons hk hv _ =>
      rw [encMembers] at hn ⊢
      simp only [List.length_append, List.length_cons, List.length_nil] at hn
      rw [List.append_assoc, List.cons_append, List.nil_append, enc_member (_, _) hk hv m _ (by omega) (stops_of _ (by decide))]
      rw [skip_cons _ (by decide)]
      rfl
  | x :: y :: l, h, n, rest, hn, _ => by
    obtain ⟨m, rfl⟩ : ∃ m, n = m + 1 := ⟨n - 1, by omega⟩
    cases h with
    | cons hk hv hl =>
      rw [encMembers] at hn ⊢
      simp only [List.length_append, List.length_cons] at hn
      rw [List.append_assoc, List.cons_append, enc_member (_, _) hk hv m _ (by omega) (stops_of _ (by decide))]
      rw [skip_cons _ (by decide)]
      simp only
      rw [if_pos trivial, enc_members (y :: l) hl m rest (by omega) (by simp)]
      rfl
end

/-- What is written is read as it was. -/
theorem enc_parse {j : Json} (h : Clean j) : parse (enc j) = some j := by
  unfold parse
  have := enc_value j h ((enc j).length + 1) [] (Nat.le_refl _) (by intro c hc; cases hc)
  rw [List.append_nil] at this
  rw [this]
  rfl

end Verif.Cmd.TraceView
