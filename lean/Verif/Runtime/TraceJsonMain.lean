import Verif.Runtime.TraceJsonProps
/-
C75: what a trace records of arguments and results.
-/
namespace Verif.Runtime.TraceJson
open Spec

variable {pr : Char → Bool} {limit : Nat}

/-! ### Quoting -/

theorem hexVal_digit {d : Nat} (h : d < 16) : hexVal (hexDigit d) = some d := by
  have : ∀ d : Fin 16, hexVal (hexDigit d.val) = some d.val := by decide
  exact this ⟨d, h⟩

theorem hex_four (n : Nat) : hex 4 n = [.rune (hexDigit (n / 16 / 16 / 16 % 16)), .rune (hexDigit (n / 16 / 16 % 16)), .rune (hexDigit (n / 16 % 16)), .rune (hexDigit (n % 16))] := by
  simp [hex]

theorem hex4_four {n : Nat} (h : n < 65536) : hex4 (.rune (hexDigit (n / 16 / 16 / 16 % 16))) (.rune (hexDigit (n / 16 / 16 % 16)))
    (.rune (hexDigit (n / 16 % 16))) (.rune (hexDigit (n % 16))) = some n := by
  unfold hex4
  simp only [hexVal_digit (Nat.mod_lt _ (show 16 > 0 by decide)), Option.bind_eq_bind, Option.bind_some, Option.pure_def]
  congr 1
  omega

theorem ofCode_toNat (c : Char) : ofCode c.toNat = .rune c := by
  unfold ofCode
  rw [if_pos (show c.toNat.isValidChar from c.valid), Char.ofNat_toNat]

theorem string_escape (e : Char) (u : Str) (he : e ≠ 'u') :
    string (.rune '\\' :: .rune e :: u) = (simpleEscape e).bind fun d => (string u).map fun p => (.rune d :: p.1, p.2) := by
  rw [string.eq_def]
  simp only
  rw [if_neg (by decide), if_pos trivial, if_neg he]

theorem string_plain (c : Char) (u : Str) (h1 : c ≠ '"') (h2 : c ≠ '\\') (h3 : ¬ c.toNat < 32) :
    string (.rune c :: u) = (string u).map fun p => (.rune c :: p.1, p.2) := by
  rw [string.eq_def]
  simp only
  rw [if_neg h1, if_neg h2, if_neg h3]

def PlainCh (pr : Char → Bool) (x : Ch) : Prop :=
  ∃ c, x = .rune c ∧ (pr c = true ∨ c = '\x08' ∨ c = '\x0c' ∨ c = '\n' ∨ c = '\r' ∨ c = '\t' ∨ (128 ≤ c.toNat ∧ c.toNat < 65536))

theorem string_quoteCh (hp : AsciiPrint pr) {x : Ch} (h : PlainCh pr x) (u : Str) :
    string (quoteCh pr x ++ u) = (string u).map fun p => (x :: p.1, p.2) := by
  obtain ⟨c, rfl, h⟩ := h
  rw [quoteCh]
  by_cases h1 : c = '"' ∨ c = '\\'
  · rw [if_pos h1, List.cons_append, List.cons_append, List.nil_append]
    rcases h1 with rfl | rfl <;> rw [string_escape _ _ (by decide)] <;> rfl
  rw [if_neg h1]
  by_cases h2 : pr c = true
  · rw [if_pos h2]
    refine string_plain c u (fun e => h1 (.inl e)) (fun e => h1 (.inr e)) (fun hl => ?_)
    have := ((hp c (by omega)).mp h2).1
    omega
  rw [if_neg h2]
  have h := h.resolve_left h2
  by_cases h3 : c = '\x07'
  · subst h3; exact absurd h (by decide)
  rw [if_neg h3]
  by_cases h4 : c = '\x08'
  · subst h4; rw [if_pos rfl]; exact string_escape 'b' u (by decide)
  rw [if_neg h4]
  by_cases h5 : c = '\x0c'
  · subst h5; rw [if_pos rfl]; exact string_escape 'f' u (by decide)
  rw [if_neg h5]
  by_cases h6 : c = '\n'
  · subst h6; rw [if_pos rfl]; exact string_escape 'n' u (by decide)
  rw [if_neg h6]
  by_cases h7 : c = '\r'
  · subst h7; rw [if_pos rfl]; exact string_escape 'r' u (by decide)
  rw [if_neg h7]
  by_cases h8 : c = '\t'
  · subst h8; rw [if_pos rfl]; exact string_escape 't' u (by decide)
  rw [if_neg h8]
  rcases h with h | h | h | h | h | h
  · exact absurd h h4
  · exact absurd h h5
  · exact absurd h h6
  · exact absurd h h7
  · exact absurd h h8
  rw [if_neg (fun e => by subst e; exact absurd h.1 (by decide)), if_neg (by omega), if_pos h.2, hex_four]
  show string (.rune '\\' :: .rune 'u' :: _ :: _ :: _ :: _ :: u) = _
  rw [string.eq_def]
  simp only
  rw [if_neg (by decide), if_pos trivial, if_pos trivial, hex4_four h.2, Option.bind_some, ofCode_toNat]

theorem string_unplain (hp : AsciiPrint pr) {x : Ch} (h : ¬ PlainCh pr x) (u : Str) : string (quoteCh pr x ++ u) = none := by
  have esc : ∀ (e : Char) (u : Str), e ≠ 'u' → simpleEscape e = none → string (.rune '\\' :: .rune e :: u) = none := by
    intro e u h1 h2
    rw [string_escape _ _ h1, h2]; rfl
  cases x with
  | bad b => exact esc 'x' _ (by decide) (by decide)
  | rune c =>
    have h' : ¬ (pr c = true ∨ c = '\x08' ∨ c = '\x0c' ∨ c = '\n' ∨ c = '\r' ∨ c = '\t' ∨ (128 ≤ c.toNat ∧ c.toNat < 65536)) := fun e => h ⟨c, rfl, e⟩
    simp only [not_or] at h'
    obtain ⟨h2, h4, h5, h6, h7, h8, h9⟩ := h'
    have h1 : ¬ (c = '"' ∨ c = '\\') := by
      rintro (rfl | rfl) <;> exact h2 ((hp _ (by decide)).mpr (by decide))
    rw [quoteCh, if_neg h1, if_neg h2]
    by_cases h3 : c = '\x07'
    · rw [if_pos h3]; exact esc 'a' u (by decide) (by decide)
    rw [if_neg h3, if_neg h4, if_neg h5, if_neg h6, if_neg h7, if_neg h8]
    by_cases h10 : c = '\x0b'
    · rw [if_pos h10]; exact esc 'v' u (by decide) (by decide)
    rw [if_neg h10]
    by_cases h11 : c.toNat < 32 ∨ c.toNat = 127
    · rw [if_pos h11]; exact esc 'x' _ (by decide) (by decide)
    rw [if_neg h11]
    by_cases h12 : c.toNat < 65536
    · exfalso
      by_cases h13 : c.toNat < 128
      · exact h2 ((hp c h13).mpr (by omega))
      · exact h9 (by omega)
    rw [if_neg h12]
    exact esc 'U' _ (by decide) (by decide)

theorem string_end (rest : Str) : string (.rune '"' :: rest) = some ([], rest) := by
  rw [string.eq_def]; rfl

theorem string_quote (hp : AsciiPrint pr) (rest : Str) : ∀ s : Str, Plain pr s → string (s.flatMap (quoteCh pr) ++ .rune '"' :: rest) = some (s, rest) := by
  intro s
  induction s with
  | nil => intro _; exact string_end rest
  | cons x s ih =>
    intro h
    rw [List.flatMap_cons, List.append_assoc, string_quoteCh hp (h x (by simp)), ih fun y hy => h y (by simp [hy])]
    rfl

theorem string_quote_none (hp : AsciiPrint pr) (rest : Str) : ∀ s : Str, ¬ Plain pr s → string (s.flatMap (quoteCh pr) ++ rest) = none := by
  intro s
  induction s with
  | nil => intro h; exact absurd (fun x hx => by cases hx) h
  | cons x s ih =>
    intro h
    rw [List.flatMap_cons, List.append_assoc]
    by_cases hx : PlainCh pr x
    · rw [string_quoteCh hp hx, ih fun hs => h fun y hy => by
        rcases List.mem_cons.mp hy with rfl | hy
        · exact hx
        · exact hs y hy]
      rfl
    · exact string_unplain hp hx _

theorem quote_append (s rest : Str) : quote pr s ++ rest = .rune '"' :: (s.flatMap (quoteCh pr) ++ .rune '"' :: rest) := by
  simp [quote]

theorem skip_quote (s rest : Str) : skip (quote pr s ++ rest) = .rune '"' :: (s.flatMap (quoteCh pr) ++ .rune '"' :: rest) := by
  rw [quote_append, skip_cons _ (by decide)]

theorem value_quote (hp : AsciiPrint pr) {s : Str} (h : Plain pr s) (n : Nat) (rest : Str) : value (n + 1) (quote pr s ++ rest) = some (.str s, rest) := by
  rw [value, skip_quote]
  simp only
  rw [if_pos trivial, string_quote hp rest s h]
  rfl

theorem value_quote_none (hp : AsciiPrint pr) {s : Str} (h : ¬ Plain pr s) (n : Nat) (rest : Str) : value n (quote pr s ++ rest) = none := by
  cases n with
  | zero => rw [value]
  | succ n =>
    rw [value, skip_quote]
    simp only
    rw [if_pos trivial, string_quote_none hp _ s h]
    rfl

/-- Blanks before a value. -/
theorem value_blank (n : Nat) (s : Str) : value n (.rune ' ' :: s) = value n s := by
  cases n with
  | zero => rw [value, value]
  | succ n => rw [value, value, show skip (.rune ' ' :: s) = skip s from rfl]

/-! ### One member -/

theorem lit_append (a b : String) : lit (a ++ b) = lit a ++ lit b := by simp [lit]

/-- Reading `"name": value` and on. -/
theorem member (hp : AsciiPrint pr) {name : Str} (hn : Plain pr name) (n : Nat) (v : Str) :
    members (n + 1) (quote pr name ++ lit ": " ++ v) = (value n v).bind fun v => match skip v.2 with
      | [] => none
      | d :: r2 =>
        if d = .rune ',' then (members n r2).map fun p => ((name, v.1) :: p.1, p.2)
        else if d = .rune '}' then some ([(name, v.1)], r2)
        else none := by
  rw [members, List.append_assoc, skip_quote]
  simp only
  rw [if_pos trivial, string_quote hp _ name hn, Option.bind_some]
  simp only
  rw [show skip (lit ": " ++ v) = .rune ':' :: (.rune ' ' :: v) from skip_cons _ (by decide)]
  simp only
  rw [if_pos trivial, value_blank]
  rfl

theorem member_blank (n : Nat) (s : Str) : members n (.rune ' ' :: s) = members n s := by
  cases n with
  | zero => rw [members, members]
  | succ n => rw [members, members, show skip (.rune ' ' :: s) = skip s from rfl]

theorem plain_lit {s : String} (hp : AsciiPrint pr) (h : ∀ c ∈ s.toList, 32 ≤ c.toNat ∧ c.toNat < 127) : Plain pr (lit s) := by
  intro x hx
  obtain ⟨c, hc, rfl⟩ := List.mem_map.mp hx
  have := h c hc
  exact ⟨c, rfl, .inl ((hp c (by omega)).mpr (by omega))⟩

/-- An object. -/
theorem value_object (n : Nat) {name : Str} (r : Str) : value (n + 1) (lit "{" ++ (quote pr name ++ r)) = (members n (quote pr name ++ r)).map fun p => (.obj p.1, p.2) := by
  rw [value, show skip (lit "{" ++ (quote pr name ++ r)) = .rune '{' :: (quote pr name ++ r) from skip_cons _ (by decide)]
  simp only
  rw [if_neg (by decide), if_pos trivial, if_neg (by rw [skip_quote]; simp)]

theorem skip_comma (r : Str) : skip (lit "," ++ r) = .rune ',' :: r := skip_cons _ (by decide)
theorem skip_close (r : Str) : skip (lit "}" ++ r) = .rune '}' :: r := skip_cons _ (by decide)

theorem err_text (pr : Char → Bool) (m rest : Str) : marshalNoError pr (.err m) ++ rest =
    lit "{" ++ (quote pr (lit "error") ++ (lit ": " ++ (quote pr m ++ (lit "}" ++ rest)))) := by
  simp [marshalNoError]

theorem panic_text (pr : Char → Bool) (m st rest : Str) : marshalNoError pr (.panic m st) ++ rest =
    lit "{" ++ (quote pr (lit "error") ++ (lit ": " ++ (quote pr m ++ (lit "," ++ (.rune ' ' :: (quote pr (lit "stackTrace") ++ (lit ": " ++
      (quote pr st ++ (lit "}" ++ rest))))))))) := by
  simp [marshalNoError, lit]

theorem member' (hp : AsciiPrint pr) {name : Str} (hn : Plain pr name) (n : Nat) (v : Str) :
    members (n + 1) (quote pr name ++ (lit ": " ++ v)) = (value n v).bind fun v => match skip v.2 with
      | [] => none
      | d :: r2 =>
        if d = .rune ',' then (members n r2).map fun p => ((name, v.1) :: p.1, p.2)
        else if d = .rune '}' then some ([(name, v.1)], r2)
        else none := by
  rw [← List.append_assoc]; exact member hp hn n v

/-- How a value reads within a record. -/
def Good (t : Str) (j : Json) : Prop :=
  ∃ r, skip r = [] ∧ ∀ n, t.length + 1 ≤ n → ∀ rest, Stops rest → value n (t ++ rest) = some (j, r ++ rest)

def Bad (t : Str) : Prop := ∀ n rest, value n (t ++ rest) = none

theorem plain_error (hp : AsciiPrint pr) : Plain pr (lit "error") := plain_lit hp (by decide)
theorem plain_stack (hp : AsciiPrint pr) : Plain pr (lit "stackTrace") := plain_lit hp (by decide)

theorem err_good (hp : AsciiPrint pr) {m : Str} (h : Plain pr m) : Good (marshalNoError pr (.err m)) (.obj [(lit "error", .str m)]) := by
  refine ⟨[], rfl, fun n hn rest _ => ?_⟩
  obtain ⟨n, rfl⟩ : ∃ k, n = k + 3 := ⟨n - 3, by
    have := congrArg List.length (err_text pr m [])
    simp [lit, quote] at this
    omega⟩
  rw [err_text, value_object, member' hp (plain_error hp), value_quote hp h, Option.bind_some]
  simp only
  rw [skip_close]
  simp

theorem err_bad (hp : AsciiPrint pr) {m : Str} (h : ¬ Plain pr m) : Bad (marshalNoError pr (.err m)) := by
  intro n rest
  match n with
  | 0 => rw [value]
  | 1 => rw [err_text, value_object, members]; rfl
  | n + 2 => rw [err_text, value_object, member' hp (plain_error hp), value_quote_none hp h]; rfl

theorem panic_good (hp : AsciiPrint pr) {m st : Str} (h : Plain pr m) (h' : Plain pr st) :
    Good (marshalNoError pr (.panic m st)) (.obj [(lit "error", .str m), (lit "stackTrace", .str st)]) := by
  refine ⟨[], rfl, fun n hn rest _ => ?_⟩
  obtain ⟨n, rfl⟩ : ∃ k, n = k + 4 := ⟨n - 4, by
    have := congrArg List.length (panic_text pr m st [])
    simp [lit, quote] at this
    omega⟩
  rw [panic_text, value_object, member' hp (plain_error hp), value_quote hp h, Option.bind_some]
  simp only
  rw [skip_comma]
  simp only
  rw [if_pos trivial, member_blank, member' hp (plain_stack hp), value_quote hp h', Option.bind_some]
  simp only
  rw [skip_close]
  simp

theorem panic_bad (hp : AsciiPrint pr) {m st : Str} (h : ¬ (Plain pr m ∧ Plain pr st)) : Bad (marshalNoError pr (.panic m st)) := by
  intro n rest
  match n with
  | 0 => rw [value]
  | 1 => rw [panic_text, value_object, members]; rfl
  | n + 2 =>
    rw [panic_text, value_object, member' hp (plain_error hp)]
    by_cases hm : Plain pr m
    · have hs : ¬ Plain pr st := fun e => h ⟨hm, e⟩
      cases n with
      | zero => rw [value]; rfl
      | succ n =>
        rw [value_quote hp hm, Option.bind_some]
        simp only
        rw [skip_comma]
        simp only
        rw [if_pos trivial, member_blank, member' hp (plain_stack hp), value_quote_none hp hs]
        rfl
    · rw [value_quote_none hp hm]; rfl

theorem quote_good (hp : AsciiPrint pr) {s : Str} (h : Plain pr s) : Good (quote pr s) (.str s) := by
  refine ⟨[], rfl, fun n hn rest _ => ?_⟩
  obtain ⟨n, rfl⟩ : ∃ k, n = k + 1 := ⟨n - 1, by omega⟩
  exact value_quote hp h n rest

/-! ### Sizes -/

theorem size_append (a b : Str) : size (a ++ b) = size a + size b := by simp [size]

theorem size_hex : ∀ k n, size (hex k n) = k := by
  intro k
  induction k with
  | zero => intro n; rfl
  | succ k ih =>
    intro n
    have hd : ∀ d : Fin 16, (hexDigit d.val).utf8Size = 1 := by decide
    have := hd ⟨n % 16, Nat.mod_lt _ (by decide)⟩
    rw [hex, size_append, ih]
    simp only [size, List.map_cons, List.map_nil, List.sum_cons, List.sum_nil]
    simp only at this
    omega

theorem size_rune (c : Char) : size [.rune c] ≤ 4 := by
  simp only [size, List.map_cons, List.map_nil, List.sum_cons, List.sum_nil]
  have := c.utf8Size_le_four
  omega

theorem size_quoteCh (pr : Char → Bool) (x : Ch) : size (quoteCh pr x) ≤ 10 := by
  cases x with
  | bad b => rw [quoteCh, size_append, size_hex]; decide
  | rune c =>
    rw [quoteCh]
    split
    · have := size_rune c
      rw [show [Ch.rune '\\', Ch.rune c] = [.rune '\\'] ++ [.rune c] from rfl, size_append]
      have : size [.rune '\\'] = 1 := by decide
      omega
    split
    · have := size_rune c; omega
    repeat' split
    all_goals first | decide | (rw [size_append, size_hex]; decide)

theorem size_quoteCh_plain {x : Ch} (h : PlainCh pr x) : size (quoteCh pr x) ≤ 6 := by
  obtain ⟨c, rfl, h⟩ := h
  rw [quoteCh]
  split
  · have := size_rune c
    rw [show [Ch.rune '\\', Ch.rune c] = [.rune '\\'] ++ [.rune c] from rfl, size_append]
    have : size [.rune '\\'] = 1 := by decide
    omega
  split
  · have := size_rune c; omega
  rename_i h2
  have h := h.resolve_left h2
  repeat' split
  all_goals first
    | decide
    | (rw [size_append, size_hex]; decide)
    | skip
  exfalso
  rcases h with h | h | h | h | h | h <;> first | contradiction | omega

theorem size_quote (pr : Char → Bool) (s : Str) : size (quote pr s) ≤ 2 + 10 * s.length := by
  have h1 : size (.rune '"' :: (s.flatMap (quoteCh pr) ++ [.rune '"'])) = 2 + size (s.flatMap (quoteCh pr)) := by
    rw [show Ch.rune '"' :: (s.flatMap (quoteCh pr) ++ [.rune '"']) = [.rune '"'] ++ (s.flatMap (quoteCh pr) ++ [.rune '"']) from rfl,
      size_append, size_append]
    have : size [.rune '"'] = 1 := by decide
    omega
  unfold quote
  rw [h1]
  have h2 : ∀ s : Str, size (s.flatMap (quoteCh pr)) ≤ 10 * s.length := by
    intro s
    induction s with
    | nil => simp [size]
    | cons x s ih =>
      rw [List.flatMap_cons, size_append, List.length_cons]
      have := size_quoteCh pr x
      omega
  have := h2 s
  omega

theorem size_quote_plain {s : Str} (h : Plain pr s) : size (quote pr s) ≤ 2 + 6 * s.length := by
  have h1 : size (.rune '"' :: (s.flatMap (quoteCh pr) ++ [.rune '"'])) = 2 + size (s.flatMap (quoteCh pr)) := by
    rw [show Ch.rune '"' :: (s.flatMap (quoteCh pr) ++ [.rune '"']) = [.rune '"'] ++ (s.flatMap (quoteCh pr) ++ [.rune '"']) from rfl,
      size_append, size_append]
    have : size [.rune '"'] = 1 := by decide
    omega
  unfold quote
  rw [h1]
  have h2 : ∀ s : Str, Plain pr s → size (s.flatMap (quoteCh pr)) ≤ 6 * s.length := by
    intro s
    induction s with
    | nil => intro _; simp [size]
    | cons x s ih =>
      intro h
      rw [List.flatMap_cons, size_append, List.length_cons]
      have := size_quoteCh_plain (h x (by simp))
      have := ih fun y hy => h y (by simp [hy])
      omega
  have := h2 s h
  omega

theorem quoteCh_plain_ascii (hp : AsciiPrint pr) {c : Char} (h : 32 ≤ c.toNat ∧ c.toNat < 127) (h1 : c ≠ '"') (h2 : c ≠ '\\') : quoteCh pr (.rune c) = [.rune c] := by
  rw [quoteCh, if_neg (by rintro (e | e); exact h1 e; exact h2 e), if_pos ((hp c (by omega)).mpr (by omega))]

theorem quote_lit (hp : AsciiPrint pr) {s : String} (h : ∀ c ∈ s.toList, (32 ≤ c.toNat ∧ c.toNat < 127) ∧ c ≠ '"' ∧ c ≠ '\\') :
    quote pr (lit s) = .rune '"' :: (lit s ++ [.rune '"']) := by
  unfold quote
  have : ∀ l : List Char, (∀ c ∈ l, (32 ≤ c.toNat ∧ c.toNat < 127) ∧ c ≠ '"' ∧ c ≠ '\\') → (l.map Ch.rune).flatMap (quoteCh pr) = l.map Ch.rune := by
    intro l
    induction l with
    | nil => intro _; rfl
    | cons c l ih =>
      intro h
      obtain ⟨k1, k2, k3⟩ := h c (by simp)
      rw [List.map_cons, List.flatMap_cons, quoteCh_plain_ascii hp k1 k2 k3, ih fun d hd => h d (by simp [hd])]
      rfl
  unfold lit
  rw [this s.toList h]

theorem size_err (hp : AsciiPrint pr) (m : Str) : size (marshalNoError pr (.err m)) = 11 + size (quote pr m) := by
  rw [marshalNoError, quote_lit hp (by decide)]
  simp only [size_append]
  have e1 : size (lit "{") = 1 := by decide
  have e2 : size (lit ": ") = 2 := by decide
  have e3 : size (lit "}") = 1 := by decide
  have e4 : size (.rune '"' :: (lit "error" ++ [.rune '"'])) = 7 := by decide
  omega

theorem size_panic (hp : AsciiPrint pr) (m st : Str) : size (marshalNoError pr (.panic m st)) = 27 + size (quote pr m) + size (quote pr st) := by
  rw [marshalNoError, quote_lit hp (by decide), quote_lit hp (by decide)]
  simp only [size_append]
  have e1 : size (lit "{") = 1 := by decide
  have e2 : size (lit ": ") = 2 := by decide
  have e3 : size (lit "}") = 1 := by decide
  have e4 : size (.rune '"' :: (lit "error" ++ [.rune '"'])) = 7 := by decide
  have e5 : size (lit ", ") = 2 := by decide
  have e6 : size (.rune '"' :: (lit "stackTrace" ++ [.rune '"'])) = 12 := by decide
  omega

theorem small_value {v : Outcome} (h : size (marshalNoError pr v) ≤ limit) : fieldValue pr limit v = marshalNoError pr v := if_neg (by omega)

theorem long_value {v : Outcome} (h : limit < size (marshalNoError pr v)) : fieldValue pr limit v = quote pr (take limit (marshalNoError pr v)) := if_pos h

theorem says_good (hp : AsciiPrint pr) {v : Outcome} {j : Json} (h : Says pr limit v j) : Good (fieldValue pr limit v) j := by
  cases h with
  | value h1 h2 => rw [small_value h2]; exact reads h1
  | long h1 h2 => rw [long_value h1]; exact quote_good hp h2
  | @err m h1 h2 =>
    have := size_err hp m
    have := size_quote_plain h1
    rw [small_value (by omega)]
    exact err_good hp h1
  | @panic m st h1 h2 h3 =>
    have := size_panic hp m st
    have := size_quote_plain h1
    have := size_quote_plain h2
    rw [small_value (by omega)]
    exact panic_good hp h1 h2

theorem spoils_bad (hp : AsciiPrint pr) {v : Outcome} (h : Spoils pr limit v) : Bad (fieldValue pr limit v) := by
  cases h with
  | long h1 h2 => rw [long_value h1]; exact fun n rest => value_quote_none hp h2 n rest
  | @err m h1 h2 =>
    have := size_err hp m
    have := size_quote pr m
    rw [small_value (by omega)]
    exact err_bad hp h1
  | @panic m st h1 h3 =>
    have := size_panic hp m st
    have := size_quote pr m
    have := size_quote pr st
    rw [small_value (by omega)]
    exact panic_bad hp h1

/-! ### The record -/

theorem plain_append {a b : Str} (ha : Plain pr a) (hb : Plain pr b) : Plain pr (a ++ b) := by
  intro x hx
  rcases List.mem_append.mp hx with h | h
  · exact ha x h
  · exact hb x h

theorem plain_number (hp : AsciiPrint pr) (i : Nat) : Plain pr (lit (toString i)) := by
  apply plain_lit hp
  intro c hc
  have h : (toString i).toList = Nat.toDigits 10 i := by
    show (Nat.repr i).toList = _
    unfold Nat.repr
    simp
  rw [h] at hc
  have := Nat.isDigit_of_mem_toDigits (by decide) (by decide) hc
  simp only [Char.isDigit, Bool.and_eq_true, decide_eq_true_eq] at this
  have h1 : 48 ≤ c.toNat := this.1
  have h2 : c.toNat ≤ 57 := this.2
  omega

theorem fieldName_plain (hp : AsciiPrint pr) (i : Nat) {name : Str} (h : Plain pr name) : Plain pr (fieldName i name) := by
  unfold fieldName
  split
  · exact plain_append (plain_lit hp (by decide)) (plain_number hp i)
  · exact h

theorem stops_close (r : Str) : Stops (lit "}" ++ r) := by
  intro c hc
  have : c = .rune '}' := by simpa [lit, eq_comm] using hc
  rw [this]; decide

theorem stops_comma (r : Str) : Stops (lit "," ++ r) := by
  intro c hc
  have : c = .rune ',' := by simpa [lit, eq_comm] using hc
  rw [this]; decide

theorem quote_length (s : Str) : 2 ≤ (quote pr s).length := by simp [quote]

theorem members_fields (hp : AsciiPrint pr) : ∀ (fs : List (Str × Outcome)) (i : Nat) (js : List (Str × Json)), Shows pr limit i fs js → fs ≠ [] →
    (∀ f ∈ fs, Plain pr f.1) → ∀ n, (join (fieldTexts pr limit i fs)).length + 1 ≤ n → ∀ rest,
    members n (join (fieldTexts pr limit i fs) ++ (lit "}" ++ rest)) = some (js, rest) := by
  intro fs
  induction fs with
  | nil => intro _ _ _ h; exact absurd rfl h
  | cons f fs ih =>
    intro i js hs _ hn n hl rest
    obtain ⟨name, v⟩ := f
    obtain ⟨j, js', rfl, hv, hs'⟩ : ∃ j js', js = (fieldName i name, j) :: js' ∧ Says pr limit v j ∧ Shows pr limit (i + 1) fs js' := by
      cases hs with
      | @named _ _ _ j _ js' h1 h2 h3 => exact ⟨j, js', by rw [fieldName, if_neg h1], h2, h3⟩
      | @numbered _ _ j _ js' h2 h3 => exact ⟨j, js', by rw [fieldName, if_pos rfl, lit_append], h2, h3⟩
    have hname := fieldName_plain hp i (hn (name, v) (by simp))
    obtain ⟨r, hr, hread⟩ := says_good hp hv
    have hq := quote_length (pr := pr) (fieldName i name)
    cases fs with
    | nil =>
      cases hs'
      simp only [fieldTexts, join] at hl ⊢
      rw [List.append_assoc]
      simp only [List.length_append, lit] at hl
      obtain ⟨n, rfl⟩ : ∃ k, n = k + 1 := ⟨n - 1, by omega⟩
      rw [member hp hname, hread n (by omega) _ (stops_close rest), Option.bind_some]
      simp only
      rw [skip_blank _ hr, skip_close]
      simp
    | cons g fs =>
      have he : fieldTexts pr limit i ((name, v) :: g :: fs) = (quote pr (fieldName i name) ++ lit ": " ++ fieldValue pr limit v) :: fieldTexts pr limit (i + 1) (g :: fs) := rfl
      obtain ⟨a, l, hal⟩ : ∃ a l, fieldTexts pr limit (i + 1) (g :: fs) = a :: l := ⟨_, _, rfl⟩
      have hj : join (fieldTexts pr limit i ((name, v) :: g :: fs)) =
          quote pr (fieldName i name) ++ lit ": " ++ fieldValue pr limit v ++ lit "," ++ join (fieldTexts pr limit (i + 1) (g :: fs)) := by
        rw [he, hal, join]
      have ih' := ih (i + 1) js' hs' (by simp) (fun f hf => hn f (List.mem_cons_of_mem _ hf))
      rw [hj] at hl ⊢
      simp only [List.length_append] at hl
      obtain ⟨n, rfl⟩ : ∃ k, n = k + 1 := ⟨n - 1, by omega⟩
      rw [show quote pr (fieldName i name) ++ lit ": " ++ fieldValue pr limit v ++ lit "," ++ join (fieldTexts pr limit (i + 1) (g :: fs)) ++ (lit "}" ++ rest) =
          quote pr (fieldName i name) ++ lit ": " ++ (fieldValue pr limit v ++ (lit "," ++ (join (fieldTexts pr limit (i + 1) (g :: fs)) ++ (lit "}" ++ rest)))) by
            simp only [List.append_assoc]]
      rw [member hp hname, hread n (by omega) _ (stops_comma _), Option.bind_some]
      simp only
      rw [skip_blank _ hr, skip_comma]
      simp only
      rw [if_pos trivial, ih' n (by omega)]
      rfl

theorem struct_parse (hp : AsciiPrint pr) {fs : List (Str × Outcome)} {js : List (Str × Json)} (h : Shows pr limit 0 fs js) (hn : ∀ f ∈ fs, Plain pr f.1) :
    parse (structText pr limit fs) = some (.obj js) := by
  cases fs with
  | nil => cases h; rfl
  | cons f fs =>
    unfold parse structText
    have hm := members_fields hp (f :: fs) 0 js h (by simp) hn
    obtain ⟨name, v⟩ := f
    obtain ⟨u, hu⟩ : ∃ u, join (fieldTexts pr limit 0 ((name, v) :: fs)) = quote pr (fieldName 0 name) ++ u := by
      cases fs with
      | nil => exact ⟨lit ": " ++ fieldValue pr limit v, by simp only [fieldTexts, join, List.append_assoc]⟩
      | cons g fs =>
        have e : join (fieldTexts pr limit 0 ((name, v) :: g :: fs)) =
          quote pr (fieldName 0 name) ++ lit ": " ++ fieldValue pr limit v ++ lit "," ++ join (fieldTexts pr limit 1 (g :: fs)) := rfl
        exact ⟨lit ": " ++ (fieldValue pr limit v ++ (lit "," ++ join (fieldTexts pr limit 1 (g :: fs)))), by rw [e]; simp only [List.append_assoc]⟩
    have h1 := hm ((lit "{" ++ join (fieldTexts pr limit 0 ((name, v) :: fs)) ++ lit "}").length) (by simp [lit]) []
    have h2 := value_object (pr := pr) (name := fieldName 0 name) ((lit "{" ++ join (fieldTexts pr limit 0 ((name, v) :: fs)) ++ lit "}").length) (u ++ lit "}")
    rw [List.append_nil] at h1
    rw [show lit "{" ++ (quote pr (fieldName 0 name) ++ (u ++ lit "}")) = lit "{" ++ join (fieldTexts pr limit 0 ((name, v) :: fs)) ++ lit "}" by rw [hu]; simp only [List.append_assoc],
      show quote pr (fieldName 0 name) ++ (u ++ lit "}") = join (fieldTexts pr limit 0 ((name, v) :: fs)) ++ lit "}" by rw [hu]; simp only [List.append_assoc], h1] at h2
    rw [h2]
    rfl

theorem members_spoilt (hp : AsciiPrint pr) : ∀ (fs : List (Str × Outcome)) (i : Nat),
    (∀ f ∈ fs, Plain pr f.1 ∧ ((∃ j, Says pr limit f.2 j) ∨ Spoils pr limit f.2)) → (∃ f ∈ fs, Spoils pr limit f.2) →
    ∀ n, (join (fieldTexts pr limit i fs)).length + 1 ≤ n → ∀ rest, members n (join (fieldTexts pr limit i fs) ++ rest) = none := by
  intro fs
  induction fs with
  | nil => rintro _ _ ⟨f, h, _⟩; cases h
  | cons f fs ih =>
    intro i hf hs n hl rest
    obtain ⟨name, v⟩ := f
    have hname := fieldName_plain hp i (hf (name, v) (by simp)).1
    have hq := quote_length (pr := pr) (fieldName i name)
    obtain ⟨u, hu, hlu⟩ : ∃ u, join (fieldTexts pr limit i ((name, v) :: fs)) = quote pr (fieldName i name) ++ lit ": " ++ (fieldValue pr limit v ++ u) ∧
        (fs = [] ∨ u = lit "," ++ join (fieldTexts pr limit (i + 1) fs)) := by
      cases fs with
      | nil => exact ⟨[], by simp only [fieldTexts, join, List.append_nil], .inl rfl⟩
      | cons g fs => exact ⟨_, by rw [fieldTexts, fieldTexts, join]; simp only [List.append_assoc], .inr rfl⟩
    rw [hu] at hl ⊢
    simp only [List.length_append] at hl
    obtain ⟨n, rfl⟩ : ∃ k, n = k + 1 := ⟨n - 1, by omega⟩
    rw [List.append_assoc, List.append_assoc (fieldValue pr limit v), member hp hname]
    by_cases hb : Spoils pr limit v
    · rw [spoils_bad hp hb]; rfl
    obtain ⟨j, hj⟩ := (hf (name, v) (by simp)).2.resolve_right hb
    have hs' : ∃ f ∈ fs, Spoils pr limit f.2 := by
      obtain ⟨f, h1, h2⟩ := hs
      rcases List.mem_cons.mp h1 with rfl | h1
      · exact absurd h2 hb
      · exact ⟨f, h1, h2⟩
    have hu' : u = lit "," ++ join (fieldTexts pr limit (i + 1) fs) := by
      refine hlu.resolve_left fun e => ?_
      subst e
      obtain ⟨_, h, _⟩ := hs'
      cases h
    rw [hu'] at hl ⊢
    simp only [List.length_append] at hl
    obtain ⟨r, hr, hread⟩ := says_good hp hj
    rw [List.append_assoc, hread n (by simp only; omega) _ (stops_comma _), Option.bind_some]
    simp only
    rw [skip_blank _ hr, skip_comma]
    simp only
    rw [if_pos trivial, ih (i + 1) (fun f h => hf f (List.mem_cons_of_mem _ h)) hs' n (by omega)]
    rfl

theorem struct_spoilt (hp : AsciiPrint pr) {fs : List (Str × Outcome)} (hf : ∀ f ∈ fs, Plain pr f.1 ∧ ((∃ j, Says pr limit f.2 j) ∨ Spoils pr limit f.2))
    (hs : ∃ f ∈ fs, Spoils pr limit f.2) : parse (structText pr limit fs) = none := by
  cases fs with
  | nil => obtain ⟨_, h, _⟩ := hs; cases h
  | cons f fs =>
    unfold parse structText
    have hm := members_spoilt hp (f :: fs) 0 hf hs
    obtain ⟨name, v⟩ := f
    obtain ⟨u, hu⟩ : ∃ u, join (fieldTexts pr limit 0 ((name, v) :: fs)) = quote pr (fieldName 0 name) ++ u := by
      cases fs with
      | nil => exact ⟨lit ": " ++ fieldValue pr limit v, by simp only [fieldTexts, join, List.append_assoc]⟩
      | cons g fs =>
        have e : join (fieldTexts pr limit 0 ((name, v) :: g :: fs)) =
          quote pr (fieldName 0 name) ++ lit ": " ++ fieldValue pr limit v ++ lit "," ++ join (fieldTexts pr limit 1 (g :: fs)) := rfl
        exact ⟨lit ": " ++ (fieldValue pr limit v ++ (lit "," ++ join (fieldTexts pr limit 1 (g :: fs)))), by rw [e]; simp only [List.append_assoc]⟩
    have h1 := hm ((lit "{" ++ join (fieldTexts pr limit 0 ((name, v) :: fs)) ++ lit "}").length) (by simp [lit]) (lit "}")
    have h2 := value_object (pr := pr) (name := fieldName 0 name) ((lit "{" ++ join (fieldTexts pr limit 0 ((name, v) :: fs)) ++ lit "}").length) (u ++ lit "}")
    rw [show lit "{" ++ (quote pr (fieldName 0 name) ++ (u ++ lit "}")) = lit "{" ++ join (fieldTexts pr limit 0 ((name, v) :: fs)) ++ lit "}" by rw [hu]; simp only [List.append_assoc],
      show quote pr (fieldName 0 name) ++ (u ++ lit "}") = join (fieldTexts pr limit 0 ((name, v) :: fs)) ++ lit "}" by rw [hu]; simp only [List.append_assoc], h1] at h2
    rw [h2]
    rfl

theorem good_parse {t : Str} {j : Json} (h : Good t j) : parse t = some j := by
  obtain ⟨r, h1, h2⟩ := h
  have := h2 (t.length + 1) (Nat.le_refl _) [] (fun c hc => by cases hc)
  rw [List.append_nil, List.append_nil] at this
  unfold parse
  rw [this, Option.bind_some]
  simp only
  rw [if_pos h1]

/-- **C75 (a trace is JSON).** Whatever the arguments or results are and whatever their methods do, what is recorded of them is
    JSON: the values, or one error. `complaint` is what `json.Marshal` says of a text that is not JSON, a printable text. -/
theorem C75_json (hp : AsciiPrint pr) {complaint : Str} (hc : Plain pr complaint) (fs : List (Str × Outcome)) :
    ∃ j, parse (record pr limit complaint fs) = some j := by
  unfold record
  cases h : parse (structText pr limit fs) with
  | some j => exact ⟨j, by simp only [Option.isSome_some, if_true]; exact h⟩
  | none => exact ⟨_, by simp only [Option.isSome_none]; exact good_parse (err_good hp hc)⟩

/-- **C75 (each value under its name).** If every error text and every cut value is a text that Go and JSON quote alike, the record has
    every value under its name, in order. So a value that cannot be marshalled, or that panics, or that is too long, costs only itself. -/
theorem C75_values_partial (hp : AsciiPrint pr) (complaint : Str) {fs : List (Str × Outcome)} {js : List (Str × Json)}
    (h : Shows pr limit 0 fs js) (hn : ∀ f ∈ fs, Plain pr f.1) : parse (record pr limit complaint fs) = some (.obj js) := by
  have hs := struct_parse hp h hn
  unfold record
  rw [hs]
  simp only [Option.isSome_some, if_true]
  exact hs

/-- **C75 (values lost).** But one error text with, say, a NUL or a vertical tab, one value with a DEL beyond the limit, or one cut
    within a character, and none of the values of the call is recorded: the record is one error. -/
theorem C75_lost (hp : AsciiPrint pr) {complaint : Str} (hc : Plain pr complaint) {fs : List (Str × Outcome)}
    (hf : ∀ f ∈ fs, Plain pr f.1 ∧ ((∃ j, Says pr limit f.2 j) ∨ Spoils pr limit f.2)) (hs : ∃ f ∈ fs, Spoils pr limit f.2) :
    parse (record pr limit complaint fs) = some (.obj [(lit "error", .str complaint)]) := by
  unfold record
  rw [struct_spoilt hp hf hs]
  exact good_parse (err_good hp hc)

/-- **C75 (which values).** Of the arguments all are recorded but a first one of type `context.Context`, the receiver before them; of
    the results all but a last one of type `error`. -/
theorem C75_which (recv : Option Arg) (ctx : Option Arg) (args : List Arg) (hctx : ∀ a ∈ ctx, a.isCtx = true) (hargs : ctx = none → ∀ a ∈ args.head?, a.isCtx = false)
    (err : Option Arg) (results : List Arg) (herr : ∀ a ∈ err, a.isErr = true) (hres : err = none → ∀ a ∈ results.getLast?, a.isErr = false) :
    argFields recv (ctx.toList ++ args) = (recv.toList ++ args).map (fun a => (a.name, a.out)) ∧
    resultFields (results ++ err.toList) = results.map (fun a => (a.name, a.out)) := by
  constructor
  · have h : argFields recv (ctx.toList ++ args) = match recv with
        | some v => (v.name, v.out) :: args.map fun a => (a.name, a.out)
        | none => args.map fun a => (a.name, a.out) := by
      unfold argFields
      cases ctx with
      | some a =>
        have := hctx a rfl
        cases recv <;> simp [this]
      | none =>
        cases args with
        | nil => rfl
        | cons a args =>
          have := hargs rfl a rfl
          cases recv <;> simp [this]
    rw [h]
    cases recv <;> rfl
  · unfold resultFields
    cases err with
    | some a =>
      have := herr a rfl
      simp [this]
    | none =>
      have := hres rfl
      cases hl : results.getLast? with
      | none => simp [List.getLast?_eq_none_iff.mp hl]
      | some a =>
        have := this a hl
        simp [hl, this]

/-- **C75 (a call that returns an error).** The text of the error is recorded; but its method `Error` is called unguarded, and when it
    panics, as that of a nil pointer to a struct does, the traced call panics where the untraced one returns. -/
theorem C75_error_text (s : Str) (p : Option Str) :
    errorOf none .none = .returns [] ∧ errorOf none (.text s) = .returns s ∧ (errorOf p .panics = .panics ↔ p = none) ∧
    ∀ e, errorOf (some s) e = .returns s := by
  refine ⟨rfl, rfl, ?_, fun _ => rfl⟩
  cases p <;> simp [errorOf]

/-- The limit counts bytes: one for each that belongs to no rune, one to four for a rune, one for ASCII. -/
theorem C75_limit_bytes (s : Str) : (∀ b, size (.bad b :: s) = 1 + size s) ∧
    (∀ c : Char, 1 + size s ≤ size (.rune c :: s) ∧ size (.rune c :: s) ≤ 4 + size s) ∧ (∀ c : Char, c.toNat < 128 → size (.rune c :: s) = 1 + size s) := by
  refine ⟨fun b => by simp [size], fun c => ⟨?_, ?_⟩, fun c hc => ?_⟩
  · have := Char.utf8Size_pos c; simp [size]; omega
  · have := Char.utf8Size_le_four c; simp [size]; omega
  · have : c.utf8Size = 1 := by
      unfold Char.utf8Size
      have : c.val ≤ 127 := by rw [UInt32.le_iff_toNat_le]; have : c.val.toNat < 128 := hc; simp; omega
      simp [this]
    simp [size, this]

/-! ### Concrete calls -/

/-- Of ASCII the printable characters, and all others. -/
def samplePrint (c : Char) : Bool := if c.toNat < 128 then 32 ≤ c.toNat && c.toNat ≠ 127 else true

theorem sample_ascii : AsciiPrint samplePrint := by
  intro c h
  unfold samplePrint
  rw [if_pos h]
  simp

/-- A call with a number, a channel, a method that panics and a long text. -/
def sampleFields : List (Str × Outcome) :=
  [(lit "n", .ok (lit "12")), (lit "ch", .err (lit "json: unsupported type: chan")), ([], .panic (lit "boom\n") (lit "goroutine 1")),
   (lit "s", .ok (lit "\"" ++ List.replicate 300 (.rune 'x') ++ lit "\""))]

example : Shows samplePrint 250 0 sampleFields
    [(lit "n", .num ['1', '2']), (lit "ch", .obj [(lit "error", .str (lit "json: unsupported type: chan"))]),
     (lit "__field_2", .obj [(lit "error", .str (lit "boom\n")), (lit "stackTrace", .str (lit "goroutine 1"))]),
     (lit "s", .str (lit "\"" ++ List.replicate 249 (.rune 'x')))] := by
  refine .named (by decide) (.value (by rfl) (by decide)) (.named (by decide) (.err ?_ (by decide)) (.numbered (.panic ?_ ?_ (by decide)) (.named (by decide) ?_ .nil)))
  · exact plain_lit sample_ascii (by decide)
  · intro x hx
    have : x ∈ [Ch.rune 'b', .rune 'o', .rune 'o', .rune 'm', .rune '\n'] := hx
    simp only [List.mem_cons, List.not_mem_nil, or_false] at this
    rcases this with rfl | rfl | rfl | rfl | rfl
    all_goals exact ⟨_, rfl, by decide⟩
  · exact plain_lit sample_ascii (by decide)
  · have e : take 250 (lit "\"" ++ List.replicate 300 (.rune 'x') ++ lit "\"") = lit "\"" ++ List.replicate 249 (.rune 'x') := by decide +kernel
    rw [← e]
    refine .long (by decide +kernel) ?_
    rw [e]
    exact plain_append (plain_lit sample_ascii (by decide)) fun x hx => ⟨'x', (List.mem_replicate.mp hx).2, by decide⟩

/-- An error text with a NUL next to a number; a text cut within a character. -/
example : Spoils samplePrint 250 (.err [.rune '\x00']) ∧ Spoils samplePrint 2 (.ok (lit "\"é\"")) := by
  refine ⟨.err ?_ (by decide), .long (by decide) ?_⟩
  · intro h
    obtain ⟨c, h1, h2⟩ := h (.rune '\x00') (by simp)
    cases h1
    revert h2; decide
  · intro h
    have e : take 2 (lit "\"é\"") = [.rune '"', .bad 255] := by decide
    rw [e] at h
    obtain ⟨c, h1, -⟩ := h (.bad 255) (by simp)
    cases h1

end Verif.Runtime.TraceJson
