import Verif.Instrument.CoverNotesSpec
import Verif.Text.EditBufferProps
import Verif.Support.Decimal
/-
C72: the notes that xgo leaves for the cover tool are read back.
-/
namespace Verif.Instrument.CoverNotes
open Verif.Text Spec

/-! ### Hexadecimal digits -/

theorem unhex_digit : ∀ n, n < 16 → unhex (hexDigit n) = some n := by decide

theorem hexes_hex (k n v : Nat) (s : Str) : hexes k v (hex k n ++ s) = some (v * 16 ^ k + n % 16 ^ k, s) := by
  induction k generalizing v with
  | zero => simp [hexes, hex, Nat.mod_one]
  | succ k ih =>
    rw [hex, List.cons_append, hexes, unhex_digit _ (Nat.mod_lt _ (by decide))]
    simp only
    rw [ih]
    congr 2
    have := Nat.mod_mul (x := n) (a := 16 ^ k) (b := 16)
    rw [Nat.pow_succ, this]
    rw [Nat.add_mul, Nat.mul_comm 16 v, Nat.mul_assoc, Nat.mul_comm 16 (16 ^ k), Nat.mul_comm (n / 16 ^ k % 16)]
    omega

theorem toNat_lt (c : Char) : c.toNat < 0x110000 := by
  have := c.valid
  unfold UInt32.isValidChar Nat.isValidChar at this
  unfold Char.toNat
  omega

theorem rune_hexes {k : Nat} {c : Char} {s : Str} (h : c.toNat < 16 ^ k) : rune (hexes k 0 (hex k c.toNat ++ s)) = some (c, s) := by
  rw [hexes_hex, Nat.mod_eq_of_lt h, Nat.zero_mul, Nat.zero_add]
  unfold rune
  have : c.toNat.isValidChar := c.valid
  simp only [this, if_true, Char.ofNat_toNat]

/-! ### Quoted texts -/

theorem unescape_escape {isPrint : Char → Bool} {c : Char} {s : Str} (h : escape isPrint c ≠ [c]) :
    ∃ r, escape isPrint c = '\\' :: r ∧ unescape (r ++ s) = some (c, s) := by
  unfold escape at h ⊢
  by_cases h0 : c = '"' ∨ c = '\\'
  · rw [if_pos h0]
    refine ⟨[c], rfl, ?_⟩
    rcases h0 with rfl | rfl <;> rfl
  rw [if_neg h0] at h ⊢
  cases hp : isPrint c with
  | true => rw [hp] at h; exact absurd rfl h
  | false =>
  simp only [Bool.false_eq_true, if_false]
  by_cases h1 : c = Char.ofNat 7
  · rw [if_pos h1, h1]; exact ⟨['a'], rfl, rfl⟩
  rw [if_neg h1]
  by_cases h2 : c = Char.ofNat 8
  · rw [if_pos h2, h2]; exact ⟨['b'], rfl, rfl⟩
  rw [if_neg h2]
  by_cases h3 : c = Char.ofNat 12
  · rw [if_pos h3, h3]; exact ⟨['f'], rfl, rfl⟩
  rw [if_neg h3]
  by_cases h4 : c = '\n'
  · rw [if_pos h4, h4]; exact ⟨['n'], rfl, rfl⟩
  rw [if_neg h4]
  by_cases h5 : c = '\r'
  · rw [if_pos h5, h5]; exact ⟨['r'], rfl, rfl⟩
  rw [if_neg h5]
  by_cases h6 : c = '\t'
  · rw [if_pos h6, h6]; exact ⟨['t'], rfl, rfl⟩
  rw [if_neg h6]
  by_cases h7 : c = Char.ofNat 11
  · rw [if_pos h7, h7]; exact ⟨['v'], rfl, rfl⟩
  rw [if_neg h7]
  by_cases h8 : c.toNat < 0x20 ∨ c.toNat = 0x7f
  · rw [if_pos h8]
    refine ⟨'x' :: hex 2 c.toNat, rfl, ?_⟩
    have : c.toNat < 0x80 := by omega
    have e : hexes 2 0 (hex 2 c.toNat ++ s) = some (c.toNat, s) := by
      rw [hexes_hex, Nat.mod_eq_of_lt (by omega)]; simp
    simp only [List.cons_append, unescape, e]
    simp [this]
  rw [if_neg h8]
  by_cases h9 : c.toNat < 0x10000
  · rw [if_pos h9]
    refine ⟨'u' :: hex 4 c.toNat, rfl, ?_⟩
    simp only [List.cons_append, unescape, rune_hexes (k := 4) (s := s) h9]
    simp
  · rw [if_neg h9]
    refine ⟨'U' :: hex 8 c.toNat, rfl, ?_⟩
    have : c.toNat < 16 ^ 8 := by have := toNat_lt c; omega
    simp only [List.cons_append, unescape, rune_hexes (k := 8) (s := s) this]
    simp

theorem jsonUnescape_escape {c : Char} {s : Str} (h : jsonEscape c ≠ [c]) :
    ∃ r, jsonEscape c = '\\' :: r ∧ jsonUnescape (r ++ s) = some (c, s) := by
  unfold jsonEscape at h ⊢
  by_cases h0 : c = '"' ∨ c = '\\'
  · rw [if_pos h0]
    refine ⟨[c], rfl, ?_⟩
    rcases h0 with rfl | rfl <;> rfl
  rw [if_neg h0] at h ⊢
  by_cases h2 : c = Char.ofNat 8
  · rw [if_pos h2, h2]; exact ⟨['b'], rfl, rfl⟩
  rw [if_neg h2] at h ⊢
  by_cases h3 : c = Char.ofNat 12
  · rw [if_pos h3, h3]; exact ⟨['f'], rfl, rfl⟩
  rw [if_neg h3] at h ⊢
  by_cases h4 : c = '\n'
  · rw [if_pos h4, h4]; exact ⟨['n'], rfl, rfl⟩
  rw [if_neg h4] at h ⊢
  by_cases h5 : c = '\r'
  · rw [if_pos h5, h5]; exact ⟨['r'], rfl, rfl⟩
  rw [if_neg h5] at h ⊢
  by_cases h6 : c = '\t'
  · rw [if_pos h6, h6]; exact ⟨['t'], rfl, rfl⟩
  rw [if_neg h6] at h ⊢
  by_cases h8 : c.toNat < 0x20 ∨ c = '<' ∨ c = '>' ∨ c = '&' ∨ c.toNat = 0x2028 ∨ c.toNat = 0x2029
  · rw [if_pos h8]
    refine ⟨'u' :: hex 4 c.toNat, rfl, ?_⟩
    have : c.toNat < 16 ^ 4 := by
      rcases h8 with h | rfl | rfl | rfl | h | h
      · omega
      · decide
      · decide
      · decide
      · omega
      · omega
    simp only [List.cons_append, jsonUnescape, rune_hexes (k := 4) (s := s) this]
    simp
  · rw [if_neg h8] at h; exact absurd rfl h

/-- Reading back what was escaped character by character. -/
theorem unquoteFrom_escaped {esc : Char → Str} {un : Str → Option (Char × Str)} {bad : Char → Bool}
    (hb : bad '\\' = false)
    (h1 : ∀ c s, esc c ≠ [c] → ∃ r, esc c = '\\' :: r ∧ un (r ++ s) = some (c, s))
    (h2 : ∀ c, esc c = [c] → c ≠ '"' ∧ c ≠ '\\' ∧ bad c = false) (t rest : Str) :
    ∀ n, t.length < n → unquoteFrom un bad n (t.flatMap esc ++ '"' :: rest) = some (t, rest) := by
  induction t with
  | nil =>
    intro n hn
    obtain ⟨n, rfl⟩ : ∃ m, n = m + 1 := ⟨n - 1, by simp at hn; omega⟩
    simp [unquoteFrom]
  | cons c t ih =>
    intro n hn
    obtain ⟨n, rfl⟩ : ∃ m, n = m + 1 := ⟨n - 1, by simp at hn; omega⟩
    have ih := ih n (by simp at hn; omega)
    rw [List.flatMap_cons, List.append_assoc]
    by_cases he : esc c = [c]
    · obtain ⟨a, b, d⟩ := h2 c he
      rw [he, List.singleton_append, unquoteFrom, if_neg a, d, if_neg (by simp), if_neg b, ih]
      rfl
    · obtain ⟨r, e1, e2⟩ := h1 c (t.flatMap esc ++ '"' :: rest) he
      rw [e1, List.cons_append, unquoteFrom, if_neg (by decide), hb, if_neg (by simp), if_pos rfl, e2]
      simp only [ih]
      rfl

theorem escape_self {isPrint : Char → Bool} (hp : isPrint '\n' = false) {c : Char} (h : escape isPrint c = [c]) :
    c ≠ '"' ∧ c ≠ '\\' ∧ (c == '\n') = false := by
  refine ⟨?_, ?_, ?_⟩
  · rintro rfl; simp [escape] at h
  · rintro rfl; simp [escape] at h
  · rw [beq_eq_false_iff_ne]
    rintro rfl
    have : escape isPrint '\n' = ['\\', 'n'] := by simp [escape, hp]
    rw [this] at h
    cases h

theorem unquote_quote {isPrint : Char → Bool} (hp : isPrint '\n' = false) (s : Str) : unquote (quote isPrint s) = s := by
  unfold quote unquote
  rw [List.cons_append]
  simp only
  rw [unquoteFrom_escaped (by decide) (fun c s => unescape_escape) (fun c => escape_self hp) s []]
  · rw [List.length_append]
    have : s.length ≤ (s.flatMap (escape isPrint)).length := by
      rw [List.length_flatMap]
      induction s with
      | nil => simp
      | cons c s ih =>
        have : 0 < (escape isPrint c).length := by
          by_cases he : escape isPrint c = [c]
          · rw [he]; simp
          · obtain ⟨r, e, -⟩ := unescape_escape (s := []) he
            rw [e]; simp
        simp only [List.map_cons, List.sum_cons, List.length_cons]
        omega
    simp only [List.length_singleton]
    omega

theorem json_self {c : Char} (h : jsonEscape c = [c]) : c ≠ '"' ∧ c ≠ '\\' ∧ decide (c.toNat < 0x20) = false := by
  refine ⟨?_, ?_, ?_⟩
  · rintro rfl; simp [jsonEscape] at h
  · rintro rfl; simp [jsonEscape] at h
  · rw [decide_eq_false_iff_not]
    intro hc
    have h0 : ¬ (c = '"' ∨ c = '\\') := by
      rintro (rfl | rfl)
      · exact absurd hc (by decide)
      · exact absurd hc (by decide)
    unfold jsonEscape at h
    rw [if_neg h0] at h
    by_cases h2 : c = Char.ofNat 8
    · rw [if_pos h2] at h; cases h
    rw [if_neg h2] at h
    by_cases h3 : c = Char.ofNat 12
    · rw [if_pos h3] at h; cases h
    rw [if_neg h3] at h
    by_cases h4 : c = '\n'
    · rw [if_pos h4] at h; cases h
    rw [if_neg h4] at h
    by_cases h5 : c = '\r'
    · rw [if_pos h5] at h; cases h
    rw [if_neg h5] at h
    by_cases h6 : c = '\t'
    · rw [if_pos h6] at h; cases h
    rw [if_neg h6, if_pos (Or.inl hc)] at h
    cases h

theorem jsonEscape_length (c : Char) : 0 < (jsonEscape c).length := by
  by_cases he : jsonEscape c = [c]
  · rw [he]; simp
  · obtain ⟨r, e, -⟩ := jsonUnescape_escape (s := []) he
    rw [e]; simp

theorem parseString_json (s rest : Str) : parseString (jsonString s ++ rest) = some (s, rest) := by
  unfold jsonString parseString
  rw [List.cons_append, List.cons_append, List.append_assoc]
  simp only [List.singleton_append]
  rw [unquoteFrom_escaped (by decide) (fun c s => jsonUnescape_escape) (fun c h => json_self h) s rest]
  rw [List.length_append]
  have : s.length ≤ (s.flatMap jsonEscape).length := by
    rw [List.length_flatMap]
    induction s with
    | nil => simp
    | cons c s ih =>
      have := jsonEscape_length c
      simp only [List.map_cons, List.sum_cons, List.length_cons]
      omega
  omega

/-! ### Edits -/

theorem parseNumber_digits (n : Nat) {rest : Str} (h : ∀ c, rest.head? = some c → c.isDigit = false) :
    parseNumber (Nat.toDigits 10 n ++ rest) = some (n, rest) := by
  have hd : ∀ c ∈ Nat.toDigits 10 n, c.isDigit = true := fun c hc => Nat.isDigit_of_mem_toDigits (by decide) (by decide) hc
  have ht : (Nat.toDigits 10 n ++ rest).takeWhile Char.isDigit = Nat.toDigits 10 n := by
    rw [List.takeWhile_append_of_pos hd]
    have : rest.takeWhile Char.isDigit = [] := by
      cases rest with
      | nil => rfl
      | cons c r => rw [List.takeWhile_cons, h c rfl]; rfl
    rw [this, List.append_nil]
  have hw : (Nat.toDigits 10 n ++ rest).dropWhile Char.isDigit = rest := by
    rw [List.dropWhile_append_of_pos hd]
    cases rest with
    | nil => rfl
    | cons c r => rw [List.dropWhile_cons, h c rfl]; rfl
  unfold parseNumber
  simp only [ht, hw]
  rw [if_neg Nat.toDigits_ne_nil]
  rw [Nat.ofDigitChars_ten_toDigits]

theorem parseMembers_commas (rest : Str) : ∀ (ms : List (Str × (Edit Char → Edit Char))) (e : Edit Char) (n : Nat), ms ≠ [] → ms.length ≤ n →
    (∀ p ∈ ms, ∀ e c r, c = ',' ∨ c = '}' → parseMember e (p.1 ++ c :: r) = some (p.2 e, c :: r)) →
    parseMembers n e (commas (ms.map (·.1)) ++ '}' :: rest) = some (ms.foldl (fun e p => p.2 e) e, rest) := by
  intro ms
  induction ms with
  | nil => intro _ _ h; exact absurd rfl h
  | cons m ms ih =>
    intro e n _ hn h
    obtain ⟨n, rfl⟩ : ∃ k, n = k + 1 := ⟨n - 1, by simp at hn; omega⟩
    cases ms with
    | nil =>
      simp only [List.map_cons, List.map_nil, commas]
      rw [parseMembers, h m (by simp) e '}' rest (Or.inr rfl)]
      rfl
    | cons m' ms =>
      have e1 : commas ((m :: m' :: ms).map (·.1)) ++ '}' :: rest = m.1 ++ ',' :: (commas ((m' :: ms).map (·.1)) ++ '}' :: rest) := by
        simp [commas]
      rw [e1, parseMembers, h m (by simp) e ',' _ (Or.inl rfl)]
      simp only
      rw [ih (m.2 e) n (by simp) (by simp at hn ⊢; omega) fun p hp => h p (by simp [hp])]
      rfl

theorem parseMember_start (e : Edit Char) (n : Nat) (c : Char) (r : Str) (hc : c = ',' ∨ c = '}') :
    parseMember e ((jsonString "start".toList ++ ':' :: Nat.toDigits 10 n) ++ c :: r) = some ({ e with start := n }, c :: r) := by
  unfold parseMember
  rw [List.append_assoc, parseString_json]
  simp only [List.cons_append, if_true]
  rw [parseNumber_digits n (by intro d hd; simp at hd; subst hd; rcases hc with rfl | rfl <;> rfl)]
  rfl

theorem parseMember_end (e : Edit Char) (n : Nat) (c : Char) (r : Str) (hc : c = ',' ∨ c = '}') :
    parseMember e ((jsonString "end".toList ++ ':' :: Nat.toDigits 10 n) ++ c :: r) = some ({ e with stop := n }, c :: r) := by
  unfold parseMember
  rw [List.append_assoc, parseString_json]
  simp only [List.cons_append, if_true]
  rw [if_neg (by decide), parseNumber_digits n (by intro d hd; simp at hd; subst hd; rcases hc with rfl | rfl <;> rfl)]
  rfl

theorem parseMember_new (e : Edit Char) (s : Str) (c : Char) (r : Str) :
    parseMember e ((jsonString "new".toList ++ ':' :: jsonString s) ++ c :: r) = some ({ e with new := s }, c :: r) := by
  unfold parseMember
  rw [List.append_assoc, parseString_json]
  simp only [List.cons_append, if_true]
  rw [if_neg (by decide), if_neg (by decide), parseString_json]
  rfl

/-- The members that are written, with what they set. -/
def written (e : Edit Char) : List (Str × (Edit Char → Edit Char)) :=
  (if e.start == 0 then [] else [(jsonString "start".toList ++ ':' :: Nat.toDigits 10 e.start, fun x => { x with start := e.start })]) ++
  (if e.stop == 0 then [] else [(jsonString "end".toList ++ ':' :: Nat.toDigits 10 e.stop, fun x => { x with stop := e.stop })]) ++
  (if e.new.isEmpty then [] else [(jsonString "new".toList ++ ':' :: jsonString e.new, fun x => { x with new := e.new })])

theorem jsonEdit_eq (e : Edit Char) : jsonEdit e = '{' :: commas ((written e).map (·.1)) ++ ['}'] := by
  unfold jsonEdit written member
  cases e.start == 0 <;> cases e.stop == 0 <;> cases e.new.isEmpty <;> rfl

theorem written_fold (e : Edit Char) : (written e).foldl (fun e p => p.2 e) ⟨0, 0, []⟩ = e := by
  obtain ⟨a, b, t⟩ := e
  unfold written
  by_cases ha : a = 0 <;> by_cases hb : b = 0 <;> cases t <;> simp [ha, hb]

theorem written_length (e : Edit Char) : (written e).length ≤ 3 := by
  unfold written
  cases e.start == 0 <;> cases e.stop == 0 <;> cases e.new.isEmpty <;> simp

theorem parseEdit_json (e : Edit Char) (rest : Str) (n : Nat) (hn : 3 ≤ n) : parseEdit n (jsonEdit e ++ rest) = some (e, rest) := by
  have e1 : jsonEdit e ++ rest = '{' :: (commas ((written e).map (·.1)) ++ '}' :: rest) := by rw [jsonEdit_eq]; simp
  rw [e1]
  by_cases hw : written e = []
  · have hf := written_fold e
    rw [hw] at hf
    rw [hw, ← hf]
    rfl
  · have h1 := parseMembers_commas rest (written e) ⟨0, 0, []⟩ n hw (Nat.le_trans (written_length e) hn) (by
      intro p hp x c r hc
      unfold written at hp
      simp only [List.mem_append] at hp
      rcases hp with (hp | hp) | hp
      · cases h : e.start == 0 <;> rw [h] at hp <;> simp at hp
        subst hp; exact parseMember_start x e.start c r hc
      · cases h : e.stop == 0 <;> rw [h] at hp <;> simp at hp
        subst hp; exact parseMember_end x e.stop c r hc
      · cases h : e.new.isEmpty <;> rw [h] at hp <;> simp at hp
        subst hp; exact parseMember_new x e.new c r)
    rw [written_fold] at h1
    have hq : ∃ r, commas ((written e).map (·.1)) ++ '}' :: rest = '"' :: r := by
      have : ∀ p ∈ written e, ∃ r, p.1 = '"' :: r := by
        intro p hp
        unfold written at hp
        simp only [List.mem_append] at hp
        rcases hp with (hp | hp) | hp
        · cases h : e.start == 0 <;> rw [h] at hp <;> simp at hp
          subst hp; exact ⟨_, rfl⟩
        · cases h : e.stop == 0 <;> rw [h] at hp <;> simp at hp
          subst hp; exact ⟨_, rfl⟩
        · cases h : e.new.isEmpty <;> rw [h] at hp <;> simp at hp
          subst hp; exact ⟨_, rfl⟩
      match hm : written e, hw with
      | [m], _ => obtain ⟨r, hr⟩ := this m (by rw [hm]; simp); exact ⟨r ++ '}' :: rest, by simp [commas, hr]⟩
      | m :: m' :: ms, _ =>
        obtain ⟨r, hr⟩ := this m (by rw [hm]; simp)
        exact ⟨r ++ ',' :: commas ((m' :: ms).map (·.1)) ++ '}' :: rest, by simp [commas, hr]⟩
    obtain ⟨r, hr⟩ := hq
    rw [hr] at h1 ⊢
    unfold parseEdit
    exact h1

theorem parseList_json (rest : Str) : ∀ (es : List (Edit Char)) (n : Nat), es ≠ [] → es.length + 3 ≤ n →
    parseList n (commas (es.map jsonEdit) ++ ']' :: rest) = some (es, rest) := by
  intro es
  induction es with
  | nil => intro _ h; exact absurd rfl h
  | cons e es ih =>
    intro n _ hn
    obtain ⟨n, rfl⟩ : ∃ k, n = k + 1 := ⟨n - 1, by simp at hn; omega⟩
    cases es with
    | nil =>
      simp only [List.map_cons, List.map_nil, commas]
      rw [parseList, parseEdit_json e _ n (by simp at hn; omega)]
      rfl
    | cons e' es =>
      have e1 : commas ((e :: e' :: es).map jsonEdit) ++ ']' :: rest = jsonEdit e ++ ',' :: (commas ((e' :: es).map jsonEdit) ++ ']' :: rest) := by
        simp [commas]
      rw [e1, parseList, parseEdit_json e _ n (by simp at hn; omega)]
      simp only
      rw [ih n (by simp) (by simp at hn ⊢; omega)]
      rfl

theorem jsonEdit_length (e : Edit Char) : 2 ≤ (jsonEdit e).length := by unfold jsonEdit; simp

theorem commas_length : ∀ (l : List Str), (∀ x ∈ l, 2 ≤ x.length) → 2 * l.length ≤ (commas l).length
  | [], _ => by simp [commas]
  | [x], h => by have := h x (by simp); simpa [commas] using this
  | x :: y :: r, h => by
    have h1 := h x (by simp)
    have h2 := commas_length (y :: r) fun z hz => h z (by simp [hz])
    simp [commas] at h2 ⊢
    omega

theorem unmarshal_json {es : List (Edit Char)} (h : es ≠ []) : unmarshal (jsonEdits es) = es := by
  unfold jsonEdits
  rw [if_neg h, List.cons_append]
  unfold unmarshal
  simp only
  rw [parseList_json [] es _ h ?_]
  have := commas_length (es.map jsonEdit) (by
    intro x hx
    obtain ⟨e, -, rfl⟩ := List.mem_map.1 hx
    exact jsonEdit_length e)
  have hp : 0 < es.length := List.length_pos_iff.2 h
  simp at this ⊢
  omega

/-! ### The last three lines -/

theorem hexDigit_ne : ∀ n, n < 16 → hexDigit n ≠ '\n' := by decide

theorem hex_line (k n : Nat) : '\n' ∉ hex k n := by
  induction k with
  | zero => simp [hex]
  | succ k ih =>
    rw [hex]
    simp only [List.mem_cons, not_or]
    exact ⟨fun h => hexDigit_ne _ (Nat.mod_lt _ (by decide)) h.symm, ih⟩

theorem escape_line {isPrint : Char → Bool} (hp : isPrint '\n' = false) (c : Char) : '\n' ∉ escape isPrint c := by
  unfold escape
  by_cases h0 : c = '"' ∨ c = '\\'
  · rw [if_pos h0]; rcases h0 with rfl | rfl <;> decide
  rw [if_neg h0]
  by_cases h1 : isPrint c = true
  · rw [if_pos h1]
    simp only [List.mem_singleton]
    rintro rfl
    rw [hp] at h1; cases h1
  rw [if_neg h1]
  repeat' split
  all_goals first
    | decide
    | (simp only [List.mem_cons, not_or]; exact ⟨by decide, by decide, hex_line _ _⟩)

theorem quote_line {isPrint : Char → Bool} (hp : isPrint '\n' = false) (s : Str) : '\n' ∉ quote isPrint s := by
  unfold quote
  simp only [List.mem_append, List.mem_cons, List.mem_flatMap, List.not_mem_nil, or_false, not_or]
  exact ⟨⟨by decide, fun ⟨c, _, hc⟩ => escape_line hp c hc⟩, by decide⟩

theorem jsonEscape_line (c : Char) : '\n' ∉ jsonEscape c := by
  by_cases hn : c = '\n'
  · subst hn; decide
  unfold jsonEscape
  by_cases h0 : c = '"' ∨ c = '\\'
  · rw [if_pos h0]; rcases h0 with rfl | rfl <;> decide
  rw [if_neg h0]
  repeat' split
  all_goals first
    | decide
    | (simp only [List.mem_cons, not_or]; exact ⟨by decide, by decide, hex_line _ _⟩)
    | (simp only [List.mem_singleton]; exact fun h => hn h.symm)

theorem jsonString_line (s : Str) : '\n' ∉ jsonString s := by
  unfold jsonString
  simp only [List.mem_append, List.mem_cons, List.mem_flatMap, List.not_mem_nil, or_false, not_or]
  exact ⟨⟨by decide, fun ⟨c, _, hc⟩ => jsonEscape_line c hc⟩, by decide⟩

theorem commas_line : ∀ (l : List Str), (∀ x ∈ l, '\n' ∉ x) → '\n' ∉ commas l
  | [], _ => by simp [commas]
  | [x], h => by simpa [commas] using h x (by simp)
  | x :: y :: r, h => by
    have h1 := h x (by simp)
    have h2 := commas_line (y :: r) fun z hz => h z (by simp [hz])
    simp only [commas, List.mem_append, List.mem_cons, not_or]
    exact ⟨h1, by decide, h2⟩

theorem jsonEdit_line (e : Edit Char) : '\n' ∉ jsonEdit e := by
  rw [jsonEdit_eq]
  have hd : ∀ n : Nat, '\n' ∉ Nat.toDigits 10 n := fun n h => absurd (Nat.isDigit_of_mem_toDigits (by decide) (by decide) h) (by decide)
  have : '\n' ∉ commas ((written e).map (·.1)) := by
    refine commas_line _ fun x hx => ?_
    obtain ⟨p, hp, rfl⟩ := List.mem_map.1 hx
    unfold written at hp
    simp only [List.mem_append] at hp
    rcases hp with (hp | hp) | hp
    · cases h : e.start == 0 <;> rw [h] at hp <;> simp only [Bool.false_eq_true, if_false, if_true, List.mem_singleton, List.not_mem_nil] at hp
      subst hp
      simp only [List.mem_append, List.mem_cons, not_or]
      exact ⟨jsonString_line _, by decide, hd _⟩
    · cases h : e.stop == 0 <;> rw [h] at hp <;> simp only [Bool.false_eq_true, if_false, if_true, List.mem_singleton, List.not_mem_nil] at hp
      subst hp
      simp only [List.mem_append, List.mem_cons, not_or]
      exact ⟨jsonString_line _, by decide, hd _⟩
    · cases h : e.new.isEmpty <;> rw [h] at hp <;> simp only [Bool.false_eq_true, if_false, if_true, List.mem_singleton, List.not_mem_nil] at hp
      subst hp
      simp only [List.mem_append, List.mem_cons, not_or]
      exact ⟨jsonString_line _, by decide, jsonString_line _⟩
  simp only [List.mem_append, List.mem_cons, List.not_mem_nil, or_false, not_or]
  exact ⟨⟨by decide, this⟩, by decide⟩

theorem jsonEdits_line (es : List (Edit Char)) : '\n' ∉ jsonEdits es := by
  unfold jsonEdits
  split
  · decide
  · have : '\n' ∉ commas (es.map jsonEdit) := commas_line _ fun x hx => by
      obtain ⟨e, -, rfl⟩ := List.mem_map.1 hx
      exact jsonEdit_line e
    simp only [List.mem_append, List.mem_cons, List.not_mem_nil, or_false, not_or]
    exact ⟨⟨by decide, this⟩, by decide⟩

/-- Reading a line backwards. -/
theorem linesBack_line (max : Nat) (s : Str) (res : List Str) : ∀ (r cur : Str), '\n' ∉ r →
    linesBack max (r ++ '\n' :: s) cur res =
      if ((r.reverse ++ cur) :: res).length ≥ max then (r.reverse ++ cur) :: res else linesBack max s [] ((r.reverse ++ cur) :: res) := by
  intro r
  induction r with
  | nil => intro cur _; simp [linesBack]
  | cons c r ih =>
    intro cur h
    simp only [List.mem_cons, not_or] at h
    rw [List.cons_append, linesBack, if_neg (fun e => h.1 e.symm), ih _ h.2]
    simp

/-- The last three lines. -/
theorem findLines {a b c text : Str} (ha : '\n' ∉ a) (hb : '\n' ∉ b) (hc : '\n' ∉ c) (hne : c ≠ []) :
    findLinesFromEnd (text ++ '\n' :: (a ++ '\n' :: (b ++ '\n' :: c))) 3 = [a, b, c] := by
  have hrev : (text ++ '\n' :: (a ++ '\n' :: (b ++ '\n' :: c))).reverse =
      c.reverse ++ '\n' :: (b.reverse ++ '\n' :: (a.reverse ++ '\n' :: text.reverse)) := by simp
  have ha' : '\n' ∉ a.reverse := by simpa using ha
  have hb' : '\n' ∉ b.reverse := by simpa using hb
  have hc' : '\n' ∉ c.reverse := by simpa using hc
  have hcore : linesBack 3 (c.reverse ++ '\n' :: (b.reverse ++ '\n' :: (a.reverse ++ '\n' :: text.reverse))) [] [] = [a, b, c] := by
    rw [linesBack_line 3 _ _ _ _ hc', if_neg (by simp), linesBack_line 3 _ _ _ _ hb', if_neg (by simp),
      linesBack_line 3 _ _ _ _ ha', if_pos (by simp)]
    simp
  unfold findLinesFromEnd
  rw [if_neg (by decide), hrev]
  have hh : c.reverse ≠ [] := by simpa using hne
  obtain ⟨x, r, hx⟩ := List.exists_cons_of_ne_nil hh
  rw [hx] at hcore hc'
  rw [hx, List.cons_append]
  rw [List.cons_append] at hcore
  have hxn : x ≠ '\n' := fun e => hc' (by simp [e])
  split
  · rename_i h; cases h
  · rename_i h
    injection h with h _
    exact absurd h hxn
  · exact hcore

/-! ### The values -/

def blank (c : Char) : Bool := c = ' ' || c = '\t' || c = '\n' || c = '\r' || c = Char.ofNat 11 || c = Char.ofNat 12

/-- A value between its first and last character, which are not blanks. -/
theorem trim_value (x y : Char) (m : Str) (hx : blank x = false) (hy : blank y = false) : trimSpace (' ' :: x :: m ++ [y]) = x :: m ++ [y] := by
  change (((' ' :: x :: m ++ [y]).dropWhile blank).reverse.dropWhile blank).reverse = _
  have h1 : (' ' :: x :: m ++ [y]).dropWhile blank = x :: m ++ [y] := by
    simp only [List.cons_append]
    rw [List.dropWhile_cons_of_pos (by decide), List.dropWhile_cons_of_neg (by simp [hx])]
  rw [h1, List.reverse_append, List.reverse_singleton, List.singleton_append, List.dropWhile_cons_of_neg (by simp [hy])]
  simp

theorem cut_note {name : Str} (hn : ':' ∉ name) (value : Str) :
    cutPrefixAndSpace ("// __xgo_".toList ++ name ++ ':' :: value) = some ("// __xgo_".toList ++ name ++ [':'], trimSpace value) := by
  unfold cutPrefixAndSpace
  have hp : ∀ c ∈ name, (c != ':') = true := by
    intro c hc; rw [bne_iff_ne]; rintro rfl; exact hn hc
  rw [List.append_assoc, if_pos (by rw [List.isPrefixOf_iff_prefix]; exact List.prefix_append _ _)]
  simp only [List.drop_left]
  rw [List.takeWhile_append_of_pos hp, List.dropWhile_append_of_pos hp, List.takeWhile_cons_of_neg (by simp),
    List.dropWhile_cons_of_neg (by simp)]
  simp

theorem quote_shape (isPrint : Char → Bool) (s : Str) : ∃ m, quote isPrint s = '"' :: m ++ ['"'] := ⟨_, rfl⟩

theorem parse_notes {isPrint : Char → Bool} (hp : isPrint '\n' = false) {edits : List (Edit Char)} {file original : Str} (content : Str)
    (he : edits ≠ []) (hf : file ≠ []) (ho : original ≠ []) :
    parseNotes (addEditsNotes isPrint edits file original content) = some (file, edits, original) := by
  have e1 : "// __xgo_file: ".toList = "// __xgo_".toList ++ "file".toList ++ ':' :: [' '] := by decide
  have e2 : "// __xgo_edits: ".toList = "// __xgo_".toList ++ "edits".toList ++ ':' :: [' '] := by decide
  have e3 : "// __xgo_original: ".toList = "// __xgo_".toList ++ "original".toList ++ ':' :: [' '] := by decide
  have hnote : ∀ (name value : Str), ':' ∉ name →
      cutPrefixAndSpace ("// __xgo_".toList ++ name ++ ':' :: [' '] ++ value) = some ("// __xgo_".toList ++ name ++ [':'], trimSpace (' ' :: value)) := by
    intro name value hn
    have := cut_note hn (' ' :: value)
    rw [← this]
    simp
  have tq : ∀ s, trimSpace (' ' :: quote isPrint s) = quote isPrint s := by
    intro s
    obtain ⟨m, hm⟩ := quote_shape isPrint s
    rw [hm]
    exact trim_value '"' '"' m (by decide) (by decide)
  have tj : trimSpace (' ' :: jsonEdits edits) = jsonEdits edits := by
    have : jsonEdits edits = '[' :: commas (edits.map jsonEdit) ++ [']'] := by unfold jsonEdits; rw [if_neg he]
    rw [this]
    exact trim_value '[' ']' _ (by decide) (by decide)
  have hlines : findLinesFromEnd (addEditsNotes isPrint edits file original content) 3 =
      ["// __xgo_file: ".toList ++ quote isPrint file, "// __xgo_edits: ".toList ++ jsonEdits edits,
        "// __xgo_original: ".toList ++ quote isPrint original] := by
    have hshape : ∃ text, addEditsNotes isPrint edits file original content = text ++ '\n' :: (("// __xgo_file: ".toList ++ quote isPrint file) ++
        '\n' :: (("// __xgo_edits: ".toList ++ jsonEdits edits) ++ '\n' :: ("// __xgo_original: ".toList ++ quote isPrint original))) := by
      have en : "\n".toList = ['\n'] := rfl
      unfold addEditsNotes
      simp only [en]
      by_cases hl : content.getLast? = some '\n'
      · rw [if_pos hl]
        obtain ⟨t, ht⟩ : ∃ t, content = t ++ ['\n'] := List.getLast?_eq_some_iff.1 hl
        refine ⟨t, ?_⟩
        rw [ht]
        simp
      · rw [if_neg hl]
        exact ⟨content, by simp⟩
    obtain ⟨text, ht⟩ := hshape
    rw [ht]
    refine findLines ?_ ?_ ?_ ?_
    · rw [List.mem_append, not_or]; exact ⟨by decide, quote_line hp _⟩
    · rw [List.mem_append, not_or]; exact ⟨by decide, jsonEdits_line _⟩
    · rw [List.mem_append, not_or]; exact ⟨by decide, quote_line hp _⟩
    · intro h; have := congrArg List.length h; simp at this
  have hread : readNotes ["// __xgo_file: ".toList ++ quote isPrint file, "// __xgo_edits: ".toList ++ jsonEdits edits,
      "// __xgo_original: ".toList ++ quote isPrint original] {} = some ⟨quote isPrint file, jsonEdits edits, quote isPrint original⟩ := by
    rw [readNotes, e1, hnote _ _ (by decide)]
    simp only
    rw [if_pos (by decide), readNotes, e2, hnote _ _ (by decide)]
    simp only
    rw [if_neg (by decide), if_pos (by decide), readNotes, e3, hnote _ _ (by decide)]
    simp only
    rw [if_neg (by decide), if_neg (by decide), if_pos (by decide), readNotes, tq, tq, tj]
  unfold parseNotes
  simp only [hlines, hread]
  rw [if_neg (by simp), if_neg (by
    simp only [not_or]
    refine ⟨by simp [quote], ?_, by simp [quote]⟩
    unfold jsonEdits; rw [if_neg he]; simp)]
  rw [unquote_quote hp, unquote_quote hp, unmarshal_json he, if_neg (by simp only [not_or]; exact ⟨hf, he, ho⟩)]

/-- A text that does not end with notes. -/
theorem no_notes {content : Str} (h : ∀ line, line ∈ findLinesFromEnd content 3 → ¬ "// __xgo_".toList <+: line) : parseNotes content = none := by
  unfold parseNotes
  simp only
  split
  · rfl
  · rename_i hl
    cases hf : findLinesFromEnd content 3 with
    | nil => rw [hf] at hl; simp at hl
    | cons l ls =>
      have h1 : cutPrefixAndSpace l = none := by
        unfold cutPrefixAndSpace
        rw [if_neg]
        rw [List.isPrefixOf_iff_prefix]
        exact h l (by rw [hf]; simp)
      rw [readNotes, h1]

end Verif.Instrument.CoverNotes
