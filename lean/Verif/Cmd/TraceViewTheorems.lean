import Verif.Cmd.TraceViewText
/-
C77: the texts of the page, the files that are read, and the answers of the viewer.
-/
namespace Verif.Cmd.TraceView
open Verif.Runtime.TraceJson Spec

/-! ### Harmless texts -/

theorem inert_lit {s : String} (h : ∀ c ∈ s.toList, 32 ≤ c.toNat ∧ c ≠ '<' ∧ c ≠ '>' ∧ c ≠ '&' ∧ c.toNat ≠ 0x2028 ∧ c.toNat ≠ 0x2029) : ∀ x ∈ lit s, Inert x := by
  intro x hx
  obtain ⟨c, hc, rfl⟩ := List.mem_map.mp hx
  exact ⟨c, rfl, h c hc⟩

theorem inert_one {c : Char} (h : 32 ≤ c.toNat ∧ c ≠ '<' ∧ c ≠ '>' ∧ c ≠ '&' ∧ c.toNat ≠ 0x2028 ∧ c.toNat ≠ 0x2029) : Inert (.rune c) := ⟨c, rfl, h⟩

theorem inert_hexDigit {d : Nat} (h : d < 16) : Inert (.rune (hexDigit d)) := by
  have : ∀ d : Fin 16, 32 ≤ (hexDigit d.val).toNat ∧ hexDigit d.val ≠ '<' ∧ hexDigit d.val ≠ '>' ∧ hexDigit d.val ≠ '&' ∧
      (hexDigit d.val).toNat ≠ 0x2028 ∧ (hexDigit d.val).toNat ≠ 0x2029 := by decide
  exact ⟨_, rfl, this ⟨d, h⟩⟩

theorem inert_hex : ∀ (k n : Nat), ∀ x ∈ hex k n, Inert x := by
  intro k
  induction k with
  | zero => intro n x hx; cases hx
  | succ k ih =>
    intro n x hx
    rw [hex] at hx
    rcases List.mem_append.mp hx with hx | hx
    · exact ih _ x hx
    · rw [List.mem_singleton] at hx
      subst hx
      exact inert_hexDigit (Nat.mod_lt _ (by decide))

theorem inert_escCh (x : Ch) : ∀ y ∈ escCh x, Inert y := by
  cases x with
  | bad b => exact inert_lit (s := "\\ufffd") (by decide)
  | rune c =>
    by_cases h1 : c = '"'
    · subst h1; exact inert_lit (s := "\\\"") (by decide)
    by_cases h2 : c = '\\'
    · subst h2; exact inert_lit (s := "\\\\") (by decide)
    by_cases h3 : c = '\x08'
    · subst h3; exact inert_lit (s := "\\b") (by decide)
    by_cases h4 : c = '\x0c'
    · subst h4; exact inert_lit (s := "\\f") (by decide)
    by_cases h5 : c = '\n'
    · subst h5; exact inert_lit (s := "\\n") (by decide)
    by_cases h6 : c = '\r'
    · subst h6; exact inert_lit (s := "\\r") (by decide)
    by_cases h7 : c = '\t'
    · subst h7; exact inert_lit (s := "\\t") (by decide)
    rw [escCh_hex h1 h2 h3 h4 h5 h6 h7]
    split
    · intro y hy
      rcases List.mem_append.mp hy with hy | hy
      · exact inert_lit (s := "\\u") (by decide) y hy
      · exact inert_hex _ _ y hy
    · rename_i h
      intro y hy
      rw [List.mem_singleton] at hy
      subst hy
      exact ⟨c, rfl, Nat.le_of_not_lt fun g => h (Or.inl g), fun g => h (Or.inr (Or.inl g)), fun g => h (Or.inr (Or.inr (Or.inl g))),
        fun g => h (Or.inr (Or.inr (Or.inr (Or.inl g)))), fun g => h (Or.inr (Or.inr (Or.inr (Or.inr (Or.inl g))))),
        fun g => h (Or.inr (Or.inr (Or.inr (Or.inr (Or.inr g)))))⟩

theorem inert_encStr (s : Str) : ∀ y ∈ encStr s, Inert y := by
  intro y hy
  rcases List.mem_cons.mp hy with rfl | hy
  · exact inert_one (by decide)
  rcases List.mem_append.mp hy with hy | hy
  · obtain ⟨x, _, hx⟩ := List.mem_flatMap.mp hy
    exact inert_escCh x y hx
  · rw [List.mem_singleton] at hy; subst hy; exact inert_one (by decide)

theorem inert_numeric {c : Char} (h : numeric (.rune c) = true) : Inert (.rune c) := by
  refine ⟨c, rfl, ?_⟩
  simp only [numeric, Bool.or_eq_true, decide_eq_true_eq] at h
  rcases h with ((((h | rfl) | rfl) | rfl) | rfl) | rfl
  · have h := Char.isDigit_iff_toNat.mp h
    rw [show '0'.toNat = 48 from rfl, show '9'.toNat = 57 from rfl] at h
    refine ⟨by have := h.1; omega, ?_, ?_, ?_, by omega, by omega⟩ <;> (rintro rfl; exact absurd h (by decide))
  all_goals decide

mutual
theorem inert_enc : ∀ j : Json, Clean j → ∀ y ∈ enc j, Inert y
  | .null, _ => by rw [enc]; exact inert_lit (by decide)
  | .bool true, _ => by rw [enc, if_pos rfl]; exact inert_lit (by decide)
  | .bool false, _ => by rw [enc, if_neg (by decide)]; exact inert_lit (by decide)
  | .num t, h => by
    cases h with
    | num _ h =>
      rw [enc]
      intro y hy
      obtain ⟨c, hc, rfl⟩ := List.mem_map.mp hy
      exact inert_numeric (h c hc)
  | .str s, _ => by rw [enc]; exact inert_encStr s
  | .arr l, h => by
    cases h with
    | arr h =>
      rw [enc]
      intro y hy
      rcases List.mem_cons.mp hy with rfl | hy
      · exact inert_one (by decide)
      · exact inert_elems l h y hy
  | .obj l, h => by
    cases h with
    | obj h =>
      rw [enc]
      intro y hy
      rcases List.mem_cons.mp hy with rfl | hy
      · exact inert_one (by decide)
      · exact inert_members l h y hy
theorem inert_elems : ∀ l : List Json, CleanList l → ∀ y ∈ encElems l, Inert y
  | [], _ => by rw [encElems]; exact inert_lit (s := "]") (by decide)
  | [x], h => by
    cases h with
    | cons hx _ =>
      rw [encElems]
      intro y hy
      rcases List.mem_append.mp hy with hy | hy
      · exact inert_enc x hx y hy
      · exact inert_lit (s := "]") (by decide) y hy
  | x :: z :: l, h => by
    cases h with
    | cons hx hl =>
      rw [encElems]
      intro y hy
      rcases List.mem_append.mp hy with hy | hy
      · exact inert_enc x hx y hy
      rcases List.mem_cons.mp hy with rfl | hy
      · exact inert_one (by decide)
      · exact inert_elems (z :: l) hl y hy
theorem inert_member : ∀ x : Str × Json, Clean x.2 → ∀ y ∈ encMember x, Inert y
  | (k, v), h => by
    rw [encMember]
    intro y hy
    rcases List.mem_append.mp hy with hy | hy
    · exact inert_encStr k y hy
    rcases List.mem_cons.mp hy with rfl | hy
    · exact inert_one (by decide)
    · exact inert_enc v h y hy
theorem inert_members : ∀ l : List (Str × Json), CleanFields l → ∀ y ∈ encMembers l, Inert y
  | [], _ => by rw [encMembers]; exact inert_lit (s := "}") (by decide)
  | [x], h => by
    cases h with
    | cons _ hx _ =>
      rw [encMembers]
      intro y hy
      rcases List.mem_append.mp hy with hy | hy
      · exact inert_member (_, _) hx y hy
      · exact inert_lit (s := "}") (by decide) y hy
  | x :: z :: l, h => by
    cases h with
    | cons _ hx hl =>
      rw [encMembers]
      intro y hy
      rcases List.mem_append.mp hy with hy | hy
      · exact inert_member (_, _) hx y hy
      rcases List.mem_cons.mp hy with rfl | hy
      · exact inert_one (by decide)
      · exact inert_members (z :: l) hl y hy
end

/-! ### The data of an entry -/

theorem runes_lit (s : String) : Runes (lit s) := by
  intro x hx
  obtain ⟨c, _, rfl⟩ := List.mem_map.mp hx
  exact ⟨c, rfl⟩

theorem clean_nat (n : Nat) : (toString n).toList ≠ [] ∧ ∀ c ∈ (toString n).toList, numeric (.rune c) = true := by
  have h : (toString n).toList = Nat.toDigits 10 n := by
    show (Nat.repr n).toList = _
    rw [Nat.repr]
    exact String.toList_ofList
  rw [h]
  refine ⟨Nat.toDigits_ne_nil, fun c hc => ?_⟩
  have := Nat.isDigit_of_mem_toDigits (by decide) (by decide) hc
  simp [numeric, this]

theorem clean_int (i : Int) : Clean (ofInt i) := by
  unfold ofInt
  cases i with
  | ofNat n => exact .num (clean_nat n).1 (clean_nat n).2
  | negSucc n =>
    have h : (toString (Int.negSucc n)).toList = '-' :: (toString (n + 1)).toList := by
      show ("-" ++ Nat.repr (n + 1)).toList = _
      rw [String.toList_append]
      rfl
    rw [h]
    refine .num (by simp) fun c hc => ?_
    rcases List.mem_cons.mp hc with rfl | hc
    · decide
    · exact (clean_nat (n + 1)).2 c hc

theorem clean_list {l : List Str} (h : ∀ s ∈ l, Runes s) : CleanList (l.map .str) := by
  induction l with
  | nil => exact .nil
  | cons s l ih => exact .cons (.str (h s List.mem_cons_self)) (ih fun t ht => h t (List.mem_cons_of_mem _ ht))

theorem clean_names {o : Option (List Str)} (h : ∀ l, o = some l → ∀ s ∈ l, Runes s) : Clean (ofNames o) := by
  cases o with
  | none => exact .null
  | some l => exact .arr (clean_list (h l rfl))

theorem clean_entry {e : Entry} (h : CleanEntry e) : Clean (entryJson e) := by
  obtain ⟨h1, h2, h3, h4⟩ := h
  have hi : Clean (infoJson e.info) := by
    cases he : e.info with
    | none => exact .null
    | some f =>
      obtain ⟨g1, g2, g3, g4, g5, g6, g7, g8⟩ := h4 f he
      exact .obj (.cons (runes_lit _) (.str g1) <| .cons (runes_lit _) (.str g2) <| .cons (runes_lit _) (.str g3) <| .cons (runes_lit _) (.str g4) <|
        .cons (runes_lit _) .bool <| .cons (runes_lit _) .bool <| .cons (runes_lit _) .bool <| .cons (runes_lit _) .bool <| .cons (runes_lit _) .bool <|
        .cons (runes_lit _) (.str g5) <| .cons (runes_lit _) (clean_int _) <| .cons (runes_lit _) (.str g6) <| .cons (runes_lit _) (clean_names g7) <|
        .cons (runes_lit _) (clean_names g8) <| .cons (runes_lit _) .bool <| .cons (runes_lit _) .bool .nil)
  exact .obj (.cons (runes_lit _) hi <| .cons (runes_lit _) (clean_int _) <| .cons (runes_lit _) (clean_int _) <| .cons (runes_lit _) h1 <|
    .cons (runes_lit _) h2 <| .cons (runes_lit _) .bool <| .cons (runes_lit _) (clean_int _) <| .cons (runes_lit _) (.str h3) <| .cons (runes_lit _) .null .nil)

/-- The data of a call in the script is JSON of its fields; and no text of the trace, whatever it is, ends the line or the script or opens
    a tag. -/
theorem C77_data {e : Entry} (id : Nat) (h : CleanEntry e) :
    parse (Line.data id e).value = some (entryJson e) ∧ ∀ x ∈ (Line.data id e).value, Inert x :=
  ⟨enc_parse (clean_entry h), inert_enc _ (clean_entry h)⟩

/-! ### Names in the list -/

theorem displays_one (x : Ch) {s t : Str} (h : Displays s t) : Displays (escHtml x ++ s) (x :: t) := by
  cases x with
  | bad b => exact .plain (by simp) (by simp) h
  | rune c =>
    rw [escHtml]
    by_cases h1 : c = '&'
    · subst h1; exact .ref (r := s) rfl h
    by_cases h2 : c = '\''
    · subst h2; exact .ref (r := s) rfl h
    by_cases h3 : c = '<'
    · subst h3; exact .ref (r := s) rfl h
    by_cases h4 : c = '>'
    · subst h4; exact .ref (r := s) rfl h
    by_cases h5 : c = '"'
    · subst h5; exact .ref (r := s) rfl h
    rw [if_neg h1, if_neg h2, if_neg h3, if_neg h4, if_neg h5]
    exact .plain (by intro e; injection e with e; exact h1 e) (by intro e; injection e with e; exact h3 e) h

theorem escHtml_tags (x : Ch) : ∀ y ∈ escHtml x, y ≠ .rune '<' ∧ y ≠ .rune '>' ∧ y ≠ .rune '"' ∧ y ≠ .rune '\'' := by
  have hl : ∀ s : String, (∀ c ∈ s.toList, c ≠ '<' ∧ c ≠ '>' ∧ c ≠ '"' ∧ c ≠ '\'') → ∀ y ∈ lit s, y ≠ .rune '<' ∧ y ≠ .rune '>' ∧ y ≠ .rune '"' ∧ y ≠ .rune '\'' := by
    intro s h y hy
    obtain ⟨c, hc, rfl⟩ := List.mem_map.mp hy
    have := h c hc
    simpa using this
  cases x with
  | bad b => intro y hy; simp [escHtml] at hy; subst hy; simp
  | rune c =>
    rw [escHtml]
    split
    · exact hl _ (by decide)
    split
    · exact hl _ (by decide)
    split
    · exact hl _ (by decide)
    split
    · exact hl _ (by decide)
    split
    · exact hl _ (by decide)
    · intro y hy
      rw [List.mem_singleton] at hy
      subst hy
      simp_all

/-- The name of a call is shown as it is, whatever characters it has, and opens no tag. -/
theorem C77_name (id : Nat) (l : Label) : Displays (Line.head id l).value l.name ∧ Ch.rune '<' ∉ (Line.head id l).value ∧ Ch.rune '>' ∉ (Line.head id l).value := by
  refine ⟨?_, fun h => ?_, fun h => ?_⟩
  · show Displays (l.name.flatMap escHtml) l.name
    induction l.name with
    | nil => exact .nil
    | cons x s ih => rw [List.flatMap_cons]; exact displays_one x ih
  · obtain ⟨x, _, hx⟩ := List.mem_flatMap.mp h
    exact (escHtml_tags x _ hx).1 rfl
  · obtain ⟨x, _, hx⟩ := List.mem_flatMap.mp h
    exact (escHtml_tags x _ hx).2.1 rfl

/-- The name of the file goes into the page as it is: one with a tag in it opens that tag. -/
theorem C77_title_raw_partial (stacks : List Stack) (file : Str) : ∃ l ∈ (page stacks file).lines, ∃ f, l = .title f ∧ l.value = file := by
  have hw : ∀ (f : Forest) (w : Walk), ∀ x ∈ w.lines, x ∈ (walk f w).1.lines := by
    intro f
    induction f with
    | nil => intro w x hx; exact hx
    | null r _ => intro w x hx; exact hx
    | node p e kids rest ihk ihr =>
      intro w x hx
      rw [walk]
      split
      · exact ihr _ x (ihk _ x (List.mem_append_left _ hx))
      · exact ihk _ x (List.mem_append_left _ hx)
  refine ⟨.title file, ?_, file, rfl, rfl⟩
  unfold page
  simp only
  split
  · exact List.mem_append_left _ (hw _ _ _ List.mem_cons_self)
  · exact hw _ _ _ List.mem_cons_self

/-! ### Reading the file -/

variable {dec : Json → Option Stack} {bad : Stack}

theorem next_blank {c : Ch} (s : Str) (h : blank c = true) : next (c :: s) = next s := by
  unfold next
  have : skip (c :: s) = skip s := by unfold skip; rw [List.dropWhile_cons, h]; rfl
  rw [this]

theorem next_blanks {r : Str} (s : Str) (h : skip r = []) : next (r ++ s) = next s := by
  unfold next
  rw [skip_blank s h]

theorem file_blanks {r s : Str} {js : List Json} {tl : Str} (h : skip r = []) (hf : File s js tl) : File (r ++ s) js tl := by
  induction r with
  | nil => exact hf
  | cons c r ih =>
    have hc : blank c = true := by
      cases hb : blank c with
      | true => rfl
      | false => rw [skip_cons _ hb] at h; cases h
    have : skip r = [] := by unfold skip at h ⊢; rw [List.dropWhile_cons, hc] at h; exact h
    exact .blank hc (ih this)

theorem file_next {s : Str} {js : List Json} {tl : Str} (h : File s js tl) :
    match js with
    | [] => next s = next tl
    | j :: js => ∃ s', next s = .val j s' ∧ File s' js tl := by
  induction h with
  | tail => rfl
  | blank hb _ ih =>
    rename_i js _ _
    cases js with
    | nil => simp only at ih ⊢; rw [next_blank _ hb]; exact ih
    | cons j js => simp only at ih ⊢; rw [next_blank _ hb]; exact ih
  | @value c t j rest js tl hb hp hs hf _ =>
    simp only
    obtain ⟨r, hr, hv⟩ := reads hp
    refine ⟨r ++ rest, ?_, file_blanks hr hf⟩
    have hsk : skip (c :: t ++ rest) = c :: t ++ rest := skip_cons _ hb
    unfold next
    rw [hsk, if_neg (by simp), hv _ (by simp only [List.length_append]; omega) rest hs]

theorem rounds_file : ∀ (js : List Json) {s : Str} {tl : Str}, File s js tl → skip tl = [] → ∀ (n : Nat) (acc : List Stack), js.length < n →
    rounds dec bad n s acc = some (acc ++ js.map fun j => (dec j).getD bad) := by
  intro js
  induction js with
  | nil =>
    intro s tl hf ht n acc hn
    obtain ⟨m, rfl⟩ : ∃ m, n = m + 1 := ⟨n - 1, by simp at hn; omega⟩
    have h := file_next hf
    simp only at h
    rw [rounds, h]
    have : next tl = .eof := by unfold next; rw [if_pos ht]
    rw [this]
    simp
  | cons j js ih =>
    intro s tl hf ht n acc hn
    simp only [List.length_cons] at hn
    obtain ⟨m, rfl⟩ : ∃ m, n = m + 1 := ⟨n - 1, by omega⟩
    obtain ⟨s', h1, h2⟩ := file_next hf
    rw [rounds, h1]
    simp only
    rw [ih h2 ht m _ (by omega)]
    simp

/-- A whole file is read: all its stacks in order; a value that is no stack is replaced by one that says so. -/
theorem C77_read {s : Str} {j : Json} {js : List Json} {tl : Str} {st : Stack} (hf : File s (j :: js) tl) (ht : skip tl = [])
    (hd : dec j = some st) (hk : st.format = lit "stack") : ∀ n, js.length < n →
    readStacks dec bad n s = some (.stacks (st :: js.map fun j => (dec j).getD bad)) := by
  intro n hn
  obtain ⟨s', h1, h2⟩ := file_next hf
  unfold readStacks
  rw [h1]
  simp only
  rw [hd]
  simp only
  rw [if_neg (by simpa using hk), rounds_file js h2 ht n _ hn]
  rfl

/-- The first value decides: nothing at all is no stack, an error is reported, another format is left to the older reader. -/
theorem C77_first {s : Str} {js : List Json} {tl : Str} (hf : File s js tl) (n : Nat) :
    (js = [] → skip tl = [] → readStacks dec bad n s = some (.stacks [])) ∧
    (∀ j r, js = j :: r → dec j = none → readStacks dec bad n s = some .failed) ∧
    (∀ j r st, js = j :: r → dec j = some st → st.format ≠ lit "stack" → readStacks dec bad n s = some .other) := by
  have h := file_next hf
  refine ⟨?_, ?_, ?_⟩
  · rintro rfl ht
    simp only at h
    unfold readStacks
    rw [h, show next tl = .eof by unfold next; rw [if_pos ht]]
  · rintro j r rfl hd
    obtain ⟨s', h1, _⟩ := h
    unfold readStacks
    rw [h1]
    simp only
    rw [hd]
  · rintro j r st rfl hd hk
    obtain ⟨s', h1, _⟩ := h
    unfold readStacks
    rw [h1]
    simp only
    rw [hd]
    simp only
    rw [if_pos hk]

theorem skip_tail_blank {r m : Str} (h : skip (r ++ m) = []) : skip m = [] := by
  induction r with
  | nil => exact h
  | cons c r ih =>
    cases hb : blank c with
    | true => exact ih (by unfold skip at h ⊢; rw [List.cons_append, List.dropWhile_cons, hb] at h; exact h)
    | false => rw [List.cons_append, skip_cons _ hb] at h; cases h

theorem cut_broken {s : Str} (h : CutObject s) : next s = .broken := by
  obtain ⟨t, rfl, more, j, hp, hm⟩ := h
  have hsk : skip (Ch.rune '{' :: t) = .rune '{' :: t := skip_cons _ (by decide)
  unfold next
  rw [hsk, if_neg (by simp)]
  cases hv : value ((Ch.rune '{' :: t).length + 1) (Ch.rune '{' :: t) with
  | none => rfl
  | some x =>
    exfalso
    obtain ⟨v, r⟩ := x
    have h1 := (local_open more _).1 _ _ _ hv (Or.inr (Or.inr (by rw [hsk]; rfl)))
    unfold parse at hp
    obtain ⟨⟨v', r'⟩, g1, g2⟩ := Option.bind_eq_some_iff.mp hp
    simp only at g2
    split at g2
    · rename_i hr
      have h2 := value_mono (m := (Ch.rune '{' :: t ++ more).length + 1) (by simp) h1
      rw [g1] at h2
      injection h2 with h2
      injection h2 with _ h2
      rw [h2] at hr
      exact hm (skip_tail_blank hr)
    · cases g2

theorem rounds_broken : ∀ (n : Nat) {s : Str} (acc : List Stack), next s = .broken → rounds dec bad n s acc = none := by
  intro n
  induction n with
  | zero => intro s acc _; rfl
  | succ n ih => intro s acc h; rw [rounds, h]; exact ih _ h

theorem rounds_cut : ∀ (n : Nat) (js : List Json) {s : Str} {tl : Str} (acc : List Stack), File s js tl → next tl = .broken → rounds dec bad n s acc = none := by
  intro n
  induction n with
  | zero => intro js s tl acc _ _; rfl
  | succ n ih =>
    intro js s tl acc hf ht
    cases js with
    | nil =>
      have h := file_next hf
      simp only at h
      exact rounds_broken _ _ (h.trans ht)
    | cons j js =>
      obtain ⟨s', h1, h2⟩ := file_next hf
      rw [rounds, h1]
      exact ih js _ h2 ht

/-- A file that ends within a stack, as the writing was cut short: within the first an error is reported; within a later one the viewer
    never answers, whatever else the file holds. -/
theorem C77_cut_partial {s : Str} {js : List Json} {tl : Str} (hf : File s js tl) (hc : CutObject tl) :
    (js = [] → ∀ n, readStacks dec bad n s = some .failed) ∧
    (∀ j r st, js = j :: r → dec j = some st → st.format = lit "stack" → ∀ n, readStacks dec bad n s = none) := by
  have h := file_next hf
  refine ⟨?_, ?_⟩
  · rintro rfl n
    simp only at h
    unfold readStacks
    rw [h, cut_broken hc]
  · rintro j r st rfl hd hk n
    obtain ⟨s', h1, h2⟩ := h
    unfold readStacks
    rw [h1]
    simp only
    rw [hd]
    simp only
    rw [if_neg (by simpa using hk), rounds_cut n r _ h2 (cut_broken hc)]
    rfl

/-! ### The older format -/

theorem convert_carries : ∀ {f : OldForest} {g : Forest}, convert f = some g → Carries f g ∧ Whole g := by
  intro f
  induction f with
  | nil => intro g h; cases h; exact ⟨.nil, trivial⟩
  | null r _ => intro g h; cases h
  | node p e kids rest ihk ihr =>
    intro g h
    simp only [convert, Option.bind_eq_bind, Option.bind_eq_some_iff, Option.pure_def, Option.some.injEq] at h
    obtain ⟨o, ho, k, hk, r, hr, rfl⟩ := h
    exact ⟨.node ho rfl rfl rfl rfl rfl rfl rfl rfl rfl (ihk hk).1 (ihr hr).1, (ihk hk).2, (ihr hr).2⟩

theorem convert_none : ∀ {f : OldForest}, convert f = none ↔ ¬ OldWhole f := by
  intro f
  induction f with
  | nil => simp [convert, OldWhole]
  | null r _ => simp [convert, OldWhole]
  | node p e kids rest ihk ihr =>
    simp only [convert, OldWhole]
    cases e.info with
    | none => simp
    | some o =>
      cases hk : convert kids with
      | none => simp [ihk.mp hk]
      | some k =>
        have h1 : OldWhole kids := Classical.byContradiction fun h => by rw [ihk.mpr h] at hk; cases hk
        cases hr : convert rest with
        | none => simp [ihr.mp hr]
        | some r =>
          have h2 : OldWhole rest := Classical.byContradiction fun h => by rw [ihr.mpr h] at hr; cases hr
          simp [h1, h2]

variable {old : Json → Option (Option OldForest)}

/-- A file in the older format is shown with the same calls; one with a `null` call, or a call without its function, gets a panic. -/
theorem C77_old {s : Str} {j : Json} {st : Stack} {f : OldForest} (file : Str) (n : Nat) (hf : File s [j] []) (hp : parse s = some j)
    (hd : dec j = some st) (hk : st.format ≠ lit "stack") (ho : old j = some (some f)) :
    (OldWhole f → ∃ g, Carries f g ∧ Whole g ∧ serve dec bad old file n s = some (.page (page [{ format := [], begin := [], children := g }] file))) ∧
    (¬ OldWhole f → serve dec bad old file n s = some .panic) := by
  have hr := (C77_first (dec := dec) (bad := bad) hf n).2.2 j [] st rfl hd hk
  unfold serve
  rw [hr, Option.map_some]
  simp only
  rw [hp]
  simp only
  rw [ho]
  simp only
  constructor
  · intro hw
    cases hc : convert f with
    | none => exact absurd hw (convert_none.mp hc)
    | some g => exact ⟨g, (convert_carries hc).1, (convert_carries hc).2, rfl⟩
  · intro hw
    rw [convert_none.mpr hw]

/-- A file that holds only `null`, or an older root without a tree, gets a panic, and one that is not a trace at all an error. -/
theorem C77_old_null {s : Str} {j : Json} {st : Stack} (file : Str) (n : Nat) (hf : File s [j] []) (hp : parse s = some j)
    (hd : dec j = some st) (hk : st.format ≠ lit "stack") :
    (old j = some none → serve dec bad old file n s = some .panic) ∧ (old j = none → serve dec bad old file n s = some .error) := by
  have hr := (C77_first (dec := dec) (bad := bad) hf n).2.2 j [] st rfl hd hk
  unfold serve
  rw [hr, Option.map_some]
  simp only
  rw [hp]
  simp only
  exact ⟨fun h => by rw [h], fun h => by rw [h]⟩

/-- The viewer shows a file of stacks: the page of C77_page for the stacks of C77_read. -/
theorem C77_serve {s : Str} {j : Json} {js : List Json} {tl : Str} {st : Stack} (file : Str) (hf : File s (j :: js) tl) (ht : skip tl = [])
    (hd : dec j = some st) (hk : st.format = lit "stack") (n : Nat) (hn : js.length < n) :
    serve dec bad old file n s = some (.page (page (st :: js.map fun j => (dec j).getD bad) file)) := by
  unfold serve
  rw [C77_read hf ht hd hk n hn]
  rfl

/-! ### Examples -/

def sampleInfo (n : String) : FuncInfo where
  kind := lit "func"
  pkg := lit "p"
  name := lit n
  recvType := []
  recvPtr := false
  interface := false
  generic := false
  closure := false
  stdlib := false
  file := lit "a.go"
  line := 3
  recvName := []
  argNames := some [lit "a"]
  resNames := none
  firstArgCtx := false
  lastResultErr := false

def sampleEntry (n : String) (b e : Int) : Entry where
  info := some (sampleInfo n)
  beginNs := b
  endNs := e
  args := .obj [(lit "a", .num ['1'])]
  results := .null
  panic := false
  panicLine := 0
  error := lit "</script>"

instance (t : Str) : Decidable (Ends t) := by unfold Ends; infer_instance

def sampleStacks : List Stack :=
  [⟨lit "stack", [], .node (.given 0) (sampleEntry "F<T>" 0 1500) (.node (.given 1) (sampleEntry "" 5 1000000005) .nil .nil) .nil⟩,
   ⟨lit "stack", [], .nil⟩]

example : (∀ s ∈ sampleStacks, Whole s.children) ∧ Trees sampleStacks := by
  refine ⟨?_, by decide, ?_⟩
  · intro s hs; simp [sampleStacks] at hs; rcases hs with rfl | rfl <;> simp [Whole]
  · intro s hs p hp; simp [sampleStacks] at hs; rcases hs with rfl | rfl <;> simp [ptrs] at hp; rcases hp with rfl | rfl <;> exact ⟨_, rfl⟩

/-- What the browser shows of it. -/
example : shown (page sampleStacks (lit "t.json")).lines = some (.node 1 ⟨lit "<root_0>", false, false, "", true⟩
    (.node 2 ⟨lit "F<T>", false, true, "1μs", true⟩ (.node 3 ⟨lit "<unknown>", false, true, "1s", false⟩ .nil .nil) .nil)
    (.node 4 ⟨lit "<root_1>", false, false, "", false⟩ .nil .nil)) := by decide +kernel

/-- An entry that is passed twice by a program is shown with one of its two numbers only: the lists of the two cannot be told apart. -/
example : ∃ s : List Stack, (∀ x ∈ s, Whole x.children) ∧
    shown (page s (lit "t")).lines = some (.node 1 ⟨lit "<root>", false, false, "", true⟩
      (.node 3 ⟨lit "F", false, true, "1ns", false⟩ .nil (.node 3 ⟨lit "F", false, true, "1ns", false⟩ .nil .nil)) .nil) :=
  ⟨[⟨[], [], .node (.given 0) (sampleEntry "F" 0 1) .nil (.node (.given 0) (sampleEntry "F" 0 1) .nil .nil)⟩],
    by intro x hx; simp at hx; subst hx; simp [Whole], by decide +kernel⟩

example : CleanEntry (sampleEntry "F" 0 1) :=
  ⟨.obj (.cons (runes_lit _) (.num (by simp) (by decide)) .nil), .null, runes_lit _, fun f hf => by
    injection hf with hf
    subst hf
    refine ⟨runes_lit _, runes_lit _, runes_lit _, fun _ h => (by cases h), runes_lit _, fun _ h => (by cases h), fun l h s hs => ?_, fun l h => by cases h⟩
    injection h with h
    subst h
    rw [List.mem_singleton] at hs
    subst hs
    exact runes_lit _⟩

example : (Line.data 7 (sampleEntry "F" 0 1)).value = lit ("{\"FuncInfo\":{\"Kind\":\"func\",\"Pkg\":\"p\",\"Name\":\"F\",\"RecvType\":\"\",\"RecvPtr\":false," ++
    "\"Interface\":false,\"Generic\":false,\"Closure\":false,\"Stdlib\":false,\"File\":\"a.go\",\"Line\":3,\"RecvName\":\"\",\"ArgNames\":[\"a\"]," ++
    "\"ResNames\":null,\"FirstArgCtx\":false,\"LastResultErr\":false},\"BeginNs\":0,\"EndNs\":1,\"Args\":{\"a\":1},\"Results\":null,\"Panic\":false," ++
    "\"PanicLine\":0,\"Error\":\"\\u003c/script\\u003e\",\"Children\":null}") := by decide +kernel

example : ∃ s : List Stack, ∃ x ∈ s, ¬ Whole x.children := ⟨[⟨[], [], .null .nil⟩], _, List.mem_cons_self, id⟩

/-- A file of two values. -/
example : File (lit "{}\n{\"a\":1}\n") [.obj [], .obj [(lit "a", .num ['1'])]] (lit "\n") :=
  .value (c := .rune '{') (t := lit "}") (rest := lit "\n{\"a\":1}\n") (by decide) rfl (by decide)
    (.blank (by decide) (.value (c := .rune '{') (t := lit "\"a\":1}") (rest := lit "\n") (by decide) rfl (by decide) .tail))

/-- The second one cut. -/
example : File (lit "{}\n{\"a\":") [.obj []] (lit "{\"a\":") ∧ CutObject (lit "{\"a\":") :=
  ⟨.value (c := .rune '{') (t := lit "}") (rest := lit "\n{\"a\":") (by decide) rfl (by decide) (.blank (by decide) .tail),
    lit "\"a\":", rfl, lit "1}", _, rfl, by decide⟩

example : ∃ f g, OldWhole f ∧ Carries f g ∧ f ≠ .nil :=
  let f : OldForest := .node 0 { info := some ⟨lit "T.F", sampleInfo "F"⟩, begin := 0, stop := 1, args := .null, results := .null, snapshot := false, panic := false, error := [] } .nil .nil
  ⟨f, _, ⟨by simp, trivial, trivial⟩, (convert_carries (f := f) rfl).1, by simp [f]⟩

end Verif.Cmd.TraceView
