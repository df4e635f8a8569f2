/-
C64: which tests the `-run` argument of the test explorer selects.
-/
import Verif.Cmd.TestExplorerSpec

namespace Verif.Cmd.Explorer
open Verif.Support (Str)

def lits (n : Str) : List Tok := n.map fun c => .one (some c)

/-- What follows is no repetition. -/
def NoRep (t : Str) : Prop := ∀ c, t.head? = some c → c ≠ '*' ∧ c ≠ '+' ∧ c ≠ '?'

theorem quantify_one (p : Option Char) {t : Str} (h : NoRep t) : quantify p t = (.one p, 0) := by
  cases t with
  | nil => rfl
  | cons c t =>
    obtain ⟨a, b, d⟩ := h c rfl
    unfold quantify
    split <;> simp_all

theorem tame_iff (c : Char) : Tame c ↔ c ≠ '.' ∧ c ≠ '(' ∧ c ≠ ')' ∧ c ≠ '+' ∧ c ≠ '*' ∧ c ≠ '?' ∧ c ≠ '^' ∧ c ≠ '$' ∧
    c ≠ '\\' ∧ c ≠ '/' := by
  unfold Tame
  rw [show ".()+*?^$\\/".toList = ['.', '(', ')', '+', '*', '?', '^', '$', '\\', '/'] by decide]
  simp

theorem special_iff (c : Char) : c ∈ "{}[]|".toList ↔ c = '{' ∨ c = '}' ∨ c = '[' ∨ c = ']' ∨ c = '|' := by
  rw [show "{}[]|".toList = ['{', '}', '[', ']', '|'] by decide]
  simp

theorem noRep_escape {n : Str} (hn : ∀ c ∈ n, Tame c) {t : Str} (ht : NoRep t) : NoRep (escapeName n ++ t) := by
  cases n with
  | nil => simpa [escapeName] using ht
  | cons c n =>
    intro d hd
    have := hn c (by simp)
    rw [tame_iff] at this
    unfold escapeName at hd
    split at hd
    · simp at hd; subst hd; decide
    · simp at hd; subst hd; simp [this]

theorem parseRe_escape {n : Str} (hn : ∀ c ∈ n, Tame c) {t : Str} (ht : NoRep t) :
    parseRe 0 (escapeName n ++ t) = (parseRe 0 t).map (lits n ++ ·) := by
  induction n with
  | nil => simp [escapeName, lits]
  | cons c n ih =>
    have ih := ih (fun d hd => hn d (by simp [hd]))
    have q := quantify_one (some c) (noRep_escape (n := n) (fun d hd => hn d (by simp [hd])) ht)
    have tc := (tame_iff c).mp (hn c (by simp))
    unfold escapeName
    by_cases sp : c ∈ "{}[]|".toList
    · rw [if_pos sp]
      have al : c.isAlphanum = false := by
        rw [special_iff] at sp
        rcases sp with rfl | rfl | rfl | rfl | rfl <;> decide
      show parseRe 0 ('\\' :: c :: (escapeName n ++ t)) = _
      rw [parseRe]
      simp only [al, q]
      rw [show parseRe (0 + 1) (c :: (escapeName n ++ t)) = parseRe 0 (escapeName n ++ t) from rfl, ih]
      cases parseRe 0 t <;> simp [lits]
    · rw [if_neg sp]
      show parseRe 0 (c :: (escapeName n ++ t)) = _
      have sp' := sp
      rw [special_iff] at sp'
      have un : unsupported c = false := by
        unfold unsupported
        rw [show "()[]{}|*+?".toList = ['(', ')', '[', ']', '{', '}', '|', '*', '+', '?'] by decide]
        simp
        simp at sp'
        simp [tc, sp']
      rw [parseRe]
      · rw [un, if_neg tc.1, q]
        simp only [ih]
        cases parseRe 0 t <;> simp [lits]
      · exact fun h => tc.2.2.2.2.2.2.1 h
      · exact fun h => tc.2.2.2.2.2.2.2.1 h
      · exact fun h => tc.2.2.2.2.2.2.2.2.1 h

theorem matchAt_lits (n : Str) : ∀ (ts : List Tok) (b : Bool) (s : Str),
    matchAt (lits n ++ ts) (b, s) = true ↔ ∃ r, s = n ++ r ∧ matchAt ts (b && n.isEmpty, r) = true := by
  induction n with
  | nil => intro ts b s; simp [lits]
  | cons c n ih =>
    intro ts b s
    show ((Tok.one (some c)).ends (b, s)).any (matchAt (lits n ++ ts)) = true ↔ _
    cases s with
    | nil => simp [Tok.ends, oneEnds]
    | cons d s =>
      have : (Tok.one (some c)).ends (b, d :: s) = if d = c then [(false, s)] else [] := by
        simp [Tok.ends, oneEnds, accepts]
      rw [this]
      by_cases e : d = c
      · subst e
        rw [if_pos rfl]
        simp only [List.any_cons, List.any_nil, Bool.or_false, ih]
        simp
      · simp [e]

theorem suffixes_mem (b : Bool) (s : Str) (x : Pos) :
    x ∈ suffixes b s ↔ ∃ l, s = l ++ x.2 ∧ x.1 = (b && l.isEmpty) := by
  induction s generalizing b with
  | nil =>
    obtain ⟨xb, xs⟩ := x
    constructor
    · simp only [suffixes, List.mem_singleton]; rintro ⟨rfl, rfl⟩; exact ⟨[], rfl, by simp⟩
    · rintro ⟨l, h, e⟩
      simp at h
      obtain ⟨rfl, h⟩ := h
      simp at e h ⊢
      subst h; subst e; simp [suffixes]
  | cons c s ih =>
    obtain ⟨xb, xs⟩ := x
    simp only [suffixes, List.mem_cons, ih]
    constructor
    · rintro (⟨rfl, rfl⟩ | ⟨l, h, e⟩)
      · exact ⟨[], rfl, by simp⟩
      · exact ⟨c :: l, by simp at h ⊢; exact h, by simpa using e⟩
    · rintro ⟨l, h, e⟩
      cases l with
      | nil => left; simp at h e; rw [h, e]
      | cons d l =>
        right
        simp at h e
        exact ⟨l, h.2, by simp [e]⟩

theorem noRep_nil : NoRep [] := by intro c h; cases h
theorem noRep_eol : NoRep ['$'] := by intro c h; injection h with h; subst h; decide

theorem parse_plain {n : Str} (hn : ∀ c ∈ n, Tame c) : parseRe 0 (escapeName n) = some (lits n) := by
  have := parseRe_escape hn noRep_nil
  simpa [parseRe] using this

theorem parse_eol {n : Str} (hn : ∀ c ∈ n, Tame c) : parseRe 0 (escapeName n ++ ['$']) = some (lits n ++ [.eol]) := by
  rw [parseRe_escape hn noRep_eol]
  simp [parseRe]

theorem parse_bol (t : Str) : parseRe 0 ('^' :: t) = (parseRe 0 t).map (.bol :: ·) := rfl

/-- The four forms of expressions. -/
theorem match_plain {n : Str} (hn : ∀ c ∈ n, Tame c) (s : Str) : matchString (escapeName n) s = true ↔ n <:+: s := by
  unfold matchString
  rw [parse_plain hn]
  simp only [List.any_eq_true]
  constructor
  · rintro ⟨⟨b, x⟩, hx, hm⟩
    rw [suffixes_mem] at hx
    obtain ⟨l, rfl, _⟩ := hx
    have := (matchAt_lits n [] b x).mp (by simpa using hm)
    obtain ⟨r, h, _⟩ := this
    subst h
    exact ⟨l, r, by simp⟩
  · rintro ⟨l, r, rfl⟩
    refine ⟨(l.isEmpty, n ++ r), ?_, ?_⟩
    · rw [suffixes_mem]; exact ⟨l, by simp, by simp⟩
    · have := (matchAt_lits n [] l.isEmpty (n ++ r)).mpr ⟨r, rfl, rfl⟩
      simpa using this

theorem match_eol {n : Str} (hn : ∀ c ∈ n, Tame c) (s : Str) :
    matchString (escapeName n ++ ['$']) s = true ↔ n <:+ s := by
  unfold matchString
  rw [parse_eol hn]
  simp only [List.any_eq_true]
  constructor
  · rintro ⟨⟨b, x⟩, hx, hm⟩
    rw [suffixes_mem] at hx
    obtain ⟨l, rfl, _⟩ := hx
    obtain ⟨r, h, e⟩ := (matchAt_lits n [.eol] b x).mp hm
    subst h
    have : r = [] := by
      by_cases hr : r = []
      · exact hr
      · simp [matchAt, Tok.ends, hr] at e
    subst this
    exact ⟨l, by simp⟩
  · rintro ⟨l, rfl⟩
    refine ⟨(l.isEmpty, n), ?_, ?_⟩
    · rw [suffixes_mem]; exact ⟨l, by simp, by simp⟩
    · exact (matchAt_lits n [.eol] l.isEmpty n).mpr ⟨[], by simp, by simp [matchAt, Tok.ends]⟩

theorem match_bol_start {ts : List Tok} {t : Str} (hp : parseRe 0 t = some ts) (s : Str) :
    matchString ('^' :: t) s = true ↔ matchAt ts (true, s) = true := by
  unfold matchString
  rw [parse_bol, hp]
  simp only [Option.map_some, List.any_eq_true]
  constructor
  · rintro ⟨⟨b, x⟩, hx, hm⟩
    rw [suffixes_mem] at hx
    obtain ⟨l, e, hb⟩ := hx
    simp only [matchAt, Tok.ends] at hm
    cases b with
    | false => simp at hm
    | true =>
      simp at hb hm
      subst hb
      simp at e; subst e; exact hm
  · intro h
    refine ⟨(true, s), ?_, ?_⟩
    · rw [suffixes_mem]; exact ⟨[], rfl, rfl⟩
    · simp [matchAt, Tok.ends, h]

theorem match_bol {n : Str} (hn : ∀ c ∈ n, Tame c) (s : Str) : matchString ('^' :: escapeName n) s = true ↔ n <+: s := by
  rw [match_bol_start (parse_plain hn)]
  have := matchAt_lits n [] true s
  simp only [List.append_nil] at this
  rw [this]
  constructor
  · rintro ⟨r, h, _⟩; exact ⟨r, h.symm⟩
  · rintro ⟨r, h⟩; exact ⟨r, h.symm, rfl⟩

theorem match_exact {n : Str} (hn : ∀ c ∈ n, Tame c) (s : Str) :
    matchString ('^' :: escapeName n ++ ['$']) s = true ↔ s = n := by
  show matchString ('^' :: (escapeName n ++ ['$'])) s = true ↔ _
  rw [match_bol_start (parse_eol hn), matchAt_lits]
  constructor
  · rintro ⟨r, h, e⟩
    by_cases hr : r = []
    · subst hr; simpa using h
    · simp [matchAt, Tok.ends, hr] at e
  · rintro rfl
    exact ⟨[], by simp, by simp [matchAt, Tok.ends]⟩

/-! ### Splitting -/

theorem split_escape {n : Str} (hn : ∀ c ∈ n, Tame c) (cur : Str) (a : List Str) (t : Str) :
    splitRe 0 0 cur a (escapeName n ++ t) = splitRe 0 0 (cur ++ escapeName n) a t := by
  induction n generalizing cur with
  | nil => simp [escapeName]
  | cons c n ih =>
    have tc := (tame_iff c).mp (hn c (by simp))
    have ih := fun cur => ih (fun d hd => hn d (by simp [hd])) cur
    unfold escapeName
    by_cases sp : c ∈ "{}[]|".toList
    · rw [if_pos sp]
      show splitRe 0 0 cur a ('\\' :: c :: (escapeName n ++ t)) = _
      rw [splitRe, ih]
      simp
    · rw [if_neg sp]
      rw [special_iff] at sp
      simp only [not_or] at sp
      show splitRe 0 0 cur a (c :: (escapeName n ++ t)) = _
      rw [splitRe]
      · rw [if_neg sp.2.2.1, if_neg sp.2.2.2.1, if_neg tc.2.1, if_neg tc.2.2.1]
        simp only [tc.2.2.2.2.2.2.2.2.2, sp.2.2.2.2, decide_false, Bool.false_and, Bool.false_eq_true, if_false]
        rw [ih]; simp
      · intro h; exact absurd h tc.2.2.2.2.2.2.2.2.1
      · intro _ _ h; exact absurd h tc.2.2.2.2.2.2.2.2.1

theorem split_bol (t : Str) : splitRe 0 0 [] [] ('^' :: t) = splitRe 0 0 ['^'] [] t := by
  rw [splitRe] <;> simp

theorem split_eol (cur : Str) (a : List Str) : splitRe 0 0 cur a ['$'] = [a ++ [cur ++ ['$']]] := by
  rw [splitRe] <;> simp [splitRe]

theorem split_bar (cur : Str) (a : List Str) (t : Str) :
    splitRe 0 0 cur a ('|' :: t) = (a ++ [cur]) :: splitRe 0 0 [] [] t := by
  rw [splitRe] <;> simp

theorem split_slash (cur : Str) (a : List Str) (t : Str) :
    splitRe 0 0 cur a ('/' :: t) = splitRe 0 0 [] (a ++ [cur]) t := by
  rw [splitRe] <;> simp

/-- The alternatives for names without `/`. -/
def alts (cur : Str) : List Str → List (List Str)
  | [] => [[cur ++ ['$']]]
  | [m] => [[cur ++ escapeName m ++ ['$']]]
  | m :: n :: l => [cur ++ escapeName m] :: alts [] (n :: l)

theorem split_alts (names : List Str) (hn : ∀ n ∈ names, ∀ c ∈ n, Tame c) (cur : Str) :
    splitRe 0 0 cur [] (joinBar (names.map escapeName) ++ ['$']) = alts cur names := by
  induction names generalizing cur with
  | nil => simp [joinBar, alts, split_eol]
  | cons m l ih =>
    have hm := hn m (by simp)
    have ih := fun cur => ih (fun n h => hn n (by simp [h])) cur
    cases l with
    | nil => simp [joinBar, alts, split_escape hm, split_eol]
    | cons n l =>
      have : joinBar ((m :: n :: l).map escapeName) ++ ['$'] =
          escapeName m ++ '|' :: (joinBar ((n :: l).map escapeName) ++ ['$']) := by
        simp [joinBar]
      rw [this, split_escape hm, split_bar, ih]
      simp [alts]

theorem selected_names (names : List Str) (hn : ∀ n ∈ names, ∀ c ∈ n, Tame c) (elems : List Str) :
    selected (formatRunNames names) elems = (alts ['^'] names).any fun m => simpleMatch m elems := by
  unfold selected formatRunNames
  show (splitRe 0 0 [] [] ('^' :: (joinBar (names.map escapeName) ++ ['$']))).any _ = _
  rw [split_bol, split_alts names hn]

theorem simpleMatch_one (r n : Str) : simpleMatch [r] [n] = matchString r n := by simp [simpleMatch]

theorem alts_rest (rest : List Str) (hne : rest ≠ []) (hn : ∀ n ∈ rest, ∀ c ∈ n, Tame c) (n : Str) :
    ((alts [] rest).any fun m => simpleMatch m [n]) = true ↔
      (∃ m ∈ rest.dropLast, m <:+: n) ∨ rest.getLast hne <:+ n := by
  induction rest with
  | nil => exact absurd rfl hne
  | cons m l ih =>
    have hm := hn m (by simp)
    cases l with
    | nil => simp [alts, simpleMatch_one, match_eol hm]
    | cons k l =>
      have := ih (by simp) (fun n h => hn n (by simp [h]))
      simp only [alts, List.any_cons, List.nil_append, Bool.or_eq_true, simpleMatch_one, match_plain hm, this]
      simp only [List.dropLast_cons_cons, List.mem_cons, List.getLast_cons_cons]
      constructor
      · rintro (h | ⟨x, h1, h2⟩ | h)
        · exact .inl ⟨m, .inl rfl, h⟩
        · exact .inl ⟨x, .inr h1, h2⟩
        · exact .inr h
      · rintro (⟨x, rfl | h1, h2⟩ | h)
        · exact .inl h2
        · exact .inr (.inl ⟨x, h1, h2⟩)
        · exact .inr (.inr h)

/-- **C64.** With one name of a test, `-run` selects the test of this name and no other. -/
theorem C64_select_one (name : Str) (hn : ∀ c ∈ name, Tame c) (test : Str) :
    selected (formatRunNames [name]) [test] = true ↔ test = name := by
  rw [selected_names [name] (by simpa using hn)]
  simp only [alts, List.any_cons, List.any_nil, Bool.or_false, simpleMatch_one]
  exact match_exact hn test

/-- **C64.** Without names (a file without tests), `-run` selects nothing. -/
theorem C64_select_none (test : Str) : selected (formatRunNames []) [test] = true ↔ test = [] := by
  rw [selected_names [] (by simp)]
  simp only [alts, List.any_cons, List.any_nil, Bool.or_false, simpleMatch_one]
  exact match_exact (n := []) (by simp) test

/-- **C64.** With two or more names, `-run` selects the tests that begin with the first name, contain one of the others or
    end with the last one. -/
theorem C64_select_many (a : Str) (rest : List Str) (hne : rest ≠ []) (hn : ∀ n ∈ a :: rest, ∀ c ∈ n, Tame c)
    (test : Str) :
    selected (formatRunNames (a :: rest)) [test] = true ↔
      a <+: test ∨ (∃ m ∈ rest.dropLast, m <:+: test) ∨ rest.getLast hne <:+ test := by
  rw [selected_names _ hn, ← alts_rest rest hne (fun n h => hn n (by simp [h]))]
  have ha := hn a (by simp)
  cases rest with
  | nil => exact absurd rfl hne
  | cons b l =>
    simp only [alts, List.any_cons, Bool.or_eq_true, simpleMatch_one]
    show matchString ('^' :: escapeName a) test = true ∨ _ ↔ _
    rw [match_bol ha]

/-- **C64.** Every test that is named is selected. -/
theorem C64_select_wanted (names : List Str) (hn : ∀ n ∈ names, ∀ c ∈ n, Tame c) (test : Str) (h : test ∈ names) :
    selected (formatRunNames names) [test] = true := by
  match names, h with
  | [a], h => rw [C64_select_one a (hn a (by simp))]; simpa using h
  | a :: b :: l, h =>
    rw [C64_select_many a (b :: l) (by simp) hn]
    rcases List.mem_cons.mp h with rfl | h
    · exact .inl (List.prefix_refl _)
    · right
      have := List.dropLast_concat_getLast (l := b :: l) (by simp)
      rw [← this] at h
      rcases List.mem_append.mp h with h | h
      · exact .inl ⟨test, h, List.infix_refl _⟩
      · simp only [List.mem_singleton] at h
        subst h
        exact .inr (List.suffix_refl _)

/-! ### Subtests -/

theorem escape_slash (n m : Str) : escapeName (n ++ '/' :: m) = escapeName n ++ '/' :: escapeName m := by
  induction n with
  | nil => simp [escapeName]
  | cons c n ih => simp only [List.cons_append, escapeName, ih]; split <;> simp

/-- The expressions for the elements. -/
def elemRes (cur : Str) : List Str → List Str
  | [] => [cur ++ ['$']]
  | [m] => [cur ++ escapeName m ++ ['$']]
  | m :: n :: l => (cur ++ escapeName m) :: elemRes [] (n :: l)

theorem split_elems (es : List Str) (hn : ∀ n ∈ es, ∀ c ∈ n, Tame c) (cur : Str) (a : List Str) :
    splitRe 0 0 cur a (escapeName (joinSlash es) ++ ['$']) = [a ++ elemRes cur es] := by
  induction es generalizing cur a with
  | nil => simp [joinSlash, escapeName, elemRes, split_eol]
  | cons m l ih =>
    have hm := hn m (by simp)
    have ih := fun cur a => ih (fun n h => hn n (by simp [h])) cur a
    cases l with
    | nil => simp [joinSlash, elemRes, split_escape hm, split_eol]
    | cons n l =>
      have : escapeName (joinSlash (m :: n :: l)) ++ ['$'] =
          escapeName m ++ '/' :: (escapeName (joinSlash (n :: l)) ++ ['$']) := by
        simp [joinSlash, escape_slash]
      rw [this, split_escape hm, split_slash, ih]
      simp [elemRes]

theorem follows (es : List Str) (hne : es ≠ []) (hn : ∀ n ∈ es, ∀ c ∈ n, Tame c) (elems : List Str) :
    simpleMatch (elemRes [] es) elems = true ↔ Follows es elems := by
  induction es generalizing elems with
  | nil => exact absurd rfl hne
  | cons m l ih =>
    have hm := hn m (by simp)
    cases l with
    | nil =>
      cases elems with
      | nil => simp [elemRes, simpleMatch, Follows]
      | cons x xs => simp [elemRes, simpleMatch, Follows, match_eol hm]
    | cons n l =>
      have ih := fun e => ih (by simp) (fun n h => hn n (by simp [h])) e
      cases elems with
      | nil => simp [elemRes, simpleMatch, Follows]
      | cons x xs => simp [elemRes, simpleMatch, Follows, match_plain hm, ih]

/-- **C64.** With the name of a subtest, `-run` selects what begins with the first element, contains the next ones and ends
    with the last one, as far as the name goes. -/
theorem C64_select_sub (a : Str) (es : List Str) (hne : es ≠ []) (hn : ∀ n ∈ a :: es, ∀ c ∈ n, Tame c) (x : Str)
    (xs : List Str) :
    selected (formatRunNames [joinSlash (a :: es)]) (x :: xs) = true ↔ a <+: x ∧ Follows es xs := by
  unfold selected formatRunNames
  show ((splitRe 0 0 [] [] ('^' :: (escapeName (joinSlash (a :: es)) ++ ['$']))).any _ = true) ↔ _
  rw [split_bol, split_elems _ hn]
  have ha := hn a (by simp)
  cases es with
  | nil => exact absurd rfl hne
  | cons b l =>
    simp only [elemRes, List.any_cons, List.any_nil, Bool.or_false, List.nil_append, simpleMatch, Bool.and_eq_true]
    rw [follows _ (by simp) (fun n h => hn n (by simp [h]))]
    show matchString ('^' :: escapeName a) x = true ∧ _ ↔ _
    rw [match_bol ha]

theorem follows_self (es more : List Str) : Follows es (es ++ more) := by
  induction es with
  | nil => cases more <;> simp [Follows]
  | cons m l ih =>
    cases l with
    | nil => simp [Follows]
    | cons n l => exact ⟨List.infix_refl _, ih⟩

/-- **C64.** A subtest is selected by its own name, and so are its subtests. -/
theorem C64_select_sub_wanted (a : Str) (es more : List Str) (hne : es ≠ []) (hn : ∀ n ∈ a :: es, ∀ c ∈ n, Tame c) :
    selected (formatRunNames [joinSlash (a :: es)]) (a :: es ++ more) = true := by
  show selected _ (a :: (es ++ more)) = true
  rw [C64_select_sub a es hne hn]
  exact ⟨List.prefix_refl _, follows_self es more⟩

/-- Two tests of a file are to be run: a third one whose name begins with the name of the first one is run, too. -/
theorem C64_counterexample_prefix :
    selected (formatRunNames ["TestA".toList, "TestB".toList]) ["TestA2".toList] = true := by decide

/-- One subtest is to be run: the subtests of the same name of another test are run, too. -/
theorem C64_counterexample_sub :
    selected (formatRunNames ["TestA/x".toList]) ["TestA2".toList, "max".toList] = true := by decide

/-- A subtest whose name has a `+` is not run. -/
theorem C64_counterexample_escape :
    selected (formatRunNames ["TestA/1+1".toList]) ["TestA".toList, "1+1".toList] = false := by decide

example : selected (formatRunNames ["TestA/[1]{x|y}".toList]) ["TestA".toList, "[1]{x|y}".toList] = true := by decide

end Verif.Cmd.Explorer
