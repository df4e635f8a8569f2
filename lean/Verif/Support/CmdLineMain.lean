/-
**C85**: a command that xgo shows can be pasted into a shell; and programs get the environment they are given, and callers their output.
-/
import Verif.Support.CmdLineSpec

namespace Verif.Support.CmdLine
open Verif.Support.CmdLine.Spec

/-- Text that stands for itself: no character that a shell would take for something else. -/
def Plain (s : Str) : Prop := s ≠ [] ∧ (∀ c ∈ s, ordinary c = true) ∧ s.head? ≠ some '#' ∧ s.head? ≠ some '~'

/-- The texts that are shown right: those that are quoted, and those that need no quotes. -/
def Safe (s : Str) : Prop := s = [] ∨ (∃ c ∈ s, c ∈ "\t \n;<>\\${}()&!*".toList) ∨ Plain s

instance (s : Str) : Decidable (Plain s) := by unfold Plain; infer_instance
instance (s : Str) : Decidable (Safe s) := by unfold Safe; infer_instance

theorem ordinary_ne {c : Char} (h : ordinary c = true) : c ≠ ' ' ∧ c ≠ '\t' ∧ c ≠ '\n' ∧ c ≠ '\'' ∧ c ≠ '"' ∧ c ≠ '\\' := by
  refine ⟨?_, ?_, ?_, ?_, ?_, ?_⟩ <;> (rintro rfl; revert h; decide)

theorem read_word_char {c : Char} (h : ordinary c = true) (cur : Str) (ws : List Str) (cs : List (List Str)) (s : Str) :
    scan .word cur ws cs (c :: s) = scan .word (cur ++ [c]) ws cs s := by
  obtain ⟨h1, h2, h3, h4, h5, h6⟩ := ordinary_ne h
  rw [scan, if_neg (by simp [h1, h2]), if_neg h3, if_neg h4, if_neg h5, if_neg h6, if_pos h]

theorem read_blank_char {c : Char} (h : ordinary c = true) (hh : c ≠ '#') (ht : c ≠ '~') (cur : Str) (ws : List Str)
    (cs : List (List Str)) (s : Str) : scan .blank cur ws cs (c :: s) = scan .word [c] ws cs s := by
  obtain ⟨h1, h2, h3, h4, h5, h6⟩ := ordinary_ne h
  rw [scan, if_neg (by simp [h1, h2]), if_neg h3, if_neg hh, if_neg ht, if_neg h4, if_neg h5, if_neg h6, if_pos h]

theorem read_word_run {a : Str} (h : ∀ c ∈ a, ordinary c = true) (cur : Str) (ws : List Str) (cs : List (List Str)) (s : Str) :
    scan .word cur ws cs (a ++ s) = scan .word (cur ++ a) ws cs s := by
  induction a generalizing cur with
  | nil => simp
  | cons c a ih =>
    rw [List.cons_append, read_word_char (h c List.mem_cons_self), ih (fun x hx => h x (List.mem_cons_of_mem _ hx))]
    simp

theorem read_plain {a : Str} (h : Plain a) (cur : Str) (ws : List Str) (cs : List (List Str)) (s : Str) :
    scan .blank cur ws cs (a ++ s) = scan .word a ws cs s := by
  obtain ⟨hne, ho, hh, ht⟩ := h
  cases a with
  | nil => exact absurd rfl hne
  | cons c a =>
    rw [List.cons_append, read_blank_char (ho c List.mem_cons_self) (fun e => hh (by rw [e]; rfl)) (fun e => ht (by rw [e]; rfl)),
      read_word_run (fun x hx => ho x (List.mem_cons_of_mem _ hx))]
    rfl

theorem read_single (a cur : Str) (ws : List Str) (cs : List (List Str)) (s : Str) :
    scan .single cur ws cs (escape a ++ '\'' :: s) = scan .word (cur ++ a) ws cs s := by
  induction a generalizing cur with
  | nil => rw [escape, List.nil_append, scan, if_pos rfl, List.append_nil]
  | cons c a ih =>
    rw [escape]
    by_cases hc : c = '\''
    · subst hc
      rw [if_pos rfl]
      simp only [List.cons_append]
      rw [scan, if_pos rfl, scan, if_neg (by decide), if_neg (by decide), if_neg (by decide), if_neg (by decide), if_pos rfl, scan,
        if_neg (by decide), scan, if_neg (by decide), if_neg (by decide), if_pos rfl, ih]
      simp
    · rw [if_neg hc, List.cons_append, scan, if_neg hc, ih]
      simp

/-- A text that is safe is read as one word. -/
theorem read_quote {a : Str} (h : Safe a) (cur : Str) (ws : List Str) (cs : List (List Str)) (s : Str) :
    scan .blank cur ws cs (quote a ++ s) = scan .word a ws cs s := by
  rw [quote]
  by_cases h0 : a = []
  · subst h0
    rw [if_pos rfl]
    simp only [List.cons_append, List.nil_append]
    rw [scan, if_neg (by decide), if_neg (by decide), if_neg (by decide), if_neg (by decide), if_neg (by decide), if_pos rfl, scan,
      if_pos rfl]
  · rw [if_neg h0]
    by_cases h1 : a.any (fun c => triggers.contains c) = true
    · rw [if_pos h1]
      simp only [List.cons_append, List.append_assoc, List.nil_append]
      rw [scan, if_neg (by decide), if_neg (by decide), if_neg (by decide), if_neg (by decide), if_pos rfl, read_single]
      rfl
    · rw [if_neg h1]
      rcases h with h | ⟨c, hc, ht⟩ | h
      · exact absurd h h0
      · exact absurd (List.any_eq_true.mpr ⟨c, hc, by rw [List.contains_iff_mem]; exact ht⟩) h1
      · exact read_plain h cur ws cs s

theorem read_args {args : List Str} (h : ∀ a ∈ args, Safe a) (cur : Str) (ws : List Str) (cs : List (List Str)) (s : Str) :
    scan .word cur ws cs (((args.map quote).map (fun a => ' ' :: a)).flatten ++ '\n' :: s) =
      (close (ws ++ cur :: args) cs).bind fun cs => scan .blank [] [] cs s := by
  induction args generalizing cur ws with
  | nil => rw [List.map_nil, List.map_nil, List.flatten_nil, List.nil_append, scan, if_neg (by decide), if_pos rfl]
  | cons a args ih =>
    simp only [List.map_cons, List.flatten_cons, List.append_assoc, List.cons_append]
    rw [scan, if_pos (.inl rfl), read_quote (h a List.mem_cons_self), ih (fun x hx => h x (List.mem_cons_of_mem _ hx))]
    simp

theorem join_eq (a : Str) (l : List Str) : join (a :: l) = a ++ (l.map (fun a => ' ' :: a)).flatten := by
  induction l generalizing a with
  | nil => simp [join]
  | cons b l ih => rw [join, ih]; simp; simp

theorem read_comment {e : Str} (h : '\n' ∉ e) (cur : Str) (cs : List (List Str)) (s : Str) :
    scan .comment cur [] cs (e ++ '\n' :: s) = scan .blank [] [] cs s := by
  induction e generalizing cur with
  | nil => rw [List.nil_append, scan, if_pos rfl]; rfl
  | cons c e ih =>
    rw [List.cons_append, scan, if_neg (fun hc => h (by rw [hc]; simp)), ih (fun hx => h (List.mem_cons_of_mem _ hx))]

theorem read_hash {e : Str} (h : '\n' ∉ e) (cur : Str) (cs : List (List Str)) (s : Str) :
    scan .blank cur [] cs ('#' :: e ++ '\n' :: s) = scan .blank [] [] cs s := by
  rw [List.cons_append, scan, if_neg (by decide), if_neg (by decide), if_pos rfl, read_comment h]

theorem quote_newline {s : Str} (h : '\n' ∉ s) : '\n' ∉ quote s := by
  have he : ∀ s : Str, '\n' ∉ s → '\n' ∉ escape s := by
    intro s hs
    induction s with
    | nil => exact hs
    | cons c s ih =>
      rw [escape]
      have h1 : '\n' ∉ s := fun h => hs (List.mem_cons_of_mem _ h)
      have h2 : '\n' ≠ c := fun e => hs (by rw [e]; simp)
      split
      · simp [ih h1]
      · simp [ih h1, h2]
  rw [quote]
  split
  · decide
  · split
    · simp [he s h]
    · exact h

theorem read_command {cmd : Str} {args : List Str} (hc : Plain cmd) (hcmd : isCommand (cmd :: args) = true) (h : ∀ a ∈ args, Safe a)
    (cs : List (List Str)) (s : Str) :
    scan .blank [] [] cs (join (cmd :: args.map quote) ++ '\n' :: s) = scan .blank [] [] (cs ++ [cmd :: args]) s := by
  rw [join_eq, List.append_assoc, read_plain hc, read_args h, List.nil_append, close, if_neg (by simp), if_pos hcmd]
  rfl

theorem read_comments {env : List Str} (h : ∀ e ∈ env, '\n' ∉ e) (cs : List (List Str)) (s : Str) :
    scan .blank [] [] cs (((env.map (fun e => '#' :: ' ' :: e)).map fun l => l ++ ['\n']).flatten ++ s) = scan .blank [] [] cs s := by
  induction env with
  | nil => rfl
  | cons e env ih =>
    simp only [List.map_cons, List.flatten_cons, List.append_assoc, List.singleton_append]
    exact (read_hash (e := ' ' :: e) (by have := h e List.mem_cons_self; simp [this]) [] cs _).trans
      (ih (fun x hx => h x (List.mem_cons_of_mem _ hx)))

/-- **C85** (what is shown can be pasted) Pasted into a shell, the text that xgo shows for a command runs exactly this command with exactly
    these arguments – blanks, quotes, dollars, newlines and all – if the name of the program is plain, the arguments are of those that
    `Quote` gets right, and neither an entry of the environment nor the directory has a newline. -/
theorem C85_pasted_partial {env args : List Str} {dir cmd : Str} (hc : Plain cmd) (hcmd : isCommand (cmd :: args) = true)
    (ha : ∀ a ∈ args, Safe a) (he : ∀ e ∈ env, '\n' ∉ e) (hd : '\n' ∉ dir) :
    shell (debugText env dir cmd args) = some [cmd :: args] := by
  rw [shell, debugText, debugLines, List.map_append, List.map_append, List.flatten_append, List.flatten_append, List.append_assoc,
    read_comments he]
  have last : scan .blank [] [] [] ((([join (cmd :: args.map quote)] : List Str).map fun l => l ++ ['\n']).flatten) = some [cmd :: args] := by
    have := read_command hc hcmd ha [] []
    simp only [List.map_cons, List.map_nil, List.flatten_cons, List.flatten_nil, List.append_nil]
    rw [this]
    rfl
  by_cases h0 : dir = []
  · rw [if_pos h0]
    exact last
  · rw [if_neg h0]
    have e : "# cd ".toList ++ quote dir = '#' :: (" cd ".toList ++ quote dir) := rfl
    rw [e]
    simp only [List.map_cons, List.map_nil, List.flatten_cons, List.flatten_nil, List.append_nil, List.append_assoc, List.nil_append]
    have hn : '\n' ∉ " cd ".toList ++ quote dir := by
      intro hm
      rcases List.mem_append.mp hm with h | h
      · revert h; decide
      · exact quote_newline hd h
    have := read_hash hn [] [] (join (cmd :: args.map quote) ++ ['\n'])
    simp only [List.cons_append, List.append_assoc, List.nil_append] at this ⊢
    rw [this]
    simpa using last

example : Plain "go".toList ∧ isCommand ["go".toList, "test".toList] = true ∧ Safe "it's $5 & more\n".toList ∧ Safe "".toList ∧
    Safe "-run=TestX".toList := by decide +kernel

example : debugText ["A=b c".toList] "/tmp/x y".toList "go".toList ["test".toList, "".toList, "it's $5".toList] =
    "# A=b c\n# cd '/tmp/x y'\ngo test \"\" 'it'\\''s $5'\n".toList := by decide +kernel

/-! ### Exactly these -/

def total : List (List Str) → Nat
  | [] => 0
  | ws :: cs => (ws.map List.length).sum + total cs

theorem total_append (a b : List (List Str)) : total (a ++ b) = total a + total b := by
  induction a with
  | nil => simp [total]
  | cons x a ih => simp only [List.cons_append, total, ih]; omega

theorem close_total {ws : List Str} {cs r : List (List Str)} (h : close ws cs = some r) : total r ≤ total cs + (ws.map List.length).sum := by
  rw [close] at h
  split at h
  · cases h; omega
  · split at h
    · cases h; rw [total_append]; simp [total]
    · cases h

/-- Reading adds no characters. -/
theorem scan_total (s : Str) : ∀ (m : Mode) (cur : Str) (ws : List Str) (cs r : List (List Str)), scan m cur ws cs s = some r →
    total r ≤ total cs + (ws.map List.length).sum + cur.length + s.length := by
  induction s with
  | nil =>
    intro m cur ws cs r h
    cases m with
    | blank => rw [scan] at h; have := close_total h; omega
    | comment => rw [scan] at h; have := close_total h; omega
    | word =>
      rw [scan] at h; have := close_total h
      simp only [List.map_append, List.map_cons, List.map_nil, List.sum_append, List.sum_cons, List.sum_nil] at this
      omega
    | _ => cases h
  | cons c s ih =>
    intro m cur ws cs r h
    have newline : ∀ ws', (close ws' cs).bind (fun cs => scan .blank [] [] cs s) = some r →
        total r ≤ total cs + (ws'.map List.length).sum + s.length := by
      intro ws' h
      obtain ⟨d, h1, h2⟩ := Option.bind_eq_some_iff.mp h
      have := close_total h1
      have := ih _ _ _ _ _ h2
      simp at this
      omega
    cases m with
    | comment =>
      rw [scan] at h
      split at h
      · have := newline _ h; simp only [List.length_cons]; omega
      · have := ih _ _ _ _ _ h; simp only [List.length_cons, List.length_nil] at *; omega
    | single =>
      rw [scan] at h
      split at h
      · have := ih _ _ _ _ _ h; simp only [List.length_cons] at *; omega
      · have := ih _ _ _ _ _ h; simp only [List.length_cons, List.length_append, List.length_nil] at *; omega
    | double =>
      rw [scan] at h
      split at h
      · have := ih _ _ _ _ _ h; simp only [List.length_cons] at *; omega
      · split at h
        · cases h
        · have := ih _ _ _ _ _ h; simp only [List.length_cons, List.length_append, List.length_nil] at *; omega
    | escaped =>
      rw [scan] at h
      split at h
      · cases h
      · have := ih _ _ _ _ _ h; simp only [List.length_cons, List.length_append, List.length_nil] at *; omega
    | blank =>
      rw [scan] at h
      split at h
      · have := ih _ _ _ _ _ h; simp only [List.length_cons, List.length_nil] at *; omega
      split at h
      · have := newline _ h; simp only [List.length_cons]; omega
      split at h
      · have := ih _ _ _ _ _ h; simp only [List.length_cons, List.length_nil] at *; omega
      split at h
      · cases h
      split at h
      · have := ih _ _ _ _ _ h; simp only [List.length_cons, List.length_nil] at *; omega
      split at h
      · have := ih _ _ _ _ _ h; simp only [List.length_cons, List.length_nil] at *; omega
      split at h
      · have := ih _ _ _ _ _ h; simp only [List.length_cons, List.length_nil] at *; omega
      split at h
      · have := ih _ _ _ _ _ h; simp only [List.length_cons, List.length_nil] at *; omega
      · cases h
    | word =>
      rw [scan] at h
      have push : ((ws ++ [cur]).map List.length).sum = (ws.map List.length).sum + cur.length := by simp
      split at h
      · have := ih _ _ _ _ _ h; rw [push] at this; simp only [List.length_cons, List.length_nil] at *; omega
      split at h
      · have := newline _ h; rw [push] at this; simp only [List.length_cons]; omega
      split at h
      · have := ih _ _ _ _ _ h; simp only [List.length_cons] at *; omega
      split at h
      · have := ih _ _ _ _ _ h; simp only [List.length_cons] at *; omega
      split at h
      · have := ih _ _ _ _ _ h; simp only [List.length_cons] at *; omega
      split at h
      · have := ih _ _ _ _ _ h; simp only [List.length_cons, List.length_append, List.length_nil] at *; omega
      · cases h

/-- The first character that does not stand for itself. -/
theorem first_special {s : Str} (h : ¬ ∀ c ∈ s, ordinary c = true) : ∃ a c b, s = a ++ c :: b ∧ (∀ x ∈ a, ordinary x = true) ∧
    ordinary c = false := by
  induction s with
  | nil => exact absurd (by simp) h
  | cons d s ih =>
    by_cases hd : ordinary d = true
    · obtain ⟨a, c, b, e, h1, h2⟩ := ih (fun h' => h (by simpa [hd] using h'))
      exact ⟨d :: a, c, b, by rw [e]; rfl, by simpa [hd] using h1, h2⟩
    · exact ⟨[], d, s, rfl, by simp, by simpa using hd⟩

theorem special_cases {c : Char} (h : ordinary c = false) (ht : c ∉ triggers) :
    c = '|' ∨ c = '`' ∨ c = '?' ∨ c = '[' ∨ c = '\'' ∨ c = '"' := by
  have hm : c ∈ "|&;<>()$`\\\"' \t\n*?[{}!".toList := by
    rw [ordinary, Bool.not_eq_false'] at h
    exact List.contains_iff_mem.mp h
  have hall : ∀ c ∈ "|&;<>()$`\\\"' \t\n*?[{}!".toList, c ∈ triggers ∨ c = '|' ∨ c = '`' ∨ c = '?' ∨ c = '[' ∨ c = '\'' ∨ c = '"' := by
    decide +kernel
  exact (hall c hm).resolve_left ht

/-- **C85** (exactly these) `Quote` gets an argument right exactly if it is empty, has one of the characters ``tab blank newline ; < > \ $
    { } ( ) & ! *``, or is plain: has no quote, no backquote, none of ``| ? [``, and does not begin with `#` or `~`. -/
theorem C85_quote_iff (a : Str) : shell ("echo ".toList ++ quote a) = some [["echo".toList, a]] ↔ Safe a := by
  have start : ∀ s, shell ("echo ".toList ++ s) = scan .blank [] ["echo".toList] [] s := by
    intro s
    have e : "echo ".toList ++ s = "echo".toList ++ ' ' :: s := rfl
    rw [shell, e, read_plain (by decide +kernel), scan, if_pos (.inl rfl)]
    rfl
  rw [start]
  constructor
  · intro h
    by_cases h0 : a = []
    · exact .inl h0
    by_cases h1 : a.any (fun c => triggers.contains c) = true
    · obtain ⟨c, hc, ht⟩ := List.any_eq_true.mp h1
      exact .inr (.inl ⟨c, hc, List.contains_iff_mem.mp ht⟩)
    right; right
    rw [quote, if_neg h0, if_neg h1] at h
    have hh : a.head? ≠ some '#' := by
      intro hh
      cases a with
      | nil => cases hh
      | cons c b =>
        cases hh
        rw [scan, if_neg (by decide), if_neg (by decide), if_pos rfl] at h
        have com : ∀ (b : Str) cur, (∀ c ∈ b, c ≠ '\n') → scan .comment cur ["echo".toList] [] b = some [["echo".toList]] := by
          intro b
          induction b with
          | nil => intro _ _; rfl
          | cons x b ih =>
            intro cur hb
            rw [scan, if_neg (hb x List.mem_cons_self)]
            exact ih _ (fun c hc => hb c (List.mem_cons_of_mem _ hc))
        rw [com b [] (fun c hc e => h1 (List.any_eq_true.mpr ⟨c, List.mem_cons_of_mem _ hc, by rw [e]; decide +kernel⟩))] at h
        exact absurd (congrArg total (Option.some.inj h)) (by simp [total])
    have ht : a.head? ≠ some '~' := by
      intro hh
      cases a with
      | nil => cases hh
      | cons c b =>
        cases hh
        rw [scan, if_neg (by decide), if_neg (by decide), if_neg (by decide), if_pos rfl] at h
        cases h
    refine ⟨h0, ?_, hh, ht⟩
    by_cases hall : ∀ c ∈ a, ordinary c = true
    · exact hall
    exfalso
    obtain ⟨x, c, y, e, hx, hc⟩ := first_special hall
    have hnt : c ∉ triggers := fun hm => h1 (List.any_eq_true.mpr ⟨c, by rw [e]; simp, List.contains_iff_mem.mpr hm⟩)
    have hcs : c = '|' ∨ c = '`' ∨ c = '?' ∨ c = '[' ∨ c = '\'' ∨ c = '"' := special_cases hc hnt
    -- the state in front of `c`
    have hin : (x = [] ∧ scan .blank [] ["echo".toList] [] (c :: y) = some [["echo".toList, a]]) ∨
        scan .word x ["echo".toList] [] (c :: y) = some [["echo".toList, a]] := by
      by_cases hx0 : x = []
      · left; rw [hx0] at e; rw [e] at h; exact ⟨hx0, by rw [e]; exact h⟩
      · right
        have : Plain x := by
          refine ⟨hx0, hx, ?_, ?_⟩
          · intro hp; cases x with
            | nil => exact hx0 rfl
            | cons z x => exact hh (by rw [e]; exact hp)
          · intro hp; cases x with
            | nil => exact hx0 rfl
            | cons z x => exact ht (by rw [e]; exact hp)
        rw [e, read_plain this] at h
        rw [e]; exact h
    have count : ∀ m cur, cur.length = x.length → scan m cur ["echo".toList] [] y ≠ some [["echo".toList, a]] := by
      intro m cur hcur h
      have := scan_total _ _ _ _ _ _ h
      have e2 : a.length = x.length + (y.length + 1) := by rw [e]; simp
      simp [total] at this
      omega
    rcases hcs with rfl | rfl | rfl | rfl | rfl | rfl
    · rcases hin with ⟨_, h⟩ | h
      · cases h
      · cases h
    · rcases hin with ⟨_, h⟩ | h
      · cases h
      · cases h
    · rcases hin with ⟨_, h⟩ | h
      · cases h
      · cases h
    · rcases hin with ⟨_, h⟩ | h
      · cases h
      · cases h
    · rcases hin with ⟨h0, h⟩ | h
      · rw [scan, if_neg (by decide), if_neg (by decide), if_neg (by decide), if_neg (by decide), if_pos rfl] at h
        exact count _ _ (by rw [h0]) h
      · rw [scan, if_neg (by decide), if_neg (by decide), if_pos rfl] at h
        exact count _ _ rfl h
    · rcases hin with ⟨h0, h⟩ | h
      · rw [scan, if_neg (by decide), if_neg (by decide), if_neg (by decide), if_neg (by decide), if_neg (by decide), if_pos rfl] at h
        exact count _ _ (by rw [h0]) h
      · rw [scan, if_neg (by decide), if_neg (by decide), if_neg (by decide), if_pos rfl] at h
        exact count _ _ rfl h
  · intro h
    have := read_quote h [] ["echo".toList] [] []
    rw [List.append_nil] at this
    rw [this]
    rfl

/-- What is wrong: `it's` is shown without quotes, and the shell waits for the other one; a pipe is a pipe. -/
theorem C85_not_quoted : shell ("echo ".toList ++ quote "it's".toList) = none ∧ shell ("echo ".toList ++ quote "a|b".toList) = none ∧
    shell ("echo ".toList ++ quote "#1".toList) = some [["echo".toList]] ∧
    shell ("echo ".toList ++ quote "'a'".toList) = some [["echo".toList, "a".toList]] := by decide +kernel

/-- **C85** (a newline in the environment) A value with a newline leaves the comment: what follows is a command of its own. -/
theorem C85_env_newline : shell (debugText ["A=1\nrm -r x".toList] [] "go".toList ["env".toList]) =
    some [["rm".toList, "-r".toList, "x".toList], ["go".toList, "env".toList]] := by decide +kernel

/-- The name of the program is never quoted. -/
theorem C85_program_blank : shell (debugText [] [] "/my dir/go".toList ["env".toList]) =
    some [["/my".toList, "dir/go".toList, "env".toList]] := by decide +kernel

/-! ### Environment and output -/

/-- **C85** (environment) A program sees each variable it is given (the last entry of a name counts), and of the others what xgo itself
    sees – nothing with `NoInheritEnv`. -/
theorem C85_env (inherited env : List Str) (k v : Str) :
    (Sees env k v → Sees (environ inherited false env) k v ∧ Sees (environ inherited true env) k v) ∧
    ((∀ e ∈ env, ¬ (k ++ ['=']) <+: e) →
      (Sees (environ inherited false env) k v ↔ Sees inherited k v) ∧ ¬ Sees (environ inherited true env) k v) := by
  have eq1 : environ inherited false env = inherited ++ env := by
    unfold environ
    by_cases h : env = []
    · simp [h]
    · simp [h]
  have eq2 : environ inherited true env = env := by
    unfold environ
    by_cases h : env = []
    · simp [h]
    · simp [h]
  rw [eq1, eq2]
  constructor
  · rintro ⟨a, b, e, hb⟩
    exact ⟨⟨inherited ++ a, b, by rw [e]; simp, hb⟩, ⟨a, b, e, hb⟩⟩
  · intro hno
    have hnot : ¬ Sees env k v := by
      rintro ⟨a, b, e, _⟩
      exact hno (k ++ '=' :: v) (by rw [e]; simp) ⟨v, by simp⟩
    refine ⟨⟨?_, ?_⟩, hnot⟩
    · rintro ⟨a, b, e, hb⟩
      rcases List.append_eq_append_iff.mp e with ⟨c, e1, e2⟩ | ⟨c, e1, e2⟩
      · exact absurd ⟨v, by simp⟩ (hno (k ++ '=' :: v) (by rw [e2]; simp))
      · cases c with
        | nil => exact absurd ⟨v, by simp⟩ (hno (k ++ '=' :: v) (by rw [← List.nil_append env, ← e2]; simp))
        | cons z c =>
          simp only [List.cons_append, List.cons.injEq] at e2
          exact ⟨a, c, by rw [e1, ← e2.1], fun x hx => hb x (by rw [e2.2]; simp [hx])⟩
    · rintro ⟨a, b, e, hb⟩
      refine ⟨a, b ++ env, by rw [e]; simp, fun x hx => ?_⟩
      rcases List.mem_append.mp hx with h | h
      · exact hb x h
      · exact hno x h

/-- **C85** (the program that is run) It gets the arguments as they are – quotes are for showing only –, the environment and the directory
    of the builder, and its output goes to the caller or is passed on, never both. -/
theorem C85_run (w : World) (inherited : List Str) (b : Builder) (cmd : Str) (args : List Str) :
    run w inherited (some b) cmd args = ⟨[], (w cmd args (environ inherited b.noInherit b.env) b.dir).failed,
      if b.debug then debugText b.env b.dir cmd args else [], (w cmd args (environ inherited b.noInherit b.env) b.dir).output⟩ ∧
    run w inherited none cmd args = ⟨[], (w cmd args inherited []).failed, [], (w cmd args inherited []).output⟩ := by
  constructor
  · simp [run, exec]
  · simp [run, exec, environ, Builder.new]

/-- **C85** (its output) `Output` of a builder gives what the program printed, without one newline at the end, and its error unless errors
    are ignored. -/
theorem C85_output (w : World) (inherited : List Str) (b : Builder) (hb : b.stdout = false) (cmd : Str) (args : List Str) (text : Str)
    (h : (w cmd args (environ inherited b.noInherit b.env) b.dir).output = text ++ ['\n'])  :
    (output w inherited (some b) cmd args).value = text ∧
    ((output w inherited (some b) cmd args).error = true ↔
      (w cmd args (environ inherited b.noInherit b.env) b.dir).failed = true ∧ b.ignoreError = false) := by
  have e : trimSuffix (trimSuffix (text ++ ['\n']) '\r') '\n' = text := by simp [trimSuffix]
  simp only [output, exec, Option.getD_some, Option.isSome_some, hb, Bool.true_and, h, e]
  cases (w cmd args (environ inherited b.noInherit b.env) b.dir).failed <;> cases b.ignoreError <;> simp

/-- **C85** (errors are lost) `cmd.Output` without a builder never gives an error. -/
theorem C85_output_error (w : World) (inherited : List Str) (cmd : Str) (args : List Str) :
    (output w inherited none cmd args).error = false := by
  simp [output, exec]

/-- **C85** (errors are not ignored) `IgnoreError` has no effect on `Run`. -/
theorem C85_run_ignore (w : World) (inherited : List Str) (b : Builder) (cmd : Str) (args : List Str) :
    run w inherited (some { b with ignoreError := true }) cmd args = run w inherited (some { b with ignoreError := false }) cmd args := by
  simp [run, exec]

/-- **C85** (Windows) From a line that ends in `\r\n` the carriage return is left. -/
theorem C85_crlf : (output (fun _ _ _ _ => ⟨"C:\\go\r\n".toList, false⟩) [] none "go".toList ["env".toList]).value = "C:\\go\r".toList := by
  decide +kernel

example : Sees (environ ["A=1".toList, "B=2".toList] false ["A=3".toList]) "A".toList "3".toList :=
  ((C85_env ["A=1".toList, "B=2".toList] ["A=3".toList] "A".toList "3".toList).1 ⟨[], [], rfl, by simp⟩).1

end Verif.Support.CmdLine
