import Verif.Cmd.GoModProps
/-
C74: the module of a directory.
-/
namespace Verif.Cmd.GoMod
open Spec
open Verif.Cmd.Vendor (isSpace trimSpace)

/-! ### The module statement -/

theorem uncomment_comment : ∀ (s t : Str), ¬ "//".toList <:+: s ++ ['/'] → uncomment (s ++ "//".toList ++ t) = s := by
  intro s
  induction s with
  | nil => intro t _; rfl
  | cons c s ih =>
    intro t h
    rw [List.cons_append, List.cons_append, uncomment, if_neg, ih t (fun hi => h (hi.trans ⟨[c], [], by simp⟩))]
    intro hp
    rw [List.isPrefixOf_iff_prefix] at hp
    apply h
    obtain ⟨u, hu⟩ := hp
    have h1 : '/' = c := by injection hu
    have h2 : '/' :: u = s ++ "//".toList ++ t := by injection hu
    cases s with
    | nil => rw [← h1]; exact ⟨[], [], rfl⟩
    | cons d s =>
      have h3 : '/' = d := by injection h2
      rw [← h1, ← h3]
      exact ⟨[], s ++ ['/'], rfl⟩

theorem uncomment_plain : ∀ (s : Str), ¬ "//".toList <:+: s → uncomment s = s := by
  intro s
  induction s with
  | nil => intro _; rfl
  | cons c s ih =>
    intro h
    rw [uncomment, if_neg (fun hp => h (List.isPrefixOf_iff_prefix.mp hp).isInfix), ih (fun hi => h (hi.trans ⟨[c], [], by simp⟩))]

theorem dropWhile_blanks {q : Char → Bool} : ∀ (b s : Str), (∀ c ∈ b, q c = true) → (∀ c ∈ s.head?, q c = false) → (b ++ s).dropWhile q = s := by
  intro b
  induction b with
  | nil =>
    intro s _ h
    cases s with
    | nil => rfl
    | cons c s => rw [List.nil_append, List.dropWhile_cons, h c rfl]; rfl
  | cons c b ih =>
    intro s h1 h2
    rw [List.cons_append, List.dropWhile_cons, h1 c (by simp)]
    exact ih s (fun d hd => h1 d (by simp [hd])) h2

theorem dropWhile_none {q : Char → Bool} {s : Str} (h : ∀ c ∈ s.head?, q c = false) : s.dropWhile q = s :=
  dropWhile_blanks [] s (by simp) h

theorem dropWhile_all {q : Char → Bool} : ∀ {s : Str}, (∀ c ∈ s, q c = true) → s.dropWhile q = [] := by
  intro s
  induction s with
  | nil => intro _; rfl
  | cons c s ih => intro h; rw [List.dropWhile_cons, h c (by simp)]; exact ih fun d hd => h d (by simp [hd])

/-- Trailing blanks go, up to a character that is none. -/
theorem trim_right {a t : Str} {x : Char} (hx : isSpace x = false) (ha : ∀ c ∈ (a ++ [x]).head?, isSpace c = false) :
    ∃ t', trimSpace (a ++ x :: t) = a ++ x :: t' ∧ ((∀ c ∈ t, isSpace c = true) → t' = []) := by
  have h1 : (a ++ x :: t).dropWhile isSpace = a ++ x :: t := by
    have := dropWhile_blanks (q := isSpace) [] (a ++ x :: t) (by simp) (fun c hc => ha c (by
      cases a with
      | nil => exact hc
      | cons d a => exact hc))
    exact this
  unfold trimSpace
  rw [h1, List.reverse_append, List.reverse_cons, List.append_assoc, List.dropWhile_append]
  split
  · refine ⟨[], ?_, fun _ => rfl⟩
    rw [List.singleton_append, List.dropWhile_cons, hx]
    simp
  · rename_i hne
    refine ⟨(t.reverse.dropWhile isSpace).reverse, by simp, fun hb => ?_⟩
    exfalso
    apply hne
    rw [List.isEmpty_iff]
    exact dropWhile_all fun c hc => hb c (by simpa using hc)

theorem trim_word {b p e : Str} (hb : ∀ c ∈ b, isSpace c = true) (hp : p ≠ [] ∧ ∀ c ∈ p, isSpace c = false) (he : ∀ c ∈ e, isSpace c = true) :
    trimSpace (b ++ p ++ e) = p := by
  obtain ⟨p', x, rfl⟩ : ∃ p' x, p = p' ++ [x] := ⟨p.dropLast, p.getLast hp.1, (List.dropLast_concat_getLast hp.1).symm⟩
  have hh : ∀ c ∈ (p' ++ [x]).head?, isSpace c = false := fun c hc => hp.2 c (List.mem_of_mem_head? hc)
  obtain ⟨t', h1, h2⟩ := trim_right (a := p') (t := e) (hp.2 x (by simp)) hh
  rw [h2 he] at h1
  have h3 : trimSpace (b ++ (p' ++ [x]) ++ e) = trimSpace (p' ++ x :: e) := by
    unfold trimSpace
    rw [List.append_assoc, dropWhile_blanks b _ hb (fun c hc => hh c (by cases p' <;> exact hc)),
      dropWhile_none (s := p' ++ x :: e) (fun c hc => hh c (by cases p' <;> exact hc))]
    simp
  rw [h3, h1]

theorem no_slashes {e : Str} (he : ∀ c ∈ e, isSpace c = true) : ∀ (p : Str), ¬ "//".toList <:+: p ++ ['/'] → ¬ "//".toList <:+: (p ++ e) ++ ['/'] := by
  intro p
  have hne : ∀ c ∈ e, c ≠ '/' := fun c hc h => by have := he c hc; rw [h] at this; revert this; decide
  clear he
  induction p with
  | nil =>
    intro _
    rw [List.nil_append]
    induction e with
    | nil => decide
    | cons c e ih =>
      intro hi
      rcases List.infix_cons_iff.mp hi with h | h
      · obtain ⟨u, hu⟩ := h
        exact hne c (by simp) (by injection hu with h _; exact h.symm)
      · exact ih (fun d hd => hne d (by simp [hd])) h
  | cons d p ih =>
    intro h hi
    rcases List.infix_cons_iff.mp hi with h1 | h1
    · obtain ⟨u, hu⟩ := h1
      have hd : '/' = d := by injection hu
      have ht : '/' :: u = p ++ e ++ ['/'] := by injection hu
      apply h
      rw [← hd]
      cases p with
      | nil => exact ⟨[], [], rfl⟩
      | cons d' p =>
        have : '/' = d' := by injection ht
        rw [← this]
        exact ⟨[], p ++ ['/'], rfl⟩
    · exact ih (fun h2 => h (List.infix_cons h2)) h1

theorem parse_line {l p b sep : Str} (h : Module l p b sep) (hb : ∀ c ∈ b, c = ' ' ∨ c = '\t') (hs : sep.head? = some ' ') (r : List Str) :
    parseLines (l :: r) = p := by
  obtain ⟨e, rest, he, hr, hl⟩ := h.line
  obtain ⟨sep', hsep⟩ : ∃ sep', sep = ' ' :: sep' := by
    cases sep with
    | nil => cases hs
    | cons c s => exact ⟨s, by injection hs with hs; rw [hs]⟩
  have hsp : ∀ c ∈ sep', isSpace c = true := fun c hc => h.between c (by rw [hsep]; simp [hc])
  have hw : p ≠ [] ∧ ∀ c ∈ p, isSpace c = false := ⟨h.word.1, fun c hc => (h.word.2 c hc).1⟩
  have hdrop : l.dropWhile (fun c => c = ' ' || c = '\t') = "module ".toList ++ (sep' ++ p ++ e ++ rest) := by
    rw [hl, hsep]
    have := dropWhile_blanks (q := fun c => c = ' ' || c = '\t') b ("module".toList ++ (' ' :: sep') ++ p ++ e ++ rest)
      (fun c hc => by simpa using hb c hc) (fun c hc => by
        have : c = 'm' := by injection hc with hc; exact hc.symm
        rw [this]; decide)
    simp only [List.append_assoc] at this ⊢
    rw [this]; rfl
  rw [parseLines, hdrop]
  simp only
  have hpre : "module ".toList.isPrefixOf ("module ".toList ++ (sep' ++ p ++ e ++ rest)) = true :=
    List.isPrefixOf_iff_prefix.mpr (List.prefix_append _ _)
  rw [if_pos hpre, List.drop_left]
  have hnp : ¬ "//".toList <:+: p := fun hi => h.plain (hi.trans ⟨[], ['/'], by simp⟩)
  rcases hr with hr | hr
  · rw [hr, List.append_nil, trim_word hsp hw he, if_pos (uncomment_plain p hnp)]
  · obtain ⟨t, rfl⟩ := hr
    obtain ⟨p', x, hpx⟩ : ∃ p' x, p = p' ++ [x] := ⟨p.dropLast, p.getLast hw.1, (List.dropLast_concat_getLast hw.1).symm⟩
    have hh : ∀ c ∈ (p ++ e ++ ['/', '/']).head?, isSpace c = false := fun c hc => by
      cases p with
      | nil => exact absurd rfl hw.1
      | cons d p => exact hw.2 c (by injection hc with hc; rw [hc]; simp)
    obtain ⟨t', k1, -⟩ := trim_right (a := p ++ e ++ ['/']) (x := '/') (t := t) (by decide) (by simpa using hh)
    have htrim : trimSpace (sep' ++ p ++ e ++ ("//".toList ++ t)) = p ++ e ++ "//".toList ++ t' := by
      have e1 : trimSpace (sep' ++ p ++ e ++ ("//".toList ++ t)) = trimSpace (p ++ e ++ ['/'] ++ '/' :: t) := by
        have hq : ∀ c ∈ (p ++ e ++ ['/'] ++ '/' :: t).head?, isSpace c = false := fun c hc => by
          cases p with
          | nil => exact absurd rfl hw.1
          | cons d p => exact hw.2 c (by injection hc with hc; rw [hc]; simp)
        have e0 : sep' ++ p ++ e ++ ("//".toList ++ t) = sep' ++ (p ++ e ++ ['/'] ++ '/' :: t) := by simp
        rw [e0]
        unfold trimSpace
        rw [dropWhile_blanks sep' _ hsp hq, dropWhile_none hq]
      rw [e1, k1]
      simp
    have hpe : ¬ "//".toList <:+: (p ++ e) ++ ['/'] := no_slashes he p h.plain
    have hun : uncomment (p ++ e ++ "//".toList ++ t') = p ++ e := uncomment_comment (p ++ e) t' hpe
    rw [htrim, hun, if_neg (fun heq => by
      have := congrArg List.length heq
      simp at this), ]
    have := trim_word (b := []) (by simp) hw he
    simpa using this

theorem take_all {q : Char → Bool} : ∀ {s : Str} {c : Char}, c ∈ s.takeWhile q → q c = true := by
  intro s
  induction s with
  | nil => intro c h; cases h
  | cons d s ih =>
    intro c h
    rw [List.takeWhile_cons] at h
    split at h
    · rename_i hd
      rcases List.mem_cons.mp h with rfl | h
      · exact hd
      · exact ih h
    · cases h

theorem parse_skip {l : Str} (h : ¬ Starts l) (r : List Str) : parseLines (l :: r) = parseLines r := by
  rw [parseLines]
  simp only
  rw [if_neg]
  intro hp
  obtain ⟨t, ht⟩ := List.isPrefixOf_iff_prefix.mp hp
  apply h
  have hl := List.takeWhile_append_dropWhile (p := fun c => c = ' ' || c = '\t') (l := l)
  rw [← ht] at hl
  refine ⟨l.takeWhile fun c => c = ' ' || c = '\t', ' ' :: t, ?_, hl.symm.trans (by simp), .inr (.inl ⟨' ', t, rfl, by decide⟩)⟩
  intro c hc
  have := take_all hc
  simp only [Bool.or_eq_true, decide_eq_true_eq] at this
  rcases this with rfl | rfl <;> decide

/-- **C74 (the name of the module).** A go.mod whose `module` line is written as the go command writes it gives that module path;
    so whatever comments, directives and blank lines stand before it, and whatever stands after it. -/
theorem C74_module_partial {content p : Str} (h : SaysPlainly content p) : parseModPath content = p := by
  obtain ⟨before, l, after, b, sep, hl, hm, hb, h1, h2⟩ := h
  unfold parseModPath
  rw [hl]
  clear hl
  induction before with
  | nil => exact parse_line hm h1 h2 after
  | cons l' before ih =>
    rw [List.cons_append, parse_skip (hb l' (by simp))]
    exact ih fun x hx => hb x (by simp [hx])

/-- Other ways to write the statement are read wrongly: the go command takes all of these for `module a.b/c`. -/
theorem C74_module_tab : Says "module\ta.b/c\n".toList "a.b/c".toList ∧ parseModPath "module\ta.b/c\n".toList = [] := by
  refine ⟨⟨[], "module\ta.b/c".toList, [[]], [], "\t".toList, by decide, ?_, by simp⟩, by decide⟩
  exact { blanks := by decide, between := by decide, apart := by decide, word := by decide,
          plain := by decide, line := ⟨[], [], by decide, .inl rfl, by decide⟩ }

theorem C74_module_quoted : parseModPath "module \"a.b/c\"\n".toList = "\"a.b/c\"".toList := by decide

theorem C74_module_block : parseModPath "module (\n\ta.b/c\n)\n".toList = "(".toList := by decide

theorem lines_join (a b : Str) (h : '\n' ∉ a) : lines (a ++ '\n' :: b) = a :: lines b := by
  induction a with
  | nil => rw [List.nil_append, lines, if_pos rfl]
  | cons c a ih =>
    rw [List.cons_append, lines, if_neg (fun e => h (by simp [e])), ih (fun hm => h (by simp [hm]))]

/-- The hypotheses hold of a go.mod with a comment before the statement and one behind it, which a word like `module` precedes. -/
example : SaysPlainly "// Deprecated: module old\n\n\tmodule  a.b/c \t// the module\r\nrequire x v1\nmodule z".toList "a.b/c".toList := by
  refine ⟨["// Deprecated: module old".toList, []], "\tmodule  a.b/c \t// the module\r".toList, ["require x v1".toList, "module z".toList],
    "\t".toList, "  ".toList, by decide, ?_, ?_, by decide, by decide⟩
  · exact { blanks := by decide, between := by decide, apart := by decide, word := by decide,
            plain := by decide, line := ⟨" \t".toList, "// the module\r".toList, by decide, .inr (by decide), by decide⟩ }
  · intro l' hl'
    simp only [List.mem_cons, List.not_mem_nil, or_false] at hl'
    rintro ⟨b, t, hb, he, ht⟩
    rcases hl' with rfl | rfl
    · cases b with
      | nil => exact absurd (show '/' = 'm' from Option.some.inj (congrArg List.head? he)) (by decide)
      | cons c b =>
        have : '/' = c := Option.some.inj (congrArg List.head? he)
        have := hb c (by simp)
        subst c
        revert this; decide
    · have := congrArg List.length he
      simp at this

/-! ### The root of the module -/

theorem abs_here {cwd : List Str} (hc : ∀ x ∈ cwd, Ordinary x) : abs cwd [[]] = cwd := by
  unfold abs
  rw [if_neg (by decide), List.foldl_append, fold_ordinary cwd hc]
  rfl

theorem abs_ordinary {cwd : List Str} (p : Path) : ∀ x ∈ abs cwd p, Ordinary x := by
  unfold abs
  split <;> exact fold_true _ [] (by simp)

/-- **C74 (the module of a directory).** For every file system, working directory and path, unless `/` itself is a module or a
    go.mod cannot be looked at: xgo finds the nearest go.mod upwards of the directory, and the path from there to the directory;
    and it finds none if and only if there is none. -/
theorem C74_nearest_partial {fs : FS} {cwd : List Str} (hc : ∀ x ∈ cwd, Ordinary x) (he : ∀ d, fs d ≠ .error) (h0 : fs [] ≠ .file) (p : Path) :
    (∀ r sub, findGoMod fs cwd p = .ok (r, sub) ↔ IsRoot fs (abs cwd p) r ∧ r ++ sub = abs cwd p) ∧
    (findGoMod fs cwd p = .notFound ↔ ∀ r, ¬ IsRoot fs (abs cwd p) r) := by
  have hd : findGoMod fs cwd p = findLoop fs (abs cwd p).reverse [] := by
    unfold findGoMod
    by_cases hp : p = [[]]
    · rw [if_pos hp, hp, abs_here hc]
    · rw [if_neg hp]
  rw [hd]
  rcases findLoop_ok he h0 (abs cwd p) [] with ⟨r, t, h1, h2, h3⟩ | ⟨h1, h2⟩
  · rw [h1]
    refine ⟨fun r' sub => ⟨fun h => ?_, fun ⟨k1, k2⟩ => ?_⟩, ⟨fun h => (by cases h), fun h => absurd h2 (h r)⟩⟩
    · simp only [List.reverse_nil, List.append_nil, Result.ok.injEq, Prod.mk.injEq] at h
      rw [← h.1, ← h.2]; exact ⟨h2, h3⟩
    · have := root_unique h2 k1
      subst r'
      rw [List.append_cancel_left (k2.trans h3.symm)]
      simp
  · rw [h1]
    exact ⟨fun r' sub => ⟨fun h => (by cases h), fun ⟨k1, _⟩ => absurd k1 (h2 _)⟩, ⟨fun _ => h2, fun _ => rfl⟩⟩

/-- A module in `/`, as in a container, is not found, whatever directory of it xgo is run in. -/
theorem C74_root_module {fs : FS} (cwd : List Str) (p : Path) (h : ∀ d, d ≠ [] → fs d = .absent) : findGoMod fs cwd p = .notFound := by
  unfold findGoMod
  generalize (if p = [[]] then cwd else abs cwd p).reverse = u
  suffices ∀ (u sub : List Str), findLoop fs u sub = .notFound from this u []
  intro u
  induction u with
  | nil => intro sub; rfl
  | cons b u ih =>
    intro sub
    rw [findLoop, h _ (by simp)]
    exact ih _

/-- `FindGoModDirSubPath` finds it there too, but gives the path backwards. -/
theorem C74_find_dir {fs : FS} (he : ∀ d, fs d ≠ .error) (cwd : List Str) (p : Path) :
    (∀ r sub, findDirSubPath fs cwd p = .ok (r, sub) ↔ IsRoot fs (abs cwd p) r ∧ r ++ sub.reverse = abs cwd p) ∧
    (findDirSubPath fs cwd p = .notFound ↔ ∀ r, ¬ IsRoot fs (abs cwd p) r) := by
  have key : ∀ (u s : List Str), (∃ r t, findUp fs u s = .ok (r, s ++ t) ∧ IsRoot fs u.reverse r ∧ r ++ t.reverse = u.reverse) ∨
      (findUp fs u s = .notFound ∧ ∀ r, ¬ IsRoot fs u.reverse r) := by
    intro u
    induction u with
    | nil =>
      intro s
      rw [findUp]
      cases h : fs [] with
      | file =>
        refine .inl ⟨[], [], by simp, ⟨List.prefix_rfl, h, fun q _ hq _ => ?_⟩, rfl⟩
        exact List.prefix_nil.mp hq
      | error => exact absurd h (he _)
      | _ =>
        refine .inr ⟨rfl, fun r hr => ?_⟩
        have h1 := List.prefix_nil.mp hr.1
        have h2 := hr.2.1
        rw [h1, h] at h2
        cases h2
    | cons b u ih =>
      intro s
      rw [findUp]
      cases h : fs (b :: u).reverse with
      | file =>
        refine .inl ⟨_, [], by simp, ⟨List.prefix_rfl, h, fun q h1 h2 _ => ?_⟩, by simp⟩
        exact h2.eq_of_length_le h1.length_le
      | error => exact absurd h (he _)
      | _ =>
        simp only
        have hno : ∀ r, IsRoot fs (b :: u).reverse r ↔ IsRoot fs u.reverse r := by
          intro r
          rw [List.reverse_cons] at h ⊢
          constructor
          · intro ⟨h1, h2, h3⟩
            have h1' : r <+: u.reverse := by
              rcases List.prefix_concat_iff.mp h1 with e | e
              · rw [← e, h2] at h; cases h
              · exact e
            exact ⟨h1', h2, fun q k1 k2 k3 => h3 q k1 (k2.trans (List.prefix_append _ _)) k3⟩
          · intro ⟨h1, h2, h3⟩
            refine ⟨h1.trans (List.prefix_append _ _), h2, fun q k1 k2 k3 => ?_⟩
            rcases List.prefix_concat_iff.mp k2 with e | e
            · rw [← e, k3] at h; cases h
            · exact h3 q k1 e k3
        rcases ih (s ++ [b]) with ⟨r, t, k1, k2, k3⟩ | ⟨k1, k2⟩
        · refine .inl ⟨r, b :: t, by rw [k1]; simp, (hno r).mpr k2, ?_⟩
          rw [List.reverse_cons, ← List.append_assoc, k3, List.reverse_cons]
        · exact .inr ⟨k1, fun r hr => k2 r ((hno r).mp hr)⟩
  unfold findDirSubPath
  rcases key (abs cwd p).reverse [] with ⟨r, t, h1, h2, h3⟩ | ⟨h1, h2⟩
  · rw [List.reverse_reverse] at h2 h3
    rw [h1]
    refine ⟨fun r' sub => ⟨fun h => ?_, fun ⟨k1, k2⟩ => ?_⟩, ⟨fun h => (by cases h), fun h => absurd h2 (h r)⟩⟩
    · simp only [List.nil_append, Result.ok.injEq, Prod.mk.injEq] at h
      rw [← h.1, ← h.2]; exact ⟨h2, h3⟩
    · have := root_unique h2 k1
      subst r'
      have := List.append_cancel_left (k2.trans h3.symm)
      rw [List.reverse_inj] at this
      rw [this, List.nil_append]
  · rw [List.reverse_reverse] at h2
    rw [h1]
    exact ⟨fun r' sub => ⟨fun h => (by cases h), fun ⟨k1, _⟩ => absurd k1 (h2 _)⟩, ⟨fun _ => h2, fun _ => rfl⟩⟩

/-- **C74 (what the test explorer scans).** Given the directory `sub` of a module, the explorer walks it if and only if the path
    `sub` reads the same from both ends; otherwise it walks another directory of the module, or none. -/
theorem C74_scanned_partial {fs : FS} (he : ∀ d, fs d ≠ .error) {cwd : List Str} {p : Path} {r sub : List Str}
    (hr : IsRoot fs (abs cwd p) r) (hs : r ++ sub = abs cwd p) :
    scanned fs cwd p = .ok (r ++ sub.reverse) ∧ (scanned fs cwd p = .ok (abs cwd p) ↔ sub.reverse = sub) := by
  have h : findDirSubPath fs cwd p = .ok (r, sub.reverse) := ((C74_find_dir he cwd p).1 r sub.reverse).mpr ⟨hr, by rw [List.reverse_reverse, hs]⟩
  unfold scanned
  rw [h]
  refine ⟨rfl, ?_⟩
  simp only [Result.ok.injEq]
  rw [← hs]
  exact ⟨fun e => List.append_cancel_left e, fun e => by rw [e]⟩

/-- **C74 (the import path of a directory).** It is the module path with the path of the directory behind it. -/
theorem C74_package_partial {fs : FS} {cwd : List Str} (hc : ∀ x ∈ cwd, Ordinary x) (he : ∀ d, fs d ≠ .error) (h0 : fs [] ≠ .file) {p : Path}
    {content : List Str → Str} {r sub : List Str} {m : Str} (hr : IsRoot fs (abs cwd p) r) (hs : r ++ sub = abs cwd p)
    (hm : SaysPlainly (content r) m) : pkgPath fs content cwd p = .ok (importPath m sub) := by
  have h : findGoMod fs cwd p = .ok (r, sub) := ((C74_nearest_partial hc he h0 p).1 r sub).mpr ⟨hr, hs⟩
  have hne : m ≠ [] := by
    obtain ⟨_, _, _, _, _, _, hm, _⟩ := hm
    exact hm.word.1
  unfold pkgPath resolveMainModule
  rw [h]
  simp only
  rw [C74_module_partial hm, if_neg hne]
  have hj : ∀ s : List Str, s ≠ [] → '/' :: joinSlash s = (s.map ('/' :: ·)).flatten := by
    intro s
    induction s with
    | nil => intro h; exact absurd rfl h
    | cons a s ih =>
      intro _
      cases s with
      | nil => simp [joinSlash]
      | cons b s => rw [joinSlash, ih (by simp)]; simp
  by_cases h' : sub = []
  · rw [if_pos h', h']; simp [importPath]
  · rw [if_neg h', hj sub h']; rfl

/-- **C74 (the project root).** When the path of `--project-dir` ends with at least as many proper names as the module root is
    levels above it, the project root is the root of the module. -/
theorem C74_project_root_partial {fs : FS} {cwd : List Str} (hc : ∀ x ∈ cwd, Ordinary x) (he : ∀ d, fs d ≠ .error) (h0 : fs [] ≠ .file)
    {pre os r sub : List Str} (ho : ∀ x ∈ os, Ordinary x) (hr : IsRoot fs (abs cwd (pre ++ os)) r) (hs : r ++ sub = abs cwd (pre ++ os))
    (hl : sub.length ≤ os.length) : ∃ q, rootOf fs cwd (pre ++ os) = some q ∧ abs cwd q = r := by
  have h : findGoMod fs cwd (pre ++ os) = .ok (r, sub) := ((C74_nearest_partial hc he h0 _).1 r sub).mpr ⟨hr, hs⟩
  refine ⟨projectRoot (pre ++ os) sub.length, by unfold rootOf; rw [h], ?_⟩
  have h1 := projectRoot_abs hc sub.length pre os ho hl
  rw [← hs] at h1
  refine (List.append_inj' h1 ?_).1
  rw [List.length_drop]; omega

/-- Outside modules the project root is the directory itself. -/
theorem C74_project_root_none {fs : FS} {cwd : List Str} (hc : ∀ x ∈ cwd, Ordinary x) (he : ∀ d, fs d ≠ .error) (h0 : fs [] ≠ .file)
    {p : Path} (hr : ∀ r, ¬ IsRoot fs (abs cwd p) r) : rootOf fs cwd p = some p := by
  unfold rootOf
  rw [(C74_nearest_partial hc he h0 p).2.mpr hr]

/-- In particular for every clean absolute path. -/
theorem C74_project_root_absolute {fs : FS} {cwd : List Str} (hc : ∀ x ∈ cwd, Ordinary x) (he : ∀ d, fs d ≠ .error) (h0 : fs [] ≠ .file)
    {d r : List Str} (hd : ∀ x ∈ d, Ordinary x) (hr : IsRoot fs d r) : ∃ q, rootOf fs cwd ([] :: d) = some q ∧ abs cwd q = r := by
  have ha : abs cwd ([[]] ++ d) = d := by
    unfold abs
    cases d with
    | nil => exact absurd (List.prefix_nil.mp hr.1 ▸ hr.2.1) h0
    | cons x d =>
      rw [if_pos (show isAbs ([[]] ++ x :: d) = true from rfl)]
      show (x :: d).foldl (cleanStep true) (cleanStep true [] []) = _
      rw [show cleanStep true [] [] = [] from rfl, fold_ordinary _ hd]
      rfl
  obtain ⟨sub, hs⟩ := hr.1
  exact C74_project_root_partial (pre := [[]]) hc he h0 hd (by rw [ha]; exact hr) (by rw [ha]; exact hs)
    (by rw [← hs, List.length_append]; omega)

theorem root_here : ∀ n, projectRoot [".".toList] n = [".".toList] := by
  intro n
  induction n with
  | zero => rfl
  | succ n ih => rw [projectRoot, show dir [".".toList] = [".".toList] by decide]; exact ih

/-- **C74 (a run in a subdirectory).** Run without `--project-dir` in a directory below the root of its module, xgo takes that
    directory, not the root of the module, for the project root: always. -/
theorem C74_project_root_relative {fs : FS} {cwd : List Str} (hc : ∀ x ∈ cwd, Ordinary x) (he : ∀ d, fs d ≠ .error) (h0 : fs [] ≠ .file)
    {r : List Str} (hr : IsRoot fs cwd r) (hne : r ≠ cwd) : ∃ q, rootOf fs cwd [[]] = some q ∧ abs cwd q = cwd ∧ abs cwd q ≠ r := by
  obtain ⟨sub, hs⟩ := hr.1
  have h : findGoMod fs cwd [[]] = .ok (r, sub) := ((C74_nearest_partial hc he h0 _).1 r sub).mpr (by rw [abs_here hc]; exact ⟨hr, hs⟩)
  have hd : abs cwd [".".toList] = cwd := by
    unfold abs
    rw [if_neg (by decide), List.foldl_append, fold_ordinary cwd hc]
    rfl
  have hp : ∀ n, abs cwd (projectRoot [[]] n) = cwd := by
    intro n
    cases n with
    | zero => exact abs_here hc
    | succ n => rw [projectRoot, show dir [[]] = [".".toList] by decide, root_here, hd]
  refine ⟨projectRoot [[]] sub.length, by unfold rootOf; rw [h], hp _, ?_⟩
  rw [hp]
  exact fun e => hne e.symm

/-! ### A module `/m` with a nested module `/m/a/n`; xgo runs in `/m/a` -/

def sampleFS : FS := fun d => if d = ["m".toList] ∨ d = ["m".toList, "a".toList, "n".toList] then .file else if d = ["m".toList, "a".toList] then .dir else .absent

theorem sample_root : IsRoot sampleFS ["m".toList, "a".toList, "b".toList] ["m".toList] := by
  refine ⟨⟨["a".toList, "b".toList], rfl⟩, by decide, ?_⟩
  intro q _ h2 h3
  have : q.length ≤ 3 := h2.length_le
  unfold sampleFS at h3
  split at h3
  · rename_i h
    rcases h with h | h
    · exact h
    · subst h
      revert h2; decide
  · split at h3 <;> cases h3

example : (∀ x ∈ ["m".toList, "a".toList], Ordinary x) ∧ (∀ d, sampleFS d ≠ .error) ∧ sampleFS [] ≠ .file ∧
    abs ["m".toList, "a".toList] ["..".toList, ".".toList, "a".toList, "b".toList] = ["m".toList, "a".toList, "b".toList] ∧
    findGoMod sampleFS ["m".toList, "a".toList] ["..".toList, ".".toList, "a".toList, "b".toList] = .ok (["m".toList], ["a".toList, "b".toList]) := by
  refine ⟨by decide, ?_, by decide, by decide, by decide⟩
  intro d
  unfold sampleFS
  split
  · decide
  · split <;> decide

/-- A trailing slash counts as a level. -/
theorem C74_project_root_slash :
    (rootOf sampleFS [] [[], "m".toList, "a".toList, "b".toList]).map (abs []) = some ["m".toList] ∧
    (rootOf sampleFS [] [[], "m".toList, "a".toList, "b".toList, []]).map (abs []) = some ["m".toList, "a".toList] := by decide

/-- The explorer, given `/m/a/b`, walks `/m/b/a`. -/
example : scanned sampleFS [] [[], "m".toList, "a".toList, "b".toList] = .ok ["m".toList, "b".toList, "a".toList] := by decide

example : findGoMod sampleFS ["m".toList] ["a".toList, "n".toList, "x".toList] = .ok (["m".toList, "a".toList, "n".toList], ["x".toList]) ∧
    findGoMod sampleFS ["x".toList, "m".toList] [[]] = .notFound := by decide

end Verif.Cmd.GoMod
