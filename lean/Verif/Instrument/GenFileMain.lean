/-
C93: generated files.
-/
import Verif.Instrument.GenFileSpec
import Verif.Instrument.FuncTrapNames
import Verif.Instrument.OverlayProps

namespace Verif.Instrument.GenFile
open Spec
open Instrument.FuncTrap (dec dec_inj)

/-! ### Names -/

theorem below_iff {d p : Str} : Below d p ↔ d.isPrefixOf p = true ∧ (p.drop d.length = [] ∨ ∃ t, p.drop d.length = '/' :: t) := by
  rw [List.isPrefixOf_iff_prefix]
  constructor
  · rintro (rfl | ⟨t, rfl⟩)
    · simp
    · simp
  · rintro ⟨⟨r, rfl⟩, h⟩
    rw [List.drop_left] at h
    rcases h with rfl | ⟨t, rfl⟩
    · exact .inl (by simp)
    · exact .inr ⟨t, rfl⟩

theorem mapPath_cases : ∀ (ms : List Mapping) (p : Str),
    (∃ m ∈ ms, ∃ r, p = m.src ++ r ∧ (r = [] ∨ ∃ t, r = '/' :: t) ∧ mapPath ms p = m.dst ++ r) ∨
    (mapPath ms p = p ∧ ∀ m ∈ ms, ¬ Below m.src p) := by
  intro ms
  induction ms with
  | nil => intro p; exact .inr ⟨rfl, by simp⟩
  | cons m ms ih =>
    intro p
    have skip : ¬ Below m.src p → mapPath (m :: ms) p = mapPath ms p →
        (∃ x ∈ m :: ms, ∃ r, p = x.src ++ r ∧ (r = [] ∨ ∃ t, r = '/' :: t) ∧ mapPath (m :: ms) p = x.dst ++ r) ∨
        (mapPath (m :: ms) p = p ∧ ∀ x ∈ m :: ms, ¬ Below x.src p) := by
      intro hn he
      rw [he]
      rcases ih p with ⟨x, hx, h⟩ | ⟨h1, h2⟩
      · exact .inl ⟨x, List.mem_cons_of_mem _ hx, h⟩
      · refine .inr ⟨h1, fun x hx => ?_⟩
        rcases List.mem_cons.1 hx with rfl | hx
        · exact hn
        · exact h2 x hx
    by_cases hp : m.src.isPrefixOf p = true
    · obtain ⟨r, rfl⟩ := List.isPrefixOf_iff_prefix.1 hp
      cases r with
      | nil => exact .inl ⟨m, List.mem_cons_self, [], rfl, .inl rfl, by simp [mapPath]⟩
      | cons c t =>
        by_cases hc : c = '/'
        · subst hc
          exact .inl ⟨m, List.mem_cons_self, '/' :: t, rfl, .inr ⟨t, rfl⟩, by simp [mapPath]⟩
        · refine skip ?_ (by simp [mapPath, hc])
          rw [below_iff]
          rintro ⟨_, h⟩
          rw [List.drop_left] at h
          rcases h with h | ⟨t', h⟩
          · cases h
          · exact hc (List.cons.inj h).1
    · exact skip (fun h => hp (below_iff.1 h).1) (by rw [mapPath, if_neg hp])

theorem gopathName_eq {i j : Nat} (h : gopathName i = gopathName j) : i = j := by
  have len : ∀ k, 0 < k → gopathName k = "GOPATH_".toList ++ dec k := fun k hk => if_pos hk
  have zero : gopathName 0 = "GOPATH".toList := rfl
  have ne : ∀ k, 0 < k → gopathName k ≠ gopathName 0 := by
    intro k hk e
    rw [len k hk, zero] at e
    have := congrArg List.length e
    simp at this
  rcases Nat.eq_zero_or_pos i with rfl | hi
  · rcases Nat.eq_zero_or_pos j with rfl | hj
    · rfl
    · exact absurd h.symm (ne j hj)
  · rcases Nat.eq_zero_or_pos j with rfl | hj
    · exact absurd h (ne i hi)
    · rw [len i hi, len j hj] at h
      exact dec_inj (List.append_cancel_left h)

theorem name_slash {n : Str} (h : Name n) : '/' ∉ n ∧ n ≠ [] ∧ n.head? = some (n.headD 'G') := by
  rcases h with rfl | rfl | ⟨i, rfl⟩
  · decide
  · decide
  · unfold gopathName
    split
    · refine ⟨fun h => ?_, by simp, by simp⟩
      rcases List.mem_append.1 h with h | h
      · revert h; decide
      · have := Support.digit_toDigits h; revert this; decide
    · decide

theorem gopath_mem : ∀ (gs : List Str) (i : Nat) (m : Mapping), m ∈ gopathMappings i gs → m.src ∈ gs ∧ m.src ≠ [] ∧
    ∃ j, i ≤ j ∧ m.dst = gopathName j := by
  intro gs
  induction gs with
  | nil => intro i m h; cases h
  | cons g gs ih =>
    intro i m h
    rw [gopathMappings] at h
    split at h
    · obtain ⟨h1, h2, h3⟩ := ih i m h
      exact ⟨List.mem_cons_of_mem _ h1, h2, h3⟩
    · rename_i hg
      rcases List.mem_cons.1 h with rfl | h
      · exact ⟨List.mem_cons_self, hg, i, Nat.le_refl _, rfl⟩
      · obtain ⟨h1, h2, j, h3, h4⟩ := ih _ m h
        exact ⟨List.mem_cons_of_mem _ h1, h2, j, by omega, h4⟩

theorem gopath_dst : ∀ (gs : List Str) (i : Nat) (m m' : Mapping), m ∈ gopathMappings i gs → m' ∈ gopathMappings i gs →
    m.dst = m'.dst → m = m' := by
  intro gs
  induction gs with
  | nil => intro i m m' h; cases h
  | cons g gs ih =>
    intro i m m' h h' e
    rw [gopathMappings] at h h'
    split at h
    · rename_i hg
      rw [if_pos hg] at h'
      exact ih i m m' h h' e
    · rename_i hg
      rw [if_neg hg] at h'
      rcases List.mem_cons.1 h with rfl | h
      · rcases List.mem_cons.1 h' with rfl | h'
        · rfl
        · obtain ⟨_, _, j, h3, h4⟩ := gopath_mem _ _ _ h'
          have := gopathName_eq (e.trans h4); omega
      · rcases List.mem_cons.1 h' with rfl | h'
        · obtain ⟨_, _, j, h3, h4⟩ := gopath_mem _ _ _ h
          have := gopathName_eq (h4.symm.trans e); omega
        · exact ih _ m m' h h' e

theorem gopathName_ne (i : Nat) : gopathName i ≠ "GOROOT".toList ∧ gopathName i ≠ "PROJECT".toList := by
  have : (gopathName i).take 3 = "GOP".toList := by
    unfold gopathName; split <;> rfl
  constructor <;> intro h <;> rw [h] at this <;> revert this <;> decide

theorem mapping_name {goroot project : Str} {gopath : List Str} {m : Mapping} (h : m ∈ mappings goroot project gopath) : Name m.dst := by
  rcases List.mem_cons.1 h with rfl | h
  · exact .inl rfl
  · rcases List.mem_cons.1 h with rfl | h
    · exact .inr (.inl rfl)
    · obtain ⟨_, _, j, _, h4⟩ := gopath_mem _ _ _ h
      exact .inr (.inr ⟨j, h4⟩)

theorem mapping_dst {goroot project : Str} {gopath : List Str} {m m' : Mapping} (h : m ∈ mappings goroot project gopath)
    (h' : m' ∈ mappings goroot project gopath) (e : m.dst = m'.dst) : m = m' := by
  have gp : ∀ x ∈ gopathMappings 0 gopath, x.dst ≠ "GOROOT".toList ∧ x.dst ≠ "PROJECT".toList := by
    intro x hx
    obtain ⟨_, _, j, _, h4⟩ := gopath_mem _ _ _ hx
    rw [h4]; exact gopathName_ne j
  have ne : "GOROOT".toList ≠ "PROJECT".toList := by decide
  rcases List.mem_cons.1 h with rfl | h
  · rcases List.mem_cons.1 h' with rfl | h'
    · rfl
    · rcases List.mem_cons.1 h' with rfl | h'
      · exact absurd e ne
      · exact absurd e.symm (gp _ h').1
  · rcases List.mem_cons.1 h with rfl | h
    · rcases List.mem_cons.1 h' with rfl | h'
      · exact absurd e.symm ne
      · rcases List.mem_cons.1 h' with rfl | h'
        · rfl
        · exact absurd e.symm (gp _ h').2
    · rcases List.mem_cons.1 h' with rfl | h'
      · exact absurd e (gp _ h).1
      · rcases List.mem_cons.1 h' with rfl | h'
        · exact absurd e (gp _ h).2
        · exact gopath_dst _ _ _ _ h h' e

theorem rebase_abs {root p : Str} (h : Abs p) : rebase root p = root ++ p := if_pos h

theorem rebase_name {root n r : Str} (h : Name n) : rebase root (n ++ r) = root ++ '/' :: (n ++ r) := by
  obtain ⟨h1, h2, _⟩ := name_slash h
  refine if_neg ?_
  cases n with
  | nil => exact absurd rfl h2
  | cons c n =>
    intro h
    have : c = '/' := Option.some.inj h
    subst this
    exact h1 List.mem_cons_self

theorem cut_name {n n' r r' : Str} (hn : '/' ∉ n) (hn' : '/' ∉ n') (hr : r = [] ∨ ∃ t, r = '/' :: t) (hr' : r' = [] ∨ ∃ t, r' = '/' :: t)
    (h : n ++ r = n' ++ r') : n = n' ∧ r = r' := by
  have tw : ∀ (m s : Str), '/' ∉ m → (s = [] ∨ ∃ t, s = '/' :: t) → (m ++ s).takeWhile (· != '/') = m := by
    intro m s hm hs
    rw [List.takeWhile_append_of_pos (fun c hc => by
      simp only [bne_iff_ne]; rintro rfl; exact hm hc)]
    rcases hs with rfl | ⟨t, rfl⟩ <;> simp
  have e := congrArg (List.takeWhile (· != '/')) h
  rw [tw n r hn hr, tw n' r' hn' hr'] at e
  subst e
  exact ⟨rfl, List.append_cancel_left h⟩

/-- **C93** (`C93_names`): no two sources have the same generated file, if neither is in a directory at the top of the file system with a name
    that xgo uses, such as /PROJECT. -/
theorem C93_names (root goroot project : Str) (gopath : List Str) (hg : goroot ≠ []) (hp : project ≠ []) (p q : Str)
    (ap : Abs p) (aq : Abs q) (fp : Free goroot project gopath p) (fq : Free goroot project gopath q)
    (h : genFile root (mappings goroot project gopath) p = genFile root (mappings goroot project gopath) q) : p = q := by
  unfold genFile at h
  have unm : ∀ x, (∀ m ∈ mappings goroot project gopath, ¬ Below m.src x) → Free goroot project gopath x → ∀ n, Name n → ¬ Below ('/' :: n) x := by
    intro x hx hf
    rcases hf with ⟨d, hd, hne, hb⟩ | hf
    · exfalso
      have : ∀ d ∈ gopath, d ≠ [] → ∀ i, ∃ m ∈ gopathMappings i gopath, m.src = d := by
        have gen : ∀ (gs : List Str) (i : Nat) d, d ∈ gs → d ≠ [] → ∃ m ∈ gopathMappings i gs, m.src = d := by
          intro gs
          induction gs with
          | nil => intro i d h; cases h
          | cons g gs ih =>
            intro i d h hne
            rw [gopathMappings]
            split
            · rename_i hg
              rcases List.mem_cons.1 h with rfl | h
              · exact absurd hg hne
              · exact ih i d h hne
            · rcases List.mem_cons.1 h with rfl | h
              · exact ⟨_, List.mem_cons_self, rfl⟩
              · obtain ⟨m, hm, e⟩ := ih (i + 1) d h hne
                exact ⟨m, List.mem_cons_of_mem _ hm, e⟩
        exact fun d hd hne i => gen gopath i d hd hne
      rcases List.mem_cons.1 hd with rfl | hd
      · exact hx ⟨d, _⟩ List.mem_cons_self hb
      · rcases List.mem_cons.1 hd with rfl | hd
        · exact hx ⟨d, _⟩ (List.mem_cons_of_mem _ List.mem_cons_self) hb
        · obtain ⟨m, hm, rfl⟩ := this d hd hne 0
          exact hx m (List.mem_cons_of_mem _ (List.mem_cons_of_mem _ hm)) hb
    · exact hf
  have mixed : ∀ {x : Str} {m : Mapping} {r : Str}, m ∈ mappings goroot project gopath → (r = [] ∨ ∃ t, r = '/' :: t) →
      (∀ m ∈ mappings goroot project gopath, ¬ Below m.src x) → Free goroot project gopath x → x = '/' :: (m.dst ++ r) → False := by
    intro x m r hm hr hx hf e
    refine unm x hx hf m.dst (mapping_name hm) ?_
    rcases hr with rfl | ⟨t, rfl⟩
    · exact .inl (by rw [e]; simp)
    · exact .inr ⟨t, by rw [e]; simp⟩
  rcases mapPath_cases (mappings goroot project gopath) p with ⟨m, hm, r, e1, hr, e2⟩ | ⟨e, hx⟩
  · rw [e2, rebase_name (mapping_name hm)] at h
    rcases mapPath_cases (mappings goroot project gopath) q with ⟨m', hm', r', e1', hr', e2'⟩ | ⟨e', hx'⟩
    · rw [e2', rebase_name (mapping_name hm')] at h
      have h := (List.cons.inj (List.append_cancel_left h)).2
      obtain ⟨h1, h2⟩ := cut_name (name_slash (mapping_name hm)).1 (name_slash (mapping_name hm')).1 hr hr' h
      have := mapping_dst hm hm' h1
      rw [e1, e1', this, h2]
    · rw [e', rebase_abs aq] at h
      exact absurd (List.append_cancel_left h).symm (fun h => mixed hm hr hx' fq h)
  · rw [e, rebase_abs ap] at h
    rcases mapPath_cases (mappings goroot project gopath) q with ⟨m', hm', r', e1', hr', e2'⟩ | ⟨e', hx'⟩
    · rw [e2', rebase_name (mapping_name hm')] at h
      exact absurd (List.append_cancel_left h) (fun h => mixed hm' hr' hx fp h)
    · rw [e', rebase_abs aq] at h
      exact List.append_cancel_left h

/-- **C93**, where it fails (`C93_names_counterexample`): a file of the project, and one in /PROJECT that is not in GOROOT, the project or GOPATH, have
    the same generated file. -/
theorem C93_names_counterexample (root goroot project : Str) (gopath : List Str) (t : Str)
    (h1 : ¬ Below goroot (project ++ '/' :: t))
    (h2 : ∀ m ∈ mappings goroot project gopath, ¬ Below m.src ("/PROJECT/".toList ++ t)) :
    genFile root (mappings goroot project gopath) (project ++ '/' :: t) =
      genFile root (mappings goroot project gopath) ("/PROJECT/".toList ++ t) := by
  have e2 : mapPath (mappings goroot project gopath) ("/PROJECT/".toList ++ t) = "/PROJECT/".toList ++ t := by
    rcases mapPath_cases (mappings goroot project gopath) ("/PROJECT/".toList ++ t) with ⟨m, hm, r, e, hr, _⟩ | ⟨e, _⟩
    · refine absurd ?_ (h2 m hm)
      rcases hr with rfl | ⟨t', rfl⟩
      · exact .inl (by rw [e]; simp)
      · exact .inr ⟨t', e⟩
    · exact e
  have e1 : mapPath (mappings goroot project gopath) (project ++ '/' :: t) = "PROJECT".toList ++ '/' :: t := by
    have hs : ∀ m ms, ¬ Below (Mapping.src m) (project ++ '/' :: t) → mapPath (m :: ms) (project ++ '/' :: t) = mapPath ms (project ++ '/' :: t) := by
      intro m ms hn
      rw [mapPath]
      by_cases hp : m.src.isPrefixOf (project ++ '/' :: t) = true
      · rw [if_pos hp]
        rw [below_iff, not_and] at hn
        have hn := hn hp
        cases hd : (project ++ '/' :: t).drop m.src.length with
        | nil => exact absurd (.inl hd) hn
        | cons c t' =>
          have : c ≠ '/' := by rintro rfl; exact hn (.inr ⟨t', hd⟩)
          simp [this]
      · rw [if_neg hp]
    show mapPath (⟨goroot, _⟩ :: ⟨project, _⟩ :: _) _ = _
    rw [hs ⟨goroot, _⟩ _ h1, mapPath, if_pos (List.isPrefixOf_iff_prefix.2 ⟨_, rfl⟩), List.drop_left]
    simp
  unfold genFile
  have ha : Abs ("/PROJECT/".toList ++ t) := by unfold Abs; rfl
  rw [e1, e2, rebase_name (.inr (.inl rfl)), rebase_abs ha]
  simp

example : genFile "/w/.xgo/gen/overlay".toList (mappings "/h/go1.22".toList "/w".toList ["/g".toList, [], "/h".toList]) "/w/a/b.go".toList =
    "/w/.xgo/gen/overlay/PROJECT/a/b.go".toList ∧
  genFile "/w/.xgo/gen/overlay".toList (mappings "/h/go1.22".toList "/w".toList ["/g".toList, [], "/h".toList]) "/h/x.go".toList =
    "/w/.xgo/gen/overlay/GOPATH_1/x.go".toList ∧
  genFile "/w/.xgo/gen/overlay".toList (mappings "/h/go1.22".toList "/w".toList ["/g".toList, [], "/h".toList]) "/wa/x.go".toList =
    "/w/.xgo/gen/overlay/wa/x.go".toList := by decide +kernel

/-- Sources in the project, in GOROOT, in GOPATH and elsewhere meet `Free`. -/
example : Free "/go".toList "/w".toList ["/g".toList] "/w/a.go".toList ∧ Free "/go".toList "/w".toList ["/g".toList] "/PROJECTS/a.go".toList := by
  refine ⟨.inl ⟨"/w".toList, by simp, by decide, .inr ⟨"a.go".toList, rfl⟩⟩, .inr ?_⟩
  have key : ∀ n r : Str, '/' ∉ n → (r = [] ∨ ∃ t, r = '/' :: t) → "PROJECTS/a.go".toList = n ++ r → n = "PROJECTS".toList := by
    intro n r hn hr h
    exact (cut_name (n := "PROJECTS".toList) (r := "/a.go".toList) (by decide) hn (.inr ⟨"a.go".toList, rfl⟩) hr h).1.symm
  intro n hn hb
  have e : n = "PROJECTS".toList := by
    rcases hb with h | ⟨t, h⟩
    · exact key n [] (name_slash hn).1 (.inl rfl) (by rw [List.append_nil]; exact (List.cons.inj h).2)
    · exact key n ('/' :: t) (name_slash hn).1 (.inr ⟨t, rfl⟩) (List.cons.inj h).2
  subst e
  rcases hn with h | h | ⟨i, h⟩
  · revert h; decide
  · revert h; decide
  · have : (gopathName i).take 3 = "GOP".toList := by unfold gopathName; split <;> rfl
    rw [← h] at this; revert this; decide

/-! ### Positions -/

theorem trailing_snoc {a d : Str} (hd : ':' ∉ d) :
    trailing (a ++ ':' :: d) = some (a, if d ≠ [] ∧ d.all Char.isDigit = true then some (Nat.ofDigitChars 10 d 0) else none) := by
  unfold trailing
  have e : (a ++ ':' :: d).reverse.takeWhile (· != ':') = d.reverse := by
    rw [List.reverse_append, List.reverse_cons, List.append_assoc, List.takeWhile_append_of_pos]
    · simp
    · intro c hc
      simp only [bne_iff_ne]
      rintro rfl
      exact hd (List.mem_reverse.1 hc)
  rw [e, List.reverse_reverse]
  simp only
  rw [if_neg (by simp; omega)]
  congr 2
  rw [show (a ++ ':' :: d).length - d.length - 1 = a.length by simp; omega, List.take_left]

theorem trailing_last {t : Str} {c : Char} (h : t.getLast? = some c) (hc : c.isDigit = false) (x : Str) (n : Nat) : trailing t ≠ some (x, some n) := by
  unfold trailing
  simp only
  split
  · simp
  · intro e
    have e := Option.some.inj e
    have e := (Prod.mk.inj e).2
    split at e
    · rename_i hd
      cases ht : t.reverse with
      | nil => rw [List.getLast?_eq_head?_reverse, ht] at h; cases h
      | cons y s =>
        rw [List.getLast?_eq_head?_reverse, ht] at h
        have h : y = c := Option.some.inj h
        subst h
        rw [ht] at hd
        by_cases hy : y = ':'
        · subst hy; simp at hd
        · have := List.all_eq_true.1 hd.2 y (by simp [List.takeWhile_cons, hy])
          rw [hc] at this; cases this
    · cases e

theorem directive_read (cur file : Str) (n : Nat) (hn : 0 < n) (c : Char) (h : file.getLast? = some c) (hc : c.isDigit = false) :
    lineDirective cur (directive file n) = some (file, n) := by
  unfold lineDirective directive
  have hp : "//line ".toList.isPrefixOf ("//line ".toList ++ file ++ ':' :: dec n) = true :=
    List.isPrefixOf_iff_prefix.2 ⟨file ++ ':' :: dec n, by simp⟩
  rw [if_pos hp]
  have hd : ("//line ".toList ++ file ++ ':' :: dec n).drop 7 = file ++ ':' :: dec n := by
    rw [List.append_assoc]; rfl
  rw [hd]
  unfold updateBase
  have hcol : ':' ∉ dec n := fun h => by
    have := Support.digit_toDigits h; revert this; decide
  have hall : (dec n).all Char.isDigit = true := List.all_eq_true.2 fun c hc => Support.digit_toDigits hc
  have hne : dec n ≠ [] := Nat.toDigits_ne_nil
  have hv : Nat.ofDigitChars 10 (dec n) 0 = n := by simp [dec]
  rw [trailing_snoc hcol, if_pos ⟨hne, hall⟩, hv]
  simp only
  split
  · rename_i name line ht
    exact absurd ht (trailing_last h hc _ _)
  · rw [if_neg (by omega)]

theorem lines_cut : ∀ (a b : Str), '\n' ∉ a → lines (a ++ '\n' :: b) = a :: lines b := by
  intro a
  induction a with
  | nil => intro b _; simp [lines]
  | cons c a ih =>
    intro b h
    rw [List.cons_append, lines, if_neg (by rintro rfl; exact h List.mem_cons_self), ih b (fun h' => h (List.mem_cons_of_mem _ h'))]

/-- **C93** (`C93_position`): whatever the generated file is called, Go reports each line of the new text as it would if the source itself had
    that text; `//line` comments of the source keep their meaning. -/
theorem C93_position (gen file content : Str) (c : Char) (h : file.getLast? = some c) (hc : c.isDigit = false) (hn : '\n' ∉ file) (k : Nat) :
    position gen (genText false file content) (k + 1) = position file content k := by
  unfold position genText
  rw [if_neg (by decide), lines_cut]
  · rw [walk, directive_read gen file 1 (by decide) c h hc]
  · unfold directive
    intro hm
    rcases List.mem_append.1 hm with hm | hm
    · rcases List.mem_append.1 hm with hm | hm
      · revert hm; decide
      · exact hn hm
    · rcases List.mem_cons.1 hm with hm | hm
      · revert hm; decide
      · have := Support.digit_toDigits hm; revert this; decide

/-- A source with a directive of its own. -/
example : position "/gen/a.go".toList (genText false "/w/a.go".toList "package a\n//line x.y:7\nvar x = 1".toList) 1 = ("/w/a.go".toList, 1) ∧
    position "/gen/a.go".toList (genText false "/w/a.go".toList "package a\n//line x.y:7\nvar x = 1".toList) 3 = ("x.y".toList, 7) := by decide +kernel

/-- **C93**, where it fails (`C93_bom_counterexample`): a source that begins with a byte order mark is a Go file, what is generated for it is not. -/
theorem C93_bom_counterexample (file content : Str) (h : '\uFEFF' ∉ content) :
    bomOK ('\uFEFF' :: content) = true ∧ bomOK (genText false file ('\uFEFF' :: content)) = false := by
  constructor
  · simp [bomOK, h]
  · unfold bomOK genText directive
    rw [if_neg (by decide)]
    have : "//line ".toList = '/' :: "/line ".toList := rfl
    rw [this]
    simp

/-! ### Writing and reading -/

theorem own_cons_other {a : Act} {as : List (Bool × Act)} : own ((true, a) :: as) = own as := rfl
theorem own_cons_own {a : Act} {as : List (Bool × Act)} : own ((false, a) :: as) = a :: own as := rfl

/-- The disk after acts. -/
def after (d : Disk) (as : List Act) : Disk := as.foldl (fun d a => (a.step d).1) d

theorem step_other {d : Disk} {a : Act} {f : Str} (h : (∃ g, a = .reads g) ∨ a.file ≠ f) : (a.step d).1 f = d f := by
  cases a with
  | reads g => rfl
  | empty g =>
    rcases h with ⟨_, h⟩ | h
    · cases h
    · have h : g ≠ f := h
      simp [Act.step, Disk.put, h.symm]
  | write g t =>
    rcases h with ⟨_, h⟩ | h
    · cases h
    · have h : g ≠ f := h
      simp [Act.step, Disk.put, h.symm]

theorem step_agree {d d' : Disk} {a : Act} {f : Str} (h : d f = d' f) : (a.step d).1 f = (a.step d').1 f := by
  cases a with
  | reads g => exact h
  | empty g => simp only [Act.step, Disk.put]; split <;> simp_all
  | write g t => simp only [Act.step, Disk.put]; split <;> simp_all

theorem perform_own (F R : List Str) (hR : ∀ f ∈ R, f ∈ F) : ∀ (acts : List (Bool × Act)) (W : List Act) (R' : List Str) (d d0 : Disk),
    (∀ a ∈ W, ∀ g, a ≠ .reads g) → (∀ f ∈ R', f ∈ R) → own acts = W ++ R'.map .reads →
    (∀ a ∈ acts, a.1 = true → ∀ f ∈ F, (∃ g, a.2 = .reads g) ∨ a.2.file ≠ f) → (∀ f ∈ F, d f = d0 f) →
    perform d acts = R'.map fun f => (f, after d0 W f) := by
  intro acts
  induction acts with
  | nil =>
    intro W R' d d0 _ _ ho _ _
    have := congrArg List.length ho
    simp [own] at this
    have hR' : R' = [] := List.length_eq_zero_iff.1 (by omega)
    subst hR'
    rfl
  | cons x acts ih =>
    intro W R' d d0 hW hR' ho hs hd
    obtain ⟨b, a⟩ := x
    cases b with
    | true =>
      rw [own_cons_other] at ho
      have := ih W R' (a.step d).1 d0 hW hR' ho (fun y hy => hs y (List.mem_cons_of_mem _ hy))
        (fun f hf => (step_other (hs _ List.mem_cons_self rfl f hf)).trans (hd f hf))
      rw [perform]
      cases hst : a.step d with
      | mk d' r => rw [hst] at this; simpa using this
    | false =>
      rw [own_cons_own] at ho
      cases W with
      | nil =>
        cases R' with
        | nil => simp at ho
        | cons f R' =>
          simp only [List.nil_append, List.map_cons, List.cons.injEq] at ho
          obtain ⟨rfl, ho⟩ := ho
          have := ih [] R' d d0 (by simp) (fun g hg => hR' g (List.mem_cons_of_mem _ hg)) ho
            (fun y hy => hs y (List.mem_cons_of_mem _ hy)) hd
          simp only [perform, Act.step, this, List.map_cons, Option.toList]
          rw [hd f (hR f (hR' f List.mem_cons_self))]
          rfl
      | cons w W =>
        simp only [List.cons_append, List.cons.injEq] at ho
        obtain ⟨rfl, ho⟩ := ho
        have := ih W R' (a.step d).1 (a.step d0).1 (fun y hy => hW y (List.mem_cons_of_mem _ hy)) hR' ho
          (fun y hy => hs y (List.mem_cons_of_mem _ hy)) (fun f hf => step_agree (hd f hf))
        rw [perform]
        cases hst : a.step d with
        | mk d' r =>
          rw [hst] at this
          have hr : r = none := by
            cases a with
            | reads g => exact absurd rfl (hW _ List.mem_cons_self g)
            | empty g => simp [Act.step] at hst; exact hst.2.symm
            | write g t => simp [Act.step] at hst; exact hst.2.symm
          rw [hr]
          simp only [Option.toList, ite_self, List.nil_append, Bool.false_eq_true, if_false]
          exact this

theorem after_writes (g : Str → Str) (t : Str × Str → Str) : ∀ (es : Sources) (d : Disk) (e : Str × Str), e ∈ es →
    (∀ x ∈ es, ∀ y ∈ es, g x.1 = g y.1 → x = y) →
    after d ((es.map fun e => [Act.empty (g e.1), .write (g e.1) (t e)]).flatten) (g e.1) = some (t e) := by
  have keep : ∀ (es : Sources) (d : Disk) (f : Str), (∀ x ∈ es, g x.1 ≠ f) →
      after d ((es.map fun e => [Act.empty (g e.1), .write (g e.1) (t e)]).flatten) f = d f := by
    intro es
    induction es with
    | nil => intro d f _; rfl
    | cons x es ih =>
      intro d f h
      have hx : f ≠ g x.1 := fun e => h x List.mem_cons_self e.symm
      simp only [List.map_cons, List.flatten_cons, List.cons_append, List.nil_append, after, List.foldl_cons]
      refine (ih _ f (fun y hy => h y (List.mem_cons_of_mem _ hy))).trans ?_
      simp [Act.step, Disk.put, hx]
  intro es
  induction es with
  | nil => intro d e h; cases h
  | cons x es ih =>
    intro d e h hu
    by_cases he : e ∈ es
    · simp only [List.map_cons, List.flatten_cons, List.cons_append, List.nil_append, after, List.foldl_cons]
      exact ih _ e he (fun y hy z hz => hu y (List.mem_cons_of_mem _ hy) z (List.mem_cons_of_mem _ hz))
    · rcases List.mem_cons.1 h with rfl | h
      · simp only [List.map_cons, List.flatten_cons, List.cons_append, List.nil_append, after, List.foldl_cons]
        refine (keep es _ _ fun y hy e' => he ?_).trans ?_
        · have := hu y (List.mem_cons_of_mem _ hy) e List.mem_cons_self e'
          rw [← this]; exact hy
        · simp [Act.step, Disk.put]
      · exact absurd h he

/-- **C93** (`C93_reads_partial`): whatever is on the disk before, in whatever order the files are written, and whatever other runs do with other
    files meanwhile, the go command reads for each source the text generated for it. Missing: other runs that write the same files. -/
theorem C93_reads_partial (root : Str) (ms : List Mapping) (noLine : Bool) (es : Sources) (d : Disk) (acts : List (Bool × Act))
    (hu : ∀ x ∈ es, ∀ y ∈ es, genFile root ms x.1 = genFile root ms y.1 → x = y)
    (ho : own acts = run root ms noLine es)
    (hs : ∀ a ∈ acts, a.1 = true → ∀ e ∈ es, (∃ g, a.2 = .reads g) ∨ a.2.file ≠ genFile root ms e.1) :
    perform d acts = es.map fun e => (genFile root ms e.1, some (genText noLine e.1 e.2)) := by
  unfold run at ho
  have hm : (es.map fun e => Act.reads (genFile root ms e.1)) = (es.map fun e => genFile root ms e.1).map .reads := by
    rw [List.map_map]; rfl
  rw [hm] at ho
  have := perform_own (es.map fun e => genFile root ms e.1) (es.map fun e => genFile root ms e.1) (fun f h => h) acts _ _ d d ?_
    (fun f h => h) ho ?_ (fun f _ => rfl)
  · rw [this, List.map_map]
    apply List.map_congr_left
    intro e he
    simp only [Function.comp]
    rw [after_writes (genFile root ms) (fun e => genText noLine e.1 e.2) es d e he hu]
  · intro a ha g
    rw [List.mem_flatten] at ha
    obtain ⟨l, hl, ha⟩ := ha
    rw [List.mem_map] at hl
    obtain ⟨e, _, rfl⟩ := hl
    simp only [List.mem_cons, List.not_mem_nil, or_false] at ha
    rcases ha with rfl | rfl <;> simp
  · intro a ha h f hf
    rw [List.mem_map] at hf
    obtain ⟨e, he, rfl⟩ := hf
    exact hs a ha h e he

/-- Two sources, another run that writes and reads a third file meanwhile, and a file of an earlier run. -/
example : perform (fun f => if f = "/w/.xgo/PROJECT/a.go".toList then some "old".toList else none)
      [(false, .empty "/w/.xgo/PROJECT/a.go".toList), (true, .empty "/v/.xgo/PROJECT/a.go".toList),
       (false, .write "/w/.xgo/PROJECT/a.go".toList "//line /w/a.go:1\nA".toList), (false, .empty "/w/.xgo/PROJECT/b.go".toList),
       (false, .write "/w/.xgo/PROJECT/b.go".toList "//line /w/b.go:1\nB".toList), (true, .reads "/w/.xgo/PROJECT/b.go".toList),
       (false, .reads "/w/.xgo/PROJECT/a.go".toList), (false, .reads "/w/.xgo/PROJECT/b.go".toList)] =
    [("/w/.xgo/PROJECT/a.go".toList, some "//line /w/a.go:1\nA".toList), ("/w/.xgo/PROJECT/b.go".toList, some "//line /w/b.go:1\nB".toList)] := by
  refine C93_reads_partial "/w/.xgo".toList (mappings "/go".toList "/w".toList []) false
    [("/w/a.go".toList, "A".toList), ("/w/b.go".toList, "B".toList)] _ _ ?_ ?_ ?_
  · simp only [List.mem_cons, List.not_mem_nil, or_false]
    rintro x (rfl | rfl) y (rfl | rfl) h
    · rfl
    · revert h; decide
    · revert h; decide
    · rfl
  · rfl
  · simp only [List.mem_cons, List.not_mem_nil, or_false]
    rintro a (rfl | rfl | rfl | rfl | rfl | rfl | rfl | rfl) h e (rfl | rfl) <;> first | exact absurd h (by decide) | exact .inl ⟨_, rfl⟩ | exact .inr (by decide)

/-- **C93**, where it fails (`C93_parallel_counterexample`): two runs of the same command in one project, on any source: there is an order in which the
    go command of the first one reads an empty file. -/
theorem C93_parallel_counterexample (root : Str) (ms : List Mapping) (noLine : Bool) (e : Str × Str) (d : Disk) :
    ∃ acts, own acts = run root ms noLine [e] ∧ own (acts.map fun a => (!a.1, a.2)) = run root ms noLine [e] ∧
      perform d acts = [(genFile root ms e.1, some [])] := by
  refine ⟨[(false, .empty (genFile root ms e.1)), (false, .write (genFile root ms e.1) (genText noLine e.1 e.2)),
    (true, .empty (genFile root ms e.1)), (false, .reads (genFile root ms e.1)),
    (true, .write (genFile root ms e.1) (genText noLine e.1 e.2)), (true, .reads (genFile root ms e.1))], rfl, rfl, ?_⟩
  simp [perform, Act.step, Disk.put]

/-! ### With the overlay of the user -/

/-- The paths of sources. -/
def Path (goroot project : Str) (gopath : List Str) := { p : Str // Abs p ∧ Free goroot project gopath p }

instance {goroot project : Str} {gopath : List Str} : DecidableEq (Path goroot project gopath) :=
  fun a b => decidable_of_iff (a.1 = b.1) Subtype.ext_iff.symm

variable {goroot project : Str} {gopath : List Str}

theorem gen_below (root : Str) (ms : List Mapping) (p : Str) : ∃ t, genFile root ms p = root ++ '/' :: t := by
  unfold genFile rebase
  split
  · rename_i h
    cases hm : mapPath ms p with
    | nil => rw [hm] at h; cases h
    | cons c t => rw [hm] at h; cases h; exact ⟨t, rfl⟩
  · exact ⟨_, rfl⟩

/-- The generated file of a source, in a directory `root` below the project. -/
def genPath (root : Str) (hp : project ≠ []) (ha : Abs root) (hb : Below project root) (p : Path goroot project gopath) : Path goroot project gopath :=
  ⟨genFile root (mappings goroot project gopath) p.1, by
    obtain ⟨t, e⟩ := gen_below root (mappings goroot project gopath) p.1
    rw [e]
    constructor
    · unfold Abs at ha ⊢
      cases root with
      | nil => cases ha
      | cons c r => exact ha
    · refine .inl ⟨project, by simp, hp, ?_⟩
      rcases hb with rfl | ⟨s, rfl⟩
      · exact .inr ⟨t, rfl⟩
      · exact .inr ⟨s ++ '/' :: t, by simp⟩⟩

/-- **C93** (`C93_compiled`): so, together with an overlay of the user, Go compiles for each source that xgo changed the text that xgo made of it
    last, behind the line that names the source. (`can` and `res` are the resolutions of paths of C44; the directory of the generated files
    is not reached through symbolic links, and no source is in it.) -/
theorem C93_compiled (order : List (Path goroot project gopath) → List (Path goroot project gopath)) (ho : ∀ l k, k ∈ order l ↔ k ∈ l)
    (res can : Path goroot project gopath → Path goroot project gopath) (disk : Path goroot project gopath → Str)
    (input : Overlay.Map (Path goroot project gopath) (Path goroot project gopath))
    (pre post : List (Path goroot project gopath × Overlay.FileOverlay (Path goroot project gopath) Str))
    (root : Str) (hg : goroot ≠ []) (hp : project ≠ []) (ha : Abs root) (hb : Below project root)
    (x : Path goroot project gopath) (c : Str) (noLine : Bool)
    (can_can : ∀ x, can (can x) = can x) (res_can : ∀ x, res (can x) = can x)
    (links : ∀ x, can (res (genPath root hp ha hb x)) = genPath root hp ha hb x)
    (outside : ∀ e ∈ input, ¬ Below root (can (res e.1)).1)
    (outside' : ∀ e ∈ pre ++ (x, .content c) :: post, ¬ Below root (can e.1).1)
    (hlast : ∀ e ∈ post, can e.1 ≠ can x) (o : Overlay.Map (Path goroot project gopath) (Path goroot project gopath))
    (disk' : Path goroot project gopath → Str)
    (hbuild : Overlay.build order res can (genPath root hp ha hb) (fun p t => genText noLine p.1 t) disk input
      (pre ++ (x, .content c) :: post) = .ok (o, disk')) :
    Overlay.goReads disk' o (can x) = genText noLine (can x).1 c := by
  refine Overlay.C44_rewritten order ho res can (genPath root hp ha hb) (fun p t => genText noLine p.1 t) disk input pre post x c
    ⟨can_can, res_can, ?_, links, ?_, ?_⟩ hlast o disk' hbuild
  · intro p q h
    have h : genFile root (mappings goroot project gopath) p.1 = genFile root (mappings goroot project gopath) q.1 := congrArg Subtype.val h
    exact Subtype.ext (C93_names root goroot project gopath hg hp p.1 q.1 p.2.1 q.2.1 p.2.2 q.2.2 h)
  · intro e he y h
    refine outside e he ?_
    obtain ⟨t, ht⟩ := gen_below root (mappings goroot project gopath) y.1
    rw [h]; exact .inr ⟨t, ht⟩
  · intro e he y h
    refine outside' e he ?_
    obtain ⟨t, ht⟩ := gen_below root (mappings goroot project gopath) y.1
    rw [h]; exact .inr ⟨t, ht⟩

end Verif.Instrument.GenFile
