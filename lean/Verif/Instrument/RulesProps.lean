/-
C34 (rule selection), C35 (command line rules before file rules), C45 (module membership), C46 (packages to load).
-/
import Verif.Instrument.RulesSpec
import Verif.Support.PatternProps
import Verif.Support.CoverageProps

namespace Verif.Instrument.Rules
open Verif.Support (Str)
open Verif.Support.GoVersion (splitOn)
open Verif.Support.Coverage (trimSpace)
open Verif.Support

/-! ### Matching -/

theorem matchAny_iff (ps : List Str) (s : Str) :
    Pattern.matchAny ps s = true ↔ ∃ p ∈ ps, Pattern.match_ p s = true := by
  unfold Pattern.matchAny Pattern.match_
  rw [List.any_eq_true]

theorem string_word (k : Kind) : k.string = Spec.kindWord k := by cases k <;> rfl

/-- **C34.** A rule matches exactly as specified; patterns mean what `support/pattern` makes of them (C28). -/
theorem C34_match (r : Rule) (pkgPath : Str) (isMain std : Bool) (d : Decl) :
    matchRule r pkgPath isMain std d = true ↔
      Spec.Matches (fun p s => Pattern.match_ p s = true) r pkgPath isMain std d := by
  unfold matchRule Spec.Matches
  rw [string_word]
  cases ha : r.any with
  | true => simp
  | false =>
    simp only [Bool.false_eq_true, if_false, false_or]
    have opt : ∀ (o : Option Bool) (b : Bool), (o ≠ none ∧ o ≠ some b) ↔ ¬ ∀ c, o = some c → c = b := by
      intro o b; cases o <;> simp [eq_comm]
    have hall : (∀ c, Spec.Condition (fun p s => Pattern.match_ p s = true) r pkgPath isMain std d c → c) ↔
        ¬ (toList r.kind ≠ [] ∧ Spec.kindWord d.kind ∉ toList r.kind) ∧
        ¬ (toList r.pkg ≠ [] ∧ Pattern.matchAny (toList r.pkg) pkgPath = false) ∧
        ¬ (toList r.name ≠ [] ∧ Pattern.matchAny (toList r.name) d.identityName = false) ∧
        ¬ (r.mainModule ≠ none ∧ r.mainModule ≠ some isMain) ∧
        ¬ (r.stdlib ≠ none ∧ r.stdlib ≠ some std) ∧
        ¬ ((r.generic ≠ none ∧ d.kind = .func) ∧ r.generic ≠ some d.generic) ∧
        ¬ (r.exported ≠ none ∧ r.exported ≠ some d.exported) ∧
        ¬ (r.closure ≠ none ∧ r.closure ≠ some d.closure) := by
      constructor
      · intro h
        refine ⟨?_, ?_, ?_, ?_, ?_, ?_, ?_, ?_⟩
        · rintro ⟨h1, h2⟩; exact h2 (h _ (.kind h1))
        · rintro ⟨h1, h2⟩
          have := (matchAny_iff _ _).2 (h _ (.pkg h1)); rw [h2] at this; cases this
        · rintro ⟨h1, h2⟩
          have := (matchAny_iff _ _).2 (h _ (.name h1)); rw [h2] at this; cases this
        · rw [opt]; intro hn; exact hn fun c hc => h _ (.main hc)
        · rw [opt]; intro hn; exact hn fun c hc => h _ (.std hc)
        · rintro ⟨⟨h1, h2⟩, h3⟩
          cases hg : r.generic with
          | none => exact h1 hg
          | some b => rw [hg] at h3; exact h3 (by rw [h _ (.generic hg h2)])
        · rw [opt]; intro hn; exact hn fun c hc => h _ (.exported hc)
        · rw [opt]; intro hn; exact hn fun c hc => h _ (.closure hc)
      · rintro ⟨h1, h2, h3, h4, h5, h6, h7, h8⟩ c hc
        cases hc with
        | kind h => exact Classical.byContradiction fun hn => h1 ⟨h, hn⟩
        | pkg h =>
          rw [← matchAny_iff]
          cases hm : Pattern.matchAny (toList r.pkg) pkgPath with
          | true => rfl
          | false => exact absurd ⟨h, hm⟩ h2
        | name h =>
          rw [← matchAny_iff]
          cases hm : Pattern.matchAny (toList r.name) d.identityName with
          | true => rfl
          | false => exact absurd ⟨h, hm⟩ h3
        | main h => rw [opt, Classical.not_not] at h4; exact h4 _ h
        | std h => rw [opt, Classical.not_not] at h5; exact h5 _ h
        | generic h hk =>
          rename_i b
          by_cases hb : b = d.generic
          · exact hb
          · exact absurd ⟨⟨by rw [h]; simp, hk⟩, by rw [h]; simpa using hb⟩ h6
        | exported h => rw [opt, Classical.not_not] at h7; exact h7 _ h
        | closure h => rw [opt, Classical.not_not] at h8; exact h8 _ h
    have hsome : (∃ c, Spec.Condition (fun p s => Pattern.match_ p s = true) r pkgPath isMain std d c) ↔
        (toList r.kind ≠ [] ∨ toList r.pkg ≠ [] ∨ toList r.name ≠ [] ∨ r.mainModule ≠ none ∨ r.stdlib ≠ none ∨
          (r.generic ≠ none ∧ d.kind = .func) ∨ r.exported ≠ none ∨ r.closure ≠ none) := by
      constructor
      · rintro ⟨c, hc⟩
        cases hc <;> simp [*]
      · rintro (h | h | h | h | h | h | h | h)
        · exact ⟨_, .kind h⟩
        · exact ⟨_, .pkg h⟩
        · exact ⟨_, .name h⟩
        · obtain ⟨b, hb⟩ := Option.ne_none_iff_exists'.1 h; exact ⟨_, .main hb⟩
        · obtain ⟨b, hb⟩ := Option.ne_none_iff_exists'.1 h; exact ⟨_, .std hb⟩
        · obtain ⟨b, hb⟩ := Option.ne_none_iff_exists'.1 h.1; exact ⟨_, .generic hb h.2⟩
        · obtain ⟨b, hb⟩ := Option.ne_none_iff_exists'.1 h; exact ⟨_, .exported hb⟩
        · obtain ⟨b, hb⟩ := Option.ne_none_iff_exists'.1 h; exact ⟨_, .closure hb⟩
    rw [hall, hsome]
    have hif : ∀ (p : Prop) [Decidable p] (b : Bool), ((if p then false else b) = true) ↔ (¬ p ∧ b = true) := by
      intro p _ b; by_cases h : p <;> simp [h]
    rw [hif, hif, hif, hif, hif, hif, hif, hif, decide_eq_true_iff]
    constructor
    · rintro ⟨h1, h2, h3, h4, h5, h6, h7, h8, h9⟩
      exact ⟨h9, h1, h2, h3, h4, h5, h6, h7, h8⟩
    · rintro ⟨h9, h1, h2, h3, h4, h5, h6, h7, h8⟩
      exact ⟨h1, h2, h3, h4, h5, h6, h7, h8, h9⟩

/-- **C34.** For every list of rules, the action is that of the first rule that matches, and empty if none does. -/
theorem C34_first_rule (rules : List Rule) (pkgPath : Str) (isMain std : Bool) (d : Decl) :
    Spec.FirstAction (fun r => Spec.Matches (fun p s => Pattern.match_ p s = true) r pkgPath isMain std d) rules
      (matchRules rules pkgPath isMain std d) := by
  induction rules with
  | nil => exact .none
  | cons r rs ih =>
    unfold matchRules
    split
    · rename_i h; exact .hit ((C34_match r pkgPath isMain std d).1 h)
    · rename_i h; exact .miss (fun hm => h ((C34_match r pkgPath isMain std d).2 hm)) ih

/-- The patterns for which C28 is proved: segments are `**`, a literal, or stars followed by a literal. -/
def Simple (pattern : Str) : Prop := ∀ p ∈ Pattern.splitPath pattern, p = ['*', '*'] ∨ Pattern.SuffixSeg p

theorem Condition.mono {pat pat' : Str → Str → Prop} {r : Rule} {pkgPath : Str} {isMain std : Bool} {d : Decl}
    (hp : ∀ p ∈ toList r.pkg, ∀ s, pat p s ↔ pat' p s) (hn : ∀ p ∈ toList r.name, ∀ s, pat p s ↔ pat' p s)
    (h : Spec.Matches pat r pkgPath isMain std d) : Spec.Matches pat' r pkgPath isMain std d := by
  have key : ∀ c, Spec.Condition pat' r pkgPath isMain std d c →
      ∃ c', Spec.Condition pat r pkgPath isMain std d c' ∧ (c' → c) := by
    intro c hc
    cases hc with
    | kind h => exact ⟨_, .kind h, id⟩
    | pkg h => exact ⟨_, .pkg h, fun ⟨p, hm, hs⟩ => ⟨p, hm, (hp p hm _).1 hs⟩⟩
    | name h => exact ⟨_, .name h, fun ⟨p, hm, hs⟩ => ⟨p, hm, (hn p hm _).1 hs⟩⟩
    | main h => exact ⟨_, .main h, id⟩
    | std h => exact ⟨_, .std h, id⟩
    | generic h h' => exact ⟨_, .generic h h', id⟩
    | exported h => exact ⟨_, .exported h, id⟩
    | closure h => exact ⟨_, .closure h, id⟩
  have key' : ∀ c, Spec.Condition pat r pkgPath isMain std d c → ∃ c', Spec.Condition pat' r pkgPath isMain std d c' := by
    intro c hc
    cases hc with
    | kind h => exact ⟨_, .kind h⟩
    | pkg h => exact ⟨_, .pkg h⟩
    | name h => exact ⟨_, .name h⟩
    | main h => exact ⟨_, .main h⟩
    | std h => exact ⟨_, .std h⟩
    | generic h h' => exact ⟨_, .generic h h'⟩
    | exported h => exact ⟨_, .exported h⟩
    | closure h => exact ⟨_, .closure h⟩
  rcases h with h | ⟨⟨c, hc⟩, h⟩
  · exact Or.inl h
  · refine Or.inr ⟨key' c hc, ?_⟩
    intro c hc
    obtain ⟨c', hc', hi⟩ := key c hc
    exact hi (h c' hc')

/-- **C34**, in part, with the usual meaning of patterns: proved for rules with simple patterns. Missing: patterns
    with a star after a literal, for which C28 is false of the code. -/
theorem C34_usual_patterns_partial (r : Rule) (pkgPath : Str) (isMain std : Bool) (d : Decl)
    (hp : ∀ p ∈ toList r.pkg, Simple p) (hn : ∀ p ∈ toList r.name, Simple p) :
    matchRule r pkgPath isMain std d = true ↔ Spec.Matches Pattern.Spec.Matches r pkgPath isMain std d := by
  rw [C34_match]
  constructor
  · exact Condition.mono (fun p h s => Pattern.C28_match_partial p s (hp p h)) (fun p h s => Pattern.C28_match_partial p s (hn p h))
  · exact Condition.mono (fun p h s => (Pattern.C28_match_partial p s (hp p h)).symm) (fun p h s => (Pattern.C28_match_partial p s (hn p h)).symm)

/-- With a star after a literal it is false: the rule for packages `a*b` matches the package `a`. -/
theorem C34_counterexample :
    ∃ (r : Rule) (d : Decl), matchRule r "a".toList false false d = true ∧
      ¬ Spec.Matches Pattern.Spec.Matches r "a".toList false false d := by
  refine ⟨{ pkg := some "a*b".toList }, ⟨.func, "f".toList, false, false, false⟩, by decide +kernel, ?_⟩
  rintro (h | ⟨_, h⟩)
  · cases h
  · have hl : toList (some "a*b".toList) = ["a*b".toList] := by decide +kernel
    have := h _ (.pkg (by simp only [hl]; simp))
    simp only [hl, List.mem_singleton] at this
    obtain ⟨p, rfl, hp⟩ := this
    exact Pattern.C28_counterexample.2.1.2 hp

/-- Two rules of which the second matches. -/
example : matchRules [{ kind := some "var, const".toList, action := "exclude".toList },
      { pkg := some "a/**".toList, mainModule := some true, action := "include".toList }]
    "a/b".toList true false ⟨.func, "f".toList, false, false, false⟩ = "include".toList := by decide +kernel

example : Simple "a/**".toList := by
  intro p hp
  have : Pattern.splitPath "a/**".toList = ["a".toList, "**".toList] := by decide
  rw [this] at hp
  rcases List.mem_cons.1 hp with rfl | hp
  · right
    exact ⟨0, ['a'], by simp, by simp, by simp⟩
  · left; simpa using hp

/-! ### Lists separated by commas -/

/-- `a,b,c` with spaces around the commas. -/
def joinComma : List Str → Str
  | [] => []
  | [s] => s
  | s :: l => s ++ ',' :: joinComma l

theorem split_joinComma : ∀ (ws : List Str), ws ≠ [] → (∀ w ∈ ws, ',' ∉ w) → splitOn ',' [] (joinComma ws) = ws
  | [], h, _ => absurd rfl h
  | [w], _, hw => by
    have h : ',' ∉ w := hw w (by simp)
    have : ∀ (t u : Str), ',' ∉ t → splitOn ',' u t = [u ++ t] := by
      intro t
      induction t with
      | nil => intro u _; simp [splitOn]
      | cons c t ih =>
        intro u ht
        simp only [List.mem_cons, not_or] at ht
        simp [splitOn, Ne.symm ht.1, ih _ ht.2]
    simpa [joinComma] using this w [] h
  | w :: v :: ws, _, hw => by
    have ih := split_joinComma (v :: ws) (by simp) (fun x hx => hw x (by simp [hx]))
    simp only [joinComma]
    rw [GoVersion.splitOn_word ',' w (hw w (by simp))]
    simp [splitOn, ih]

/-- **C34.** The values of a condition are the trimmed non-empty words between commas. -/
theorem C34_comma_list (ws : List Str) (hne : ws ≠ []) (hw : ∀ w ∈ ws, ',' ∉ w) :
    commaList (joinComma ws) = (ws.map trimSpace).filter (· ≠ []) := by
  unfold commaList
  rw [split_joinComma ws hne hw]

/-! ### Merging -/

/-- What a well-behaved JSON library does with options. -/
def Faithful {χ : Type} (j : Json χ) : Prop := ∀ o, j.decodeOptions (j.encodeOptions o) = some o

theorem matchRules_append (a b : List Rule) (pkgPath : Str) (isMain std : Bool) (d : Decl) :
    matchRules (a ++ b) pkgPath isMain std d =
      if ∃ r ∈ a, matchRule r pkgPath isMain std d = true then matchRules a pkgPath isMain std d
      else matchRules b pkgPath isMain std d := by
  induction a with
  | nil => simp [matchRules]
  | cons r a ih =>
    simp only [List.cons_append, matchRules]
    by_cases h : matchRule r pkgPath isMain std d = true
    · simp [h]
    · simp [h, ih]

/-- **C35.** If the merge succeeds, the compiler sees the rules of the command line, in order, followed by those of
    the file; and the modules of the command line if there are any, otherwise those of the file. -/
theorem C35_merge {χ : Type} (j : Json χ) (hj : Faithful j) (file : Option (Option χ)) (mockRules : List (Option χ))
    (inc : List Str) (m : Merged χ) (hm : mergeOptionFiles j file mockRules inc = some m) :
    (∃ o rs, decodeFile j file = some o ∧ decodeRules j mockRules = some rs ∧
      compilerOptions j m = some ⟨rs ++ o.filterRules, if inc = [] then o.includeAsMain else inc⟩) ∨
    (mockRules = [] ∧ inc = [] ∧ compilerOptions j m = decodeFile j file) := by
  unfold mergeOptionFiles at hm
  split at hm
  · rename_i h
    refine Or.inr ⟨h.1, h.2, ?_⟩
    match file, hm with
    | none, hm => cases hm; rfl
    | some none, hm => cases hm; rfl
    | some (some c), hm => cases hm; rfl
  · cases ho : decodeFile j file with
    | none => rw [ho] at hm; simp at hm
    | some o =>
      cases hr : decodeRules j mockRules with
      | none => rw [ho, hr] at hm; simp at hm
      | some rs =>
        rw [ho, hr] at hm
        cases hm
        exact Or.inl ⟨o, rs, rfl, rfl, hj _⟩

/-- **C35.** So a rule on the command line takes precedence over every rule of the file. -/
theorem C35_command_line_first {χ : Type} (j : Json χ) (hj : Faithful j) (file : Option (Option χ))
    (mockRules : List (Option χ)) (inc : List Str) (m : Merged χ) (hm : mergeOptionFiles j file mockRules inc = some m)
    (o : Options) (ho : compilerOptions j m = some o) (rs : List Rule) (hrs : decodeRules j mockRules = some rs)
    (f : Options) (hf : decodeFile j file = some f) (pkgPath : Str) (isMain std : Bool) (d : Decl) :
    matchRules o.filterRules pkgPath isMain std d =
      if ∃ r ∈ rs, matchRule r pkgPath isMain std d = true then matchRules rs pkgPath isMain std d
      else matchRules f.filterRules pkgPath isMain std d := by
  have : o.filterRules = rs ++ f.filterRules := by
    rcases C35_merge j hj file mockRules inc m hm with ⟨o', rs', h1, h2, h3⟩ | ⟨h1, h2, h3⟩
    · rw [hf] at h1; rw [hrs] at h2; rw [ho] at h3
      cases h1; cases h2; cases h3; rfl
    · rw [h1] at hrs; cases hrs
      rw [ho, hf] at h3; cases h3; rfl
  rw [this, matchRules_append]

/-- **C35.** The merge fails exactly if a rule or the file cannot be decoded; without rules and modules on the command
    line nothing is decoded. -/
theorem C35_fails_iff {χ : Type} (j : Json χ) (file : Option (Option χ)) (mockRules : List (Option χ)) (inc : List Str) :
    mergeOptionFiles j file mockRules inc = none ↔
      ¬ (mockRules = [] ∧ inc = []) ∧ (decodeFile j file = none ∨ ∃ t, some t ∈ mockRules ∧ j.decodeRule t = none) := by
  have hdr : ∀ l : List (Option χ), decodeRules j l = none ↔ ∃ t, some t ∈ l ∧ j.decodeRule t = none := by
    intro l
    induction l with
    | nil => simp [decodeRules]
    | cons x l ih =>
      cases x with
      | none => simp [decodeRules, ih]
      | some t =>
        simp only [decodeRules]
        cases h1 : j.decodeRule t with
        | none => simp; exact Or.inl h1
        | some r =>
          cases h2 : decodeRules j l with
          | none =>
            obtain ⟨u, hu, hd⟩ := ih.1 h2
            simp; exact Or.inr ⟨u, hu, hd⟩
          | some rs =>
            simp
            refine ⟨by rw [h1]; simp, ?_⟩
            intro u hu hd
            have := ih.2 ⟨u, hu, hd⟩
            rw [h2] at this; cases this
  unfold mergeOptionFiles
  split
  · rename_i h
    match file with
    | none => simp [h.1, h.2]
    | some none => simp [h.1, h.2]
    | some (some c) => simp [h.1, h.2]
  · rename_i h
    rw [← hdr]
    cases decodeFile j file <;> cases decodeRules j mockRules <;> simp [h]

/-- A JSON library (texts are natural numbers, `0` is the rule that excludes everything, options are not looked at)
    and a merge, to which the theorems apply. -/
example : let j : Json (Sum Nat Options) := ⟨fun | .inl 0 => some { any := true, action := "exclude".toList } | _ => none,
      fun | .inr o => some o | _ => none, .inr⟩
    Faithful j ∧ ∃ m, mergeOptionFiles j (some (some (.inr ⟨[{ any := true, action := "include".toList }], []⟩)))
      [none, some (.inl 0)] [] = some m := by
  refine ⟨fun _ => rfl, ⟨_, rfl⟩⟩

/-! ### Modules -/

theorem moduleLoop_spec : ∀ (ps seen : List Str),
    (moduleLoop seen ps).Nodup ∧ (∀ m ∈ moduleLoop seen ps, m ∉ seen) ∧
    ∀ m, m ∈ moduleLoop seen ps ↔ m ≠ [] ∧ m ∉ seen ∧ ∃ p ∈ ps, trimSpace p = m
  | [], seen => by simp [moduleLoop]
  | p :: ps, seen => by
    unfold moduleLoop
    split
    · rename_i h
      have ih := moduleLoop_spec ps seen
      refine ⟨ih.1, ih.2.1, ?_⟩
      intro m
      rw [ih.2.2]
      constructor
      · rintro ⟨h1, h2, q, hq, e⟩; exact ⟨h1, h2, q, by simp [hq], e⟩
      · rintro ⟨h1, h2, q, hq, e⟩
        refine ⟨h1, h2, ?_⟩
        rcases List.mem_cons.1 hq with rfl | hq
        · rcases h with h | h
          · exact absurd (e.symm.trans h) h1
          · exact absurd (e ▸ h) h2
        · exact ⟨q, hq, e⟩
    · rename_i h
      rw [not_or] at h
      have ih := moduleLoop_spec ps (trimSpace p :: seen)
      refine ⟨?_, ?_, ?_⟩
      · rw [List.nodup_cons]
        exact ⟨fun hm => ih.2.1 _ hm (by simp), ih.1⟩
      · intro m hm
        rcases List.mem_cons.1 hm with rfl | hm
        · exact h.2
        · have := ih.2.1 m hm
          simp only [List.mem_cons, not_or] at this
          exact this.2
      · intro m
        rw [List.mem_cons, ih.2.2]
        simp only [List.mem_cons, not_or]
        constructor
        · rintro (rfl | ⟨h1, h2, q, hq, e⟩)
          · exact ⟨h.1, h.2, p, Or.inl rfl, rfl⟩
          · exact ⟨h1, h2.2, q, Or.inr hq, e⟩
        · rintro ⟨h1, h2, q, hq, e⟩
          by_cases hm : m = trimSpace p
          · exact Or.inl hm
          · rcases hq with rfl | hq
            · exact absurd e.symm hm
            · exact Or.inr ⟨h1, ⟨hm, h2⟩, q, hq, e⟩

/-- **C45.** The modules given as a list with commas: each non-empty trimmed word once. -/
theorem C45_module_list (ws : List Str) (hne : ws ≠ []) (hw : ∀ w ∈ ws, ',' ∉ w) :
    (parseModuleList (joinComma ws)).Nodup ∧
    ∀ m, m ∈ parseModuleList (joinComma ws) ↔ m ≠ [] ∧ ∃ w ∈ ws, trimSpace w = m := by
  unfold parseModuleList
  split
  · rename_i h
    refine ⟨by simp, ?_⟩
    intro m
    have hs := split_joinComma ws hne hw
    rw [h] at hs
    have : ws = [[]] := by simpa [splitOn] using hs.symm
    subst this
    simp only [List.not_mem_nil, false_iff]
    rintro ⟨h1, w, hw', e⟩
    simp at hw'
    subst hw'
    exact h1 e.symm
  · rw [split_joinComma ws hne hw]
    have := moduleLoop_spec ws []
    exact ⟨this.1, fun m => by rw [this.2.2]; simp⟩

theorem take_eq_iff (p m : Str) (h : m.length ≤ p.length) : p.take m.length = m ↔ ∃ rest, p = m ++ rest := by
  constructor
  · intro e
    refine ⟨p.drop m.length, ?_⟩
    have := (List.take_append_drop m.length p).symm
    rwa [e] at this
  · rintro ⟨rest, rfl⟩; simp

/-- **C45.** A package is within a module exactly if it is the module itself or below it; the suffix is the rest of
    the path. (So `a/bc` is not within `a/b`.) -/
theorem C45_within (pkgPath module : Str) :
    ((pkgWithinModule pkgPath module).isSome ↔ Spec.Within pkgPath module) ∧
    (∀ s, pkgWithinModule pkgPath module = some s →
      (pkgPath = module ∧ s = []) ∨ pkgPath = module ++ '/' :: s) := by
  unfold pkgWithinModule Spec.Within
  split
  · rename_i h
    refine ⟨⟨by simp, ?_⟩, by simp⟩
    rintro (rfl | ⟨rest, rfl⟩)
    · omega
    · simp at h; omega
  · rename_i h
    have hle : module.length ≤ pkgPath.length := by omega
    split
    · rename_i ht
      rw [ne_eq, take_eq_iff _ _ hle] at ht
      refine ⟨⟨by simp, ?_⟩, by simp⟩
      rintro (rfl | ⟨rest, rfl⟩)
      · exact absurd ⟨[], by simp⟩ ht
      · exact absurd ⟨_, rfl⟩ ht
    · rename_i ht
      rw [ne_eq, Classical.not_not, take_eq_iff _ _ hle] at ht
      obtain ⟨rest, rfl⟩ := ht
      cases rest with
      | nil => simp
      | cons c rest =>
        simp only [List.length_append, List.length_cons]
        rw [if_neg (by omega)]
        by_cases hc : c = '/'
        · subst hc
          simp
        · simp [hc]

/-- **C45.** The command and the patched compiler agree on which packages belong to a module. -/
theorem C45_agree (pkgPath module : Str) (h : module ≠ []) :
    isSameModule pkgPath module = (pkgWithinModule pkgPath module).isSome := by
  unfold isSameModule pkgWithinModule
  rw [if_neg h]
  by_cases hp : module.isPrefixOf pkgPath = true
  · obtain ⟨rest, rfl⟩ := List.isPrefixOf_iff_prefix.1 hp
    simp only [hp]
    simp
    cases rest with
    | nil => simp
    | cons c rest => by_cases hc : c = '/' <;> simp [hc]
  · have hp' : module.isPrefixOf pkgPath = false := Bool.eq_false_iff.2 hp
    rw [hp', Bool.not_false, if_pos rfl]
    split
    · rfl
    · rename_i hl
      rw [if_pos]
      · rfl
      · intro e
        obtain ⟨rest, rfl⟩ := (take_eq_iff _ _ (by omega)).1 e
        exact hp (List.isPrefixOf_iff_prefix.2 ⟨rest, rfl⟩)

/-- **C45.** A package counts as main exactly if it is within the main module or one of the modules listed with
    `--mock-rule-include-as-main-module`; command and compiler agree. -/
theorem C45_main (pkgPath realMain : Str) (extras : List Str) (hm : realMain ≠ []) :
    (pkgWithinAnyModule pkgPath realMain extras = true ↔
      Spec.Within pkgPath realMain ∨ ∃ m ∈ extras, m ≠ [] ∧ Spec.Within pkgPath m) ∧
    isMainForMock pkgPath realMain extras = pkgWithinAnyModule pkgPath realMain extras := by
  have hw := fun m => (C45_within pkgPath m).1
  have h1 : pkgWithinAnyModule pkgPath realMain extras = true ↔
      Spec.Within pkgPath realMain ∨ ∃ m ∈ extras, m ≠ [] ∧ Spec.Within pkgPath m := by
    unfold pkgWithinAnyModule
    simp only [Bool.or_eq_true, Bool.and_eq_true, List.any_eq_true, decide_eq_true_eq, hw]
    constructor
    · rintro (⟨_, h⟩ | ⟨m, hm', ⟨h1, _⟩, h3⟩)
      · exact Or.inl h
      · exact Or.inr ⟨m, hm', h1, h3⟩
    · rintro (h | ⟨m, hm', h1, h3⟩)
      · exact Or.inl ⟨hm, h⟩
      · by_cases he : m = realMain
        · exact Or.inl ⟨hm, he ▸ h3⟩
        · exact Or.inr ⟨m, hm', ⟨h1, he⟩, h3⟩
  refine ⟨h1, ?_⟩
  rw [Bool.eq_iff_iff, h1]
  unfold isMainForMock
  simp only [Bool.or_eq_true, List.any_eq_true, Bool.and_eq_true, decide_eq_true_eq]
  rw [C45_agree _ _ hm, hw]
  constructor
  · rintro (h | ⟨m, hm', h1, h2⟩)
    · exact Or.inl h
    · exact Or.inr ⟨m, hm', h1, by rw [C45_agree _ _ h1, hw] at h2; exact h2⟩
  · rintro (h | ⟨m, hm', h1, h2⟩)
    · exact Or.inl h
    · exact Or.inr ⟨m, hm', h1, by rw [C45_agree _ _ h1, hw]; exact h2⟩

example : pkgWithinAnyModule "b.io/x/y".toList "a.io/m".toList (parseModuleList " b.io/x , ,b.io/x".toList) = true ∧
    pkgWithinAnyModule "b.io/xy".toList "a.io/m".toList ["b.io/x".toList] = false := by decide +kernel

/-! ### Packages to load -/

/-- **C46.** The translation of package patterns: without a star unchanged, `q/**` becomes `q/...`, everything else
    is an error. -/
theorem C46_pattern (pkg out : Str) :
    loadPattern pkg = some out ↔
      ('*' ∉ pkg ∧ out = pkg) ∨ ∃ q, '*' ∉ q ∧ pkg = q ++ "/**".toList ∧ out = q ++ "/...".toList := by
  unfold loadPattern
  by_cases hs : '*' ∈ pkg
  · rw [if_neg (by simpa using hs)]
    simp only [hs, not_true_eq_false, false_and, false_or]
    constructor
    · intro h
      -- the first star is the last but one character
      have hcut : pkg = pkg.takeWhile (· != '*') ++ pkg.dropWhile (· != '*') := List.takeWhile_append_dropWhile.symm
      generalize hq : pkg.takeWhile (· != '*') = t at *
      generalize hd : pkg.dropWhile (· != '*') = u at *
      have hnt : '*' ∉ t := by
        intro hm
        rw [← hq] at hm
        have := List.all_eq_true.1 (List.all_takeWhile (p := (· != '*')) (l := pkg)) _ hm
        simp at this
      cases u with
      | nil => rw [hcut] at hs; simp at hs; exact absurd hs hnt
      | cons c u =>
        have hc : c = '*' := by
          have := Coverage.dropWhile_head (p := (· != '*')) pkg c (by rw [hd]; rfl)
          simpa using this
        subst hc
        subst hcut
        simp only [List.length_append, List.length_cons] at h
        split at h
        · cases h
        split at h
        · cases h
        rename_i h1 h2
        have hu : u.length = 1 := by omega
        match u, hu with
        | [c], _ =>
          simp only [List.length_cons, List.length_nil] at h
          have e1 : t.length + (0 + 1 + 1) - 1 = t.length + 1 := by omega
          have e2 : t.length + (0 + 1 + 1) - 2 = t.length := by omega
          rw [e1, e2] at h
          split at h
          · cases h
          rename_i h3
          have hc : c = '*' := by
            rw [List.getElem?_append_right (by omega)] at h3
            simpa using h3
          subst hc
          split at h
          · cases h
          rename_i h4
          rw [not_or] at h4
          obtain ⟨h4, h5⟩ := h4
          have hne : t ≠ [] := by intro e; subst e; simp at h4
          obtain ⟨q, a, rfl⟩ : ∃ q a, t = q ++ [a] := ⟨t.dropLast, t.getLast hne, (List.dropLast_concat_getLast hne).symm⟩
          have ha : a = '/' := by
            rw [List.length_append, List.getElem?_append_left (by simp)] at h5
            simp at h5
            exact h5
          subst ha
          cases h
          refine ⟨q, fun h => hnt (by simp [h]), by simp, ?_⟩
          rw [List.take_append_of_le_length (by simp), List.take_of_length_le (by simp)]
          simp
    · rintro ⟨q, hq, rfl, rfl⟩
      have hw : (q ++ "/**".toList).takeWhile (· != '*') = q ++ ['/'] := by
        have := (GoVersion.cut_at '*' (q ++ ['/']) ['*'] (by simp [hq])).1
        simpa using this
      simp only [hw]
      have e0 : (q ++ "/**".toList).length = q.length + 3 := by simp
      rw [e0]
      have e1 : (q ++ ['/']).length = q.length + 1 := by simp
      rw [e1, if_neg (by omega), if_neg (by omega), if_neg, if_neg, Option.some.injEq]
      · have : q.length + 3 - 2 = q.length + 1 := by omega
        rw [this, show q ++ "/**".toList = (q ++ ['/']) ++ "**".toList by simp, List.take_append_of_le_length (by simp),
          List.take_of_length_le (by simp)]
        simp
      · rw [not_or]
        refine ⟨by omega, ?_⟩
        rw [show q.length + 3 - 3 = q.length by omega, List.getElem?_append_right (by omega)]
        simp
      · rw [show q.length + 3 - 1 = q.length + 2 by omega, List.getElem?_append_right (by omega)]
        simp
  · rw [if_pos hs]
    simp only [hs, not_false_eq_true, true_and, Option.some.injEq]
    constructor
    · intro h; exact Or.inl h.symm
    · rintro (h | ⟨q, _, rfl, _⟩)
      · exact h.symm
      · simp at hs

theorem mapM_none_iff (l : List Str) : l.mapM loadPattern = none ↔ ∃ p ∈ l, loadPattern p = none := by
  induction l with
  | nil => simp
  | cons p l ih =>
    rw [List.mapM_cons]
    cases h : loadPattern p with
    | none => simp [h]
    | some q =>
      cases h2 : l.mapM loadPattern with
      | none => simpa [h] using (ih.1 h2)
      | some qs =>
        simp only [h2] at ih
        simpa [h] using ih

theorem mapM_mem {l ps : List Str} (h : l.mapM loadPattern = some ps) (out : Str) :
    out ∈ ps ↔ ∃ p ∈ l, loadPattern p = some out := by
  induction l generalizing ps with
  | nil => simp at h; subst h; simp
  | cons p l ih =>
    rw [List.mapM_cons] at h
    cases h1 : loadPattern p with
    | none => simp [h1] at h
    | some q =>
      cases h2 : l.mapM loadPattern with
      | none => simp [h1, h2] at h
      | some qs =>
        simp [h1, h2] at h
        subst h
        simp [ih h2, h1, eq_comm]

/-- A rule that says explicitly which packages, other than those of the main module, are included. -/
def Includes (r : Rule) : Prop := r.mainModule ≠ some true ∧ r.action = "include".toList

/-- A rule that excludes declarations of a kind of the main module. -/
def ExcludesMain (r : Rule) (k : Str) : Prop :=
  r.mainModule = some true ∧ r.action = "exclude".toList ∧ (toList r.kind = [] ∨ k ∈ toList r.kind)

theorem loadStep_eq (s : LoadState) (r : Rule) :
    (loadStep s r = none ↔ Includes r ∧ ∃ p ∈ toList r.pkg, loadPattern p = none) ∧
    (∀ s', loadStep s r = some s' →
      (s'.exFunc = true ↔ s.exFunc = true ∨ ExcludesMain r "func".toList) ∧
      (s'.exVar = true ↔ s.exVar = true ∨ ExcludesMain r "var".toList) ∧
      (∀ out, out ∈ s'.packages ↔ out ∈ s.packages ∨ (Includes r ∧ ∃ p ∈ toList r.pkg, loadPattern p = some out))) := by
  unfold loadStep Includes ExcludesMain
  by_cases hm : r.mainModule = some true
  · rw [if_pos hm]
    by_cases ha : r.action = "exclude".toList
    · rw [if_pos ha]
      by_cases hk : toList r.kind = []
      · rw [if_pos hk]
        refine ⟨by simp [hm], ?_⟩
        intro s' h; cases h
        exact ⟨by simp only [hm, ha, hk]; simp, by simp only [hm, ha, hk]; simp, by simp [hm]⟩
      · rw [if_neg hk]
        refine ⟨by simp [hm], ?_⟩
        intro s' h; cases h
        refine ⟨?_, ?_, by simp [hm]⟩
        · simp only [Bool.or_eq_true, decide_eq_true_eq, hm, ha, hk, true_and, false_or]
        · simp only [Bool.or_eq_true, decide_eq_true_eq, hm, ha, hk, true_and, false_or]
    · rw [if_neg ha]
      refine ⟨by simp [hm], ?_⟩
      intro s' h; cases h
      simp only [hm, ha]
      simp
  · rw [if_neg hm]
    by_cases ha : r.action ≠ "include".toList
    · rw [if_pos ha]
      refine ⟨⟨by simp, fun h => absurd h.1.2 ha⟩, ?_⟩
      intro s' h; cases h
      refine ⟨by simp [hm], by simp [hm], fun out => ⟨Or.inl, ?_⟩⟩
      rintro (h | ⟨h, _⟩)
      · exact h
      · exact absurd h.2 ha
    · rw [if_neg ha]
      rw [ne_eq, Classical.not_not] at ha
      cases h : (toList r.pkg).mapM loadPattern with
      | none =>
        refine ⟨⟨fun _ => ⟨⟨hm, ha⟩, (mapM_none_iff _).1 h⟩, fun _ => rfl⟩, by simp⟩
      | some ps =>
        refine ⟨⟨by simp, fun h' => ?_⟩, ?_⟩
        · have := (mapM_none_iff _).2 h'.2; rw [h] at this; cases this
        · intro s' h'; cases h'
          refine ⟨by simp [hm], by simp [hm], ?_⟩
          intro out
          simp [mapM_mem h, hm, ha]

theorem loadAll_eq : ∀ (rules : List Rule) (s : LoadState),
    (rules.foldlM loadStep s = none ↔ ∃ r ∈ rules, Includes r ∧ ∃ p ∈ toList r.pkg, loadPattern p = none) ∧
    (∀ s', rules.foldlM loadStep s = some s' →
      (s'.exFunc = true ↔ s.exFunc = true ∨ ∃ r ∈ rules, ExcludesMain r "func".toList) ∧
      (s'.exVar = true ↔ s.exVar = true ∨ ∃ r ∈ rules, ExcludesMain r "var".toList) ∧
      (∀ out, out ∈ s'.packages ↔ out ∈ s.packages ∨ ∃ r ∈ rules, Includes r ∧ ∃ p ∈ toList r.pkg, loadPattern p = some out))
  | [], s => by
    refine ⟨by simp, ?_⟩
    intro s' h; cases h; simp
  | r :: rules, s => by
    rw [List.foldlM_cons]
    have h1 := loadStep_eq s r
    cases hs : loadStep s r with
    | none =>
      refine ⟨⟨fun _ => ⟨r, by simp, h1.1.1 hs⟩, fun _ => rfl⟩, by intro s' h; simp at h⟩
    | some t =>
      have h2 := loadAll_eq rules t
      have h3 := h1.2 t hs
      have hn : ¬ (Includes r ∧ ∃ p ∈ toList r.pkg, loadPattern p = none) := by
        intro h; have := h1.1.2 h; rw [hs] at this; cases this
      simp only [Option.bind_eq_bind, Option.bind_some]
      refine ⟨?_, ?_⟩
      · rw [h2.1]
        simp only [List.mem_cons, exists_eq_or_imp, hn, false_or]
      · intro s' h
        have h4 := h2.2 s' h
        refine ⟨?_, ?_, ?_⟩
        · rw [h4.1, h3.1]; simp only [List.mem_cons, exists_eq_or_imp, or_assoc]
        · rw [h4.2.1, h3.2.1]; simp only [List.mem_cons, exists_eq_or_imp, or_assoc]
        · intro out
          rw [h4.2.2, h3.2.2]; simp only [List.mem_cons, exists_eq_or_imp, or_assoc]

/-- **C46.** The packages to load besides the main module are exactly those named by the rules with action `include`;
    the command fails exactly if one of these names is neither a package nor of the form `q/**`. -/
theorem C46_packages (rules : List Rule) :
    (getLoadPackages rules = none ↔ ∃ r ∈ rules, Includes r ∧ ∃ p ∈ toList r.pkg,
      '*' ∈ p ∧ ¬ ∃ q, '*' ∉ q ∧ p = q ++ "/**".toList) ∧
    ∀ inc pkgs, getLoadPackages rules = some (inc, pkgs) →
      ∀ out, out ∈ pkgs ↔ ∃ r ∈ rules, Includes r ∧ ∃ p ∈ toList r.pkg,
        ('*' ∉ p ∧ out = p) ∨ ∃ q, '*' ∉ q ∧ p = q ++ "/**".toList ∧ out = q ++ "/...".toList := by
  have h := loadAll_eq rules {}
  unfold getLoadPackages
  have hnone : ∀ p, loadPattern p = none ↔ '*' ∈ p ∧ ¬ ∃ q, '*' ∉ q ∧ p = q ++ "/**".toList := by
    intro p
    rw [Option.eq_none_iff_forall_ne_some]
    constructor
    · intro hh
      constructor
      · exact Classical.byContradiction fun hn => hh p ((C46_pattern p p).2 (Or.inl ⟨hn, rfl⟩))
      · rintro ⟨q, h1, h2⟩; exact hh _ ((C46_pattern p _).2 (Or.inr ⟨q, h1, h2, rfl⟩))
    · rintro ⟨h1, h2⟩ out ho
      rcases (C46_pattern p out).1 ho with ⟨h3, _⟩ | ⟨q, h3, h4, _⟩
      · exact h3 h1
      · exact h2 ⟨q, h3, h4⟩
  constructor
  · rw [← exists_congr fun r => and_congr_right fun _ => and_congr_right fun _ =>
      exists_congr fun p => and_congr_right fun _ => hnone p, ← h.1]
    cases rules.foldlM loadStep {} <;> simp
  · intro inc pkgs he out
    cases hf : rules.foldlM loadStep {} with
    | none => rw [hf] at he; cases he
    | some s =>
      rw [hf] at he
      cases he
      rw [(h.2 s hf).2.2]
      simp only [C46_pattern]
      simp

/-- **C46**, in part: the main module is loaded unless rules exclude its functions and its variables. Missing: that
    the first rule that matches decides, see `C46_counterexample`. -/
theorem C46_main_partial (rules : List Rule) (inc : Bool) (pkgs : List Str) (h : getLoadPackages rules = some (inc, pkgs)) :
    inc = false ↔ (∃ r ∈ rules, ExcludesMain r "func".toList) ∧ ∃ r ∈ rules, ExcludesMain r "var".toList := by
  have h' := loadAll_eq rules {}
  unfold getLoadPackages at h
  cases hf : rules.foldlM loadStep {} with
  | none => rw [hf] at h; cases h
  | some s =>
    rw [hf] at h
    cases h
    have h1 := (h'.2 s hf).1
    have h2 := (h'.2 s hf).2.1
    simp only [Bool.false_eq_true, false_or] at h1 h2
    rw [← h1, ← h2]
    simp

/-- **C46** is false in general: the order of the rules, which decides which rule applies to a declaration, plays no
    role for what is loaded. A first rule that includes the main module does not prevent a later one from keeping it
    from being loaded; a rule marked `any` that excludes everything does not prevent a later one from loading. -/
theorem C46_counterexample :
    let r1 : Rule := { mainModule := some true, action := "include".toList }
    let r2 : Rule := { mainModule := some true, action := "exclude".toList }
    let r3 : Rule := { any := true, action := "exclude".toList }
    let r4 : Rule := { pkg := some "a.io/x".toList, action := "include".toList }
    (∀ d, matchRules [r1, r2] "m/p".toList true false d = "include".toList) ∧
    getLoadPackages [r1, r2] = some (false, []) ∧
    (∀ d, matchRules [r3, r4] "a.io/x".toList false false d = "exclude".toList) ∧
    getLoadPackages [r3, r4] = some (true, ["a.io/x".toList]) := by
  intro r1 r2 r3 r4
  have k1 : toList (none : Option Str) = [] := rfl
  refine ⟨?_, by decide +kernel, ?_, by decide +kernel⟩
  · intro d
    have : matchRule r1 "m/p".toList true false d = true := by
      rw [C34_match]
      refine Or.inr ⟨⟨_, .main rfl⟩, ?_⟩
      intro c hc
      cases hc with
      | kind h => exact absurd k1 h
      | pkg h => exact absurd k1 h
      | name h => exact absurd k1 h
      | main h => cases h; rfl
      | std h => cases h
      | generic h => cases h
      | exported h => cases h
      | closure h => cases h
    simp only [matchRules, this, if_pos]; rfl
  · intro d
    have : matchRule r3 "a.io/x".toList false false d = true := by simp [matchRule, r3]
    simp only [matchRules, this, if_pos]; rfl

/-- Rules to which the theorems apply, with each outcome. -/
example : getLoadPackages [{ pkg := some "a.io/x, b.io/**".toList, action := "include".toList },
      { mainModule := some true, kind := some "func".toList, action := "exclude".toList }] =
      some (true, ["a.io/x".toList, "b.io/...".toList]) ∧
    getLoadPackages [{ pkg := some "a*".toList, action := "include".toList }] = none := by decide +kernel

end Verif.Instrument.Rules
