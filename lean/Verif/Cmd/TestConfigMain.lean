/-
**C83**: the test explorer does what test.config.json and the command line say.
-/
import Verif.Cmd.TestConfigProps

namespace Verif.Cmd.TestConfig
open Verif.Cmd.TestConfig.Spec Verif.Support Verif.Support.GoVersion

/-! ### Which files are accepted -/

theorem toEnv_fits {v : Json} : v ≠ .null → ((∃ c, toEnv v = some c) ↔ Fits .env v) := by
  intro _
  constructor
  · rintro ⟨c, h⟩; cases v <;> first | exact .env _ | cases h
  · intro h; cases h; exact ⟨_, rfl⟩

theorem goRange_iff (l : List (Str × Json)) : (∃ c, decode goField ⟨[], []⟩ (.obj l) = some c) ↔ Members l "min" IsStr ∧ Members l "max" IsStr := by
  rw [decode_isSome goField _ _ goField_isSome]
  exact ⟨fun h => ⟨fun k v hv hn => (h k v hv).1 hn, fun k v hv hn => (h k v hv).2 hn⟩,
    fun h k v hv => ⟨h.1 k v hv, h.2 k v hv⟩⟩

theorem toGo_fits {v : Json} : v ≠ .null → ((∃ c, (toGo v).map some = some c) ↔ Fits .go v) := by
  intro _
  rw [map_isSome]
  cases v with
  | str s => exact ⟨fun _ => .goText s, fun _ => ⟨_, rfl⟩⟩
  | obj l =>
    show (∃ c, decode goField ⟨[], []⟩ (.obj l) = some c) ↔ _
    rw [goRange_iff]
    exact ⟨fun h => .goRange l h.1 h.2, fun h => by cases h with | goRange _ a b => exact ⟨a, b⟩⟩
  | _ => exact ⟨fun ⟨_, h⟩ => (by simp [toGo, decode] at h), fun h => (by cases h)⟩

theorem toText_fits {v : Json} : v ≠ .null → ((∃ c, toText v = some c) ↔ Fits .goCmd v) := by
  intro _
  cases v with
  | str s => exact ⟨fun _ => .goCmd s, fun _ => ⟨_, rfl⟩⟩
  | _ => exact ⟨fun ⟨_, h⟩ => (by simp [toText] at h), fun h => (by cases h)⟩

theorem toExclude_fits {v : Json} : v ≠ .null → ((∃ c, toExclude v = some c) ↔ Fits .exclude v) := by
  intro _
  cases v with
  | str s => exact ⟨fun _ => .excludeOne s, fun _ => ⟨_, rfl⟩⟩
  | arr l =>
    show (∃ c, strings l = some c) ↔ _
    rw [strings_isSome]
    exact ⟨fun h => .exclude l h, fun h => by cases h with | exclude _ a => exact a⟩
  | _ => exact ⟨fun ⟨_, h⟩ => (by simp [toExclude] at h), fun h => (by cases h)⟩

theorem toStringList_flags {v : Json} : v ≠ .null → ((∃ c, toStringList v = some c) ↔ Fits .flags v) := by
  intro hn
  cases v with
  | null => exact absurd rfl hn
  | str s => exact ⟨fun _ => .flagsOne s, fun _ => ⟨_, rfl⟩⟩
  | arr l =>
    show (∃ c, strings l = some c) ↔ _
    rw [strings_isSome]
    exact ⟨fun h => .flags l h, fun h => by cases h with | flags _ a => exact a⟩
  | _ => exact ⟨fun ⟨_, h⟩ => (by simp [toStringList] at h), fun h => (by cases h)⟩

theorem toStringList_args {v : Json} : v ≠ .null → ((∃ c, toStringList v = some c) ↔ Fits .args v) := by
  intro hn
  cases v with
  | null => exact absurd rfl hn
  | str s => exact ⟨fun _ => .argsOne s, fun _ => ⟨_, rfl⟩⟩
  | arr l =>
    show (∃ c, strings l = some c) ↔ _
    rw [strings_isSome]
    exact ⟨fun h => .args l h, fun h => by cases h with | args _ a => exact a⟩
  | _ => exact ⟨fun ⟨_, h⟩ => (by simp [toStringList] at h), fun h => (by cases h)⟩

theorem toBoolean_fits {v : Json} : v ≠ .null → ((∃ c, toBoolean v = some c) ↔ Fits .bypass v) := by
  intro hn
  cases v with
  | null => exact absurd rfl hn
  | bool b => exact ⟨fun _ => .bypass b, fun _ => ⟨_, rfl⟩⟩
  | str s =>
    rw [toBoolean]
    by_cases h1 : s = "true".toList
    · rw [if_pos h1, h1]; exact ⟨fun _ => .bypassTrue, fun _ => ⟨_, rfl⟩⟩
    · rw [if_neg h1]
      by_cases h2 : s = "false".toList
      · rw [if_pos h2, h2]; exact ⟨fun _ => .bypassFalse, fun _ => ⟨_, rfl⟩⟩
      · rw [if_neg h2]
        refine ⟨fun ⟨_, h⟩ => (by cases h), fun h => ?_⟩
        generalize hv : Json.str s = v at h
        cases h with
        | bypassTrue => exact absurd (Json.str.inj hv) h1
        | bypassFalse => exact absurd (Json.str.inj hv) h2
        | bypass b => cases hv
  | _ => exact ⟨fun ⟨_, h⟩ => (by simp [toBoolean] at h), fun h => (by cases h)⟩

theorem toMarshaled_fits {marshal : Json → Str} {v : Json} : v ≠ .null → ((∃ c, toMarshaledStrings marshal v = some c) ↔ Fits .rules v) := by
  intro hn
  cases v with
  | null => exact absurd rfl hn
  | arr l =>
    show (∃ c, marshaled marshal l = some c) ↔ _
    rw [marshaled_isSome]
    exact ⟨fun h => .rules l h, fun h => by cases h with | rules _ a => exact a⟩
  | _ => exact ⟨fun ⟨_, h⟩ => (by simp [toMarshaledStrings] at h), fun h => (by cases h)⟩

theorem xgo_fits {v : Json} : v ≠ .null → ((∃ c, (decode xgoField false v).map some = some c) ↔ Fits .xgo v) := by
  intro _
  rw [map_isSome]
  cases v with
  | obj l =>
    rw [decode_isSome xgoField _ _ xgoField_isSome]
    exact ⟨fun h => .xgo l h, fun h => by cases h with | xgo _ a => exact a⟩
  | _ => exact ⟨fun ⟨_, h⟩ => (by simp [decode] at h), fun h => (by cases h)⟩

theorem coverage_iff (l : List (Str × Json)) : (∃ c, decode covField Cov.zero (.obj l) = some c) ↔ Fits .coverage (.obj l) := by
  rw [decode_isSome covField _ _ covField_isSome]
  constructor
  · intro h
    exact .coverage l (fun k v hv => (h k v hv).1) (fun k v hv => (h k v hv).2.1) (fun k v hv => (h k v hv).2.2.1)
      (fun k v hv => (h k v hv).2.2.2.1) (fun k v hv => (h k v hv).2.2.2.2)
  · intro h
    cases h with
    | coverage _ a b c d e => exact fun k v hv => ⟨a k v hv, b k v hv, c k v hv, d k v hv, e k v hv⟩

theorem toCoverage_fits {v : Json} : v ≠ .null → ((∃ c, toCoverage v = some c) ↔ Fits .coverage v) := by
  intro _
  cases v with
  | bool b => exact ⟨fun _ => .coverageSwitch b, fun _ => ⟨_, rfl⟩⟩
  | obj l =>
    show (∃ c, (decode covField Cov.zero (.obj l)).map some = some c) ↔ _
    rw [map_isSome, coverage_iff]
  | _ => exact ⟨fun ⟨_, h⟩ => (by simp [toCoverage, decode] at h), fun h => (by cases h)⟩

/-- What a well-typed file is, key by key; and what the settings are. -/
theorem parseMap_some {marshal : Json → Str} {m : List (Str × Json)} {c : Config} : parseMap marshal m = some c ↔
    opt m "env" [] toEnv = some c.env ∧ (opt m "go" none fun j => (toGo j).map some) = some c.go ∧
    opt m "go_cmd" [] toText = some c.goCmd ∧ opt m "exclude" [] toExclude = some c.exclude ∧
    opt m "flags" [] toStringList = some c.flags ∧ opt m "args" [] toStringList = some c.args ∧
    opt m "bypass_go_flags" false toBoolean = some c.bypass ∧
    opt m "mock_rules" [] (toMarshaledStrings marshal) = some c.mockRules ∧
    (opt m "xgo" none fun j => (decode xgoField false j).map some) = some c.xgo ∧
    opt m "coverage" none toCoverage = some c.coverage := by
  unfold parseMap
  simp only [Option.bind_eq_bind, Option.bind_eq_some_iff, Option.pure_def, Option.some.injEq]
  constructor
  · rintro ⟨a1, h1, a2, h2, a3, h3, a4, h4, a5, h5, a6, h6, a7, h7, a8, h8, a9, h9, a10, h10, rfl⟩
    exact ⟨h1, h2, h3, h4, h5, h6, h7, h8, h9, h10⟩
  · rintro ⟨h1, h2, h3, h4, h5, h6, h7, h8, h9, h10⟩
    exact ⟨_, h1, _, h2, _, h3, _, h4, _, h5, _, h6, _, h7, _, h8, _, h9, _, h10, rfl⟩

/-- **C83** (which files are accepted) A configuration file is accepted if and only if it is well-typed: an object (or `null`) in
    which whatever stands behind a known key fits this key. -/
theorem C83_accepts (marshal : Json → Str) (j : Json) : (∃ c, parse marshal j = some c) ↔ WellTyped j := by
  have key : ∀ m, (∃ c, parseMap marshal m = some c) ↔ ∀ k : Key, ∀ v, Has m k.name.toList v → v = .null ∨ Fits k v := by
    intro m
    have aux : ∀ {α : Type} {k : Key} {zero : α} {read : Json → Option α},
        (∀ {v}, v ≠ .null → ((∃ c, read v = some c) ↔ Fits k v)) →
        ((∃ c, opt m k.name zero read = some c) ↔ ∀ v, Has m k.name.toList v → v = .null ∨ Fits k v) := by
      intro α k zero read h
      rw [opt_isSome]
      constructor
      · intro h' v hv
        by_cases hn : v = .null
        · exact .inl hn
        · exact .inr ((h hn).mp ((h' v hv).resolve_left hn))
      · intro h' v hv
        by_cases hn : v = .null
        · exact .inl hn
        · exact .inr ((h hn).mpr ((h' v hv).resolve_left hn))
    constructor
    · rintro ⟨c, h⟩
      obtain ⟨h1, h2, h3, h4, h5, h6, h7, h8, h9, h10⟩ := parseMap_some.mp h
      intro k
      cases k
      · exact (aux toEnv_fits).mp ⟨_, h1⟩
      · exact (aux toGo_fits).mp ⟨_, h2⟩
      · exact (aux toText_fits).mp ⟨_, h3⟩
      · exact (aux toExclude_fits).mp ⟨_, h4⟩
      · exact (aux toStringList_flags).mp ⟨_, h5⟩
      · exact (aux toStringList_args).mp ⟨_, h6⟩
      · exact (aux toBoolean_fits).mp ⟨_, h7⟩
      · exact (aux toMarshaled_fits).mp ⟨_, h8⟩
      · exact (aux xgo_fits).mp ⟨_, h9⟩
      · exact (aux toCoverage_fits).mp ⟨_, h10⟩
    · intro h
      obtain ⟨a1, h1⟩ := (aux (zero := []) toEnv_fits).mpr (h .env)
      obtain ⟨a2, h2⟩ := (aux (zero := none) toGo_fits).mpr (h .go)
      obtain ⟨a3, h3⟩ := (aux (zero := []) toText_fits).mpr (h .goCmd)
      obtain ⟨a4, h4⟩ := (aux (zero := []) toExclude_fits).mpr (h .exclude)
      obtain ⟨a5, h5⟩ := (aux (zero := []) toStringList_flags).mpr (h .flags)
      obtain ⟨a6, h6⟩ := (aux (zero := []) toStringList_args).mpr (h .args)
      obtain ⟨a7, h7⟩ := (aux (zero := false) toBoolean_fits).mpr (h .bypass)
      obtain ⟨a8, h8⟩ := (aux (zero := []) (toMarshaled_fits (marshal := marshal))).mpr (h .rules)
      obtain ⟨a9, h9⟩ := (aux (zero := none) xgo_fits).mpr (h .xgo)
      obtain ⟨a10, h10⟩ := (aux (zero := none) toCoverage_fits).mpr (h .coverage)
      exact ⟨⟨a2, a3, a4, a1, a5, a6, a7, a8, a9, a10⟩, parseMap_some.mpr ⟨h1, h2, h3, h4, h5, h6, h7, h8, h9, h10⟩⟩
  cases j with
  | null =>
    refine ⟨fun _ => .inl rfl, fun _ => (key []).mpr ?_⟩
    rintro k v ⟨a, b, e, _⟩
    cases a <;> cases e
  | obj m =>
    show (∃ c, parseMap marshal m = some c) ↔ _
    rw [key m]
    constructor
    · intro h; exact .inr ⟨m, rfl, h⟩
    · rintro (h | ⟨l, e, h⟩)
      · cases h
      · cases e; exact h
  | _ =>
    refine ⟨fun ⟨_, h⟩ => (by cases h), ?_⟩
    rintro (h | ⟨_, h, _⟩) <;> cases h

/-- **C83** (unknown keys) Members with other keys change nothing. -/
theorem C83_unknown_keys (marshal : Json → Str) (a b : List (Str × Json)) (k : Str) (v : Json) (hk : ∀ n : Key, k ≠ n.name.toList) :
    parse marshal (.obj (a ++ (k, v) :: b)) = parse marshal (.obj (a ++ b)) := by
  have hget : ∀ n : Key, get (a ++ (k, v) :: b) n.name = get (a ++ b) n.name := by
    intro n
    have iff : ∀ w, Has (a ++ (k, v) :: b) n.name.toList w ↔ Has (a ++ b) n.name.toList w := by
      intro w
      constructor
      · rintro ⟨x, y, e, hy⟩
        rcases List.append_eq_append_iff.mp e with ⟨c, e1, e2⟩ | ⟨c, e1, e2⟩
        · cases c with
          | nil =>
            simp only [List.nil_append, List.cons.injEq, Prod.mk.injEq] at e2
            exact absurd e2.1.1 (hk n)
          | cons z c =>
            simp only [List.cons_append, List.cons.injEq] at e2
            refine ⟨a ++ c, y, ?_, hy⟩
            rw [e2.2]; simp
        · cases c with
          | nil =>
            simp only [List.nil_append, List.cons.injEq, Prod.mk.injEq] at e2
            exact absurd e2.1.1.symm (hk n)
          | cons z c =>
            simp only [List.cons_append, List.cons.injEq] at e2
            refine ⟨x, c ++ b, ?_, ?_⟩
            · rw [e1, ← e2.1]; simp
            · intro p hp
              refine hy p ?_
              rw [e2.2]
              rcases List.mem_append.mp hp with hp | hp
              · exact List.mem_append_left _ hp
              · exact List.mem_append_right _ (List.mem_cons_of_mem _ hp)
      · rintro ⟨x, y, e, hy⟩
        rcases List.append_eq_append_iff.mp e with ⟨c, e1, e2⟩ | ⟨c, e1, e2⟩
        · refine ⟨a ++ (k, v) :: c, y, ?_, hy⟩
          rw [e2]; simp
        · cases c with
          | nil =>
            refine ⟨a ++ [(k, v)], y, ?_, hy⟩
            simp only [List.nil_append] at e2
            simp [e2]
          | cons z c =>
            simp only [List.cons_append, List.cons.injEq] at e2
            refine ⟨x, c ++ (k, v) :: b, ?_, ?_⟩
            · rw [e1, ← e2.1]; simp
            · intro p hp
              rcases List.mem_append.mp hp with hp | hp
              · exact hy p (by rw [e2.2]; exact List.mem_append_left _ hp)
              · rcases List.mem_cons.mp hp with rfl | hp
                · exact hk n
                · exact hy p (by rw [e2.2]; exact List.mem_append_right _ hp)
    cases h : get (a ++ b) n.name with
    | some w => rw [get_iff, iff, ← get_iff]; exact h
    | none =>
      cases h' : get (a ++ (k, v) :: b) n.name with
      | none => rfl
      | some w => rw [(get_iff _ _ _).mpr ((iff w).mp ((get_iff _ _ _).mp h'))] at h; cases h
  have ho : ∀ {α : Type} (n : Key) (zero : α) (read : Json → Option α),
      opt (a ++ (k, v) :: b) n.name zero read = opt (a ++ b) n.name zero read := by
    intro α n zero read
    rw [opt, hget n, opt]
  show parseMap marshal _ = parseMap marshal _
  unfold parseMap
  simp only [Key.name] at ho
  rw [ho .env, ho .go, ho .goCmd, ho .exclude, ho .flags,
    ho .args, ho .bypass, ho .rules, ho .xgo,
    ho .coverage]

/-! ### What the settings are -/

theorem texts_of {m : List (Str × Json)} {k : String} {ts : List Str} {read : Json → Option (List Str)}
    (hr : ∀ v, v ≠ .null → read v = toStringList v) (h : opt m k [] read = some ts) : Texts m k ts := by
  rcases opt_some.mp h with ⟨hu, rfl⟩ | ⟨v, hv, hn, h⟩
  · exact .inr (.inr ⟨hu, rfl⟩)
  · rw [hr v hn] at h
    cases v with
    | null => exact absurd rfl hn
    | arr l => rw [strings_some h] at hv; exact .inl hv
    | str s => exact .inr (.inl ⟨s, hv, (Option.some.inj h).symm⟩)
    | _ => cases h

/-- **C83** (settings) What the file says is what is used: the command, the lists of flags, arguments and excluded directories, the
    mock rules one by one, the automatic update, the boolean switches. -/
theorem C83_settings {marshal : Json → Str} {m : List (Str × Json)} {c : Config} (h : parse marshal (.obj m) = some c) :
    (Has m "go_cmd".toList (.str c.goCmd) ∨ (Unset m "go_cmd" ∧ c.goCmd = [])) ∧
    Texts m "flags" c.flags ∧ Texts m "args" c.args ∧ Texts m "exclude" c.exclude ∧
    ((∃ rules, Has m "mock_rules".toList (.arr rules) ∧ c.mockRules = (rules.filter fun | .null => false | _ => true).map marshal) ∨
      (Unset m "mock_rules" ∧ c.mockRules = [])) ∧
    (∀ b, Has m "bypass_go_flags".toList (.bool b) → c.bypass = b) ∧ (Unset m "bypass_go_flags" → c.bypass = false) ∧
    (Has m "coverage".toList (.bool false) → ∃ v, c.coverage = some v ∧ v.disabled = true) ∧
    (Has m "coverage".toList (.bool true) ∨ Unset m "coverage" → c.coverage = none) := by
  obtain ⟨h1, h2, h3, h4, h5, h6, h7, h8, h9, h10⟩ := parseMap_some.mp (show parseMap marshal m = some c from h)
  refine ⟨?_, texts_of (fun _ _ => rfl) h5, texts_of (fun _ _ => rfl) h6, texts_of ?_ h4, ?_, ?_, ?_, ?_, ?_⟩
  · rcases opt_some.mp h3 with h | ⟨v, hv, hn, h⟩
    · exact .inr h
    · cases v with
      | str s => cases h; exact .inl hv
      | _ => cases h
  · intro v hn; cases v <;> first | rfl | exact absurd rfl hn
  · rcases opt_some.mp h8 with h | ⟨v, hv, hn, h⟩
    · exact .inr h
    · cases v with
      | null => exact absurd rfl hn
      | arr l => exact .inl ⟨l, hv, marshaled_some h⟩
      | _ => cases h
  · intro b hb
    have e := opt_given hb (by simp) h7
    exact (Option.some.inj e).symm
  · intro hu
    rw [opt_unset _ _ hu] at h7
    exact (Option.some.inj h7).symm
  · intro hb
    have e := opt_given hb (by simp) h10
    exact ⟨{ Cov.zero with disabled := true }, (Option.some.inj e).symm, rfl⟩
  · rintro (hb | hu)
    · have e := opt_given hb (by simp) h10
      exact (Option.some.inj e).symm
    · rw [opt_unset _ _ hu] at h10
      exact (Option.some.inj h10).symm

/-- The text `"false"` switches on. -/
theorem C83_text_false_is_true (marshal : Json → Str) :
    (parse marshal (.obj [("bypass_go_flags".toList, .str "false".toList)])).map Config.bypass = some true := by
  rfl

theorem named_min : Named "min".toList "min" := by unfold Named; decide +kernel
theorem named_max : Named "max".toList "max" := by unfold Named; decide +kernel

/-- A structure's field gets what the member of that name says, if no other member has this name in other letters. -/
theorem go_min {l : List (Str × Json)} {g : GoConf} {s : Str} (h : decode goField ⟨[], []⟩ (.obj l) = some g)
    (hs : Has l "min".toList (.str s)) (ho : ∀ p ∈ l, Named p.1 "min" → p.1 = "min".toList) : g.min = s := by
  refine (foldlM_field goField GoConf.min "min" s ?_ _ ?_ _ _ h).1 ⟨_, (mem_sorted _ _).mpr ((has_iff _ _ _).mp hs), named_min⟩
  · intro c c' p hp hn
    rw [goField, if_neg (fun h => hn ((isField_iff _ _).mp h))] at hp
    split at hp
    · obtain ⟨t, _, rfl⟩ := Option.map_eq_some_iff.mp hp; rfl
    · cases hp; rfl
  · rintro ⟨k, v⟩ hp hn c c' hc
    have hp := (mem_sorted _ _).mp hp
    have e : k = "min".toList := ho (k, v) (toMap_sub l _ hp) hn
    subst e
    cases has_unique hs ((has_iff _ _ _).mpr hp)
    exact congrArg GoConf.min (Option.some.inj hc).symm

theorem go_max {l : List (Str × Json)} {g : GoConf} {s : Str} (h : decode goField ⟨[], []⟩ (.obj l) = some g)
    (hs : Has l "max".toList (.str s)) (ho : ∀ p ∈ l, Named p.1 "max" → p.1 = "max".toList) : g.max = s := by
  refine (foldlM_field goField GoConf.max "max" s ?_ _ ?_ _ _ h).1 ⟨_, (mem_sorted _ _).mpr ((has_iff _ _ _).mp hs), named_max⟩
  · intro c c' p hp hn
    rw [goField] at hp
    split at hp
    · obtain ⟨t, _, rfl⟩ := Option.map_eq_some_iff.mp hp; rfl
    · rw [if_neg (fun h => hn ((isField_iff _ _).mp h))] at hp
      cases hp; rfl
  · rintro ⟨k, v⟩ hp hn c c' hc
    have hp := (mem_sorted _ _).mp hp
    have e : k = "max".toList := ho (k, v) (toMap_sub l _ hp) hn
    subst e
    cases has_unique hs ((has_iff _ _ _).mpr hp)
    exact congrArg GoConf.max (Option.some.inj hc).symm

theorem go_no {l : List (Str × Json)} {g : GoConf} (h : decode goField ⟨[], []⟩ (.obj l) = some g) :
    ((∀ p ∈ l, ¬ Named p.1 "min") → g.min = []) ∧ ((∀ p ∈ l, ¬ Named p.1 "max") → g.max = []) := by
  constructor
  · intro ho
    refine (foldlM_field goField GoConf.min "min" [] ?_ _ ?_ _ _ h).2 fun p hp => ho p (toMap_sub l _ ((mem_sorted _ _).mp hp))
    · intro c c' p hp hn
      rw [goField, if_neg (fun h => hn ((isField_iff _ _).mp h))] at hp
      split at hp
      · obtain ⟨t, _, rfl⟩ := Option.map_eq_some_iff.mp hp; rfl
      · cases hp; rfl
    · intro p hp hn
      exact absurd hn (ho p (toMap_sub l _ ((mem_sorted _ _).mp hp)))
  · intro ho
    refine (foldlM_field goField GoConf.max "max" [] ?_ _ ?_ _ _ h).2 fun p hp => ho p (toMap_sub l _ ((mem_sorted _ _).mp hp))
    · intro c c' p hp hn
      rw [goField] at hp
      split at hp
      · obtain ⟨t, _, rfl⟩ := Option.map_eq_some_iff.mp hp; rfl
      · rw [if_neg (fun h => hn ((isField_iff _ _).mp h))] at hp
        cases hp; rfl
    · intro p hp hn
      exact absurd hn (ho p (toMap_sub l _ ((mem_sorted _ _).mp hp)))

/-- The block `go` of a file. -/
theorem settings_go {marshal : Json → Str} {m : List (Str × Json)} {c : Config} (h : parse marshal (.obj m) = some c) :
    (Unset m "go" → c.go = none) ∧ (∀ s, Has m "go".toList (.str s) → c.go = some ⟨s, []⟩) ∧
    (∀ l, Has m "go".toList (.obj l) → ∃ g, c.go = some g ∧ decode goField ⟨[], []⟩ (.obj l) = some g) := by
  obtain ⟨_, h2, _⟩ := parseMap_some.mp (show parseMap marshal m = some c from h)
  have use : ∀ v, v ≠ .null → Has m "go".toList v → (toGo v).map some = some c.go := fun v hn hv => opt_given hv hn h2
  refine ⟨?_, ?_, ?_⟩
  · intro hu
    rw [opt_unset _ _ hu] at h2
    exact (Option.some.inj h2).symm
  · intro s hs
    exact (Option.some.inj (use _ (by simp) hs)).symm
  · intro l hl
    obtain ⟨g, hg, e⟩ := Option.map_eq_some_iff.mp (use _ (by simp) hl)
    exact ⟨g, e.symm, hg⟩

/-- A field of a structure gets what its member says, if no other member has this name in other letters; without a member it is zero. -/
theorem decode_get {α γ : Type} {field : α → Str × Json → Option α} {zero g : α} {l : List (Str × Json)} {name : String} {v : Json}
    (pr : α → γ) (s : γ) (h : decode field zero (.obj l) = some g) (hn : Named name.toList name) (hs : Has l name.toList v)
    (ho : ∀ p ∈ l, Named p.1 name → p.1 = name.toList) (hset : ∀ c c' p, field c p = some c' → ¬ Named p.1 name → pr c' = pr c)
    (hone : ∀ c c', field c (name.toList, v) = some c' → pr c' = s) : pr g = s := by
  refine (foldlM_field field pr name s hset _ ?_ _ _ h).1 ⟨_, (mem_sorted _ _).mpr ((has_iff _ _ _).mp hs), hn⟩
  rintro ⟨k, w⟩ hp hk c c' hc
  have hp := (mem_sorted _ _).mp hp
  have e : k = name.toList := ho (k, w) (toMap_sub l _ hp) hk
  subst e
  cases has_unique hs ((has_iff _ _ _).mpr hp)
  exact hone c c' hc

theorem decode_no {α γ : Type} {field : α → Str × Json → Option α} {zero g : α} {l : List (Str × Json)} {name : String}
    (pr : α → γ) (h : decode field zero (.obj l) = some g) (ho : ∀ p ∈ l, ¬ Named p.1 name)
    (hset : ∀ c c' p, field c p = some c' → ¬ Named p.1 name → pr c' = pr c) : pr g = pr zero := by
  refine (foldlM_field field pr name (pr zero) hset _ ?_ _ _ h).2 fun p hp => ho p (toMap_sub l _ ((mem_sorted _ _).mp hp))
  intro p hp hn
  exact absurd hn (ho p (toMap_sub l _ ((mem_sorted _ _).mp hp)))

theorem cov_other {c c' : Cov} {p : Str × Json} (h : covField c p = some c') :
    (¬ Named p.1 "disabled" → c'.disabled = c.disabled) ∧ (¬ Named p.1 "diff_with" → c'.diffWith = c.diffWith) ∧
    (¬ Named p.1 "profile" → c'.profile = c.profile) ∧ (¬ Named p.1 "include" → c'.include_ = c.include_) ∧
    (¬ Named p.1 "exclude" → c'.exclude = c.exclude) := by
  rw [covField] at h
  split at h
  · rename_i hf
    obtain ⟨t, _, rfl⟩ := Option.map_eq_some_iff.mp h
    exact ⟨fun hn => absurd ((isField_iff _ _).mp hf) hn, fun _ => rfl, fun _ => rfl, fun _ => rfl, fun _ => rfl⟩
  split at h
  · rename_i hf
    obtain ⟨t, _, rfl⟩ := Option.map_eq_some_iff.mp h
    exact ⟨fun _ => rfl, fun hn => absurd ((isField_iff _ _).mp hf) hn, fun _ => rfl, fun _ => rfl, fun _ => rfl⟩
  split at h
  · rename_i hf
    obtain ⟨t, _, rfl⟩ := Option.map_eq_some_iff.mp h
    exact ⟨fun _ => rfl, fun _ => rfl, fun hn => absurd ((isField_iff _ _).mp hf) hn, fun _ => rfl, fun _ => rfl⟩
  split at h
  · rename_i hf
    obtain ⟨t, _, rfl⟩ := Option.map_eq_some_iff.mp h
    exact ⟨fun _ => rfl, fun _ => rfl, fun _ => rfl, fun hn => absurd ((isField_iff _ _).mp hf) hn, fun _ => rfl⟩
  split at h
  · rename_i hf
    obtain ⟨t, _, rfl⟩ := Option.map_eq_some_iff.mp h
    exact ⟨fun _ => rfl, fun _ => rfl, fun _ => rfl, fun _ => rfl, fun hn => absurd ((isField_iff _ _).mp hf) hn⟩
  · cases h; exact ⟨fun _ => rfl, fun _ => rfl, fun _ => rfl, fun _ => rfl, fun _ => rfl⟩

theorem elements_strs (ts : List Str) : elements (ts.map .str) = some ts := by
  induction ts with
  | nil => rfl
  | cons a l ih => rw [List.map_cons, elements, ih]; rfl

/-- **C83** (the block `coverage`) Each field is what its member says (if its name is not there twice in different letters), and empty
    without one. -/
theorem C83_coverage_setting {marshal : Json → Str} {m l : List (Str × Json)} {c : Config} (h : parse marshal (.obj m) = some c)
    (hl : Has m "coverage".toList (.obj l)) : ∃ v, c.coverage = some v ∧
    ((∀ p ∈ l, Named p.1 "disabled" → p.1 = "disabled".toList) → ∀ b, Has l "disabled".toList (.bool b) → v.disabled = b) ∧
    ((∀ p ∈ l, Named p.1 "diff_with" → p.1 = "diff_with".toList) → ∀ s, Has l "diff_with".toList (.str s) → v.diffWith = s) ∧
    ((∀ p ∈ l, Named p.1 "profile" → p.1 = "profile".toList) → ∀ s, Has l "profile".toList (.str s) → v.profile = s) ∧
    ((∀ p ∈ l, Named p.1 "include" → p.1 = "include".toList) →
      ∀ ts : List Str, Has l "include".toList (.arr (ts.map .str)) → v.include_ = ts) ∧
    ((∀ p ∈ l, Named p.1 "exclude" → p.1 = "exclude".toList) →
      ∀ ts : List Str, Has l "exclude".toList (.arr (ts.map .str)) → v.exclude = ts) ∧
    ((∀ p ∈ l, ¬ Named p.1 "disabled") → v.disabled = false) ∧ ((∀ p ∈ l, ¬ Named p.1 "diff_with") → v.diffWith = []) ∧
    ((∀ p ∈ l, ¬ Named p.1 "profile") → v.profile = []) ∧ ((∀ p ∈ l, ¬ Named p.1 "include") → v.include_ = []) ∧
    ((∀ p ∈ l, ¬ Named p.1 "exclude") → v.exclude = []) := by
  obtain ⟨_, _, _, _, _, _, _, _, _, h10⟩ := parseMap_some.mp (show parseMap marshal m = some c from h)
  obtain ⟨v, hd, e⟩ := Option.map_eq_some_iff.mp (show (decode covField Cov.zero (.obj l)).map some = some c.coverage from
    opt_given hl (by simp) h10)
  refine ⟨v, e.symm, ?_, ?_, ?_, ?_, ?_, ?_, ?_, ?_, ?_, ?_⟩
  · intro ho b hb
    exact decode_get Cov.disabled b hd (by unfold Named; decide +kernel) hb ho (fun _ _ _ h => (cov_other h).1)
      (fun c c' hc => congrArg Cov.disabled (Option.some.inj hc).symm)
  · intro ho b hb
    exact decode_get Cov.diffWith b hd (by unfold Named; decide +kernel) hb ho (fun _ _ _ h => (cov_other h).2.1)
      (fun c c' hc => congrArg Cov.diffWith (Option.some.inj hc).symm)
  · intro ho b hb
    exact decode_get Cov.profile b hd (by unfold Named; decide +kernel) hb ho (fun _ _ _ h => (cov_other h).2.2.1)
      (fun c c' hc => congrArg Cov.profile (Option.some.inj hc).symm)
  · intro ho b hb
    refine decode_get Cov.include_ b hd (by unfold Named; decide +kernel) hb ho (fun _ _ _ h => (cov_other h).2.2.2.1) ?_
    intro c c' hc
    have hc : (elements (b.map .str)).map (fun l => { c with include_ := l }) = some c' := hc
    rw [elements_strs] at hc
    exact congrArg Cov.include_ (Option.some.inj hc).symm
  · intro ho b hb
    refine decode_get Cov.exclude b hd (by unfold Named; decide +kernel) hb ho (fun _ _ _ h => (cov_other h).2.2.2.2) ?_
    intro c c' hc
    have hc : (elements (b.map .str)).map (fun l => { c with exclude := l }) = some c' := hc
    rw [elements_strs] at hc
    exact congrArg Cov.exclude (Option.some.inj hc).symm
  · exact fun ho => decode_no Cov.disabled hd ho (fun _ _ _ h => (cov_other h).1)
  · exact fun ho => decode_no Cov.diffWith hd ho (fun _ _ _ h => (cov_other h).2.1)
  · exact fun ho => decode_no Cov.profile hd ho (fun _ _ _ h => (cov_other h).2.2.1)
  · exact fun ho => decode_no Cov.include_ hd ho (fun _ _ _ h => (cov_other h).2.2.2.1)
  · exact fun ho => decode_no Cov.exclude hd ho (fun _ _ _ h => (cov_other h).2.2.2.2)

/-! ### The environment of the tests -/

theorem sees_append (x y : List Str) (k v : Str) (h : ∀ e ∈ y, ¬ (k ++ ['=']) <+: e) : Sees (x ++ y) k v ↔ Sees x k v := by
  constructor
  · rintro ⟨a, b, e, hb⟩
    rcases List.append_eq_append_iff.mp e with ⟨c, e1, e2⟩ | ⟨c, e1, e2⟩
    · exact absurd (⟨v, by simp⟩ : (k ++ ['=']) <+: (k ++ '=' :: v)) (h _ (by rw [e2]; simp))
    · cases c with
      | nil =>
        exact absurd (⟨v, by simp⟩ : (k ++ ['=']) <+: (k ++ '=' :: v)) (h _ (by simp at e2; rw [← e2]; simp))
      | cons z c =>
        simp only [List.cons_append, List.cons.injEq] at e2
        exact ⟨a, c, by rw [e1, ← e2.1], fun r hr => hb r (by rw [e2.2]; exact List.mem_append_left _ hr)⟩
  · rintro ⟨a, b, e, hb⟩
    refine ⟨a, b ++ y, by rw [e]; simp, fun r hr => ?_⟩
    rcases List.mem_append.mp hr with hr | hr
    · exact hb r hr
    · exact h r hr

/-- Two texts `k=…` and `k'=…`. -/
theorem prefix_key {k k' w : Str} (hk : '=' ∉ k) (h : (k ++ ['=']) <+: (k' ++ '=' :: w)) : k' = k ∨ (k ++ ['=']) <+: k' := by
  obtain ⟨t, e⟩ := h
  rw [List.append_assoc] at e
  rcases List.append_eq_append_iff.mp e with ⟨c, e1, e2⟩ | ⟨c, e1, e2⟩
  · cases c with
    | nil => left; rw [e1, List.append_nil]
    | cons z c =>
      simp only [List.cons_append, List.nil_append, List.cons.injEq] at e2
      right
      rw [e1, ← e2.1]
      exact ⟨c, by simp⟩
  · cases c with
    | nil => left; rw [e1, List.append_nil]
    | cons z c =>
      simp only [List.cons_append, List.cons.injEq] at e2
      exact absurd (by rw [e1, ← e2.1]; simp) hk

/-- **C83** (environment) In whatever order Go walks the map: the tests see the configured value of every configured name, and all
    other values they inherit. (Names with an equals sign in them are set aside.) -/
theorem C83_env_partial {marshal : Json → Str} {m e : List (Str × Json)} {c : Config} (real : Str → Str)
    (h : parse marshal (.obj m) = some c) (he : Has m "env".toList (.obj e)) (walk : List (Str × Json)) (hw : walk.Perm c.env)
    (hkeys : ∀ p ∈ e, '=' ∉ p.1) (inherited : List Str) :
    (∀ k v, Has e k v → Sees (inherited ++ envPairs real walk) k (sprint real v)) ∧
    (∀ k w, '=' ∉ k → (∀ p ∈ e, p.1 ≠ k) → (Sees (inherited ++ envPairs real walk) k w ↔ Sees inherited k w)) := by
  obtain ⟨h1, _⟩ := parseMap_some.mp (show parseMap marshal m = some c from h)
  have henv : c.env = toMap e := (Option.some.inj (opt_given (read := toEnv) he (by simp) h1)).symm
  rw [henv] at hw
  have hin : ∀ p ∈ walk, p ∈ toMap e := fun p hp => hw.mem_iff.mp hp
  constructor
  · intro k v hv
    have hk : '=' ∉ k := by
      obtain ⟨a, b, e', _⟩ := hv
      exact hkeys (k, v) (by rw [e']; simp)
    have hmem : (k, v) ∈ walk := hw.mem_iff.mpr ((has_iff e k v).mp hv)
    obtain ⟨x, y, hxy⟩ := List.append_of_mem hmem
    refine ⟨inherited ++ envPairs real x, envPairs real y, ?_, ?_⟩
    · rw [hxy]; simp [envPairs]
    · intro r hr hp
      obtain ⟨⟨k', v'⟩, hq, rfl⟩ := List.mem_map.mp hr
      have hq' : (k', v') ∈ toMap e := hin _ (by rw [hxy]; exact List.mem_append_right _ (List.mem_cons_of_mem _ hq))
      rcases prefix_key hk hp with e1 | e1
      · have hn : (walk.map (·.1)).Nodup := ((hw.map (·.1)).nodup_iff).mpr (toMap_nodup e)
        rw [hxy, List.map_append, List.map_cons] at hn
        have := (List.nodup_append.mp hn).2.1
        rw [List.nodup_cons] at this
        exact this.1 (List.mem_map.mpr ⟨(k', v'), hq, e1⟩)
      · obtain ⟨t, ht⟩ := e1
        exact hkeys (k', v') (toMap_sub e _ hq') (by rw [show k' = k ++ ['='] ++ t from ht.symm]; simp)
  · intro k w hk hno
    refine sees_append _ _ _ _ ?_
    intro r hr hp
    obtain ⟨⟨k', v'⟩, hq, rfl⟩ := List.mem_map.mp hr
    have hq' := toMap_sub e _ (hin _ hq)
    rcases prefix_key hk hp with e1 | e1
    · exact hno (k', v') hq' e1
    · obtain ⟨t, ht⟩ := e1
      exact hkeys (k', v') hq' (by rw [show k' = k ++ ['='] ++ t from ht.symm]; simp)

/-- With a name that has an equals sign in it, the order in which Go happens to walk the map decides. -/
theorem C83_env_order : ∃ (c : Config) (w1 w2 : List (Str × Json)),
    parse (fun _ => []) (.obj [("env".toList, .obj [("A".toList, .str "1".toList), ("A=B".toList, .str "2".toList)])]) = some c ∧
    w1.Perm c.env ∧ w2.Perm c.env ∧ Sees (envPairs id w1) "A".toList "1".toList ∧ Sees (envPairs id w2) "A".toList "B=2".toList ∧
    ¬ Sees (envPairs id w1) "A".toList "B=2".toList := by
  refine ⟨_, [("A=B".toList, .str "2".toList), ("A".toList, .str "1".toList)], [("A".toList, .str "1".toList), ("A=B".toList, .str "2".toList)],
    rfl, List.Perm.swap .., List.Perm.refl _, ⟨["A=B=2".toList], [], rfl, by simp⟩, ⟨["A=1".toList], [], rfl, by simp⟩, ?_⟩
  rintro ⟨a, b, e, hb⟩
  match a, e with
  | [], e =>
    have hb' : b = ["A=1".toList] := (List.cons.inj e).2.symm
    exact hb "A=1".toList (by rw [hb']; simp) ⟨"1".toList, by decide⟩
  | [_], e =>
    have : ("A=1".toList : Str) = "A=B=2".toList := (List.cons.inj (List.cons.inj e).2).1
    exact absurd this (by decide)
  | _ :: _ :: a, e =>
    have := (List.cons.inj (List.cons.inj e).2).2
    simp at this

/-- **C83** (values of the environment) A text arrives as it is, a boolean as `true` or `false`, and a whole number as its decimal text
    if and only if it is below a million: from there on, it arrives in scientific notation (1000000 as `1e+06`). -/
theorem C83_env_values (real : Str → Str) (s : Str) (n : Int) :
    sprint real (.str s) = s ∧ sprint real (.bool true) = "true".toList ∧ sprint real (.bool false) = "false".toList ∧
    (sprint real (.int n) = decimal n ↔ n.natAbs < 10 ^ 6) := by
  refine ⟨by rw [sprint], by rw [sprint]; rfl, by rw [sprint]; rfl, ?_⟩
  rw [sprint, sprintInt, decimal]
  have key : ∀ k : Nat, sprintNat k = Nat.toDigits 10 k ↔ k < 10 ^ 6 := by
    intro k
    have hlen : (Nat.toDigits 10 k).length ≤ 6 ↔ k < 10 ^ 6 := Nat.length_toDigits_le_iff (by decide) (by decide)
    rw [← hlen, sprintNat]
    cases hd : Nat.toDigits 10 k with
    | nil => exact absurd hd (Nat.toDigits_ne_nil)
    | cons d ds =>
      simp only [List.length_cons]
      by_cases h : ds.length < 6
      · rw [if_pos h]; exact ⟨fun _ => by omega, fun _ => rfl⟩
      · rw [if_neg h]
        refine ⟨fun e => ?_, fun h' => by omega⟩
        have hmem : 'e' ∈ d :: ds := by rw [← e]; simp [scientific]
        rw [← hd] at hmem
        have := Nat.isDigit_of_mem_toDigits (by decide) (by decide) hmem
        exact absurd this (by decide)
  by_cases h : n < 0
  · rw [if_pos h, if_pos h, List.cons.injEq, ← key]
    exact ⟨fun h => h.2, fun h => ⟨rfl, h⟩⟩
  · rw [if_neg h, if_neg h, ← key]

theorem strip_split (s : Str) : ∃ k, s = strip s ++ List.replicate k '0' ∧ (strip s).getLast? ≠ some '0' := by
  have h : ∀ t : Str, ∃ k, t = List.replicate k '0' ++ t.dropWhile (· = '0') ∧ (t.dropWhile (· = '0')).head? ≠ some '0' := by
    intro t
    induction t with
    | nil => exact ⟨0, rfl, by simp⟩
    | cons c t ih =>
      by_cases hc : c = '0'
      · obtain ⟨k, h1, h2⟩ := ih
        refine ⟨k + 1, ?_, ?_⟩
        · rw [List.dropWhile_cons_of_pos (by simp [hc]), List.replicate_succ, List.cons_append, ← h1, hc]
        · rw [List.dropWhile_cons_of_pos (by simp [hc])]; exact h2
      · refine ⟨0, ?_, ?_⟩
        · rw [List.dropWhile_cons_of_neg (by simp [hc])]; rfl
        · rw [List.dropWhile_cons_of_neg (by simp [hc])]; simp [hc]
  obtain ⟨k, h1, h2⟩ := h s.reverse
  refine ⟨k, ?_, ?_⟩
  · have := congrArg List.reverse h1
    rw [List.reverse_reverse, List.reverse_append, List.reverse_replicate] at this
    exact this
  · rw [strip, List.getLast?_reverse]; exact h2

theorem val_zeros (s : Str) (k : Nat) : Nat.ofDigitChars 10 (s ++ List.replicate k '0') 0 = Nat.ofDigitChars 10 s 0 * 10 ^ k := by
  induction k with
  | zero => simp
  | succ k ih =>
    rw [List.replicate_succ', ← List.append_assoc, Nat.ofDigitChars_append, ih]
    simp [Nat.ofDigitChars_cons, Nat.pow_succ]
    rw [Nat.mul_left_comm, Nat.mul_comm 10]

/-- **C83** (large numbers in the environment) From a million on, a number arrives as `d.ddde+xx`: the digits (without zeros at their end)
    times the power of ten are the number, the exponent has at least two digits. -/
theorem C83_env_large (real : Str → Str) (n : Nat) (h : 10 ^ 6 ≤ n) :
    ∃ (d : Char) (frac : Str) (e : Nat), frac.length ≤ e ∧ frac.getLast? ≠ some '0' ∧
      n = Nat.ofDigitChars 10 (d :: frac) 0 * 10 ^ (e - frac.length) ∧
      sprint real (.int n) = d :: ((if frac = [] then [] else '.' :: frac) ++ "e+".toList ++
        (if e < 10 then '0' :: Nat.toDigits 10 e else Nat.toDigits 10 e)) ∧
      sprint real (.int (-(n : Int))) = '-' :: sprint real (.int n) := by
  have hl : ¬ (Nat.toDigits 10 n).length ≤ 6 := fun h' =>
    absurd ((Nat.length_toDigits_le_iff (by decide) (by decide)).1 h') (by omega)
  have e1 : sprint real (.int n) = sprintNat n := by
    rw [sprint, sprintInt, if_neg (by omega)]; rfl
  have e2 : sprint real (.int (-(n : Int))) = '-' :: sprintNat n := by
    rw [sprint, sprintInt, if_pos (by omega), Int.natAbs_neg]; rfl
  rw [e1, e2]
  cases hd : Nat.toDigits 10 n with
  | nil => exact absurd hd Nat.toDigits_ne_nil
  | cons d ds =>
    rw [hd, List.length_cons] at hl
    obtain ⟨k, h1, h2⟩ := strip_split ds
    have hlen : ds.length = (strip ds).length + k := by
      have := congrArg List.length h1
      rw [List.length_append, List.length_replicate] at this
      exact this
    refine ⟨d, strip ds, ds.length, by omega, h2, ?_, ?_, rfl⟩
    · have hv : Nat.ofDigitChars 10 (d :: ds) 0 = n := by rw [← hd]; exact Nat.ofDigitChars_ten_toDigits
      rw [show ds.length - (strip ds).length = k by omega, ← val_zeros, List.cons_append, ← h1, hv]
    · rw [sprintNat, hd]
      dsimp only
      rw [if_neg (by omega), scientific]
      simp only [List.cons_append]

example : sprint id (.int 1000000) = "1e+06".toList ∧ sprint id (.int 999999) = "999999".toList ∧
    sprint id (.int (-123456789)) = "-1.23456789e+08".toList ∧ sprint id .null = "<nil>".toList := by decide +kernel

/-- A port below a million and a timeout in nanoseconds above it. -/
example : envPairs id [("PORT".toList, .int 8080), ("TIMEOUT".toList, .int 5000000000)] = ["PORT=8080".toList, "TIMEOUT=5e+09".toList] := by
  decide +kernel

/-! ### Lists and objects in the environment -/

theorem join_intercalate (sep : Str) (l : List Str) : join sep l = List.intercalate sep l := by
  induction l with
  | nil => rfl
  | cons a l ih =>
    cases l with
    | nil => simp [join, List.intercalate]
    | cons b l => rw [join, ih]; simp [List.intercalate]; simp

theorem sprintList_map (real : Str → Str) (l : List Json) : sprintList real l = l.map (sprint real) := by
  induction l with
  | nil => rw [sprintList]; rfl
  | cons a l ih => rw [sprintList, ih]; rfl

theorem sprintMembers_map (real : Str → Str) (l : List (Str × Json)) :
    sprintMembers real l = l.map fun p => (p.1, sprint real p.2) := by
  induction l with
  | nil => rw [sprintMembers]; rfl
  | cons p l ih => obtain ⟨k, a⟩ := p; rw [sprintMembers, ih]; rfl

theorem toMap_map {α β : Type} (f : α → β) (l : List (Str × α)) :
    toMap (l.map fun p => (p.1, f p.2)) = (toMap l).map fun p => (p.1, f p.2) := by
  induction l with
  | nil => rfl
  | cons p l ih =>
    rw [List.map_cons, toMap, toMap, ih, List.any_map]
    show (if l.any (fun q => q.1 = p.1) then _ else _) = _
    split <;> rfl

theorem ins_map {α β : Type} (f : α → β) (p : Str × α) (l : List (Str × α)) :
    ins (p.1, f p.2) (l.map fun p => (p.1, f p.2)) = (ins p l).map fun p => (p.1, f p.2) := by
  induction l with
  | nil => rfl
  | cons q l ih =>
    rw [List.map_cons, ins, ins, ih]
    split <;> rfl

theorem sorted_map {α β : Type} (f : α → β) (l : List (Str × α)) :
    sorted (l.map fun p => (p.1, f p.2)) = (sorted l).map fun p => (p.1, f p.2) := by
  induction l with
  | nil => rfl
  | cons p l ih =>
    show ins (p.1, f p.2) (sorted (l.map fun p => (p.1, f p.2))) = (ins p (sorted l)).map _
    rw [ih, ins_map]

theorem sorted_increasing {α : Type} (l : List (Str × α)) (h : (l.map (·.1)).Nodup) :
    (sorted l).Pairwise fun a b => compare a.1 b.1 = .lt := by
  induction l with
  | nil => exact .nil
  | cons p l ih =>
    rw [List.map_cons, List.nodup_cons] at h
    have hs := ih h.2
    have hp : ∀ q ∈ sorted l, p.1 ≠ q.1 := fun q hq e => h.1 (List.mem_map.2 ⟨q, (mem_sorted q l).1 hq, e.symm⟩)
    show (ins p (sorted l)).Pairwise _
    generalize sorted l = s at hs hp
    induction s with
    | nil => exact List.pairwise_singleton ..
    | cons q s ih' =>
      have hq := List.pairwise_cons.1 hs
      rw [ins]
      by_cases c : strLt p.1 q.1 = true
      · rw [if_pos c]
        have c' : compare p.1 q.1 = .lt := by simpa [strLt] using c
        refine List.pairwise_cons.2 ⟨fun r hr => ?_, hs⟩
        rcases List.mem_cons.1 hr with rfl | hr
        · exact c'
        · exact Std.TransCmp.lt_trans c' (hq.1 r hr)
      · rw [if_neg c]
        have c' : compare p.1 q.1 ≠ .lt := by simpa [strLt] using c
        refine List.pairwise_cons.2 ⟨fun r hr => ?_, ih' hq.2 fun r hr => hp r (List.mem_cons_of_mem _ hr)⟩
        rcases (mem_ins p r s).1 hr with rfl | hr
        · rw [← Std.OrientedCmp.gt_iff_lt]
          cases e : compare r.1 q.1 with
          | lt => exact absurd e c'
          | eq => exact absurd (Std.LawfulEqCmp.eq_of_compare e) (hp q List.mem_cons_self)
          | gt => rfl
        · exact hq.1 r hr

/-- **C83** (lists and objects in the environment) A list arrives as its values in brackets, separated by single blanks; an object as
    `map[k:v k:v]`, with the last value of every key once, in the order of the keys. -/
theorem C83_env_nested (real : Str → Str) :
    (∀ l : List Json, sprint real (.arr l) = "[".toList ++ List.intercalate " ".toList (l.map (sprint real)) ++ "]".toList) ∧
    (∀ m : List (Str × Json), ∃ ps : List (Str × Json), (∀ k v, (k, v) ∈ ps ↔ Has m k v) ∧
      (ps.Pairwise fun a b => compare a.1 b.1 = .lt) ∧
      sprint real (.obj m) = "map[".toList ++ List.intercalate " ".toList (ps.map fun p => p.1 ++ ":".toList ++ sprint real p.2) ++
        "]".toList) := by
  refine ⟨fun l => ?_, fun m => ⟨sorted (toMap m), ?_, sorted_increasing _ (toMap_nodup m), ?_⟩⟩
  · rw [sprint, join_intercalate, sprintList_map]; rfl
  · intro k v; rw [mem_sorted, has_iff]
  · rw [sprint, join_intercalate, sprintMembers_map, toMap_map, sorted_map, List.map_map]
    congr 3
    refine List.map_congr_left fun p _ => ?_
    show p.1 ++ ':' :: sprint real p.2 = p.1 ++ [':'] ++ sprint real p.2
    simp

example : sprint id (.arr [.int 1, .str "a b".toList, .arr []]) = "[1 a b []]".toList ∧
    sprint id (.obj [("b".toList, .int 1), ("a".toList, .bool true), ("b".toList, .int 2)]) = "map[a:true b:2]".toList := by decide +kernel

/-- The blanks do not tell where a value ends: different lists arrive as the same text. -/
theorem C83_env_ambiguous : sprint id (.arr [.str "a".toList, .str "b".toList]) = sprint id (.arr [.str "a b".toList]) := by decide +kernel

/-! ### The admitted versions of Go -/

theorem number_parse {s : Str} {M m : Nat} (h : Number s M m) (hM : M < 2 ^ 63) (hm : m < 2 ^ 63) :
    ∃ g, parseGoVersionNumber s = some g ∧ g.major = M ∧ g.minor = m := by
  cases h with
  | plain _ _ =>
    have := number_minor M m [] hM hm (by simp) (by simp)
    rw [List.append_nil] at this
    exact ⟨_, this, rfl, rfl⟩
  | patch _ _ p hp => exact ⟨_, number_patch M m p hM hm hp, rfl, rfl⟩

theorem number_head {s : Str} {M m : Nat} (h : Number s M m) : ∃ d r, s = d :: r ∧ d.isDigit = true := by
  have : ∀ t : Str, ∃ d r, Nat.toDigits 10 M ++ t = d :: r ∧ d.isDigit = true := by
    intro t
    cases hd : Nat.toDigits 10 M with
    | nil => exact absurd hd Nat.toDigits_ne_nil
    | cons d r =>
      have hmem : d ∈ Nat.toDigits 10 M := by rw [hd]; simp
      exact ⟨d, r ++ t, rfl, Nat.isDigit_of_mem_toDigits (by decide) (by decide) hmem⟩
  cases h with
  | plain _ _ => exact this _
  | patch _ _ p hp => rw [List.append_assoc]; exact this _

theorem bound_trim {s : Str} {M m : Nat} (h : Bound s M m) : s ≠ [] ∧ Number (trimGo s) M m := by
  rcases h with h | ⟨t, rfl, h⟩
  · obtain ⟨d, r, e, hd⟩ := number_head h
    refine ⟨by rw [e]; simp, ?_⟩
    have : trimGo s = s := by
      rw [trimGo, if_neg]
      intro hp
      obtain ⟨x, hx⟩ := List.isPrefixOf_iff_prefix.mp hp
      rw [e] at hx
      have : 'g' = d := Option.some.inj (congrArg List.head? hx)
      subst this
      exact absurd hd (by decide)
    rw [this]; exact h
  · refine ⟨by simp, ?_⟩
    have : trimGo ("go".toList ++ t) = t := by
      rw [trimGo, if_pos (List.isPrefixOf_iff_prefix.mpr ⟨t, rfl⟩)]; rfl
    rw [this]; exact h

theorem compare_atLeast {g b : GoInfo} {M m M' m' : Nat} (h1 : g.major = M) (h2 : g.minor = m) (h3 : b.major = M') (h4 : b.minor = m') :
    (¬ compareMinor g b < 0 ↔ AtLeast M m M' m') ∧ (¬ compareMinor g b > 0 ↔ AtLeast M' m' M m) := by
  unfold compareMinor AtLeast
  rw [h1, h2, h3, h4]
  by_cases h : (M : Int) ≠ M'
  · rw [if_pos h]; omega
  · rw [if_neg h]; omega

theorem below_iff {g : GoInfo} {M m M' m' : Nat} {s : Str} (h1 : g.major = M) (h2 : g.minor = m) (hs : Bound s M' m')
    (hM : M' < 2 ^ 63) (hm : m' < 2 ^ 63) :
    (below g s = false ↔ AtLeast M m M' m') ∧ (above g s = false ↔ AtLeast M' m' M m) := by
  obtain ⟨hne, hn⟩ := bound_trim hs
  obtain ⟨b, hb, e1, e2⟩ := number_parse hn hM hm
  have := compare_atLeast h1 h2 e1 e2
  unfold below above
  rw [hb]
  simp only [hne, ne_eq, not_false_eq_true, decide_true, Bool.true_and, decide_eq_false_iff_not]
  exact this

/-- **C83** (range of versions) If the installed Go prints the version `M.m` and the file names bounds, the tests run if and only if
    `M.m` lies within the bounds, inclusive; patch numbers do not matter. An absent bound does not bound. -/
theorem C83_go_range (M m Mlo mlo Mhi mhi : Nat) (lo hi out : Str) (g : GoInfo) (hout : parseGoVersion out = some g)
    (hM : g.major = M) (hm : g.minor = m)
    (hlo : Bound lo Mlo mlo) (hhi : Bound hi Mhi mhi) (b1 : Mlo < 2 ^ 63) (b2 : mlo < 2 ^ 63) (b3 : Mhi < 2 ^ 63) (b4 : mhi < 2 ^ 63) :
    (validate (some out) (some ⟨lo, hi⟩) = true ↔ AtLeast M m Mlo mlo ∧ AtLeast Mhi mhi M m) ∧
    (validate (some out) (some ⟨lo, []⟩) = true ↔ AtLeast M m Mlo mlo) ∧
    (validate (some out) (some ⟨[], hi⟩) = true ↔ AtLeast Mhi mhi M m) ∧
    (validate none (some ⟨lo, hi⟩) = false) ∧ (∀ v, validate v none = true ∧ validate v (some ⟨[], []⟩) = true) := by
  have l := (below_iff hM hm hlo b1 b2).1
  have u := (below_iff hM hm hhi b3 b4).2
  have nl : lo ≠ [] := (bound_trim hlo).1
  have nh : hi ≠ [] := (bound_trim hhi).1
  have e1 : ∀ v, below v [] = false := fun v => rfl
  have e2 : ∀ v, above v [] = false := fun v => rfl
  refine ⟨?_, ?_, ?_, ?_, fun v => ⟨rfl, rfl⟩⟩
  · rw [validate, ← l, ← u]
    simp only
    rw [if_neg (fun h => nl h.1), Option.bind_some, hout]
    simp
  · rw [validate, ← l]
    simp only
    rw [if_neg (fun h => nl h.1), Option.bind_some, hout]
    simp [e2]
  · rw [validate, ← u]
    simp only
    rw [if_neg (fun h => nh h.2), Option.bind_some, hout]
    simp [e1]
  · rw [validate]
    simp only
    rw [if_neg (fun h => nl h.1)]
    rfl

/-- **C83** (from the file) `{"go": {"min": lo, "max": hi}}` and `{"go": "lo"}` are such bounds. -/
theorem C83_go_setting {marshal : Json → Str} {m : List (Str × Json)} {c : Config} (h : parse marshal (.obj m) = some c) :
    (∀ s, Has m "go".toList (.str s) → c.go = some ⟨s, []⟩) ∧
    (∀ l lo hi, Has m "go".toList (.obj l) → (∀ p ∈ l, Named p.1 "min" → p.1 = "min".toList) → (∀ p ∈ l, Named p.1 "max" → p.1 = "max".toList) →
      (Has l "min".toList (.str lo) ∨ ((∀ p ∈ l, ¬ Named p.1 "min") ∧ lo = [])) →
      (Has l "max".toList (.str hi) ∨ ((∀ p ∈ l, ¬ Named p.1 "max") ∧ hi = [])) → c.go = some ⟨lo, hi⟩) ∧
    (Unset m "go" → c.go = none) := by
  obtain ⟨a, b, d⟩ := settings_go h
  refine ⟨b, ?_, a⟩
  intro l lo hi hl o1 o2 h1 h2
  obtain ⟨g, hg, hd⟩ := d l hl
  have e1 : g.min = lo := by
    rcases h1 with h1 | ⟨h1, rfl⟩
    · exact go_min hd h1 o1
    · exact (go_no hd).1 h1
  have e2 : g.max = hi := by
    rcases h2 with h2 | ⟨h2, rfl⟩
    · exact go_max hd h2 o2
    · exact (go_no hd).2 h2
  rw [hg, ← e1, ← e2]

/-- A bound that is not a version is ignored, although the file is accepted: `"go": "latest"` admits every Go. -/
theorem C83_bad_bound (out : Str) (g : GoInfo) (h : parseGoVersion out = some g) :
    validate (some out) (some ⟨"latest".toList, []⟩) = true ∧ validate (some out) (some ⟨"v1.99".toList, []⟩) = true := by
  have a : parseGoVersionNumber (trimGo "latest".toList) = none := by decide +kernel
  have b : parseGoVersionNumber (trimGo "v1.99".toList) = none := by decide +kernel
  constructor
  · rw [validate]; simp only; rw [if_neg (by decide), Option.bind_some, h]; simp only [below, above, a]; rfl
  · rw [validate]; simp only; rw [if_neg (by decide), Option.bind_some, h]; simp only [below, above, b]; rfl

example : validate (some "go version go1.18.10 linux/amd64".toList) (some ⟨"1.18.99".toList, "go1.20".toList⟩) = true ∧
    validate (some "go version go1.17.5 linux/amd64".toList) (some ⟨"1.18".toList, []⟩) = false ∧
    validate (some "go version go1.21.0 linux/amd64".toList) (some ⟨[], "1.20".toList⟩) = false := by decide +kernel

example : Bound "go1.20".toList 1 20 ∧ Number "1.18.99".toList 1 18 :=
  ⟨.inr ⟨"1.20".toList, rfl, .plain 1 20⟩, .patch 1 18 99 (by decide)⟩

/-! ### The command line and the file -/

/-- **C83** (precedence) The command is the one of the command line, else of the file, else the default; excluded directories, flags
    and arguments of the command line follow those of the file. -/
theorem C83_merge (x : Option Str) (o : Opts) (c : Config) :
    (o.goCommand ≠ [] → (merge x o c).goCmd = o.goCommand) ∧
    (o.goCommand = [] → c.goCmd ≠ [] → (merge x o c).goCmd = c.goCmd) ∧
    (o.goCommand = [] → c.goCmd = [] → (merge x o c).goCmd = o.defaultGoCommand) ∧
    (merge x o c).exclude = c.exclude ++ o.exclude ∧ (merge x o c).args = c.args ++ o.args ∧
    (c.flags ++ o.flags) <+: (merge x o c).flags ∧
    (merge x o c).env = c.env ∧ (merge x o c).go = c.go ∧ (merge x o c).bypass = c.bypass := by
  refine ⟨fun h => ?_, fun h h' => ?_, fun h h' => ?_, rfl, rfl, ⟨_, rfl⟩, rfl, rfl, rfl⟩
  · rw [merge]; simp only; rw [if_pos h]
  · rw [merge]; simp only; rw [if_neg (by simp [h]), if_pos h']
  · rw [merge]; simp only; rw [if_neg (by simp [h]), if_neg (by simp [h'])]

/-- **C83** (mock rules) With the command `xgo`, of a version that knows them, every rule of the file follows the flags, behind its
    own `--mock-rule` and in the order of the file; with any other command there is none. -/
theorem C83_mock_rules (x : Option Str) (o : Opts) (c : Config) :
    ((merge x o c).goCmd = "xgo".toList → supports x = true →
      (merge x o c).flags = c.flags ++ o.flags ++ (c.mockRules.map fun r => ["--mock-rule".toList, r]).flatten) ∧
    ((merge x o c).goCmd ≠ "xgo".toList → (merge x o c).flags = c.flags ++ o.flags) := by
  have hr : ∀ l : List Str, ruleFlags l = (l.map fun r => ["--mock-rule".toList, r]).flatten := by
    intro l
    induction l with
    | nil => rfl
    | cons r l ih => rw [ruleFlags, ih]; rfl
  unfold merge
  simp only
  constructor
  · intro h1 h2
    by_cases h3 : c.mockRules = []
    · rw [if_neg (fun h => h.2.1 h3), h3]; rfl
    · rw [if_pos ⟨h1, h3, h2⟩, hr]
  · intro h1
    rw [if_neg (fun h => h1 h.1), List.append_nil]

/-- **C83** (which xgo) Of the versions `1.0.N`, those above `1.0.44` know mock rules, and so does every version that is not `1.0.…`.
    An `xgo` that cannot even print its version is taken for one that does. -/
theorem C83_supports (n : Nat) (hn : n < 2 ^ 63) (v : Str) :
    (supports (some ("1.0.".toList ++ Nat.toDigits 10 n)) = true ↔ 44 < n) ∧
    (¬ "1.0.".toList <+: v → supports (some v) = true) ∧ supports none = true := by
  refine ⟨?_, ?_, rfl⟩
  · rw [supports]
    simp only [Option.getD_some]
    have hp : "1.0.".toList.isPrefixOf ("1.0.".toList ++ Nat.toDigits 10 n) = true :=
      List.isPrefixOf_iff_prefix.mpr (List.prefix_append ..)
    have hd : ("1.0.".toList ++ Nat.toDigits 10 n).drop 4 = Nat.toDigits 10 n := rfl
    rw [hp, hd, parseInt64_nat hn]
    simp
    omega
  · intro h
    rw [supports]
    simp only [Option.getD_some]
    rw [if_pos]
    rw [Bool.not_eq_true', ← Bool.not_eq_true, List.isPrefixOf_iff_prefix]
    exact h

/-- **C83** (coverage) Coverage is measured unless the command line or the file switch it off; profile and base of the command line go
    before those of the file. -/
theorem C83_coverage (x : Option Str) (o : Opts) (c : Config) : ∃ v, (merge x o c).coverage = some v ∧
    (v.disabled = true ↔ o.coverage = "false".toList ∨ ∃ w, c.coverage = some w ∧ w.disabled = true) ∧
    (v.disabled = false → v.profile = (if o.coverageProfile ≠ [] then o.coverageProfile else (c.coverage.map (·.profile)).getD []) ∧
      v.diffWith = (if o.coverageDiffWith ≠ [] then o.coverageDiffWith else (c.coverage.map (·.diffWith)).getD [])) ∧
    v.include_ = (c.coverage.map (·.include_)).getD [] ∧ v.exclude = (c.coverage.map (·.exclude)).getD [] := by
  have z1 : (c.coverage.map (·.profile)).getD [] = (c.coverage.getD Cov.zero).profile := by cases c.coverage <;> rfl
  have z2 : (c.coverage.map (·.diffWith)).getD [] = (c.coverage.getD Cov.zero).diffWith := by cases c.coverage <;> rfl
  have z3 : (c.coverage.map (·.include_)).getD [] = (c.coverage.getD Cov.zero).include_ := by cases c.coverage <;> rfl
  have z4 : (c.coverage.map (·.exclude)).getD [] = (c.coverage.getD Cov.zero).exclude := by cases c.coverage <;> rfl
  rw [z1, z2, z3, z4]
  refine ⟨mergeCoverage o c.coverage, rfl, ?_, ?_, ?_⟩
  · unfold mergeCoverage
    by_cases h : o.coverage = "false".toList
    · rw [if_pos h]; exact ⟨fun _ => .inl h, fun _ => rfl⟩
    · rw [if_neg h]
      have : ∀ d : Cov, (if o.coverageDiffWith ≠ [] then { d with diffWith := o.coverageDiffWith } else d).disabled = d.disabled := by
        intro d; split <;> rfl
      simp only
      rw [this]
      have h2 : ∀ d : Cov, (if o.coverageProfile ≠ [] then { d with profile := o.coverageProfile } else d).disabled = d.disabled := by
        intro d; split <;> rfl
      rw [h2]
      cases hc : c.coverage with
      | none =>
        refine ⟨fun e => (by cases e), ?_⟩
        rintro (e | ⟨w, e, _⟩)
        · exact absurd e h
        · cases e
      | some w =>
        refine ⟨fun e => .inr ⟨w, rfl, e⟩, ?_⟩
        rintro (e | ⟨w', e, hw⟩)
        · exact absurd e h
        · cases e; exact hw
  · intro hd
    unfold mergeCoverage at hd ⊢
    by_cases h : o.coverage = "false".toList
    · rw [if_pos h] at hd; cases hd
    · rw [if_neg h]
      simp only
      constructor
      · split <;> split <;> rfl
      · split <;> split <;> rfl
  · unfold mergeCoverage
    by_cases h : o.coverage = "false".toList
    · rw [if_pos h]; exact ⟨rfl, rfl⟩
    · rw [if_neg h]
      simp only
      constructor
      · split <;> split <;> rfl
      · split <;> split <;> rfl

/-- `--coverage` (or `--coverage=true`) does not switch on what the file switches off. -/
theorem C83_coverage_true (marshal : Json → Str) (x : Option Str) (o : Opts) (h : o.coverage = "true".toList) : ∃ c v,
    load marshal x o false (.json (.obj [("coverage".toList, .bool false)])) = some c ∧ c.coverage = some v ∧ v.disabled = true := by
  have hp : parse marshal (.obj [("coverage".toList, .bool false)]) =
      some { Config.empty with coverage := some { Cov.zero with disabled := true } } := rfl
  obtain ⟨v, h1, h2, _⟩ := C83_coverage x o { Config.empty with coverage := some { Cov.zero with disabled := true } }
  exact ⟨_, v, by rw [load, hp]; rfl, h1, h2.mpr (.inr ⟨_, rfl, rfl⟩)⟩

/-- **C83** (no file) A missing file counts as an empty one, unless it was asked for; an unreadable file, and one that is not
    well-typed, end the command. -/
theorem C83_file (marshal : Json → Str) (x v : Option Str) (o : Opts) (cover tests : List Str) (j : Json) (required : Bool) :
    load marshal x o false .missing = load marshal x o false (.json (.obj [])) ∧
    command marshal x v o true .missing cover tests = none ∧
    command marshal x v o required .unreadable cover tests = none ∧ command marshal x v o required .bad cover tests = none ∧
    (¬ WellTyped j → command marshal x v o required (.json j) cover tests = none) := by
  refine ⟨rfl, rfl, rfl, rfl, fun h => ?_⟩
  have : parse marshal j = none := by
    cases hp : parse marshal j with
    | none => rfl
    | some c => exact absurd ((C83_accepts marshal j).mp ⟨c, hp⟩) h
  rw [command, load, this]
  rfl

/-- **C83** (the command) What is run, if the configuration and the version are admitted: `test -v`, the flags, the flags for coverage
    unless it is off, the tests; and behind `-args` the arguments, if there are any, with `--` before them if `bypass_go_flags` is on. -/
theorem C83_command {marshal : Json → Str} {x v : Option Str} {o : Opts} {required : Bool} {f : File} {cover tests : List Str}
    {prog : Str} {argv : List Str} (h : command marshal x v o required f cover tests = some (prog, argv)) :
    ∃ c cov, load marshal x o required f = some c ∧ c.coverage = some cov ∧ validate v c.go = true ∧
      (c.goCmd ≠ [] → prog = c.goCmd) ∧
      argv = "test".toList :: "-v".toList :: c.flags ++ (if cov.disabled then [] else cover) ++ tests ++
        (if c.args = [] then [] else "-args".toList :: (if c.bypass then ["--".toList] else []) ++ c.args) := by
  rw [command] at h
  obtain ⟨c, hc, h⟩ := Option.bind_eq_some_iff.mp h
  have hcov : ∃ cov, c.coverage = some cov := by
    cases f with
    | missing =>
      rw [load] at hc
      split at hc
      · cases hc
      · cases hc; exact ⟨_, rfl⟩
    | unreadable => cases hc
    | empty => cases hc; exact ⟨_, rfl⟩
    | bad => cases hc
    | json j =>
      obtain ⟨d, _, rfl⟩ := Option.map_eq_some_iff.mp hc
      exact ⟨_, rfl⟩
  obtain ⟨cov, hcov⟩ := hcov
  by_cases hv : validate v c.go = false
  · rw [if_pos hv] at h; cases h
  · rw [if_neg hv, hcov] at h
    simp only [Option.pure_def, Option.some.injEq, Prod.mk.injEq, Option.getD_some] at h
    refine ⟨c, cov, hc, hcov, by simpa using hv, fun hne => ?_, ?_⟩
    · rw [← h.1, if_neg hne]
    · rw [← h.2]
      have e : (if (!cov.disabled) = true then cover else []) = (if cov.disabled = true then [] else cover) := by
        cases cov.disabled <;> rfl
      rw [e]; rfl

/-- A file and a command line, with everything in them. -/
def sampleFile : Json := .obj
  [("go".toList, .obj [("min".toList, .str "1.18".toList)]), ("go_cmd".toList, .str "xgo".toList),
   ("flags".toList, .arr [.str "-p=12".toList]), ("args".toList, .str "--env=ci".toList), ("bypass_go_flags".toList, .bool true),
   ("mock_rules".toList, .arr [.obj [("any".toList, .bool true)], .null]), ("pre_test".toList, .str "x".toList),
   ("coverage".toList, .bool false)]

def sampleOpts : Opts := ⟨"go".toList, [], [], ["-race".toList], ["-v2".toList], [], [], []⟩

example : command (fun _ => "{\"any\":true}".toList) (some "1.1.7".toList) (some "go version go1.20.1 linux/amd64".toList) sampleOpts false
    (.json sampleFile) ["-cover".toList] ["./...".toList] =
    some ("xgo".toList, ["test".toList, "-v".toList, "-p=12".toList, "-race".toList, "--mock-rule".toList, "{\"any\":true}".toList,
      "./...".toList, "-args".toList, "--".toList, "--env=ci".toList, "-v2".toList]) := by decide +kernel

example : command (fun _ => []) none (some "go version go1.17.1 linux/amd64".toList) sampleOpts false (.json sampleFile) [] [] = none := by
  decide +kernel

/-- Not well-typed: a number as a minimum, a list of numbers as flags. -/
example : ¬ WellTyped (.obj [("go".toList, .obj [("min".toList, .real "1.18".toList)])]) ∧
    ¬ WellTyped (.obj [("flags".toList, .arr [.int 1])]) := by
  constructor <;> rw [← C83_accepts (fun _ => [])] <;> rintro ⟨c, h⟩ <;> cases h

end Verif.Cmd.TestConfig
