/-
Lemmas for the test explorer's configuration.
-/
import Verif.Cmd.TestConfigSpec
import Verif.Support.GoVersionProps

namespace Verif.Cmd.TestConfig
open Verif.Cmd.TestConfig.Spec Verif.Support Verif.Support.GoVersion

/-! ### Members of objects -/

theorem mem_toMap {α : Type} (l : List (Str × α)) (p : Str × α) :
    p ∈ toMap l ↔ ∃ a b, l = a ++ p :: b ∧ ∀ q ∈ b, q.1 ≠ p.1 := by
  induction l with
  | nil => simp [toMap]
  | cons q l ih =>
    unfold toMap
    by_cases h : l.any (fun r => r.1 = q.1) = true
    · rw [if_pos h, ih]
      constructor
      · rintro ⟨a, b, e, hb⟩
        exact ⟨q :: a, b, by rw [e]; rfl, hb⟩
      · rintro ⟨a, b, e, hb⟩
        cases a with
        | nil =>
          simp only [List.nil_append, List.cons.injEq] at e
          obtain ⟨r, hr, hq⟩ := List.any_eq_true.mp h
          exact absurd (by rw [← e.1]; exact of_decide_eq_true hq) (hb r (e.2 ▸ hr))
        | cons x a =>
          simp only [List.cons_append, List.cons.injEq] at e
          exact ⟨a, b, e.2, hb⟩
    · rw [if_neg h, List.mem_cons, ih]
      have h' : ∀ r ∈ l, r.1 ≠ q.1 := fun r hr e => h (List.any_eq_true.mpr ⟨r, hr, decide_eq_true e⟩)
      constructor
      · rintro (rfl | ⟨a, b, e, hb⟩)
        · exact ⟨[], l, rfl, h'⟩
        · exact ⟨q :: a, b, by rw [e]; rfl, hb⟩
      · rintro ⟨a, b, e, hb⟩
        cases a with
        | nil =>
          simp only [List.nil_append, List.cons.injEq] at e
          exact .inl e.1.symm
        | cons x a =>
          simp only [List.cons_append, List.cons.injEq] at e
          exact .inr ⟨a, b, e.2, hb⟩

theorem has_iff (l : List (Str × Json)) (k : Str) (v : Json) : Has l k v ↔ (k, v) ∈ toMap l := (mem_toMap l (k, v)).symm

theorem toMap_sub {α : Type} (l : List (Str × α)) : ∀ p ∈ toMap l, p ∈ l := by
  intro p hp
  obtain ⟨a, b, e, _⟩ := (mem_toMap l p).mp hp
  rw [e]; simp

theorem toMap_nodup {α : Type} (l : List (Str × α)) : ((toMap l).map (·.1)).Nodup := by
  induction l with
  | nil => simp [toMap]
  | cons q l ih =>
    unfold toMap
    by_cases h : l.any (fun r => r.1 = q.1) = true
    · rw [if_pos h]; exact ih
    · rw [if_neg h, List.map_cons, List.nodup_cons]
      refine ⟨fun hm => ?_, ih⟩
      obtain ⟨r, hr, e⟩ := List.mem_map.mp hm
      exact h (List.any_eq_true.mpr ⟨r, toMap_sub l r hr, decide_eq_true e⟩)

theorem lookup_mem' {α : Type} (l : List (Str × α)) (k : Str) (v : α) (hn : (l.map (·.1)).Nodup) :
    l.lookup k = some v ↔ (k, v) ∈ l := by
  induction l with
  | nil => simp
  | cons p l ih =>
    obtain ⟨k', v'⟩ := p
    rw [List.map_cons, List.nodup_cons] at hn
    by_cases e : k = k'
    · subst e
      rw [List.lookup_cons_self]
      constructor
      · intro h; rw [Option.some.inj h]; exact List.mem_cons_self
      · intro h
        rcases List.mem_cons.mp h with h | h
        · rw [(Prod.mk.inj h).2]
        · exact absurd (List.mem_map_of_mem (f := (·.1)) h) hn.1
    · rw [List.lookup_cons, show (k == k') = false from beq_eq_false_iff_ne.mpr e]
      simp only
      rw [ih hn.2]
      simp [e]

theorem get_iff (l : List (Str × Json)) (k : String) (v : Json) : get l k = some v ↔ Has l k.toList v := by
  rw [get, lookup_mem' _ _ _ (toMap_nodup l), has_iff]

theorem has_exists {l : List (Str × Json)} {k : Str} (h : ∃ p ∈ l, p.1 = k) : ∃ v, Has l k v := by
  induction l with
  | nil => obtain ⟨p, hp, _⟩ := h; cases hp
  | cons q l ih =>
    by_cases h' : ∃ p ∈ l, p.1 = k
    · obtain ⟨v, a, b, e, hb⟩ := ih h'
      exact ⟨v, q :: a, b, by rw [e]; rfl, hb⟩
    · obtain ⟨p, hp, e⟩ := h
      rcases List.mem_cons.mp hp with rfl | hp
      · exact ⟨p.2, [], l, by rw [← e]; rfl, fun r hr e' => h' ⟨r, hr, e'⟩⟩
      · exact absurd ⟨p, hp, e⟩ h'

theorem get_none (l : List (Str × Json)) (k : String) : get l k = none ↔ ∀ p ∈ l, p.1 ≠ k.toList := by
  constructor
  · intro h p hp e
    obtain ⟨v, hv⟩ := has_exists ⟨p, hp, e⟩
    rw [(get_iff l k v).mpr hv] at h
    cases h
  · intro h
    cases hg : get l k with
    | none => rfl
    | some v =>
      obtain ⟨a, b, e, _⟩ := (get_iff l k v).mp hg
      exact absurd rfl (h (k.toList, v) (by rw [e]; simp))

/-- A key has at most one value. -/
theorem has_unique {l : List (Str × Json)} {k : Str} {v w : Json} (h : Has l k v) (h' : Has l k w) : v = w := by
  have n := toMap_nodup l
  have a := (lookup_mem' _ k v n).mpr ((has_iff l k v).mp h)
  have b := (lookup_mem' _ k w n).mpr ((has_iff l k w).mp h')
  rw [a] at b
  exact Option.some.inj b

theorem unset_iff (l : List (Str × Json)) (k : String) : Unset l k ↔ get l k = none ∨ get l k = some .null := by
  rw [Unset, get_none, get_iff]

/-- Reading a key: not set, or it has a value that is read. -/
theorem opt_some {α : Type} {m : List (Str × Json)} {k : String} {zero c : α} {read : Json → Option α} :
    opt m k zero read = some c ↔ (Unset m k ∧ c = zero) ∨ ∃ v, Has m k.toList v ∧ v ≠ .null ∧ read v = some c := by
  rw [unset_iff, opt]
  cases h : get m k with
  | none =>
    simp only [Option.some.injEq]
    constructor
    · rintro rfl; exact .inl ⟨.inl trivial, rfl⟩
    · rintro (⟨_, rfl⟩ | ⟨v, hv, _⟩)
      · rfl
      · rw [← get_iff, h] at hv; cases hv
  | some j =>
    have hj := (get_iff m k j).mp h
    by_cases hn : j = .null
    · subst hn
      simp only [Option.some.injEq]
      constructor
      · rintro rfl; exact .inl ⟨.inr trivial, rfl⟩
      · rintro (⟨_, rfl⟩ | ⟨v, hv, hne, _⟩)
        · rfl
        · exact absurd (has_unique hv hj) hne
    · have e : (opt m k zero read = some c) ↔ read j = some c := by
        rw [opt, h]
        cases j <;> first | rfl | exact absurd rfl hn
      rw [opt, h] at e
      rw [e]
      constructor
      · intro hr; exact .inr ⟨j, hj, hn, hr⟩
      · rintro (⟨h1 | h1, _⟩ | ⟨v, hv, _, hr⟩)
        · cases h1
        · exact absurd (Option.some.inj h1) hn
        · rw [← has_unique hv hj]; exact hr

theorem opt_unset {α : Type} {m : List (Str × Json)} {k : String} (zero : α) (read : Json → Option α) (h : Unset m k) :
    opt m k zero read = some zero := opt_some.mpr (.inl ⟨h, rfl⟩)

theorem unset_null {m : List (Str × Json)} {k : String} {v : Json} (h : Unset m k) (hv : Has m k.toList v) : v = .null := by
  rcases h with h | h
  · obtain ⟨a, b, e, _⟩ := hv
    exact absurd rfl (h (k.toList, v) (by rw [e]; exact List.mem_append_right _ List.mem_cons_self))
  · exact has_unique hv h

theorem opt_given {α : Type} {m : List (Str × Json)} {k : String} {zero : α} {read : Json → Option α} {v : Json}
    (hv : Has m k.toList v) (hn : v ≠ .null) {c : α} (h : opt m k zero read = some c) : read v = some c := by
  rcases opt_some.mp h with ⟨hu, _⟩ | ⟨w, hw, _, h⟩
  · exact absurd (unset_null hu hv) hn
  · rw [has_unique hv hw]; exact h

theorem opt_isSome {α : Type} {m : List (Str × Json)} {k : String} {zero : α} {read : Json → Option α} :
    (∃ c, opt m k zero read = some c) ↔ ∀ v, Has m k.toList v → v = .null ∨ ∃ c, read v = some c := by
  constructor
  · rintro ⟨c, h⟩ v hv
    rcases opt_some.mp h with ⟨hu, _⟩ | ⟨w, hw, hne, hr⟩
    · rcases hu with hu | hu
      · obtain ⟨a, b, e, _⟩ := hv
        exact absurd rfl (hu (k.toList, v) (by rw [e]; simp))
      · exact .inl (has_unique hv hu)
    · exact .inr ⟨c, by rw [has_unique hv hw]; exact hr⟩
  · intro h
    cases hg : get m k with
    | none => exact ⟨zero, opt_some.mpr (.inl ⟨(unset_iff m k).mpr (.inl hg), rfl⟩)⟩
    | some v =>
      have hv := (get_iff m k v).mp hg
      by_cases hn : v = .null
      · exact ⟨zero, opt_some.mpr (.inl ⟨(unset_iff m k).mpr (.inr (hn ▸ hg)), rfl⟩)⟩
      · rcases h v hv with e | ⟨c, hc⟩
        · exact absurd e hn
        · exact ⟨c, opt_some.mpr (.inr ⟨v, hv, hn, hc⟩)⟩

/-! ### Sorting keeps the members -/

theorem mem_ins {α : Type} (p q : Str × α) (l : List (Str × α)) : q ∈ ins p l ↔ q = p ∨ q ∈ l := by
  induction l with
  | nil => simp [ins]
  | cons r l ih =>
    unfold ins
    by_cases h : strLt p.1 r.1 = true
    · rw [if_pos h]; simp
    · rw [if_neg h, List.mem_cons, ih, List.mem_cons]
      constructor
      · rintro (h | h | h)
        · exact .inr (.inl h)
        · exact .inl h
        · exact .inr (.inr h)
      · rintro (h | h | h)
        · exact .inr (.inl h)
        · exact .inl h
        · exact .inr (.inr h)

theorem mem_sorted {α : Type} (q : Str × α) (l : List (Str × α)) : q ∈ sorted l ↔ q ∈ l := by
  induction l with
  | nil => simp [sorted]
  | cons p l ih =>
    show q ∈ ins p (sorted l) ↔ _
    rw [mem_ins, ih, List.mem_cons]

/-! ### Decoding into structures -/

theorem foldlM_isSome {α β : Type} (f : α → β → Option α) (P : β → Prop) (hf : ∀ c p, (∃ c', f c p = some c') ↔ P p)
    (l : List β) : ∀ c, (∃ c', l.foldlM f c = some c') ↔ ∀ p ∈ l, P p := by
  induction l with
  | nil => intro c; simp
  | cons p l ih =>
    intro c
    rw [List.foldlM_cons]
    constructor
    · rintro ⟨c', h⟩
      obtain ⟨d, hd, h⟩ := Option.bind_eq_some_iff.mp h
      intro q hq
      rcases List.mem_cons.mp hq with rfl | hq
      · exact (hf c q).mp ⟨d, hd⟩
      · exact (ih d).mp ⟨c', h⟩ q hq
    · intro h
      obtain ⟨d, hd⟩ := (hf c p).mpr (h p List.mem_cons_self)
      obtain ⟨c', hc⟩ := (ih d).mpr (fun q hq => h q (List.mem_cons_of_mem _ hq))
      exact ⟨c', Option.bind_eq_some_iff.mpr ⟨d, hd, hc⟩⟩

/-- Decoding: what each field gets. `pr` reads the field. -/
theorem foldlM_field {α γ : Type} (f : α → Str × Json → Option α) (pr : α → γ) (name : String) (s : γ)
    (hset : ∀ c c' p, f c p = some c' → ¬ Named p.1 name → pr c' = pr c)
    (l : List (Str × Json))
    (hone : ∀ p ∈ l, Named p.1 name → ∀ c c', f c p = some c' → pr c' = s) :
    ∀ c c', l.foldlM f c = some c' →
      ((∃ p ∈ l, Named p.1 name) → pr c' = s) ∧ ((∀ p ∈ l, ¬ Named p.1 name) → pr c' = pr c) := by
  induction l with
  | nil =>
    intro c c' h
    have h := Option.some.inj h
    exact ⟨fun ⟨_, hp, _⟩ => absurd hp List.not_mem_nil, fun _ => by rw [h]⟩
  | cons p l ih =>
    intro c c' h
    rw [List.foldlM_cons] at h
    obtain ⟨d, hd, h⟩ := Option.bind_eq_some_iff.mp h
    obtain ⟨i1, i2⟩ := ih (fun q hq => hone q (List.mem_cons_of_mem _ hq)) d c' h
    constructor
    · rintro ⟨q, hq, hn⟩
      by_cases h1 : ∃ q ∈ l, Named q.1 name
      · exact i1 h1
      · rw [i2 (fun r hr hn => h1 ⟨r, hr, hn⟩)]
        rcases List.mem_cons.mp hq with rfl | hq
        · exact hone q List.mem_cons_self hn c d hd
        · exact absurd ⟨q, hq, hn⟩ h1
    · intro hno
      rw [i2 (fun r hr => hno r (List.mem_cons_of_mem _ hr)), hset c d p hd (hno p List.mem_cons_self)]

theorem isField_iff (k : Str) (name : String) : isField k name = true ↔ Named k name := by
  simp [isField, Named]

theorem named_ne {k : Str} {a b : String} (h : a.toList ≠ b.toList) (ha : Named k a) : ¬ Named k b :=
  fun hb => h (ha.symm.trans hb)

theorem intoStr_isSome (old : Str) (j : Json) : (∃ s, intoStr old j = some s) ↔ j = .null ∨ IsStr j := by
  cases j <;> simp [intoStr, IsStr]

theorem intoBool_isSome (old : Bool) (j : Json) : (∃ s, intoBool old j = some s) ↔ j = .null ∨ IsBool j := by
  cases j <;> simp [intoBool, IsBool]

theorem elements_isSome (l : List Json) : (∃ s, elements l = some s) ↔ ∀ x ∈ l, x = .null ∨ IsStr x := by
  induction l with
  | nil => simp [elements]
  | cons x l ih =>
    cases x with
    | str s =>
      rw [elements]
      simp only [Option.map_eq_some_iff, List.mem_cons, forall_eq_or_imp]
      constructor
      · rintro ⟨_, t, ht, _⟩; exact ⟨.inr ⟨s, rfl⟩, ih.mp ⟨t, ht⟩⟩
      · rintro ⟨_, h⟩; obtain ⟨t, ht⟩ := ih.mpr h; exact ⟨_, t, ht, rfl⟩
    | null =>
      rw [elements]
      simp only [Option.map_eq_some_iff, List.mem_cons, forall_eq_or_imp]
      constructor
      · rintro ⟨_, t, ht, _⟩; exact ⟨.inl trivial, ih.mp ⟨t, ht⟩⟩
      · rintro ⟨_, h⟩; obtain ⟨t, ht⟩ := ih.mpr h; exact ⟨_, t, ht, rfl⟩
    | _ => simp [elements, IsStr]

theorem intoList_isSome (j : Json) : (∃ s, intoList j = some s) ↔ j = .null ∨ IsTexts j := by
  cases j with
  | arr l => rw [intoList, elements_isSome]; simp [IsTexts]
  | _ => simp [intoList, IsTexts]

theorem map_isSome {α β : Type} (o : Option α) (f : α → β) : (∃ c, o.map f = some c) ↔ ∃ c, o = some c := by
  cases o <;> simp

/-- One member may be decoded if it fits the field it goes to. -/
theorem goField_isSome (c : GoConf) (p : Str × Json) : (∃ c', goField c p = some c') ↔
    (Named p.1 "min" → p.2 = .null ∨ IsStr p.2) ∧ (Named p.1 "max" → p.2 = .null ∨ IsStr p.2) := by
  unfold goField
  by_cases h1 : isField p.1 "min" = true
  · have n1 := (isField_iff _ _).mp h1
    rw [if_pos h1, map_isSome, intoStr_isSome]
    exact ⟨fun h => ⟨fun _ => h, fun h' => absurd h' (named_ne (by decide) n1)⟩, fun h => h.1 n1⟩
  · rw [if_neg h1]
    have n1 : ¬ Named p.1 "min" := fun h => h1 ((isField_iff _ _).mpr h)
    by_cases h2 : isField p.1 "max" = true
    · have n2 := (isField_iff _ _).mp h2
      rw [if_pos h2, map_isSome, intoStr_isSome]
      exact ⟨fun h => ⟨fun h' => absurd h' n1, fun _ => h⟩, fun h => h.2 n2⟩
    · rw [if_neg h2]
      have n2 : ¬ Named p.1 "max" := fun h => h2 ((isField_iff _ _).mpr h)
      exact ⟨fun _ => ⟨fun h => absurd h n1, fun h => absurd h n2⟩, fun _ => ⟨_, rfl⟩⟩

theorem xgoField_isSome (c : Bool) (p : Str × Json) : (∃ c', xgoField c p = some c') ↔
    (Named p.1 "auto_update" → p.2 = .null ∨ IsBool p.2) := by
  unfold xgoField
  by_cases h1 : isField p.1 "auto_update" = true
  · have n1 := (isField_iff _ _).mp h1
    rw [if_pos h1, intoBool_isSome]
    exact ⟨fun h _ => h, fun h => h n1⟩
  · rw [if_neg h1]
    exact ⟨fun _ h => absurd ((isField_iff _ _).mpr h) h1, fun _ => ⟨_, rfl⟩⟩

theorem covField_isSome (c : Cov) (p : Str × Json) : (∃ c', covField c p = some c') ↔
    (Named p.1 "disabled" → p.2 = .null ∨ IsBool p.2) ∧ (Named p.1 "diff_with" → p.2 = .null ∨ IsStr p.2) ∧
    (Named p.1 "profile" → p.2 = .null ∨ IsStr p.2) ∧ (Named p.1 "include" → p.2 = .null ∨ IsTexts p.2) ∧
    (Named p.1 "exclude" → p.2 = .null ∨ IsTexts p.2) := by
  have no : ∀ {a b : String}, Named p.1 a → a.toList ≠ b.toList → ¬ Named p.1 b := fun h e => named_ne e h
  unfold covField
  by_cases h1 : isField p.1 "disabled" = true
  · have n := (isField_iff _ _).mp h1
    rw [if_pos h1, map_isSome, intoBool_isSome]
    exact ⟨fun h => ⟨fun _ => h, fun h' => absurd h' (no n (by decide)), fun h' => absurd h' (no n (by decide)),
      fun h' => absurd h' (no n (by decide)), fun h' => absurd h' (no n (by decide))⟩, fun h => h.1 n⟩
  rw [if_neg h1]
  have n1 : ¬ Named p.1 "disabled" := fun h => h1 ((isField_iff _ _).mpr h)
  by_cases h2 : isField p.1 "diff_with" = true
  · have n := (isField_iff _ _).mp h2
    rw [if_pos h2, map_isSome, intoStr_isSome]
    exact ⟨fun h => ⟨fun h' => absurd h' n1, fun _ => h, fun h' => absurd h' (no n (by decide)),
      fun h' => absurd h' (no n (by decide)), fun h' => absurd h' (no n (by decide))⟩, fun h => h.2.1 n⟩
  rw [if_neg h2]
  have n2 : ¬ Named p.1 "diff_with" := fun h => h2 ((isField_iff _ _).mpr h)
  by_cases h3 : isField p.1 "profile" = true
  · have n := (isField_iff _ _).mp h3
    rw [if_pos h3, map_isSome, intoStr_isSome]
    exact ⟨fun h => ⟨fun h' => absurd h' n1, fun h' => absurd h' n2, fun _ => h,
      fun h' => absurd h' (no n (by decide)), fun h' => absurd h' (no n (by decide))⟩, fun h => h.2.2.1 n⟩
  rw [if_neg h3]
  have n3 : ¬ Named p.1 "profile" := fun h => h3 ((isField_iff _ _).mpr h)
  by_cases h4 : isField p.1 "include" = true
  · have n := (isField_iff _ _).mp h4
    rw [if_pos h4, map_isSome, intoList_isSome]
    exact ⟨fun h => ⟨fun h' => absurd h' n1, fun h' => absurd h' n2, fun h' => absurd h' n3, fun _ => h,
      fun h' => absurd h' (no n (by decide))⟩, fun h => h.2.2.2.1 n⟩
  rw [if_neg h4]
  have n4 : ¬ Named p.1 "include" := fun h => h4 ((isField_iff _ _).mpr h)
  by_cases h5 : isField p.1 "exclude" = true
  · have n := (isField_iff _ _).mp h5
    rw [if_pos h5, map_isSome, intoList_isSome]
    exact ⟨fun h => ⟨fun h' => absurd h' n1, fun h' => absurd h' n2, fun h' => absurd h' n3, fun h' => absurd h' n4, fun _ => h⟩,
      fun h => h.2.2.2.2 n⟩
  rw [if_neg h5]
  have n5 : ¬ Named p.1 "exclude" := fun h => h5 ((isField_iff _ _).mpr h)
  exact ⟨fun _ => ⟨fun h => absurd h n1, fun h => absurd h n2, fun h => absurd h n3, fun h => absurd h n4, fun h => absurd h n5⟩,
    fun _ => ⟨_, rfl⟩⟩

theorem decode_isSome {α : Type} (f : α → Str × Json → Option α) (zero : α) (P : Str × Json → Prop)
    (hf : ∀ c p, (∃ c', f c p = some c') ↔ P p) (l : List (Str × Json)) :
    (∃ c, decode f zero (.obj l) = some c) ↔ ∀ k v, Has l k v → P (k, v) := by
  show (∃ c, (sorted (toMap l)).foldlM f zero = some c) ↔ _
  rw [foldlM_isSome f P hf]
  constructor
  · intro h k v hv
    exact h (k, v) ((mem_sorted _ _).mpr ((has_iff l k v).mp hv))
  · rintro h ⟨k, v⟩ hp
    exact h k v ((has_iff l k v).mpr ((mem_sorted _ _).mp hp))

theorem strings_isSome (l : List Json) : (∃ s, strings l = some s) ↔ ∀ x ∈ l, IsStr x := by
  induction l with
  | nil => simp [strings]
  | cons x l ih =>
    cases x with
    | str s =>
      rw [strings]
      simp only [Option.map_eq_some_iff, List.mem_cons, forall_eq_or_imp]
      constructor
      · rintro ⟨_, t, ht, _⟩; exact ⟨⟨s, rfl⟩, ih.mp ⟨t, ht⟩⟩
      · rintro ⟨_, h⟩; obtain ⟨t, ht⟩ := ih.mpr h; exact ⟨_, t, ht, rfl⟩
    | _ => simp [strings, IsStr]

theorem strings_some {l : List Json} {s : List Str} (h : strings l = some s) : l = s.map .str := by
  induction l generalizing s with
  | nil => cases (Option.some.inj h); rfl
  | cons x l ih =>
    cases x with
    | str t =>
      rw [strings] at h
      obtain ⟨u, hu, rfl⟩ := Option.map_eq_some_iff.mp h
      rw [ih hu]; rfl
    | _ => simp [strings] at h

theorem strings_map (s : List Str) : strings (s.map .str) = some s := by
  induction s with
  | nil => rfl
  | cons x s ih => rw [List.map_cons, strings, ih]; rfl

theorem marshaled_isSome (marshal : Json → Str) (l : List Json) : (∃ s, marshaled marshal l = some s) ↔ ∀ x ∈ l, ¬ IsStr x := by
  induction l with
  | nil => simp [marshaled]
  | cons x l ih =>
    cases x with
    | str s =>
      rw [marshaled]
      exact ⟨fun ⟨_, h⟩ => (by cases h), fun h => absurd ⟨s, rfl⟩ (h _ List.mem_cons_self)⟩
    | null =>
      rw [marshaled, ih]
      simp [IsStr]
    | _ =>
      simp only [marshaled, map_isSome, ih, List.mem_cons, forall_eq_or_imp]
      simp [IsStr]

theorem marshaled_some {marshal : Json → Str} {l : List Json} {s : List Str} (h : marshaled marshal l = some s) :
    s = (l.filter fun | .null => false | _ => true).map marshal := by
  induction l generalizing s with
  | nil => cases (Option.some.inj h); rfl
  | cons x l ih =>
    cases x with
    | str t => cases h
    | null => rw [marshaled] at h; rw [ih h]; rfl
    | _ =>
      simp only [marshaled] at h
      obtain ⟨u, hu, rfl⟩ := Option.map_eq_some_iff.mp h
      rw [ih hu]; rfl

end Verif.Cmd.TestConfig
