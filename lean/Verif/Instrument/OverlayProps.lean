/-
C33 (composition of overlays) and C44 (what is compiled under a user overlay).
-/
import Verif.Instrument.OverlaySpec

namespace Verif.Instrument.Overlay
open Spec

set_option linter.unusedSectionVars false
set_option linter.unusedVariables false

variable {α β : Type} [DecidableEq α]

/-! ### Maps -/

theorem get_nil (k : α) : Map.get ([] : Map α β) k = none := rfl

theorem get_cons (e : α × β) (m : Map α β) (k : α) :
    Map.get (e :: m) k = if k = e.1 then some e.2 else Map.get m k := by
  unfold Map.get
  rw [List.lookup_cons]
  by_cases h : k = e.1
  · simp [h]
  · have : (k == e.1) = false := by simpa using h
    simp [h, this]

theorem get_filter (m : Map α β) (k j : α) (h : k ≠ j) :
    Map.get (List.filter (fun e => decide (e.1 ≠ j)) m) k = Map.get m k := by
  induction m with
  | nil => rfl
  | cons e m ih =>
    rw [List.filter_cons, get_cons]
    split
    · rw [get_cons, ih]
    · rename_i hj
      simp at hj
      rw [ih, if_neg (by rw [hj]; exact h)]

theorem get_set (m : Map α β) (k j : α) (v : β) : (m.set j v).get k = if k = j then some v else m.get k := by
  unfold Map.set
  rw [get_cons]
  by_cases h : k = j
  · simp [h]
  · rw [if_neg h, if_neg h, get_filter m k j h]

theorem get_isSome_iff {m : Map α β} {k : α} : k ∈ m.keys ↔ m.get k ≠ none := by
  induction m with
  | nil => simp [Map.keys, get_nil]
  | cons e m ih =>
    rw [get_cons]
    simp only [Map.keys] at ih ⊢
    rw [List.map_cons, List.mem_cons, ih]
    by_cases h : k = e.1 <;> simp [h]

theorem get_copyOver (src : Map α α) (hn : src.keys.Nodup) (dst : Map α α) (k : α) :
    (copyOver dst src).get k = over src.get dst.get k := by
  induction src generalizing dst with
  | nil => simp [copyOver, over, get_nil]
  | cons e src ih =>
    simp only [Map.keys, List.map_cons, List.nodup_cons] at hn
    have := ih hn.2 (dst.set e.1 e.2)
    simp only [copyOver, List.foldl_cons] at this ⊢
    rw [this]
    unfold over
    rw [get_cons, get_set]
    by_cases h : k = e.1
    · have hk : Map.get src k = none := by
        apply Classical.byContradiction
        intro hc
        exact hn.1 (h ▸ get_isSome_iff.2 hc)
      simp [h] at hk ⊢
      simp [hk]
    · simp [h]

theorem keys_set_nodup {m : Map α β} (h : m.keys.Nodup) (k : α) (v : β) : (m.set k v).keys.Nodup := by
  unfold Map.set Map.keys
  rw [List.map_cons, List.nodup_cons]
  constructor
  · simp
  · unfold Map.keys at h
    exact h.sublist (List.filter_sublist.map _)

theorem canonicalReplace_nodup (p : List (Entry α)) : (canonicalReplace p).keys.Nodup := by
  unfold canonicalReplace
  suffices ∀ m : Map α α, m.keys.Nodup → (p.foldl canonicalStep m).keys.Nodup from this [] (by simp [Map.keys])
  induction p with
  | nil => intro m h; exact h
  | cons e p ih =>
    intro m h
    rw [List.foldl_cons]
    apply ih
    unfold canonicalStep
    split
    · exact keys_set_nodup h _ _
    · exact h

/-! ### Following replacements -/

theorem _root_.Verif.Instrument.Overlay.Spec.Ends.det {f : α → Option α} {a b c : α} (h₁ : Ends f a b) (h₂ : Ends f a c) : b = c := by
  induction h₁ with
  | here h =>
    cases h₂ with
    | here => rfl
    | step h' => rw [h] at h'; cases h'
  | step h _ ih =>
    cases h₂ with
    | here h' => rw [h] at h'; cases h'
    | step h' h'' => rw [h] at h'; cases h'; exact ih h''

/-- `Ends`, counting the steps. -/
inductive EndsN (f : α → Option α) : Nat → α → α → Prop
  | here {a : α} : f a = none → EndsN f 0 a a
  | step {n : Nat} {a b c : α} : f a = some b → EndsN f n b c → EndsN f (n + 1) a c

theorem _root_.Verif.Instrument.Overlay.Spec.Ends.count {f : α → Option α} {a b : α} (h : Ends f a b) : ∃ n, EndsN f n a b := by
  induction h with
  | here h => exact ⟨0, .here h⟩
  | step h _ ih => obtain ⟨n, hn⟩ := ih; exact ⟨n + 1, .step h hn⟩

theorem EndsN.det {f : α → Option α} {n m : Nat} {a b c : α} (h₁ : EndsN f n a b) (h₂ : EndsN f m a c) : n = m := by
  induction h₁ generalizing m with
  | here h =>
    cases h₂ with
    | here => rfl
    | step h' => rw [h] at h'; cases h'
  | step h _ ih =>
    cases h₂ with
    | here h' => rw [h] at h'; cases h'
    | step h' h'' => rw [h] at h'; cases h'; rw [ih h'']

theorem EndsN.along {f : α → Option α} : ∀ (mid : List α) {n : Nat} {a t x : α}, EndsN f n a t →
    Linked f (a :: (mid ++ [x])) → ∃ m, m < n ∧ EndsN f m x t
  | [], n, a, t, x, h, hl => by
    cases h with
    | here h => have := hl.1; rw [h] at this; cases this
    | step h h' =>
      have := hl.1; rw [h] at this; cases this
      exact ⟨_, Nat.lt_succ_self _, h'⟩
  | b :: mid, n, a, t, x, h, hl => by
    cases h with
    | here h => have := hl.1; rw [h] at this; cases this
    | step h h' =>
      have := hl.1; rw [h] at this; cases this
      obtain ⟨m, hm, hx⟩ := EndsN.along mid h' hl.2
      exact ⟨m, by omega, hx⟩

theorem Linked.right {f : α → Option α} : ∀ (pre l : List α), Linked f (pre ++ l) → Linked f l
  | [], _, h => h
  | [a], l, h => by
    cases l with
    | nil => trivial
    | cons b l => exact h.2
  | a :: b :: pre, l, h => Linked.right (b :: pre) l h.2

/-- From a file on a cycle there is no end. -/
theorem cycle_no_end {f : α → Option α} {l : List α} (h : Cycle f l) : ∃ x ∈ l, f x ≠ none ∧ ∀ t, ¬ Ends f x t := by
  obtain ⟨⟨pre, x, mid, rfl⟩, hl⟩ := h
  have hr := Linked.right pre _ hl
  refine ⟨x, by simp, ?_, ?_⟩
  · cases mid with
    | nil => rw [hr.1]; simp
    | cons b mid => rw [hr.1]; simp
  · intro t ht
    obtain ⟨n, hn⟩ := ht.count
    obtain ⟨m, hm, hx⟩ := hn.along mid hr
    have := hn.det hx
    omega

theorem Linked.snoc {f : α → Option α} : ∀ {l : List α} {a b : α}, Linked f (l ++ [a]) → f a = some b →
    Linked f (l ++ [a] ++ [b])
  | [], a, b, _, h => ⟨h, trivial⟩
  | [c], a, b, hl, h => ⟨hl.1, h, trivial⟩
  | c :: d :: l, a, b, hl, h => ⟨hl.1, Linked.snoc (l := d :: l) hl.2 h⟩

/-! ### `resolve` -/

/-- What is in the map `resolved` is right. -/
def Sound (comb resolved : Map α α) : Prop :=
  ∀ k t, resolved.get k = some t → comb.get k ≠ none ∧ Ends comb.get k t

theorem Sound.set {comb r : Map α α} (h : Sound comb r) {k t : α} (hk : comb.get k ≠ none)
    (he : Ends comb.get k t) : Sound comb (r.set k t) := by
  intro k' t' h'
  rw [get_set] at h'
  split at h'
  · rename_i e; subst e; cases h'; exact ⟨hk, he⟩
  · exact h k' t' h'

/-- What a call of `resolve` does. -/
theorem resolve_spec (comb r : Map α α) (path : List α) (s : α) (hs : Sound comb r)
    (hl : Linked comb.get (path ++ [s])) :
    Sound comb (resolve comb r path s).2 ∧
    (∀ k t, r.get k = some t → (resolve comb r path s).2.get k = some t) ∧
    (∀ t, (resolve comb r path s).1 = .ok t → Ends comb.get s t ∧
      (comb.get s ≠ none → (resolve comb r path s).2.get s = some t)) ∧
    (∀ c, (resolve comb r path s).1 = .error c → Cycle comb.get c) := by
  induction path, s using resolve.induct comb r with
  | case1 path s t h =>
    have : resolve comb r path s = (.ok t, r) := by rw [resolve]; simp [h]
    rw [this]
    refine ⟨hs, fun _ _ h => h, ?_, by simp⟩
    intro t' ht'; cases ht'
    exact ⟨(hs s t h).2, fun _ => h⟩
  | case2 path s h hp =>
    have : resolve comb r path s = (.error (path ++ [s]), r) := by rw [resolve]; simp [h, hp]
    rw [this]
    refine ⟨hs, fun _ _ h => h, by simp, ?_⟩
    intro c hc; cases hc
    obtain ⟨pre, mid, rfl⟩ := List.append_of_mem hp
    exact ⟨⟨pre, s, mid, by simp⟩, hl⟩
  | case3 path s h hp hm =>
    have : resolve comb r path s = (.ok s, r) := by
      rw [resolve]; simp only [h, dif_neg hp]; split <;> simp_all
    rw [this]
    refine ⟨hs, fun _ _ h => h, ?_, by simp⟩
    intro t ht; cases ht
    exact ⟨.here hm, fun hc => absurd hm hc⟩
  | case4 path s h hp target hm c r' hc ih =>
    have : resolve comb r path s = (.error c, r') := by
      rw [resolve]; simp only [h, dif_neg hp]; split <;> simp_all
    rw [this]
    have ih := ih (Linked.snoc hl hm)
    rw [hc] at ih
    refine ⟨ih.1, ih.2.1, by simp, ?_⟩
    intro c' hc'; cases hc'
    exact ih.2.2.2 c rfl
  | case5 path s h hp target hm t r' hc ih =>
    have : resolve comb r path s = (.ok t, r'.set s t) := by
      rw [resolve]; simp only [h, dif_neg hp]; split <;> simp_all
    rw [this]
    have ih := ih (Linked.snoc hl hm)
    rw [hc] at ih
    have he : Ends comb.get s t := .step hm (ih.2.2.1 t rfl).1
    have hne : comb.get s ≠ none := by rw [hm]; simp
    refine ⟨ih.1.set hne he, ?_, ?_, by simp⟩
    · intro k t' hk
      rw [get_set]
      split
      · rename_i e; subst e; rw [h] at hk; cases hk
      · exact ih.2.1 k t' hk
    · intro t' ht'; cases ht'
      exact ⟨he, fun _ => by rw [get_set]; simp⟩

theorem resolveAll_spec (comb : Map α α) : ∀ (ks : List α) (r : Map α α), Sound comb r →
    (∀ m, resolveAll comb r ks = .ok m → Sound comb m ∧ (∀ k t, r.get k = some t → m.get k = some t) ∧
      ∀ k ∈ ks, comb.get k ≠ none → m.get k ≠ none) ∧
    (∀ c, resolveAll comb r ks = .error c → Cycle comb.get c)
  | [], r, hs => by
    constructor
    · intro m hm; cases hm; exact ⟨hs, fun _ _ h => h, by simp⟩
    · intro c hc; cases hc
  | k :: ks, r, hs => by
    have h := resolve_spec comb r [] k hs (by trivial)
    rw [resolveAll]
    split
    · rename_i c r' hc
      rw [hc] at h
      exact ⟨by simp, fun c' hc' => by cases hc'; exact h.2.2.2 c rfl⟩
    · rename_i t r' hc
      rw [hc] at h
      obtain ⟨h1, h2, h3, _⟩ := h
      have ih := resolveAll_spec comb ks r' h1
      refine ⟨?_, ih.2⟩
      intro m hm
      obtain ⟨i1, i2, i3⟩ := ih.1 m hm
      refine ⟨i1, fun a b hab => i2 a b (h2 a b hab), ?_⟩
      intro k' hk' hne
      rcases List.mem_cons.1 hk' with rfl | hk'
      · rw [i2 _ _ ((h3 t rfl).2 hne)]; simp
      · exact i3 k' hk' hne

theorem resolveAll_keys (comb : Map α α) (ks : List α) (hk : ∀ k, k ∈ ks ↔ k ∈ comb.keys) :
    (∀ m, resolveAll comb [] ks = .ok m → ∀ k t, m.get k = some t ↔ comb.get k ≠ none ∧ Ends comb.get k t) ∧
    (∀ c, resolveAll comb [] ks = .error c → Cycle comb.get c) := by
  have h := resolveAll_spec comb ks [] (by intro k t h; simp [get_nil] at h)
  refine ⟨?_, h.2⟩
  intro m hm k t
  obtain ⟨h1, _, h3⟩ := h.1 m hm
  refine ⟨h1 k t, ?_⟩
  rintro ⟨hne, he⟩
  have := h3 k ((hk k).2 (get_isSome_iff.2 hne)) hne
  cases hg : m.get k with
  | none => exact absurd hg this
  | some t' => rw [he.det (h1 k t' hg).2]

/-- The mappings that are composed: those of `generated`, and those of the caller where there is none. -/
theorem combined_get (res can : α → α) (caller : Option (List (Entry α))) (generated : Option (Map α α)) :
    (combined res can caller generated).get =
      over (fun k => match generated with
          | some g => (canonicalReplace (parseGoOverlay res can g)).get k
          | none => none)
        (fun k => match caller with
          | some p => (canonicalReplace p).get k
          | none => none) := by
  funext k
  unfold combined
  have hc : ∀ p : List (Entry α), (copyOver [] (canonicalReplace p)).get k = (canonicalReplace p).get k := by
    intro p
    rw [get_copyOver _ (canonicalReplace_nodup p)]
    simp [over, get_nil]
  cases generated with
  | none =>
    cases caller with
    | none => rfl
    | some p => simp [over, hc]
  | some g =>
    simp only
    rw [get_copyOver _ (canonicalReplace_nodup _)]
    cases caller with
    | none => rfl
    | some p => simp [over, hc]

/-- **C33.** For all overlays, for every order of the keys: if composing succeeds, each file that is replaced in one
    of the overlays is mapped to the end of its chain of replacements, and no other file is mapped. -/
theorem C33_compose (order : List α → List α) (ho : ∀ l k, k ∈ order l ↔ k ∈ l) (res can : α → α)
    (caller : Option (List (Entry α))) (generated : Option (Map α α)) (m : Map α α)
    (h : compose order res can caller generated = .ok m) (k t : α) :
    m.get k = some t ↔
      (combined res can caller generated).get k ≠ none ∧ Ends (combined res can caller generated).get k t :=
  (resolveAll_keys _ _ (fun k => ho _ k)).1 m h k t

/-- **C33.** Composing fails exactly if from some file the replacements have no end. -/
theorem C33_fails_iff (order : List α → List α) (ho : ∀ l k, k ∈ order l ↔ k ∈ l) (res can : α → α)
    (caller : Option (List (Entry α))) (generated : Option (Map α α)) :
    (∃ c, compose order res can caller generated = .error c) ↔
      ∃ k, ∀ t, ¬ Ends (combined res can caller generated).get k t := by
  have hk := resolveAll_keys (combined res can caller generated) (order (combined res can caller generated).keys)
    (fun k => ho _ k)
  constructor
  · rintro ⟨c, hc⟩
    obtain ⟨x, _, _, hx⟩ := cycle_no_end (hk.2 c hc)
    exact ⟨x, hx⟩
  · rintro ⟨k, hn⟩
    cases hc : compose order res can caller generated with
    | error c => exact ⟨c, rfl⟩
    | ok m =>
      exfalso
      have hne : (combined res can caller generated).get k ≠ none := fun e => hn k (.here e)
      have h3 := ((resolveAll_spec _ _ [] (by intro k t h; simp [get_nil] at h)).1 m hc)
      have := h3.2.2 k ((ho _ k).2 (get_isSome_iff.2 hne)) hne
      cases hg : m.get k with
      | none => exact this hg
      | some t => exact hn t (h3.1 k t hg).2

/-- **C33.** The files named in the error form a cycle of replacements. -/
theorem C33_error_names_cycle (order : List α → List α) (ho : ∀ l k, k ∈ order l ↔ k ∈ l) (res can : α → α)
    (caller : Option (List (Entry α))) (generated : Option (Map α α)) (c : List α)
    (h : compose order res can caller generated = .error c) :
    Cycle (combined res can caller generated).get c :=
  (resolveAll_keys _ _ (fun k => ho _ k)).2 c h

/-- Two overlays with a chain of three. -/
example : compose (α := Nat) id id id (some (parseGoOverlay id id [(1, 2)])) (some [(2, 3), (3, 4)]) matches
    .ok [(1, 4), (2, 4), (3, 4)] := by decide +kernel

/-- A cycle. -/
example : compose (α := Nat) id id id none (some [(0, 1), (1, 2), (2, 1)])
    matches .error [0, 1, 2, 1] := by decide +kernel

/-! ### Spellings -/

theorem canonical_get (p : List (Entry α)) (m : Map α α) (k : α) :
    (p.foldl canonicalStep m).get k =
      match (p.filter (fun e => decide (e.sourceCanonical = k ∧ e.sourceInput = k))).getLast? with
      | some e => some e.targetCanonical
      | none =>
        match m.get k with
        | some t => some t
        | none => (p.find? (fun e => decide (e.sourceCanonical = k))).map (·.targetCanonical) := by
  induction p generalizing m with
  | nil => simp; cases m.get k <;> rfl
  | cons e p ih =>
    rw [List.foldl_cons, ih]
    unfold canonicalStep
    by_cases hc : e.sourceCanonical = k
    · subst hc
      by_cases hi : e.sourceInput = e.sourceCanonical
      · simp only [hi, or_true, if_true, get_set, List.filter_cons, and_self, decide_true]
        cases hl : (p.filter fun e' => decide (e'.sourceCanonical = e.sourceCanonical ∧ e'.sourceInput = e.sourceCanonical)) with
        | nil => simp
        | cons a l => simp [List.getLast?_cons]
      · have hfil : (e :: p).filter (fun e' => decide (e'.sourceCanonical = e.sourceCanonical ∧ e'.sourceInput = e.sourceCanonical))
            = p.filter (fun e' => decide (e'.sourceCanonical = e.sourceCanonical ∧ e'.sourceInput = e.sourceCanonical)) := by
          rw [List.filter_cons, if_neg]; simp [hi]
        have hfind : (e :: p).find? (fun e' => decide (e'.sourceCanonical = e.sourceCanonical)) = some e := by
          rw [List.find?_cons_of_pos]; simp
        rw [hfil, hfind]
        cases hl : (p.filter fun e' => decide (e'.sourceCanonical = e.sourceCanonical ∧ e'.sourceInput = e.sourceCanonical)).getLast? with
        | some a => rfl
        | none =>
          cases hm : m.get e.sourceCanonical with
          | none => simp [get_set]
          | some t => simp [hi, hm]
    · have h1 : ∀ c : Prop, ∀ [Decidable c], (if c then m.set e.sourceCanonical e.targetCanonical else m).get k = m.get k := by
        intro c _
        split
        · rw [get_set, if_neg (Ne.symm hc)]
        · rfl
      rw [h1]
      simp [hc]

/-- **C33.** If the overlay names a file in its canonical spelling, that mapping is taken, whatever the order in which
    Go goes through the map. -/
theorem C33_canonical_spelling_wins (p : List (Entry α)) (e : Entry α) (he : e ∈ p)
    (hc : e.sourceInput = e.sourceCanonical) (hu : ∀ e' ∈ p, e'.sourceInput = e.sourceInput → e' = e) :
    (canonicalReplace p).get e.sourceCanonical = some e.targetCanonical := by
  unfold canonicalReplace
  rw [canonical_get]
  have hmem : e ∈ p.filter (fun e' => decide (e'.sourceCanonical = e.sourceCanonical ∧ e'.sourceInput = e.sourceCanonical)) :=
    List.mem_filter.2 ⟨he, by simp [hc]⟩
  cases hl : (p.filter (fun e' => decide (e'.sourceCanonical = e.sourceCanonical ∧ e'.sourceInput = e.sourceCanonical))).getLast? with
  | none => rw [List.getLast?_eq_none_iff] at hl; rw [hl] at hmem; cases hmem
  | some e' =>
    have h' := List.mem_filter.1 (List.mem_of_getLast? hl)
    have := hu e' h'.1 (by simp at h'; rw [h'.2.2, hc])
    rw [this]

/-- **C33.** The canonical mappings are those of the overlay: a file is mapped exactly if one of its spellings is in
    the overlay, and then to the target of one of its spellings. -/
theorem C33_canonical_mappings (p : List (Entry α)) (k : α) :
    ((canonicalReplace p).get k ≠ none ↔ ∃ e ∈ p, e.sourceCanonical = k) ∧
    ∀ t, (canonicalReplace p).get k = some t → ∃ e ∈ p, e.sourceCanonical = k ∧ e.targetCanonical = t := by
  unfold canonicalReplace
  rw [canonical_get]
  cases hl : (p.filter (fun e => decide (e.sourceCanonical = k ∧ e.sourceInput = k))).getLast? with
  | some e =>
    have h := List.mem_filter.1 (List.mem_of_getLast? hl)
    simp at h
    exact ⟨⟨fun _ => ⟨e, h.1, h.2.1⟩, fun _ => by simp⟩, fun t ht => ⟨e, h.1, h.2.1, by simpa using ht⟩⟩
  | none =>
    simp only [get_nil]
    cases hf : p.find? (fun e => decide (e.sourceCanonical = k)) with
    | none =>
      rw [List.find?_eq_none] at hf
      refine ⟨⟨fun h => absurd rfl h, ?_⟩, by simp⟩
      rintro ⟨e, he, hk⟩
      exact absurd (decide_eq_true hk) (by simpa using hf e he)
    | some e =>
      have h1 := List.mem_of_find?_eq_some hf
      have h2 := List.find?_some hf
      simp at h2
      exact ⟨⟨fun _ => ⟨e, h1, h2⟩, fun _ => by simp⟩, fun t ht => ⟨e, h1, h2, by simpa using ht⟩⟩

/-- Without the canonical spelling in the overlay, which mapping is taken depends on the order in which Go goes
    through the map, which is random. -/
theorem C33_aliases_counterexample :
    ∃ (res can : Nat → Nat) (a b : Nat × Nat), (∀ x, can (can x) = can x) ∧ a.1 ≠ b.1 ∧
      (canonicalReplace (parseGoOverlay res can [a, b])).get 0 ≠ (canonicalReplace (parseGoOverlay res can [b, a])).get 0 := by
  refine ⟨id, fun x => if x < 10 then 0 else x, (1, 20), (2, 30), ?_, by decide, by decide⟩
  intro x
  by_cases h : x < 10 <;> simp [h]

/-- **C33.** Afterwards each spelling of a source in the user's overlay is mapped like the source itself, and the
    other mappings are as before. -/
theorem C33_project (res can : α → α) (hcan : ∀ x, can (can x) = can x) (input m : Map α α) :
    (∀ e ∈ parseGoOverlay res can input, m.get e.sourceCanonical ≠ none →
      (project (parseGoOverlay res can input) m).get e.sourceResolved = m.get e.sourceCanonical) ∧
    (∀ k, (∀ e ∈ parseGoOverlay res can input, e.sourceResolved ≠ k) ∨ can k = k →
      (project (parseGoOverlay res can input) m).get k = m.get k) := by
  have key : ∀ (q : List (Entry α)) (cur : Map α α), (∀ e ∈ q, e.sourceCanonical = can e.sourceResolved) →
      (∀ k, can k = k → cur.get k = m.get k) →
      (∀ k, can k = k → (project q cur).get k = m.get k) ∧
      (∀ k, (∀ e ∈ q, e.sourceResolved ≠ k) → (project q cur).get k = cur.get k) ∧
      (∀ k, m.get (can k) ≠ none → ((∃ e ∈ q, e.sourceResolved = k) ∨ cur.get k = m.get (can k)) →
        (project q cur).get k = m.get (can k)) := by
    intro q
    induction q with
    | nil =>
      intro cur _ hcur
      exact ⟨hcur, fun _ _ => rfl, fun k _ h => by simpa [project] using h⟩
    | cons e q ih =>
      intro cur hq hcur
      have hec : e.sourceCanonical = can e.sourceResolved := hq e (by simp)
      have hfix : can e.sourceCanonical = e.sourceCanonical := by rw [hec, hcan]
      have hval := hcur _ hfix
      have hstep : project (e :: q) cur = project q (match cur.get e.sourceCanonical with
          | some target => cur.set e.sourceResolved target
          | none => cur) := rfl
      rw [hstep]
      have hq' : ∀ e' ∈ q, e'.sourceCanonical = can e'.sourceResolved := fun e' h => hq e' (by simp [h])
      cases hg : cur.get e.sourceCanonical with
      | none =>
        have := ih cur hq' hcur
        refine ⟨this.1, fun k hk => this.2.1 k (fun e' h => hk e' (by simp [h])), ?_⟩
        intro k hne h
        refine this.2.2 k hne ?_
        rcases h with ⟨e', he', rfl⟩ | h
        · rcases List.mem_cons.1 he' with rfl | he'
          · rw [hec] at hval; rw [← hec, ← hcur _ hfix, hg] at hne
            exact absurd rfl hne
          · exact Or.inl ⟨e', he', rfl⟩
        · exact Or.inr h
      | some target =>
        have hcur' : ∀ k, can k = k → (cur.set e.sourceResolved target).get k = m.get k := by
          intro k hk
          rw [get_set]
          split
          · rename_i h
            subst h
            rw [← hg, hval, hec, hk]
          · exact hcur k hk
        have := ih _ hq' hcur'
        refine ⟨this.1, ?_, ?_⟩
        · intro k hk
          rw [this.2.1 k (fun e' h => hk e' (by simp [h])), get_set, if_neg (Ne.symm (hk e (by simp)))]
        · intro k hne h
          refine this.2.2 k hne ?_
          rcases h with ⟨e', he', rfl⟩ | h
          · rcases List.mem_cons.1 he' with rfl | he'
            · right
              rw [get_set, if_pos rfl, ← hg, hval, hec]
            · exact Or.inl ⟨e', he', rfl⟩
          · right
            rw [get_set]
            split
            · rename_i hk
              subst hk
              rw [← hg, hval, hec]
            · exact h
  have hp : ∀ e ∈ parseGoOverlay res can input, e.sourceCanonical = can e.sourceResolved := by
    intro e he
    obtain ⟨x, _, rfl⟩ := List.mem_map.1 he
    rfl
  have := key _ m hp (fun _ _ => rfl)
  refine ⟨?_, ?_⟩
  · intro e he hne
    rw [hp e he] at hne ⊢
    exact this.2.2 _ hne (Or.inl ⟨e, he, rfl⟩)
  · rintro k (hk | hk)
    · exact this.2.1 k hk
    · exact this.1 k hk

/-! ### A build with a user overlay -/

section Build
variable {χ : Type}

theorem last_mem {γ : Type} {l : List γ} {e : γ} {p : γ → Bool} (he : e ∈ l) (hp : p e = true)
    (hu : ∀ e' ∈ l, p e' = true → e' = e) : (l.filter p).getLast? = some e := by
  have hm : e ∈ l.filter p := List.mem_filter.2 ⟨he, hp⟩
  cases h : (l.filter p).getLast? with
  | none => rw [List.getLast?_eq_none_iff] at h; rw [h] at hm; cases hm
  | some e' =>
    have h' := List.mem_filter.1 (List.mem_of_getLast? h)
    rw [hu e' h'.1 h'.2]

theorem redirects_get (res can : α → α) (hcan : ∀ x, can (can x) = can x) (input : Map α α) (fs : Fs α χ) (k : α) :
    (applyFileRedirects can (parseGoOverlay res can input) fs).get k =
      match (List.filter (fun e => decide (can (res e.1) = k)) input).getLast? with
      | some e => some (.file (can (res e.2)))
      | none => fs.get k := by
  unfold applyFileRedirects parseGoOverlay
  induction input generalizing fs with
  | nil => rfl
  | cons e input ih =>
    rw [List.map_cons, List.foldl_cons, ih]
    unfold overrideFile
    rw [get_set, hcan, hcan, List.filter_cons]
    by_cases h : can (res e.1) = k
    · subst h
      cases hl : List.filter (fun e' => decide (can (res e'.1) = can (res e.1))) input with
      | nil => simp
      | cons a l => simp [List.getLast?_cons]
    · simp [h, Ne.symm h]

/-- What an edit puts into the file system. -/
def editValue (can : α → α) : FileOverlay α χ → FileOverlay α χ
  | .content c => .content c
  | .file t => .file (can t)

theorem edits_get (can : α → α) (edits : List (α × FileOverlay α χ)) (fs : Fs α χ) (k : α) :
    (edits.foldl (applyEdit can) fs).get k =
      match (edits.filter (fun e => decide (can e.1 = k))).getLast? with
      | some e => some (editValue can e.2)
      | none => fs.get k := by
  induction edits generalizing fs with
  | nil => rfl
  | cons e edits ih =>
    rw [List.foldl_cons, ih]
    have hs : (applyEdit can fs e).get k = if k = can e.1 then some (editValue can e.2) else fs.get k := by
      obtain ⟨f, v⟩ := e
      cases v <;> simp [applyEdit, overrideContent, overrideFile, editValue, get_set]
    rw [hs, List.filter_cons]
    by_cases h : can e.1 = k
    · subst h
      cases hl : List.filter (fun e' => decide (can e'.1 = can e.1)) edits with
      | nil => simp
      | cons a l => simp [List.getLast?_cons]
    · simp [h, Ne.symm h]

theorem buildFs_get (res can : α → α) (hcan : ∀ x, can (can x) = can x) (input : Map α α)
    (edits : List (α × FileOverlay α χ)) (k : α) :
    (buildFs res can input edits).get k =
      match (edits.filter (fun e => decide (can e.1 = k))).getLast? with
      | some e => some (editValue can e.2)
      | none =>
        match (List.filter (fun e => decide (can (res e.1) = k)) input).getLast? with
        | some e => some (.file (can (res e.2)))
        | none => none := by
  unfold buildFs
  rw [edits_get, redirects_get res can hcan]
  rfl

theorem foldl_nodup {γ δ : Type} (f : Map α δ → γ → Map α δ) (hf : ∀ m e, m.keys.Nodup → (f m e).keys.Nodup) :
    ∀ (l : List γ) (m : Map α δ), m.keys.Nodup → (l.foldl f m).keys.Nodup
  | [], _, h => h
  | e :: l, m, h => foldl_nodup f hf l _ (hf m e h)

theorem buildFs_nodup (res can : α → α) (input : Map α α) (edits : List (α × FileOverlay α χ)) :
    (buildFs res can input edits).keys.Nodup := by
  unfold buildFs applyFileRedirects
  refine foldl_nodup _ ?_ _ _ (foldl_nodup _ ?_ _ _ (by simp [Map.keys]))
  · rintro m ⟨f, v⟩ h
    cases v <;> exact keys_set_nodup h _ _
  · intro m e h; exact keys_set_nodup h _ _

/-- The target of an entry of the in-memory file system in the generated overlay. -/
def genTarget (gen : α → α) (k : α) : FileOverlay α χ → α
  | .content _ => gen k
  | .file t => t

theorem makeGoOverlay_spec (gen : α → α) (hg : ∀ x y, gen x = gen y → x = y) (line : α → χ → χ) (o : Fs α χ)
    (hn : o.keys.Nodup) :
    (∀ k, (makeGoOverlay gen line o).1.get k = (o.get k).map (genTarget gen k)) ∧
    (∀ k c, o.get k = some (.content c) → (makeGoOverlay gen line o).2.get (gen k) = some (line k c)) ∧
    (∀ f, (∀ k, f ≠ gen k) → (makeGoOverlay gen line o).2.get f = none) := by
  have key : ∀ (l : Fs α χ) (acc : Map α α × Map α χ), Map.keys l |>.Nodup →
      (∀ k ∈ Map.keys l, acc.1.get k = none ∧ acc.2.get (gen k) = none) →
      let r := List.foldl (fun (acc : Map α α × Map α χ) e =>
        match e.2 with
        | .content c => (Map.set acc.1 e.1 (gen e.1), Map.set acc.2 (gen e.1) (line e.1 c))
        | .file t => (Map.set acc.1 e.1 t, acc.2)) acc l
      (∀ k, r.1.get k = match l.get k with
        | some v => some (genTarget gen k v)
        | none => acc.1.get k) ∧
      (∀ k, r.2.get (gen k) = match l.get k with
        | some (.content c) => some (line k c)
        | _ => acc.2.get (gen k)) ∧
      (∀ f, (∀ k, f ≠ gen k) → r.2.get f = acc.2.get f) := by
    intro l
    induction l with
    | nil => intro acc _ _; exact ⟨fun _ => rfl, fun _ => rfl, fun _ _ => rfl⟩
    | cons e l ih =>
      obtain ⟨k₀, v⟩ := e
      intro acc hn ha
      simp only [Map.keys, List.map_cons, List.nodup_cons] at hn
      have hnone : Map.get l k₀ = none := by
        apply Classical.byContradiction; intro hc; exact hn.1 (get_isSome_iff.2 hc)
      have hne : ∀ k ∈ Map.keys l, k ≠ k₀ := fun k hk e => hn.1 (e ▸ hk)
      cases v with
      | content c =>
        have := ih (Map.set acc.1 k₀ (gen k₀), Map.set acc.2 (gen k₀) (line k₀ c)) hn.2 (by
          intro k hk
          have h := ha k (List.mem_cons_of_mem _ hk)
          simp only [get_set, if_neg (hne k hk), if_neg (fun e => hne k hk (hg _ _ e))]
          exact h)
        rw [List.foldl_cons]
        refine ⟨?_, ?_, ?_⟩
        · intro k
          rw [this.1 k, get_cons, get_set]
          by_cases hk : k = k₀
          · subst hk; simp [hnone, genTarget]
          · simp [hk]
        · intro k
          rw [this.2.1 k, get_cons, get_set]
          by_cases hk : k = k₀
          · subst hk; simp [hnone]
          · simp [hk, show gen k ≠ gen k₀ from fun e => hk (hg _ _ e)]
        · intro f hf
          rw [this.2.2 f hf, get_set, if_neg (hf k₀)]
      | file t =>
        have := ih (Map.set acc.1 k₀ t, acc.2) hn.2 (by
          intro k hk
          have h := ha k (List.mem_cons_of_mem _ hk)
          simp only [get_set, if_neg (hne k hk)]
          exact h)
        rw [List.foldl_cons]
        refine ⟨?_, ?_, ?_⟩
        · intro k
          rw [this.1 k, get_cons, get_set]
          by_cases hk : k = k₀
          · subst hk; simp [hnone, genTarget]
          · simp [hk]
        · intro k
          rw [this.2.1 k, get_cons]
          by_cases hk : k = k₀
          · subst hk; simp [hnone]
          · simp [hk]
        · intro f hf
          exact this.2.2 f hf
  have := key o ([], []) hn (fun _ _ => ⟨rfl, rfl⟩)
  refine ⟨?_, ?_, ?_⟩
  · intro k
    have h := this.1 k
    refine Eq.trans h ?_
    cases o.get k <;> rfl
  · intro k c hk
    have h := this.2.1 k
    rw [hk] at h
    exact h
  · intro f hf
    exact this.2.2 f hf

/-- What is assumed about the paths: canonical paths are stable, the paths of generated files are canonical, differ
    for different sources, and xgo and the user do not replace generated files. -/
structure Paths (res can gen : α → α) (input : Map α α) (edits : List (α × FileOverlay α χ)) : Prop where
  can_can : ∀ x, can (can x) = can x
  res_can : ∀ x, res (can x) = can x
  gen_inj : ∀ x y, gen x = gen y → x = y
  gen_can : ∀ x, can (res (gen x)) = gen x
  input_gen : ∀ e ∈ input, ∀ x, can (res e.1) ≠ gen x
  edits_gen : ∀ e ∈ edits, ∀ x, can e.1 ≠ gen x

theorem keys_of_nodup {m : Map α β} (hn : m.keys.Nodup) {k : α} {v : β} (h : (k, v) ∈ m) : m.get k = some v := by
  induction m with
  | nil => cases h
  | cons e m ih =>
    simp only [Map.keys, List.map_cons, List.nodup_cons] at hn
    rw [get_cons]
    rcases List.mem_cons.1 h with rfl | h
    · simp
    · have : k ≠ e.1 := by
        rintro rfl
        exact hn.1 (List.mem_map.2 ⟨_, h, rfl⟩)
      rw [if_neg this]
      exact ih hn.2 h

theorem mem_of_get {m : Map α β} {k : α} {v : β} (h : m.get k = some v) : (k, v) ∈ m := by
  induction m with
  | nil => cases h
  | cons e m ih =>
    rw [get_cons] at h
    split at h
    · rename_i hk; cases h; subst hk; simp
    · exact List.mem_cons_of_mem _ (ih h)

theorem makeGoOverlay_nodup (gen : α → α) (line : α → χ → χ) (o : Fs α χ) :
    (makeGoOverlay gen line o).1.keys.Nodup := by
  unfold makeGoOverlay
  suffices ∀ (l : Fs α χ) (acc : Map α α × Map α χ), acc.1.keys.Nodup → (List.foldl (fun (acc : Map α α × Map α χ) e =>
        match e.2 with
        | .content c => (Map.set acc.1 e.1 (gen e.1), Map.set acc.2 (gen e.1) (line e.1 c))
        | .file t => (Map.set acc.1 e.1 t, acc.2)) acc l).1.keys.Nodup from this o ([], []) (by simp [Map.keys])
  intro l
  induction l with
  | nil => intro acc h; exact h
  | cons e l ih =>
    intro acc h
    obtain ⟨k, v⟩ := e
    rw [List.foldl_cons]
    apply ih
    cases v <;> exact keys_set_nodup h _ _

/-- In a build, the mappings that are composed are those of the in-memory file system. -/
theorem build_combined (res can gen : α → α) (line : α → χ → χ) (input : Map α α)
    (edits : List (α × FileOverlay α χ)) (hp : Paths res can gen input edits) (k : α) :
    (combined res can (some (parseGoOverlay res can input))
      (some (makeGoOverlay gen line (buildFs res can input edits)).1)).get k =
    ((buildFs res can input edits).get k).map (genTarget gen k) := by
  have hget := buildFs_get res can hp.can_can input edits
  have hmk := (makeGoOverlay_spec gen hp.gen_inj line _ (buildFs_nodup res can input edits)).1
  have hnd := makeGoOverlay_nodup gen line (buildFs res can input edits)
  -- keys and redirect targets are canonical
  have hcanon : ∀ k v, (buildFs res can input edits).get k = some v →
      can k = k ∧ can (genTarget gen k v) = genTarget gen k v ∧ res (genTarget gen k v) = res (genTarget gen k v) ∧
      can (res (genTarget gen k v)) = genTarget gen k v := by
    intro k v hv
    rw [hget] at hv
    have hgen : can (gen k) = gen k := by rw [← hp.gen_can k, hp.can_can]
    split at hv
    · rename_i e he
      have := List.mem_filter.1 (List.mem_of_getLast? he)
      simp at this
      have hk : can k = k := by rw [← this.2, hp.can_can]
      cases hv
      obtain ⟨f, v⟩ := e
      cases v <;> simp [editValue, genTarget, hk, hp.can_can, hp.res_can, hgen, hp.gen_can]
    · split at hv
      · rename_i e he
        have := List.mem_filter.1 (List.mem_of_getLast? he)
        simp at this
        have hk : can k = k := by rw [← this.2, hp.can_can]
        cases hv
        simp [genTarget, hk, hp.can_can, hp.res_can]
      · cases hv
  have hreskey : ∀ k v, (buildFs res can input edits).get k = some v → res k = k := by
    intro k v hv
    rw [← (hcanon k v hv).1, hp.res_can]
  rw [combined_get]
  simp only [over]
  have hgen : (canonicalReplace (parseGoOverlay res can (makeGoOverlay gen line (buildFs res can input edits)).1)).get k =
      ((buildFs res can input edits).get k).map (genTarget gen k) := by
    have hent : ∀ e ∈ parseGoOverlay res can (makeGoOverlay gen line (buildFs res can input edits)).1,
        e.sourceInput = e.sourceCanonical ∧
        (buildFs res can input edits).get e.sourceCanonical ≠ none ∧
        some e.targetCanonical = ((buildFs res can input edits).get e.sourceCanonical).map (genTarget gen e.sourceCanonical) := by
      intro e he
      obtain ⟨⟨a, b⟩, hab, rfl⟩ := List.mem_map.1 he
      have h1 := keys_of_nodup hnd hab
      rw [hmk] at h1
      cases hv : (buildFs res can input edits).get a with
      | none => rw [hv] at h1; cases h1
      | some v =>
        rw [hv] at h1
        have hb : genTarget gen a v = b := by simpa using h1
        have hc := hcanon a v hv
        have hr := hreskey a v hv
        rw [hb] at hc
        simp only [hr, hc.1, hv]
        exact ⟨trivial, by simp, by simp [hb, hc.2.2.2]⟩
    cases hv : (buildFs res can input edits).get k with
    | none =>
      cases hr : (canonicalReplace (parseGoOverlay res can (makeGoOverlay gen line (buildFs res can input edits)).1)).get k with
      | none => rfl
      | some t =>
        obtain ⟨e, he, hk, _⟩ := (C33_canonical_mappings _ k).2 t hr
        have := (hent e he).2.1
        rw [hk] at this
        exact absurd hv this
    | some v =>
      have hm : (k, genTarget gen k v) ∈ (makeGoOverlay gen line (buildFs res can input edits)).1 :=
        mem_of_get (by rw [hmk, hv]; rfl)
      have he : (⟨k, res k, can (res k), res (genTarget gen k v), can (res (genTarget gen k v))⟩ : Entry α) ∈
          parseGoOverlay res can (makeGoOverlay gen line (buildFs res can input edits)).1 :=
        List.mem_map.2 ⟨_, hm, rfl⟩
      have hk : can (res k) = k := by rw [hreskey k v hv, (hcanon k v hv).1]
      obtain ⟨t, ht⟩ : ∃ t, (canonicalReplace (parseGoOverlay res can (makeGoOverlay gen line (buildFs res can input edits)).1)).get k = some t := by
        have := (C33_canonical_mappings (parseGoOverlay res can (makeGoOverlay gen line (buildFs res can input edits)).1) k).1.2 ⟨_, he, hk⟩
        exact Option.ne_none_iff_exists'.1 this
      obtain ⟨e', he', hk', ht'⟩ := (C33_canonical_mappings _ k).2 t ht
      have := (hent e' he').2.2
      rw [hk', ht', hv] at this
      rw [ht, this]
  rw [hgen]
  cases hv : (buildFs res can input edits).get k with
  | some v => rfl
  | none =>
    cases hr : (canonicalReplace (parseGoOverlay res can input)).get k with
    | none => rfl
    | some t =>
      exfalso
      obtain ⟨e, he, hk, _⟩ := (C33_canonical_mappings _ k).2 t hr
      obtain ⟨x, hx, rfl⟩ := List.mem_map.1 he
      rw [hget] at hv
      split at hv
      · cases hv
      · split at hv
        · cases hv
        · rename_i hl
          rw [List.getLast?_eq_none_iff] at hl
          have : x ∈ List.filter (fun e => decide (can (res e.1) = k)) input := List.mem_filter.2 ⟨hx, by simpa using hk⟩
          rw [hl] at this; cases this

/-- What the Go tool reads after a build that succeeded. -/
theorem build_reads (order : List α → List α) (ho : ∀ l k, k ∈ order l ↔ k ∈ l) (res can gen : α → α)
    (line : α → χ → χ) (disk : α → χ) (input : Map α α) (edits : List (α × FileOverlay α χ))
    (hp : Paths res can gen input edits) (o : Map α α) (disk' : α → χ)
    (hb : build order res can gen line disk input edits = .ok (o, disk')) (f : α) (hf : can f = f) :
    (∀ c, (buildFs res can input edits).get f = some (.content c) → goReads disk' o f = line f c) ∧
    (∀ t, (buildFs res can input edits).get f = some (.file t) → (buildFs res can input edits).get t = none →
      (∀ x, t ≠ gen x) → goReads disk' o f = disk t) ∧
    ((buildFs res can input edits).get f = none → (∀ x, f ≠ gen x) → goReads disk' o f = disk f) := by
  have hspec := makeGoOverlay_spec gen hp.gen_inj line _ (buildFs_nodup res can input edits)
  have hcomb := build_combined res can gen line input edits hp
  unfold build at hb
  simp only at hb
  split at hb
  · cases hb
  rename_i m hm
  cases hb
  have hcompose := C33_compose order ho res can _ _ m hm
  have hproj : (project (parseGoOverlay res can input) m).get f = m.get f :=
    (C33_project res can hp.can_can input m).2 f (Or.inr hf)
  have hget := buildFs_get res can hp.can_can input edits
  have hgennone : ∀ x, (buildFs res can input edits).get (gen x) = none := by
    intro x
    rw [hget]
    have h1 : List.filter (fun e : α × FileOverlay α χ => decide (can e.1 = gen x)) edits = [] := by
      rw [List.filter_eq_nil_iff]; intro e he; simpa using hp.edits_gen e he x
    have h2 : List.filter (fun e : α × α => decide (can (res e.1) = gen x)) input = [] := by
      rw [List.filter_eq_nil_iff]; intro e he; simpa using hp.input_gen e he x
    rw [h1, h2]
    rfl
  refine ⟨?_, ?_, ?_⟩
  · intro c hc
    have h1 := hcomb f
    rw [hc] at h1
    have h2 := hcomb (gen f)
    rw [hgennone f] at h2
    have : m.get f = some (gen f) := (hcompose f (gen f)).2 ⟨by rw [h1]; simp, .step h1 (.here h2)⟩
    unfold goReads written
    rw [hproj, this]
    simp [hspec.2.1 f c hc]
  · intro t ht hn hg
    have h1 := hcomb f
    rw [ht] at h1
    have h2 := hcomb t
    rw [hn] at h2
    have : m.get f = some t := (hcompose f t).2 ⟨by rw [h1]; simp, .step h1 (.here h2)⟩
    unfold goReads written
    rw [hproj, this]
    simp [hspec.2.2 t hg]
  · intro hn hg
    have h1 := hcomb f
    rw [hn] at h1
    have : m.get f = none := by
      cases hmf : m.get f with
      | none => rfl
      | some t => exact absurd h1 ((hcompose f t).1 hmf).1
    unfold goReads written
    rw [hproj, this]
    simp [hspec.2.2 f hg]

/-- **C44.** A file that xgo has rewritten is compiled with the text xgo wrote last, whatever the user's overlay. -/
theorem C44_rewritten (order : List α → List α) (ho : ∀ l k, k ∈ order l ↔ k ∈ l) (res can gen : α → α)
    (line : α → χ → χ) (disk : α → χ) (input : Map α α) (pre post : List (α × FileOverlay α χ)) (x : α) (c : χ)
    (hp : Paths res can gen input (pre ++ (x, .content c) :: post)) (hlast : ∀ e ∈ post, can e.1 ≠ can x)
    (o : Map α α) (disk' : α → χ)
    (hb : build order res can gen line disk input (pre ++ (x, .content c) :: post) = .ok (o, disk')) :
    goReads disk' o (can x) = line (can x) c := by
  refine (build_reads order ho res can gen line disk input _ hp o disk' hb (can x) (hp.can_can x)).1 c ?_
  rw [buildFs_get res can hp.can_can]
  have : (List.filter (fun e : α × FileOverlay α χ => decide (can e.1 = can x)) (pre ++ (x, .content c) :: post)).getLast? =
      some (x, .content c) := by
    rw [List.filter_append, List.filter_cons]
    have hnil : List.filter (fun e : α × FileOverlay α χ => decide (can e.1 = can x)) post = [] := by
      rw [List.filter_eq_nil_iff]; intro e he; simpa using hlast e he
    simp [hnil]
  rw [this]
  rfl

/-- **C44.** A file that neither the user's overlay nor xgo replaces is compiled as it is on disk. -/
theorem C44_untouched (order : List α → List α) (ho : ∀ l k, k ∈ order l ↔ k ∈ l) (res can gen : α → α)
    (line : α → χ → χ) (disk : α → χ) (input : Map α α) (edits : List (α × FileOverlay α χ))
    (hp : Paths res can gen input edits) (o : Map α α) (disk' : α → χ)
    (hb : build order res can gen line disk input edits = .ok (o, disk')) (f : α) (hf : can f = f)
    (hg : ∀ x, f ≠ gen x) (hi : ∀ e ∈ input, can (res e.1) ≠ f) (he : ∀ e ∈ edits, can e.1 ≠ f) :
    goReads disk' o f = disk f := by
  refine (build_reads order ho res can gen line disk input _ hp o disk' hb f hf).2.2 ?_ hg
  rw [buildFs_get res can hp.can_can]
  have h1 : List.filter (fun e : α × FileOverlay α χ => decide (can e.1 = f)) edits = [] := by
    rw [List.filter_eq_nil_iff]; intro e h; simpa using he e h
  have h2 : List.filter (fun e : α × α => decide (can (res e.1) = f)) input = [] := by
    rw [List.filter_eq_nil_iff]; intro e h; simpa using hi e h
  rw [h1, h2]
  rfl

/-- **C44**, in part: a file that the user's overlay replaces and xgo does not rewrite is compiled with the text of its
    replacement, under its canonical path and under the path in the overlay. Missing: a replacement that is itself
    replaced or rewritten, or a source with several spellings in the overlay; see the counterexamples. -/
theorem C44_user_replacement_partial (order : List α → List α) (ho : ∀ l k, k ∈ order l ↔ k ∈ l) (res can gen : α → α)
    (line : α → χ → χ) (disk : α → χ) (input : Map α α) (edits : List (α × FileOverlay α χ))
    (hp : Paths res can gen input edits) (o : Map α α) (disk' : α → χ)
    (hb : build order res can gen line disk input edits = .ok (o, disk'))
    (s t : α) (hin : (s, t) ∈ input) (hu : ∀ e ∈ input, can (res e.1) = can (res s) → e = (s, t))
    (hes : ∀ e ∈ edits, can e.1 ≠ can (res s)) (het : ∀ e ∈ edits, can e.1 ≠ can (res t))
    (hit : ∀ e ∈ input, can (res e.1) ≠ can (res t)) (hg : ∀ x, can (res t) ≠ gen x) :
    goReads disk' o (can (res s)) = disk (can (res t)) ∧ goReads disk' o (res s) = disk (can (res t)) := by
  have hfs : (buildFs res can input edits).get (can (res s)) = some (.file (can (res t))) := by
    rw [buildFs_get res can hp.can_can]
    have h1 : List.filter (fun e : α × FileOverlay α χ => decide (can e.1 = can (res s))) edits = [] := by
      rw [List.filter_eq_nil_iff]; intro e h; simpa using hes e h
    have h2 : (List.filter (fun e : α × α => decide (can (res e.1) = can (res s))) input).getLast? = some (s, t) :=
      last_mem hin (by simp) (fun e he h => hu e he (by simpa using h))
    rw [h1, h2]
    rfl
  have hft : (buildFs res can input edits).get (can (res t)) = none := by
    rw [buildFs_get res can hp.can_can]
    have h1 : List.filter (fun e : α × FileOverlay α χ => decide (can e.1 = can (res t))) edits = [] := by
      rw [List.filter_eq_nil_iff]; intro e h; simpa using het e h
    have h2 : List.filter (fun e : α × α => decide (can (res e.1) = can (res t))) input = [] := by
      rw [List.filter_eq_nil_iff]; intro e h; simpa using hit e h
    rw [h1, h2]
    rfl
  have hcan := (build_reads order ho res can gen line disk input _ hp o disk' hb (can (res s)) (hp.can_can _)).2.1
    (can (res t)) hfs hft hg
  refine ⟨hcan, ?_⟩
  have hcomb := build_combined res can gen line input edits hp
  have hb' := hb
  unfold build at hb'
  simp only at hb'
  split at hb'
  · cases hb'
  rename_i m hm
  cases hb'
  have hmap : m.get (can (res s)) = some (can (res t)) := by
    refine (C33_compose order ho res can _ _ m hm _ _).2 ?_
    have h1 := hcomb (can (res s))
    rw [hfs] at h1
    have h2 := hcomb (can (res t))
    rw [hft] at h2
    exact ⟨by rw [h1]; simp, .step h1 (.here h2)⟩
  have hmem : (⟨s, res s, can (res s), res t, can (res t)⟩ : Entry α) ∈ parseGoOverlay res can input :=
    List.mem_map.2 ⟨_, hin, rfl⟩
  have hpr := (C33_project res can hp.can_can input m).1 _ hmem (by simp [hmap])
  simp only at hpr
  have hpc := (C33_project res can hp.can_can input m).2 (can (res s)) (Or.inr (hp.can_can _))
  unfold goReads at hcan ⊢
  rw [hpr, hmap]
  rw [hpc, hmap] at hcan
  exact hcan

/-- **C44.** What xgo reads before it rewrites a file is what plain go would compile: the text of the replacement, if the
    user's overlay replaces the file (under one spelling), the file itself if it does not; and what xgo wrote last, if
    it has already rewritten the file. -/
theorem C44_reads (res can : α → α) (hcan : ∀ x, can (can x) = can x) (disk : α → χ)
    (hdisk : ∀ x, disk (can x) = disk x) (input : Map α α) (edits : List (α × FileOverlay α χ)) (f : α) :
    (∀ s t, (s, t) ∈ input → can (res s) = can f → (∀ e ∈ input, can (res e.1) = can f → e = (s, t)) →
      (∀ e ∈ edits, can e.1 ≠ can f) → read can disk (buildFs res can input edits) f = disk (res t)) ∧
    ((∀ e ∈ input, can (res e.1) ≠ can f) → (∀ e ∈ edits, can e.1 ≠ can f) →
      read can disk (buildFs res can input edits) f = disk f) ∧
    (∀ pre post x c, edits = pre ++ (x, .content c) :: post → can x = can f → (∀ e ∈ post, can e.1 ≠ can f) →
      read can disk (buildFs res can input edits) f = c) := by
  refine ⟨?_, ?_, ?_⟩
  · intro s t hin hs hu he
    unfold read
    have h1 : List.filter (fun e : α × FileOverlay α χ => decide (can e.1 = can f)) edits = [] := by
      rw [List.filter_eq_nil_iff]; intro e h; simpa using he e h
    have h2 : (List.filter (fun e : α × α => decide (can (res e.1) = can f)) input).getLast? = some (s, t) :=
      last_mem hin (by simpa using hs) (fun e he h => hu e he (by simpa using h))
    rw [buildFs_get res can hcan, h1, h2]
    exact hdisk _
  · intro hi he
    unfold read
    have h1 : List.filter (fun e : α × FileOverlay α χ => decide (can e.1 = can f)) edits = [] := by
      rw [List.filter_eq_nil_iff]; intro e h; simpa using he e h
    have h2 : List.filter (fun e : α × α => decide (can (res e.1) = can f)) input = [] := by
      rw [List.filter_eq_nil_iff]; intro e h; simpa using hi e h
    rw [buildFs_get res can hcan, h1, h2]
    rfl
  · intro pre post x c hed hx hlast
    subst hed
    unfold read
    have : (List.filter (fun e : α × FileOverlay α χ => decide (can e.1 = can f))
        (pre ++ (x, .content c) :: post)).getLast? = some (x, .content c) := by
      rw [List.filter_append, List.filter_cons]
      have hnil : List.filter (fun e : α × FileOverlay α χ => decide (can e.1 = can f)) post = [] := by
        rw [List.filter_eq_nil_iff]; intro e he; simpa using hlast e he
      simp [hnil, hx]
    rw [buildFs_get res can hcan, this]
    rfl

example : read id (fun n : Nat => n * 10) (buildFs id id [(1, 2)] []) 1 = 20 ∧
    read id (fun n : Nat => n * 10) (buildFs id id [(1, 2)] [(1, .content 7)]) 1 = 7 ∧
    read id (fun n : Nat => n * 10) (buildFs id id [(1, 2)] [(1, .content 7)]) 3 = 30 := by decide +kernel

/-- **C44.** xgo does not reject an overlay if no replacement is itself replaced. -/
theorem C44_builds (order : List α → List α) (ho : ∀ l k, k ∈ order l ↔ k ∈ l) (res can gen : α → α)
    (line : α → χ → χ) (disk : α → χ) (input : Map α α) (edits : List (α × FileOverlay α χ))
    (hp : Paths res can gen input edits)
    (hno : ∀ e ∈ input, (∀ e' ∈ input, can (res e'.1) ≠ can (res e.2)) ∧ ∀ e' ∈ edits, can e'.1 ≠ can (res e.2))
    (hed : ∀ e ∈ edits, ∀ t, e.2 = .file t →
      (∀ e' ∈ input, can (res e'.1) ≠ can t) ∧ ∀ e' ∈ edits, can e'.1 ≠ can t) :
    ∃ r, build order res can gen line disk input edits = .ok r := by
  have hcomb := build_combined res can gen line input edits hp
  have hget := buildFs_get res can hp.can_can input edits
  have hnone : ∀ k, (∀ e' ∈ input, can (res e'.1) ≠ k) → (∀ e' ∈ edits, can e'.1 ≠ k) →
      (buildFs res can input edits).get k = none := by
    intro k hi he
    rw [hget]
    have h1 : List.filter (fun e : α × FileOverlay α χ => decide (can e.1 = k)) edits = [] := by
      rw [List.filter_eq_nil_iff]; intro e h; simpa using he e h
    have h2 : List.filter (fun e : α × α => decide (can (res e.1) = k)) input = [] := by
      rw [List.filter_eq_nil_iff]; intro e h; simpa using hi e h
    rw [h1, h2]
    rfl
  have hends : ∀ k, ∃ t, Ends (combined res can (some (parseGoOverlay res can input))
      (some (makeGoOverlay gen line (buildFs res can input edits)).1)).get k t := by
    intro k
    have h1 := hcomb k
    cases hk : (buildFs res can input edits).get k with
    | none => rw [hk] at h1; exact ⟨k, .here h1⟩
    | some v =>
      rw [hk] at h1
      have h2 := hcomb (genTarget gen k v)
      have : (buildFs res can input edits).get (genTarget gen k v) = none := by
        cases v with
        | content c => exact hnone _ (fun e he => hp.input_gen e he k) (fun e he => hp.edits_gen e he k)
        | file t =>
          rw [hget] at hk
          split at hk
          · rename_i e he
            have hm := (List.mem_filter.1 (List.mem_of_getLast? he)).1
            obtain ⟨x, w⟩ := e
            cases w with
            | content c => cases hk
            | file t' =>
              cases hk
              have := hed _ hm t' rfl
              exact hnone _ this.1 this.2
          · split at hk
            · rename_i e he
              have hm := (List.mem_filter.1 (List.mem_of_getLast? he)).1
              cases hk
              have := hno _ hm
              exact hnone _ this.1 this.2
            · cases hk
      rw [this] at h2
      exact ⟨_, .step h1 (.here h2)⟩
  unfold build
  cases hc : compose order res can (some (parseGoOverlay res can input))
      (some (makeGoOverlay gen line (buildFs res can input edits)).1) with
  | ok m => exact ⟨(project (parseGoOverlay res can input) m, written disk (makeGoOverlay gen line (buildFs res can input edits)).2), by simp only [hc]⟩
  | error c =>
    obtain ⟨k, hk⟩ := (C33_fails_iff order ho res can _ _).1 ⟨c, hc⟩
    obtain ⟨t, ht⟩ := hends k
    exact absurd ht (hk t)

end Build

/-- A build with one replaced and one rewritten file, to which the theorems apply. -/
example : let c := compiled (α := Nat) (χ := Nat) id id id (· + 100) (fun _ c => c) (fun f => f * 10) [(1, 2)] [(3, .content 7)]
    c 1 = some 20 ∧ c 3 = some 7 ∧ c 4 = some 40 := by decide +kernel

example : Paths (α := Nat) (χ := Nat) id id (fun x => 2 * x + 100 + 1) [(2, 4)] [(6, .content 7)] := by
  constructor <;> simp <;> omega

/-- C44 is false of the code: the user's overlay `{A: B, B: C}` makes the Go tool compile A with the text of B, but
    under xgo, without any change by xgo, A is compiled with the text of C. -/
theorem C44_counterexample_chain :
    compiled (α := Nat) (χ := Nat) id id id (· + 100) (fun _ c => c) id [(1, 2), (2, 3)] [] 1 = some 3 ∧
      goReads (χ := Nat) id ([(1, 2), (2, 3)] : Map Nat Nat) 1 = 2 := by
  decide +kernel

/-- C44 is false of the code: an overlay that exchanges two files is fine for the Go tool and an error under xgo. -/
theorem C44_counterexample_swap :
    compiled (α := Nat) (χ := Nat) id id id (· + 100) (fun _ c => c) id [(1, 2), (2, 1)] [] 1 = none ∧
      goReads (χ := Nat) id ([(1, 2), (2, 1)] : Map Nat Nat) 1 = 2 ∧
      goReads (χ := Nat) id ([(1, 2), (2, 1)] : Map Nat Nat) 2 = 1 := by
  decide +kernel

/-- C44 is false of the code: a canonical spelling in the user's overlay wins in `CanonicalReplace`
    (`C33_canonical_spelling_wins`), but not in a build, where the in-memory file system keeps the mapping that
    comes last in the random order of Go's map. -/
theorem C44_counterexample_spelling :
    let can : Nat → Nat := fun x => if x = 1 then 0 else x
    compiled (α := Nat) (χ := Nat) id id can (· + 100) (fun _ c => c) id [(0, 20), (1, 30)] [] 0 = some 30 ∧
      (canonicalReplace (parseGoOverlay id can [(0, 20), (1, 30)])).get 0 = some 20 := by
  decide +kernel

end Verif.Instrument.Overlay
