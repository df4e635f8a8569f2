/-
Properties of `Verif.Runtime.InitPhase` (C98).
-/
import Verif.Runtime.InitPhase

namespace Verif.Runtime.InitPhase

theorem upd_same (f : Nat → α) (g : Nat) (v : α) : upd f g v g = v := if_pos rfl

theorem upd_other (f : Nat → α) (g x : Nat) (v : α) (h : x ≠ g) : upd f g v x = f x := if_neg h

theorem run_snoc (s : S) (es : List Ev) (e : Ev) : run s (es ++ [e]) = step (run s es) e := by
  simp [run, List.foldl_append]

theorem asking_nil (g : Nat) : ¬ Asking [] g := by
  rintro ⟨a, b, h, -⟩
  simp at h

theorem asking_snoc (es : List Ev) (e : Ev) (g : Nat) :
    Asking (es ++ [e]) g ↔ e = .ask g ∨ (Asking es g ∧ e ≠ .asked g) := by
  constructor
  · rintro ⟨a, b, h, hb⟩
    rcases List.eq_nil_or_concat b with hb0 | ⟨b', y, hb0⟩
    · subst hb0
      have := List.append_inj' h rfl
      exact Or.inl (by simpa using this.2)
    · rw [List.concat_eq_append] at hb0
      subst hb0
      have h' : es ++ [e] = (a ++ .ask g :: b') ++ [y] := by rw [h]; simp
      have := List.append_inj' h' rfl
      have hy : e = y := by simpa using this.2
      refine Or.inr ⟨⟨a, b', this.1, fun hm => hb (List.mem_append_left _ hm)⟩, fun he => hb ?_⟩
      rw [← hy, he]
      simp
  · rintro (h | ⟨⟨a, b, h, hb⟩, he⟩)
    · exact ⟨es, [], by rw [h], by simp⟩
    · refine ⟨a, b ++ [e], by rw [h]; simp, fun hm => ?_⟩
      rcases List.mem_append.1 hm with hm | hm
      · exact hb hm
      · exact he (by simpa using hm : Ev.asked g = e).symm

theorem sane_of_snoc {es : List Ev} {e : Ev} (h : Sane (es ++ [e])) : Sane es := by
  intro a x b g hes hx
  exact h a x (b ++ [e]) g (by rw [hes]; simp) hx

theorem alone_of_snoc {es : List Ev} {e : Ev} (h : Alone (es ++ [e])) : Alone es := by
  intro a x b g hes hx
  exact h a x (b ++ [e]) g (by rw [hes]; simp) hx

theorem sane_last {es : List Ev} {e : Ev} (h : Sane (es ++ [e])) (g : Nat) (hg : Ev.on e = some g) :
    (Asking es g → e = .call g ∨ e = .asked g ∨ e = .trace g) ∧ (e = .asked g → Asking es g) :=
  h es e [] g rfl hg

theorem alone_last {es : List Ev} {e : Ev} (h : Alone (es ++ [e])) (g : Nat) (hd : Ev.initDone ∉ es) (ha : Asking es g) :
    Ev.on e = some g :=
  h es e [] g rfl hd ha

/-- What holds between events. -/
structure Inv (es : List Ev) (s : S) : Prop where
  done : s.done = true ↔ Ev.initDone ∈ es
  asking : ∀ g, Asking es g → s.at g = some (!s.done) ∧ ∃ d, data s g = some d ∧ d.insp = some g
  own : s.done = true → ∀ g d h, s.own g = some d → d.insp = some h → h = g ∧ Asking es g
  shared : s.done = false → ∀ d h, s.shared = some d → d.insp = some h → Asking es h
  none : s.done = false → ∀ g, s.own g = none

theorem inv_nil : Inv [] {} where
  done := by simp
  asking := fun g h => absurd h (asking_nil g)
  own := fun h => by cases h
  shared := fun _ d h hd => by cases hd
  none := fun _ _ => rfl

theorem not_done {es : List Ev} {s : S} (hi : Inv es s) (h : s.done = false) : Ev.initDone ∉ es := by
  intro hm
  have := hi.done.2 hm
  rw [h] at this
  cases this

theorem inv_snoc (es : List Ev) (e : Ev) (s : S) (hi : Inv es s) (hs : Sane (es ++ [e])) (ha : Alone (es ++ [e])) :
    Inv (es ++ [e]) (step s e) := by
  cases e with
  | ask g =>
    have hng : ¬ Asking es g := by
      intro h
      rcases (sane_last hs g rfl).1 h with h | h | h <;> cases h
    have hoth : s.done = false → ∀ x, ¬ Asking es x := by
      intro hd x hx
      have := alone_last ha x (not_done hi hd) hx
      cases this
      exact hng hx
    cases hd : s.done with
    | true =>
      have hst : step s (.ask g) = { s with own := upd s.own g (some { (s.own g).getD {} with insp := some g }), «at» := upd s.at g (some false) } := by
        simp [step, put, data, hd]
      rw [hst]
      constructor
      · simp [hd, hi.done.1 hd]
      · intro x hx
        rcases (asking_snoc es _ x).1 hx with h | ⟨h, -⟩
        · cases h
          simp [data, hd, upd_same]
        · have hne : x ≠ g := fun h' => hng (h' ▸ h)
          obtain ⟨h1, d, h2, h3⟩ := hi.asking x h
          refine ⟨?_, d, ?_, h3⟩
          · dsimp only
            rw [upd_other _ _ _ _ hne, h1]
          · simp only [data, hd, if_true] at h2 ⊢
            rw [upd_other _ _ _ _ hne]
            exact h2
      · intro _ x d h hx hh
        dsimp only at hx
        by_cases hxg : x = g
        · subst hxg
          rw [upd_same] at hx
          cases hx
          cases hh
          exact ⟨rfl, (asking_snoc es _ x).2 (Or.inl rfl)⟩
        · rw [upd_other _ _ _ _ hxg] at hx
          obtain ⟨h1, h2⟩ := hi.own hd x d h hx hh
          exact ⟨h1, (asking_snoc es _ x).2 (Or.inr ⟨h2, (fun h => (by cases h))⟩)⟩
      · intro h; dsimp only at h; rw [hd] at h; cases h
      · intro h; dsimp only at h; rw [hd] at h; cases h
    | false =>
      have hst : step s (.ask g) = { s with shared := some { s.shared.getD {} with insp := some g }, «at» := upd s.at g (some true) } := by
        simp [step, put, data, hd]
      rw [hst]
      constructor
      · simp [hd, not_done hi hd]
      · intro x hx
        rcases (asking_snoc es _ x).1 hx with h | ⟨h, -⟩
        · cases h
          simp [data, hd, upd_same]
        · exact absurd h (hoth hd x)
      · intro h; dsimp only at h; rw [hd] at h; cases h
      · intro _ d h hx hh
        dsimp only at hx
        cases hx
        cases hh
        exact (asking_snoc es _ g).2 (Or.inl rfl)
      · exact fun _ => hi.none hd
  | asked g =>
    have hg : Asking es g := (sane_last hs g rfl).2 rfl
    obtain ⟨hat, d0, hd0, hin0⟩ := hi.asking g hg
    have hmem : ∀ x, x ≠ g → Asking es x → Asking (es ++ [.asked g]) x := by
      intro x hx h
      exact (asking_snoc es _ x).2 (Or.inr ⟨h, fun he => hx (by cases he; rfl)⟩)
    have hback : ∀ x, Asking (es ++ [.asked g]) x → Asking es x ∧ x ≠ g := by
      intro x h
      rcases (asking_snoc es _ x).1 h with h | ⟨h, hne⟩
      · cases h
      · exact ⟨h, fun hx => hne (by rw [hx])⟩
    cases hd : s.done with
    | true =>
      have hst : step s (.asked g) = { s with own := upd s.own g ((s.own g).map fun d => { d with insp := none }), «at» := upd s.at g none } := by
        simp [step, hat, hd]
      rw [hst]
      constructor
      · simp [hd, hi.done.1 hd]
      · intro x hx
        obtain ⟨h, hne⟩ := hback x hx
        obtain ⟨h1, d, h2, h3⟩ := hi.asking x h
        refine ⟨?_, d, ?_, h3⟩
        · dsimp only
          rw [upd_other _ _ _ _ hne, h1]
        · simp only [data, hd, if_true] at h2 ⊢
          rw [upd_other _ _ _ _ hne]
          exact h2
      · intro _ x d h hx hh
        dsimp only at hx
        by_cases hxg : x = g
        · subst hxg
          rw [upd_same] at hx
          obtain ⟨d', -, rfl⟩ := Option.map_eq_some_iff.1 hx
          cases hh
        · rw [upd_other _ _ _ _ hxg] at hx
          obtain ⟨h1, h2⟩ := hi.own hd x d h hx hh
          exact ⟨h1, hmem x hxg h2⟩
      · intro h; dsimp only at h; rw [hd] at h; cases h
      · intro h; dsimp only at h; rw [hd] at h; cases h
    | false =>
      have hst : step s (.asked g) = { s with shared := s.shared.map fun d => { d with insp := none }, «at» := upd s.at g none } := by
        simp [step, hat, hd]
      rw [hst]
      constructor
      · simp [hd, not_done hi hd]
      · intro x hx
        obtain ⟨h, hne⟩ := hback x hx
        have := alone_last ha x (not_done hi hd) h
        cases this
        exact absurd rfl hne
      · intro h; dsimp only at h; rw [hd] at h; cases h
      · intro _ d h hx hh
        dsimp only at hx
        obtain ⟨d', -, rfl⟩ := Option.map_eq_some_iff.1 hx
        cases hh
      · exact fun _ => hi.none hd
  | call g =>
    have hk : ∀ x, Asking (es ++ [.call g]) x ↔ Asking es x := by
      intro x
      rw [asking_snoc]
      constructor
      · rintro (h | h)
        · cases h
        · exact h.1
      · exact fun h => Or.inr ⟨h, (fun h => (by cases h))⟩
    show Inv _ s
    constructor
    · rw [hi.done]; simp
    · exact fun x hx => hi.asking x ((hk x).1 hx)
    · exact fun h x d y hx hy => ⟨(hi.own h x d y hx hy).1, (hk x).2 (hi.own h x d y hx hy).2⟩
    · exact fun h d y hx hy => (hk y).2 (hi.shared h d y hx hy)
    · exact hi.none
  | trace g =>
    have hk : ∀ x, Asking (es ++ [.trace g]) x ↔ Asking es x := by
      intro x
      rw [asking_snoc]
      constructor
      · rintro (h | h)
        · cases h
        · exact h.1
      · exact fun h => Or.inr ⟨h, (fun h => (by cases h))⟩
    by_cases hr : outcome s (.trace g) = .recorded
    · have hst : step s (.trace g) = put s g { (data s g).getD {} with tracing := true } := by
        rw [step, if_pos hr]
      have hnone : ((data s g).getD {}).insp = none := by
        rw [outcome] at hr
        cases hdt : data s g with
        | none => rfl
        | some d =>
          rw [hdt] at hr
          dsimp only at hr
          cases hin : d.insp with
          | none => rw [Option.getD_some, hin]
          | some h => rw [hin] at hr; cases hr
      have hng : ¬ Asking es g := by
        intro h
        obtain ⟨-, d, h1, h2⟩ := hi.asking g h
        rw [h1, Option.getD_some, h2] at hnone
        cases hnone
      rw [hst]
      generalize hD : ({ (data s g).getD {} with tracing := true } : Data) = D
      have hDi : D.insp = none := by rw [← hD]; exact hnone
      cases hd : s.done with
      | true =>
        have hp : put s g D = { s with own := upd s.own g (some D) } := by rw [put, if_pos hd]
        rw [hp]
        constructor
        · simp [hd, hi.done.1 hd]
        · intro x hx
          have h := (hk x).1 hx
          have hne : x ≠ g := fun h' => hng (h' ▸ h)
          obtain ⟨h1, d, h2, h3⟩ := hi.asking x h
          refine ⟨h1, d, ?_, h3⟩
          simp only [data, hd, if_true] at h2 ⊢
          rw [upd_other _ _ _ _ hne]
          exact h2
        · intro _ x d h hx hh
          dsimp only at hx
          by_cases hxg : x = g
          · subst hxg
            rw [upd_same] at hx
            cases hx
            rw [hDi] at hh
            cases hh
          · rw [upd_other _ _ _ _ hxg] at hx
            obtain ⟨h1, h2⟩ := hi.own hd x d h hx hh
            exact ⟨h1, (hk x).2 h2⟩
        · intro h; dsimp only at h; rw [hd] at h; cases h
        · intro h; dsimp only at h; rw [hd] at h; cases h
      | false =>
        have hp : put s g D = { s with shared := some D } := by rw [put, if_neg (by rw [hd]; decide)]
        rw [hp]
        constructor
        · simp [hd, not_done hi hd]
        · intro x hx
          have h := (hk x).1 hx
          have := alone_last ha x (not_done hi hd) h
          cases this
          exact absurd h hng
        · intro h; dsimp only at h; rw [hd] at h; cases h
        · intro _ d h hx hh
          dsimp only at hx
          cases hx
          rw [hDi] at hh
          cases hh
        · exact fun _ => hi.none hd
    · have hst : step s (.trace g) = s := by rw [step, if_neg hr]
      rw [hst]
      constructor
      · rw [hi.done]; simp
      · exact fun x hx => hi.asking x ((hk x).1 hx)
      · exact fun h x d y hx hy => ⟨(hi.own h x d y hx hy).1, (hk x).2 (hi.own h x d y hx hy).2⟩
      · exact fun h d y hx hy => (hk y).2 (hi.shared h d y hx hy)
      · exact hi.none
  | traced g =>
    have hng : ¬ Asking es g := by
      intro h
      rcases (sane_last hs g rfl).1 h with h | h | h <;> cases h
    have hk : ∀ x, Asking (es ++ [.traced g]) x ↔ Asking es x := by
      intro x
      rw [asking_snoc]
      constructor
      · rintro (h | h)
        · cases h
        · exact h.1
      · exact fun h => Or.inr ⟨h, (fun h => (by cases h))⟩
    show Inv _ { s with own := upd s.own g none }
    constructor
    · show s.done = true ↔ _
      rw [hi.done]; simp
    · intro x hx
      have h := (hk x).1 hx
      have hne : x ≠ g := fun h' => hng (h' ▸ h)
      obtain ⟨h1, d, h2, h3⟩ := hi.asking x h
      refine ⟨h1, d, ?_, h3⟩
      unfold data at h2 ⊢
      dsimp only
      rw [upd_other _ _ _ _ hne]
      exact h2
    · intro hd x d h hx hh
      dsimp only at hd hx
      by_cases hxg : x = g
      · subst hxg
        rw [upd_same] at hx
        cases hx
      · rw [upd_other _ _ _ _ hxg] at hx
        obtain ⟨h1, h2⟩ := hi.own hd x d h hx hh
        exact ⟨h1, (hk x).2 h2⟩
    · exact fun h d y hx hy => (hk y).2 (hi.shared h d y hx hy)
    · intro h x
      dsimp only
      by_cases hxg : x = g
      · rw [hxg, upd_same]
      · rw [upd_other _ _ _ _ hxg]; exact hi.none h x
  | initDone =>
    have hk : ∀ x, Asking (es ++ [.initDone]) x ↔ Asking es x := by
      intro x
      rw [asking_snoc]
      constructor
      · rintro (h | h)
        · cases h
        · exact h.1
      · exact fun h => Or.inr ⟨h, (fun h => (by cases h))⟩
    show Inv _ { s with done := true }
    cases hd : s.done with
    | true =>
      have : ({ s with done := true } : S) = s := by rw [← hd]
      rw [this]
      constructor
      · simp [hd]
      · exact fun x hx => hi.asking x ((hk x).1 hx)
      · exact fun h x d y hx hy => ⟨(hi.own h x d y hx hy).1, (hk x).2 (hi.own h x d y hx hy).2⟩
      · exact fun h d y hx hy => (hk y).2 (hi.shared h d y hx hy)
      · exact hi.none
    | false =>
      have hno : ∀ x, ¬ Asking es x := by
        intro x hx
        have := alone_last ha x (not_done hi hd) hx
        cases this
      constructor
      · simp
      · exact fun x hx => absurd ((hk x).1 hx) (hno x)
      · intro _ x d y hx _
        dsimp only at hx
        rw [hi.none hd x] at hx
        cases hx
      · intro h; cases h
      · intro h; cases h

theorem inv_run : ∀ (es : List Ev), Sane es → Alone es → Inv es (run {} es) := by
  intro es
  generalize hn : es.length = n
  induction n generalizing es with
  | zero =>
    intro _ _
    rw [List.length_eq_zero_iff.1 hn]
    exact inv_nil
  | succ n ih =>
    intro hs ha
    rcases List.eq_nil_or_concat es with h | ⟨b, y, h⟩
    · rw [h] at hn; cases hn
    · rw [List.concat_eq_append] at h
      subst h
      have hb : b.length = n := by simpa using hn
      rw [run_snoc]
      exact inv_snoc b y _ (ih b hb (sane_of_snoc hs) (alone_of_snoc ha)) hs ha

/-- **C98.** In every history in which goroutines leave each other alone during initialisation: a function that is called returns
    at once, with zero results, only as the probing call of its own goroutine's `mock.Patch`; all other calls run. -/
theorem C98_calls_partial (es : List Ev) (g : Nat) (hs : Sane (es ++ [.call g])) (ha : Alone (es ++ [.call g])) :
    (Asking es g → outcome (run {} es) (.call g) = .told g) ∧ (¬ Asking es g → outcome (run {} es) (.call g) = .ran) := by
  have hi := inv_run es (sane_of_snoc hs) (alone_of_snoc ha)
  constructor
  · intro h
    obtain ⟨-, d, h1, h2⟩ := hi.asking g h
    simp [outcome, h1, h2]
  · intro h
    rw [outcome]
    cases hb : (data (run {} es) g).bind (·.insp) with
    | none => rfl
    | some x =>
      exfalso
      obtain ⟨d, h1, h2⟩ := Option.bind_eq_some_iff.1 hb
      unfold data at h1
      cases hd : (run {} es).done with
      | true =>
        rw [if_pos hd] at h1
        exact h (hi.own hd g d x h1 h2).2
      | false =>
        rw [if_neg (by rw [hd]; decide)] at h1
        have hx := hi.shared hd d x h1 h2
        have := alone_last ha x (not_done hi hd) hx
        cases this
        exact h hx

/-- **C98.** Nothing is needed of what happens after initialisation: goroutines may overlap as they like. -/
theorem C98_after (es es' : List Ev) (g : Nat) (hi : ∀ x, ¬ Asking es x) (ha : Alone es)
    (hs : Sane (es ++ .initDone :: es' ++ [.call g])) :
    (Asking (es ++ .initDone :: es') g → outcome (run {} (es ++ .initDone :: es')) (.call g) = .told g) ∧
    (¬ Asking (es ++ .initDone :: es') g → outcome (run {} (es ++ .initDone :: es')) (.call g) = .ran) := by
  refine C98_calls_partial _ g hs ?_
  intro a e b x hes hno hx
  have hlen : a.length ≤ es.length := by
    refine Classical.byContradiction fun hc => hno ?_
    have hlt : es.length < a.length := by omega
    have h1 : (es ++ .initDone :: es' ++ [.call g])[es.length]? = some .initDone := by
      rw [List.append_assoc, List.getElem?_append_right (Nat.le_refl _)]
      simp
    rw [hes, List.getElem?_append_left hlt] at h1
    exact List.mem_of_getElem? h1
  rcases Nat.lt_or_ge a.length es.length with hl | hl
  · -- the event is in `es`
    have hpre : a ++ [e] <+: es := by
      have h1 : (a ++ [e]) ++ b = es ++ (.initDone :: es' ++ [.call g]) := by
        rw [List.append_assoc es] at hes
        simpa using hes.symm
      refine List.prefix_of_prefix_length_le ⟨b, h1⟩ (List.prefix_append _ _) ?_
      simp
      omega
    obtain ⟨t, ht⟩ := hpre
    exact ha a e t x (by rw [← ht]; simp) hno hx
  · have hae : a = es := by
      have h1 : es ++ (.initDone :: es' ++ [.call g]) = a ++ e :: b := by rw [← hes]; simp
      exact (List.append_inj h1 (by omega)).1.symm
    rw [hae] at hx
    exact absurd hx (hi x)

/-- **C98.** After initialisation, `trace.Trace` on a goroutine that is not asking for a mock and not tracing yet records. -/
theorem C98_trace_after_partial (es : List Ev) (g : Nat) (hs : Sane es) (ha : Alone es) (hd : Ev.initDone ∈ es)
    (hg : ¬ Asking es g) (ht : ∀ d, data (run {} es) g = some d → d.tracing = false) :
    outcome (run {} es) (.trace g) = .recorded := by
  have hi := inv_run es hs ha
  have hdone := hi.done.2 hd
  rw [outcome]
  cases h : data (run {} es) g with
  | none => dsimp only; rw [if_pos hdone]
  | some d =>
    dsimp only
    cases hin : d.insp with
    | some x =>
      unfold data at h
      rw [if_pos hdone] at h
      exact absurd (hi.own hdone g d x h hin).2 hg
    | none =>
      dsimp only
      rw [if_neg (by rw [ht d h]; decide)]

/-- **C98.** During initialisation `trace.Trace` panics, in every history in which no mock of a method value was asked for before. -/
theorem C98_trace_in_init (es : List Ev) (g : Nat) (hn : ∀ x, Ev.ask x ∉ es) (hd : Ev.initDone ∉ es) :
    outcome (run {} es) (.trace g) = .panics := by
  have key : ∀ n (es : List Ev), es.length = n → (∀ x, Ev.ask x ∉ es) → Ev.initDone ∉ es →
      (run {} es).done = false ∧ (run {} es).shared = none ∧ ∀ x, (run {} es).at x = none := by
    intro n
    induction n with
    | zero => intro es hl _ _; rw [List.length_eq_zero_iff.1 hl]; exact ⟨rfl, rfl, fun _ => rfl⟩
    | succ n ih =>
      intro es hl hn hd
      rcases List.eq_nil_or_concat es with h | ⟨b, y, h⟩
      · rw [h] at hl; cases hl
      · rw [List.concat_eq_append] at h
        subst h
        obtain ⟨h1, h2, h3⟩ := ih b (by simpa using hl) (fun x hx => hn x (List.mem_append_left _ hx)) (fun hx => hd (List.mem_append_left _ hx))
        rw [run_snoc]
        cases y with
        | ask x => exact absurd (List.mem_append_right _ (List.mem_singleton.2 rfl)) (hn x)
        | asked x =>
          have : step (run {} b) (.asked x) = run {} b := by simp [step, h3 x]
          rw [this]; exact ⟨h1, h2, h3⟩
        | call x => exact ⟨h1, h2, h3⟩
        | trace x =>
          have ho : outcome (run {} b) (.trace x) ≠ .recorded := by
            simp [outcome, data, h1, h2]
          have : step (run {} b) (.trace x) = run {} b := by rw [step, if_neg ho]
          rw [this]; exact ⟨h1, h2, h3⟩
        | traced x => exact ⟨h1, h2, h3⟩
        | initDone => exact absurd (List.mem_append_right _ (List.mem_singleton.2 rfl)) hd
  obtain ⟨h1, h2, -⟩ := key es.length es rfl hn hd
  simp [outcome, data, h1, h2]

example : (∀ x, Ev.ask x ∉ [Ev.call 1, .call 2]) ∧ Ev.initDone ∉ [Ev.call 1, .call 2] := by
  constructor
  · intro x hx; simp at hx
  · decide

/-- **C98.** With a mock of a method value before, the first trace during initialisation is recorded, and all later ones during
    initialisation are not, on any goroutine. -/
theorem C98_trace_once (g h : Nat) :
    outcome (run {} [.ask 1, .call 1, .asked 1]) (.trace g) = .recorded ∧
    outcome (run {} [.ask 1, .call 1, .asked 1, .trace g, .traced g]) (.trace h) = .nested := by
  constructor
  · rfl
  · rfl

/-- **C98.** Two goroutines during initialisation: while one asks for a mock of `x.M`, a call of another, of any function, returns at
    once with zero results, and the mock is then set on that function. -/
theorem C98_counterexample_shared : outcome (run {} [.ask 1, .call 1]) (.call 2) = .told 1 ∧ ¬ Asking [.ask 1, .call 1] 2 := by
  refine ⟨rfl, ?_⟩
  intro h
  rcases (asking_snoc [.ask 1] (.call 1) 2).1 h with h | ⟨h, -⟩
  · cases h
  · rcases (asking_snoc [] (.ask 1) 2).1 h with h | ⟨h, -⟩
    · cases h
    · exact asking_nil 2 h

/-- **C98.** Initialisation ends while a goroutine asks for a mock of `x.M`: the real method runs, with zero arguments. -/
theorem C98_counterexample_end : Asking [.ask 1, .initDone] 1 ∧ outcome (run {} [.ask 1, .initDone]) (.call 1) = .ran :=
  ⟨⟨[], [.initDone], rfl, by decide⟩, rfl⟩

/-! ### A history -/

/-- Checks `Asking`. -/
def askingB (es : List Ev) (g : Nat) : Bool := es.foldl (fun b e => e = .ask g || (b && e ≠ .asked g)) false

theorem askingB_iff (g : Nat) : ∀ n (es : List Ev), es.length = n → (askingB es g = true ↔ Asking es g) := by
  intro n
  induction n with
  | zero => intro es h; rw [List.length_eq_zero_iff.1 h]; exact ⟨(fun h => (by cases h)), fun h => absurd h (asking_nil g)⟩
  | succ n ih =>
    intro es h
    rcases List.eq_nil_or_concat es with h' | ⟨b, y, h'⟩
    · rw [h'] at h; cases h
    · rw [List.concat_eq_append] at h'
      subst h'
      rw [asking_snoc, ← ih b (by simpa using h)]
      simp [askingB, List.foldl_append]

instance (es : List Ev) (g : Nat) : Decidable (Asking es g) := decidable_of_iff _ (askingB_iff g es.length es rfl)

/-- During initialisation goroutine 1 sets a mock while 2 has called before and calls after; afterwards 1 and 2 overlap. -/
def sample : List Ev := [.call 2, .ask 1, .call 1, .asked 1, .call 2, .initDone, .ask 1, .call 2, .ask 2, .call 1, .call 2, .asked 1, .call 1]

def splits (es : List Ev) : List (List Ev × Ev) := (List.range es.length).filterMap fun i => (es[i]?).map fun e => (es.take i, e)

theorem mem_splits {es a b : List Ev} {e : Ev} (h : es = a ++ e :: b) : (a, e) ∈ splits es := by
  refine List.mem_filterMap.2 ⟨a.length, List.mem_range.2 ?_, ?_⟩
  · rw [h]; simp
  · rw [h]; simp

theorem on_le : ∀ p ∈ splits sample, ∀ g, Ev.on p.2 = some g → g = 1 ∨ g = 2 := by
  intro p hp g hg
  have : ∀ p ∈ splits sample, Ev.on p.2 = none ∨ Ev.on p.2 = some 1 ∨ Ev.on p.2 = some 2 := by decide
  rcases this p hp with h | h | h <;> rw [h] at hg <;> cases hg
  · exact Or.inl rfl
  · exact Or.inr rfl

example : Sane sample := by
  intro a e b g h hg
  have hm := mem_splits h
  have key : ∀ p ∈ splits sample, ∀ g ∈ [1, 2], Ev.on p.2 = some g →
      (Asking p.1 g → p.2 = .call g ∨ p.2 = .asked g ∨ p.2 = .trace g) ∧ (p.2 = .asked g → Asking p.1 g) := by decide
  refine key (a, e) hm g ?_ hg
  rcases on_le _ hm g hg with h | h <;> simp [h]

example : Alone sample := by
  intro a e b g h hd hg
  have hm := mem_splits h
  have h12 : g = 1 ∨ g = 2 := by
    obtain ⟨x, y, hxy, -⟩ := hg
    refine on_le (x, .ask g) (mem_splits (b := y ++ e :: b) ?_) g rfl
    rw [h, hxy]; simp
  have key : ∀ p ∈ splits sample, ∀ g ∈ [1, 2], Ev.initDone ∉ p.1 → Asking p.1 g → Ev.on p.2 = some g := by decide
  refine key (a, e) hm g ?_ hd hg
  rcases h12 with h | h <;> simp [h]

example : outcome (run {} (sample.take 7)) (.call 2) = .ran ∧ outcome (run {} (sample.take 10)) (.call 2) = .told 2 := by decide

end Verif.Runtime.InitPhase
