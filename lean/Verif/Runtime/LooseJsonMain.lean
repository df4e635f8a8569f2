/-
C99: values in a trace.
-/
import Verif.Runtime.LooseJsonSpec

namespace Verif.Runtime.LooseJson

/-! ### The flags go back -/

/-- The same flags. -/
def Same (s t : St) : Prop := s.loose = t.loose ∧ s.trapping = t.trapping

theorem Same.rfl' {s : St} : Same s s := ⟨rfl, rfl⟩
theorem Same.trans {s t u : St} (h : Same s t) (k : Same t u) : Same s u := ⟨h.1.trans k.1, h.2.trans k.2⟩
theorem Same.symm {s t : St} (h : Same s t) : Same t s := ⟨h.1.symm, h.2.symm⟩

theorem Same.seen {s t : St} (h : Same s t) (b : Bool) (r : Res Json) : Same s (t.saw b r) := ⟨h.1, h.2⟩

theorem back_same {s t : St} (h : Same s.begin t) : Same s (s.back t) := by
  unfold St.back
  cases hl : s.loose with
  | true => exact ⟨by rw [if_pos rfl, hl, ← h.1]; rfl, by rw [if_pos rfl, ← h.2]; rfl⟩
  | false => exact ⟨hl, by rw [if_neg (by decide), ← h.2]; rfl⟩

theorem more_same {α β : Type} {s : St} {a : Res α × St} {k : α → St → Res β × St} (h : Same s a.2)
    (hk : ∀ j t, Same s t → Same s (k j t).2) : Same s (more a k).2 := by
  unfold more
  cases a.1 with
  | ok j => exact hk j _ h
  | _ => exact h

theorem shows_same {s t : St} {r : Res Json} {k : St → Res Json × St} (h : Same s t) (hk : ∀ t, Same s t → Same s (k t).2) :
    Same s (shows r t k).2 := by
  unfold shows
  cases r with
  | ok j => exact hk _ ⟨h.1, h.2⟩
  | _ => exact h

theorem event_same {s t : St} (hs : s.trapping = false) (h : Same { s.begin with trapping := true } t) :
    Same s { s.back t with trapping := false } := by
  refine ⟨?_, hs⟩
  show s.loose = (s.back t).loose
  unfold St.back
  cases hl : s.loose with
  | true => rw [if_pos rfl, ← h.1]; rfl
  | false => rw [if_neg (by decide)]

mutual
theorem enc_same : ∀ (v : Val) (s : St), Same s (enc v s).2
  | .plain _, _ => .rfl'
  | .bad _, _ => .rfl'
  | .odd _, _ => .rfl'
  | .arr vs, s => by rw [enc]; exact more_same (encVals_same vs s) fun _ _ h => h
  | .obj fs, s => by rw [enc]; exact more_same (encFields_same fs s) fun _ _ h => h
  | .method c, s => by rw [enc]; exact exec_same c s

theorem encVals_same : ∀ (vs : Vals) (s : St), Same s (encVals vs s).2
  | .nil, _ => .rfl'
  | .cons v vs, s => by
    rw [encVals]
    exact more_same (enc_same v s) fun j t h => more_same (h.trans (encVals_same vs t)) fun _ _ h => h

theorem encFields_same : ∀ (fs : Fields) (s : St), Same s (encFields fs s).2
  | .nil, _ => .rfl'
  | .cons n v fs, s => by
    rw [encFields]
    exact more_same (enc_same v s) fun j t h => more_same (h.trans (encFields_same fs t)) fun _ _ h => h

theorem encArgs_same : ∀ (fs : Fields) (s : St), Same s (encArgs fs s).2
  | .nil, _ => .rfl'
  | .cons n v fs, s => by
    rw [encArgs]
    exact more_same (back_same (enc_same v s.begin)) fun j t h => more_same (h.trans (encArgs_same fs t)) fun _ _ h => h

theorem exec_same : ∀ (c : Code) (s : St), Same s (exec c s).2
  | .ret _, _ => .rfl'
  | .fail _, _ => .rfl'
  | .panics _, _ => .rfl'
  | .exits, _ => .rfl'
  | .tail v, s => by rw [exec]; exact ⟨(enc_same v s).1, (enc_same v s).2⟩
  | .marshal v a b, s => by
    rw [exec]
    have h := enc_same v s
    cases (enc v s).1 with
    | ok j => exact (h.seen _ _).trans (exec_same a _)
    | err e => exact (h.seen _ _).trans (exec_same b _)
    | panic p => exact ⟨h.1, h.2⟩
    | exit => exact ⟨h.1, h.2⟩
  | .call args k, s => by
    rw [exec]
    by_cases hs : s.trapping = true
    · rw [if_pos hs]; exact exec_same k s
    · rw [if_neg hs]
      exact shows_same (event_same (by simpa using hs) (encArgs_same args _)) fun t h => h.trans (exec_same k t)
  | .load v k, s => by
    rw [exec]
    by_cases hs : s.trapping = true
    · rw [if_pos hs]; exact exec_same k s
    · rw [if_neg hs]
      exact shows_same (event_same (by simpa using hs) (enc_same v _)) fun t h => h.trans (exec_same k t)
  | .spawn v k, s => by
    rw [exec]
    exact Same.trans ⟨rfl, rfl⟩ (exec_same k { s with seen := s.seen ++ [.other s.trapping (enc v {}).1] })
end

/-- **C99** (the mode ends with the call) However marshalling for a trace ends — with a text, an error, a panic, or the end of the
    goroutine — the goroutine is afterwards in the mode it was in before; so is it after everything that a program marshals itself. -/
theorem C99_mode (v : Val) (s : St) : (marshalNoError v s).2.loose = s.loose ∧ (marshalNoError v s).2.trapping = s.trapping ∧
    (enc v s).2.loose = s.loose ∧ (enc v s).2.trapping = s.trapping := by
  have h1 := back_same (enc_same v s.begin)
  have h2 := enc_same v s
  exact ⟨h1.1.symm, h1.2.symm, h2.1.symm, h2.2.symm⟩

/-! ### In a trace -/

mutual
theorem shown_enc : ∀ {v : Val} {j : Json}, Shown v j → ∀ s : St, s.loose = true → (enc v s).1 = .ok j
  | _, _, .plain _, _, _ => rfl
  | _, _, .odd t, s, h => by rw [enc, if_pos h]; rfl
  | _, _, .arr h, s, hs => by rw [enc, more, shownVals_enc h s hs]
  | _, _, .obj h, s, hs => by rw [enc, more, shownFields_enc h s hs]
  | _, _, .ret _, _, _ => rfl
  | _, _, .tail h, s, hs => by rw [enc, exec]; exact shown_enc h s hs

theorem shownVals_enc : ∀ {vs : Vals} {l : List Json}, ShownVals vs l → ∀ s : St, s.loose = true → (encVals vs s).1 = .ok l
  | _, _, .nil, _, _ => rfl
  | _, _, .cons (v := v) h hs, s, hl => by
    rw [encVals, more, shown_enc h s hl]
    dsimp only
    rw [more, shownVals_enc hs _ ((enc_same v s).1 ▸ hl)]

theorem shownFields_enc : ∀ {fs : Fields} {l : List (Str × Json)}, ShownFields fs l → ∀ s : St, s.loose = true →
    (encFields fs s).1 = .ok l
  | _, _, .nil, _, _ => rfl
  | _, _, .cons (v := v) h hs, s, hl => by
    rw [encFields, more, shown_enc h s hl]
    dsimp only
    rw [more, shownFields_enc hs _ ((enc_same v s).1 ▸ hl)]
end

/-- **C99** (functions and channels in a trace) A value is shown as in Go, and what has no JSON form in it by the name of its type: the
    rest of the value is kept. -/
theorem C99_shown {v : Val} {j : Json} (h : Shown v j) (s : St) : (marshalNoError v s).1 = .ok j := by
  rw [marshalNoError, shown_enc h _ rfl]
  rfl

/-- The outcome depends on the flags only. -/
def Agree {α : Type} (f : St → Res α × St) : Prop := ∀ s t, Same s t → (f s).1 = (f t).1

theorem more_agree {α β : Type} {f : St → Res α × St} {k : α → St → Res β × St} (hf : Agree f) (hs : ∀ s, Same s (f s).2)
    (hk : ∀ j, Agree (k j)) : Agree fun s => more (f s) k := by
  intro s t h
  show (more (f s) k).1 = (more (f t) k).1
  unfold more
  rw [hf s t h]
  cases (f t).1 with
  | ok j => exact hk j _ _ (((hs s).symm.trans h).trans (hs t))
  | _ => rfl

theorem begin_same {s t : St} (h : Same s t) : Same s.begin t.begin := ⟨rfl, h.2⟩

mutual
theorem enc_agree : ∀ v : Val, Agree (enc v)
  | .plain _, _, _, _ => rfl
  | .bad _, _, _, _ => rfl
  | .odd t, s, u, h => by rw [enc, enc, h.1]
  | .arr vs, s, t, h => by
    rw [enc, enc]
    exact more_agree (encVals_agree vs) (encVals_same vs) (fun _ _ _ _ => rfl) s t h
  | .obj fs, s, t, h => by
    rw [enc, enc]
    exact more_agree (encFields_agree fs) (encFields_same fs) (fun _ _ _ _ => rfl) s t h
  | .method c, s, t, h => by rw [enc, enc]; exact exec_agree c s t h

theorem encVals_agree : ∀ vs : Vals, Agree (encVals vs)
  | .nil, _, _, _ => rfl
  | .cons v vs, s, t, h => by
    rw [encVals, encVals]
    exact more_agree (enc_agree v) (enc_same v) (fun _ => more_agree (encVals_agree vs) (encVals_same vs) fun _ _ _ _ => rfl) s t h

theorem encFields_agree : ∀ fs : Fields, Agree (encFields fs)
  | .nil, _, _, _ => rfl
  | .cons n v fs, s, t, h => by
    rw [encFields, encFields]
    exact more_agree (enc_agree v) (enc_same v) (fun _ => more_agree (encFields_agree fs) (encFields_same fs) fun _ _ _ _ => rfl) s t h

theorem encArgs_agree : ∀ fs : Fields, Agree (encArgs fs)
  | .nil, _, _, _ => rfl
  | .cons n v fs, s, t, h => by
    rw [encArgs, encArgs]
    exact more_agree (f := fun s => (settle (enc v s.begin).1, s.back (enc v s.begin).2))
      (fun s t h => congrArg settle (enc_agree v _ _ (begin_same h))) (fun s => back_same (enc_same v s.begin))
      (fun _ => more_agree (encArgs_agree fs) (encArgs_same fs) fun _ _ _ _ => rfl) s t h

theorem exec_agree : ∀ c : Code, Agree (exec c)
  | .ret _, _, _, _ => rfl
  | .fail _, _, _, _ => rfl
  | .panics _, _, _, _ => rfl
  | .exits, _, _, _ => rfl
  | .tail v, s, t, h => by rw [exec, exec]; exact enc_agree v s t h
  | .marshal v a b, s, t, h => by
    rw [exec, exec]
    have hf : Same (enc v s).2 (enc v t).2 := ((enc_same v s).symm.trans h).trans (enc_same v t)
    have he := enc_agree v s t h
    rw [he]
    cases (enc v t).1 with
    | ok j => exact exec_agree a _ _ ⟨hf.1, hf.2⟩
    | err e => exact exec_agree b _ _ ⟨hf.1, hf.2⟩
    | panic p => rfl
    | exit => rfl
  | .call args k, s, t, h => by
    rw [exec, exec, h.2]
    by_cases ht : t.trapping = true
    · rw [if_pos ht, if_pos ht]; exact exec_agree k s t h
    · rw [if_neg ht, if_neg ht]
      have hs : s.trapping = false := h.2.trans (by simpa using ht)
      have ht : t.trapping = false := by simpa using ht
      have he := encArgs_agree args { s.begin with trapping := true } { t.begin with trapping := true } ⟨rfl, rfl⟩
      have h1 := event_same hs (encArgs_same args { s.begin with trapping := true })
      have h2 := event_same ht (encArgs_same args { t.begin with trapping := true })
      dsimp only
      rw [he]
      generalize settle _ = r
      cases r with
      | ok j => exact exec_agree k _ _ (((Same.symm h1).trans h).trans h2)
      | _ => rfl
  | .load v k, s, t, h => by
    rw [exec, exec, h.2]
    by_cases ht : t.trapping = true
    · rw [if_pos ht, if_pos ht]; exact exec_agree k s t h
    · rw [if_neg ht, if_neg ht]
      have hs : s.trapping = false := h.2.trans (by simpa using ht)
      have ht : t.trapping = false := by simpa using ht
      have he := enc_agree v { s.begin with trapping := true } { t.begin with trapping := true } ⟨rfl, rfl⟩
      have h1 := event_same hs (enc_same v { s.begin with trapping := true })
      have h2 := event_same ht (enc_same v { t.begin with trapping := true })
      dsimp only
      rw [he]
      generalize settle _ = r
      cases r with
      | ok j => exact exec_agree k _ _ (((Same.symm h1).trans h).trans h2)
      | _ => rfl
  | .spawn v k, s, t, h => by
    rw [exec, exec]
    exact exec_agree k _ _ ⟨h.1, h.2⟩
end

/-! ### Methods that a tracer may call -/

/-- It ended, and in a way that can be shown. -/
def Tame {α : Type} : Res α → Prop
  | .ok _ => True
  | .err e => e.Fine
  | .panic p => p.Fine
  | .exit => False

theorem more_tame {α β : Type} {a : Res α × St} {k : α → St → Res β × St} (h : Tame a.1) (hk : ∀ j, Tame (k j a.2).1) :
    Tame (more a k).1 := by
  unfold more
  cases ha : a.1 with
  | ok j => exact hk j
  | err e => rw [ha] at h; exact h
  | panic p => rw [ha] at h; exact h
  | exit => rw [ha] at h; exact h

theorem settle_tame {r : Res Json} (h : Tame r) : ∃ j, settle r = .ok j := by
  cases r with
  | ok j => exact ⟨j, rfl⟩
  | exit => exact h.elim
  | err e =>
    cases e with
    | says m => exact ⟨_, rfl⟩
    | panics p => exact (show False from h).elim
    | again => exact (show False from h).elim
  | panic p =>
    cases p with
    | text m => exact ⟨_, rfl⟩
    | error e =>
      cases e with
      | says m => exact ⟨_, rfl⟩
      | panics p => exact (show False from h).elim
      | again => exact (show False from h).elim

mutual
theorem enc_tame : ∀ (v : Val) (s : St), s.trapping = true → Gentle v → Tame (enc v s).1
  | .plain _, _, _, _ => trivial
  | .bad _, _, _, h => h
  | .odd t, s, _, _ => by rw [enc]; cases s.loose <;> trivial
  | .arr vs, s, hs, h => by rw [enc]; exact more_tame (encVals_tame vs s hs h) fun _ => trivial
  | .obj fs, s, hs, h => by rw [enc]; exact more_tame (encFields_tame fs s hs h) fun _ => trivial
  | .method c, s, hs, h => by rw [enc]; exact exec_tame c s hs h

theorem encVals_tame : ∀ (vs : Vals) (s : St), s.trapping = true → GentleVals vs → Tame (encVals vs s).1
  | .nil, _, _, _ => trivial
  | .cons v vs, s, hs, h => by
    rw [encVals]
    exact more_tame (enc_tame v s hs h.1) fun j => more_tame (encVals_tame vs _ ((enc_same v s).2 ▸ hs) h.2) fun _ => trivial

theorem encFields_tame : ∀ (fs : Fields) (s : St), s.trapping = true → GentleFields fs → Tame (encFields fs s).1
  | .nil, _, _, _ => trivial
  | .cons n v fs, s, hs, h => by
    rw [encFields]
    exact more_tame (enc_tame v s hs h.1) fun j => more_tame (encFields_tame fs _ ((enc_same v s).2 ▸ hs) h.2) fun _ => trivial

theorem exec_tame : ∀ (c : Code) (s : St), s.trapping = true → GentleCode c → Tame (exec c s).1
  | .ret _, _, _, _ => trivial
  | .fail _, _, _, h => h
  | .panics _, _, _, h => h
  | .exits, _, _, h => h.elim
  | .tail v, s, hs, h => by rw [exec]; exact enc_tame v s hs h
  | .marshal v a b, s, hs, h => by
    rw [exec]
    have he := enc_tame v s hs h.1
    have hf : (enc v s).2.trapping = true := (enc_same v s).2 ▸ hs
    cases hr : (enc v s).1 with
    | ok j => exact exec_tame a _ hf h.2.1
    | err e => exact exec_tame b _ hf h.2.2
    | panic p => rw [hr] at he; exact he
    | exit => rw [hr] at he; exact he
  | .call args k, s, hs, h => by rw [exec, if_pos hs]; exact exec_tame k s hs h
  | .load v k, s, hs, h => by rw [exec, if_pos hs]; exact exec_tame k s hs h
  | .spawn v k, s, hs, h => by rw [exec]; exact exec_tame k _ hs h
end

theorem args_each : ∀ (fs : Fields) (s : St), s.trapping = true → GentleFields fs →
    ∃ l, (encArgs fs s).1 = .ok l ∧ Each fs l
  | .nil, _, _, _ => ⟨[], rfl, .nil⟩
  | .cons n v fs, s, hs, h => by
    obtain ⟨j, hj⟩ := settle_tame (enc_tame v s.begin hs h.1)
    have hb := back_same (enc_same v s.begin)
    obtain ⟨l, hl, ha⟩ := args_each fs (s.back (enc v s.begin).2) (hb.2 ▸ hs) h.2
    refine ⟨(n, j) :: l, ?_, .cons ?_ ha⟩
    · rw [encArgs, more]
      dsimp only
      rw [hj]
      dsimp only
      rw [more, hl]
    · rw [Alone, marshalNoError, ← hj]
      exact congrArg settle (enc_agree v _ _ ⟨rfl, hs.symm⟩)

/-! ### While something is traced, nothing else is -/

theorem more_quiet {α β : Type} {s : St} {a : Res α × St} {k : α → St → Res β × St} (h : a.2.shown = s.shown ∧ mine a.2 = mine s)
    (hk : ∀ j, (k j a.2).2.shown = a.2.shown ∧ mine (k j a.2).2 = mine a.2) :
    (more a k).2.shown = s.shown ∧ mine (more a k).2 = mine s := by
  unfold more
  cases a.1 with
  | ok j => exact ⟨(hk j).1.trans h.1, (hk j).2.trans h.2⟩
  | _ => exact h

theorem see_quiet {s t : St} {r : Res Json} (hs : s.trapping = true) : mine (t.saw s.trapping r) = mine t := by
  show List.filter Seen.mine (t.seen ++ [.own s.trapping r]) = List.filter Seen.mine t.seen
  rw [List.filter_append, hs]
  simp [Seen.mine]

mutual
theorem enc_quiet : ∀ (v : Val) (s : St), s.trapping = true → (enc v s).2.shown = s.shown ∧ mine (enc v s).2 = mine s
  | .plain _, _, _ => ⟨rfl, rfl⟩
  | .bad _, _, _ => ⟨rfl, rfl⟩
  | .odd _, _, _ => ⟨rfl, rfl⟩
  | .arr vs, s, hs => by rw [enc]; exact more_quiet (encVals_quiet vs s hs) fun _ => ⟨rfl, rfl⟩
  | .obj fs, s, hs => by rw [enc]; exact more_quiet (encFields_quiet fs s hs) fun _ => ⟨rfl, rfl⟩
  | .method c, s, hs => by rw [enc]; exact exec_quiet c s hs

theorem encVals_quiet : ∀ (vs : Vals) (s : St), s.trapping = true → (encVals vs s).2.shown = s.shown ∧ mine (encVals vs s).2 = mine s
  | .nil, _, _ => ⟨rfl, rfl⟩
  | .cons v vs, s, hs => by
    rw [encVals]
    exact more_quiet (enc_quiet v s hs) fun j => more_quiet (encVals_quiet vs _ ((enc_same v s).2 ▸ hs)) fun _ => ⟨rfl, rfl⟩

theorem encFields_quiet : ∀ (fs : Fields) (s : St), s.trapping = true →
    (encFields fs s).2.shown = s.shown ∧ mine (encFields fs s).2 = mine s
  | .nil, _, _ => ⟨rfl, rfl⟩
  | .cons n v fs, s, hs => by
    rw [encFields]
    exact more_quiet (enc_quiet v s hs) fun j => more_quiet (encFields_quiet fs _ ((enc_same v s).2 ▸ hs)) fun _ => ⟨rfl, rfl⟩

theorem exec_quiet : ∀ (c : Code) (s : St), s.trapping = true → (exec c s).2.shown = s.shown ∧ mine (exec c s).2 = mine s
  | .ret _, _, _ => ⟨rfl, rfl⟩
  | .fail _, _, _ => ⟨rfl, rfl⟩
  | .panics _, _, _ => ⟨rfl, rfl⟩
  | .exits, _, _ => ⟨rfl, rfl⟩
  | .tail v, s, hs => by
    rw [exec]
    have h := enc_quiet v s hs
    exact ⟨h.1, (see_quiet hs).trans h.2⟩
  | .marshal v a b, s, hs => by
    rw [exec]
    have h := enc_quiet v s hs
    have hf : (enc v s).2.trapping = true := (enc_same v s).2 ▸ hs
    have h2 : ∀ r, mine ((enc v s).2.saw s.trapping r) = mine s := fun r => (see_quiet hs).trans h.2
    have hf' : ∀ r, ((enc v s).2.saw s.trapping r).trapping = true := fun _ => hf
    have h1 : ∀ r, ((enc v s).2.saw s.trapping r).shown = s.shown := fun _ => h.1
    cases hr : (enc v s).1 with
    | ok j => exact ⟨(exec_quiet a _ (hf' _)).1.trans (h1 _), (exec_quiet a _ (hf' _)).2.trans (h2 _)⟩
    | err e => exact ⟨(exec_quiet b _ (hf' _)).1.trans (h1 _), (exec_quiet b _ (hf' _)).2.trans (h2 _)⟩
    | panic p => exact ⟨h1 _, h2 _⟩
    | exit => exact ⟨h1 _, h2 _⟩
  | .call args k, s, hs => by rw [exec, if_pos hs]; exact exec_quiet k s hs
  | .load v k, s, hs => by rw [exec, if_pos hs]; exact exec_quiet k s hs
  | .spawn v k, s, hs => by
    rw [exec]
    have h := exec_quiet k { s with seen := s.seen ++ [.other s.trapping (enc v {}).1] } hs
    refine ⟨h.1, h.2.trans ?_⟩
    show List.filter Seen.mine (s.seen ++ [.other s.trapping (enc v {}).1]) = List.filter Seen.mine s.seen
    rw [List.filter_append, hs]
    simp [Seen.mine]
end

theorem back_quiet (s t : St) : (s.back t).shown = t.shown ∧ mine (s.back t) = mine t := by
  unfold St.back
  cases s.loose <;> exact ⟨rfl, rfl⟩

theorem encArgs_quiet : ∀ (fs : Fields) (s : St), s.trapping = true → (encArgs fs s).2.shown = s.shown ∧ mine (encArgs fs s).2 = mine s
  | .nil, _, _ => ⟨rfl, rfl⟩
  | .cons n v fs, s, hs => by
    have h := enc_quiet v s.begin hs
    have hb := back_quiet s (enc v s.begin).2
    rw [encArgs]
    exact more_quiet ⟨hb.1.trans h.1, hb.2.trans h.2⟩ fun j =>
      more_quiet (encArgs_quiet fs _ ((back_same (enc_same v s.begin)).2 ▸ hs)) fun _ => ⟨rfl, rfl⟩

/-- **C99** (each argument for itself) If no method of an argument ends the goroutine, and all errors have a message, then a traced call
    goes on, whatever the arguments are, and the trace shows each of them under its name, in order, as it is shown alone: what one of
    them does — an error, a panic — costs only itself. Nothing else is added to the trace meanwhile, and nothing is done to what the
    program has seen of its own doing. -/
theorem C99_args (args : Fields) (k : Code) (s : St) (h : GentleFields args) (hs : s.trapping = false) :
    ∃ l s', Each args l ∧ s'.loose = s.loose ∧ s'.trapping = false ∧ s'.shown = s.shown ++ [.obj l] ∧ mine s' = mine s ∧
      exec (.call args k) s = exec k s' := by
  obtain ⟨l, h1, h2⟩ := args_each args { s.begin with trapping := true } rfl h
  have he := event_same hs (encArgs_same args { s.begin with trapping := true })
  have hq := encArgs_quiet args { s.begin with trapping := true } rfl
  have hb := back_quiet s (encArgs args { s.begin with trapping := true }).2
  refine ⟨l, { s.back (encArgs args { s.begin with trapping := true }).2 with trapping := false, shown := s.shown ++ [.obj l] },
    h2, he.1.symm, rfl, rfl, hb.2.trans hq.2, ?_⟩
  rw [exec, if_neg (by rw [hs]; decide)]
  dsimp only
  rw [h1]
  have : (s.back (encArgs args { s.begin with trapping := true }).2).shown = s.shown := hb.1.trans hq.1
  show exec k _ = exec k _
  rw [← this]

/-- **C99** (a variable) The same for a traced variable. -/
theorem C99_load (v : Val) (k : Code) (s : St) (h : Gentle v) (hs : s.trapping = false) :
    ∃ j s', Alone v j ∧ s'.loose = s.loose ∧ s'.trapping = false ∧ s'.shown = s.shown ++ [j] ∧ mine s' = mine s ∧
      exec (.load v k) s = exec k s' := by
  obtain ⟨j, h1⟩ := settle_tame (enc_tame v { s.begin with trapping := true } rfl h)
  have he := event_same hs (enc_same v { s.begin with trapping := true })
  have hq := enc_quiet v { s.begin with trapping := true } rfl
  have hb := back_quiet s (enc v { s.begin with trapping := true }).2
  refine ⟨j, { s.back (enc v { s.begin with trapping := true }).2 with trapping := false, shown := s.shown ++ [j] },
    ?_, he.1.symm, rfl, rfl, hb.2.trans hq.2, ?_⟩
  · rw [Alone, marshalNoError, ← h1]
    exact congrArg settle (enc_agree v _ _ ⟨rfl, rfl⟩)
  · rw [exec, if_neg (by rw [hs]; decide)]
    dsimp only
    rw [h1]
    have : (s.back (enc v { s.begin with trapping := true }).2).shown = s.shown := hb.1.trans hq.1
    show exec k _ = exec k _
    rw [← this]

/-! ### The program's own marshalling -/

/-- Not being traced. -/
def Free (s : St) : Prop := s.loose = false ∧ s.trapping = false

theorem Free.of {s t : St} (h : Free s) (k : Same s t) : Free t := ⟨k.1 ▸ h.1, k.2 ▸ h.2⟩

/-- As in Go. -/
def Goes {α : Type} (r : Res α × St) (s : St) (g : Res α × List Seen) : Prop := r.1 = g.1 ∧ mine r.2 = mine s ++ g.2

theorem mine_saw {t : St} {r : Res Json} : mine (t.saw false r) = mine t ++ [.own false r] := by
  show List.filter Seen.mine (t.seen ++ [.own false r]) = List.filter Seen.mine t.seen ++ [.own false r]
  rw [List.filter_append]; rfl

mutual
theorem enc_std : ∀ (v : Val) (s : St), Free s → Calm v → Goes (enc v s) s (std v)
  | .plain _, _, _, _ => ⟨rfl, (List.append_nil _).symm⟩
  | .bad _, _, _, _ => ⟨rfl, (List.append_nil _).symm⟩
  | .odd t, s, hs, _ => by rw [enc, std, hs.1]; exact ⟨rfl, (List.append_nil _).symm⟩
  | .arr vs, s, hs, h => by
    have h1 := encVals_std vs s hs h
    rw [enc, std, more, h1.1]
    cases hr : (stdVals vs).1 <;> exact ⟨rfl, h1.2⟩
  | .obj fs, s, hs, h => by
    have h1 := encFields_std fs s hs h
    rw [enc, std, more, h1.1]
    cases hr : (stdFields fs).1 <;> exact ⟨rfl, h1.2⟩
  | .method c, s, hs, h => by rw [enc, std]; exact exec_std c s hs h

theorem encVals_std : ∀ (vs : Vals) (s : St), Free s → CalmVals vs → Goes (encVals vs s) s (stdVals vs)
  | .nil, _, _, _ => ⟨rfl, (List.append_nil _).symm⟩
  | .cons v vs, s, hs, h => by
    have h1 := enc_std v s hs h.1
    rw [encVals, stdVals, more, h1.1]
    cases hr : (std v).1 with
    | ok j =>
      have h2 := encVals_std vs _ (hs.of (enc_same v s)) h.2
      dsimp only
      rw [more, h2.1]
      have h3 : mine (encVals vs (enc v s).2).2 = mine s ++ ((std v).2 ++ (stdVals vs).2) := by rw [h2.2, h1.2, List.append_assoc]
      cases (stdVals vs).1 <;> exact ⟨rfl, h3⟩
    | _ => exact ⟨rfl, h1.2⟩

theorem encFields_std : ∀ (fs : Fields) (s : St), Free s → CalmFields fs → Goes (encFields fs s) s (stdFields fs)
  | .nil, _, _, _ => ⟨rfl, (List.append_nil _).symm⟩
  | .cons n v fs, s, hs, h => by
    have h1 := enc_std v s hs h.1
    rw [encFields, stdFields, more, h1.1]
    cases hr : (std v).1 with
    | ok j =>
      have h2 := encFields_std fs _ (hs.of (enc_same v s)) h.2
      dsimp only
      rw [more, h2.1]
      have h3 : mine (encFields fs (enc v s).2).2 = mine s ++ ((std v).2 ++ (stdFields fs).2) := by rw [h2.2, h1.2, List.append_assoc]
      cases (stdFields fs).1 <;> exact ⟨rfl, h3⟩
    | _ => exact ⟨rfl, h1.2⟩

theorem exec_std : ∀ (c : Code) (s : St), Free s → CalmCode c → Goes (exec c s) s (stdCode c)
  | .ret _, _, _, _ => ⟨rfl, (List.append_nil _).symm⟩
  | .fail _, _, _, _ => ⟨rfl, (List.append_nil _).symm⟩
  | .panics _, _, _, _ => ⟨rfl, (List.append_nil _).symm⟩
  | .exits, _, _, _ => ⟨rfl, (List.append_nil _).symm⟩
  | .tail v, s, hs, h => by
    have h1 := enc_std v s hs h
    rw [exec, stdCode]
    refine ⟨h1.1, ?_⟩
    rw [hs.2, mine_saw, h1.2, h1.1, List.append_assoc]
  | .marshal v a b, s, hs, h => by
    have h1 := enc_std v s hs h.1
    have hf : ∀ r, Free ((enc v s).2.saw false r) := fun r => hs.of ((enc_same v s).seen _ _)
    have hm : ∀ r, mine ((enc v s).2.saw false r) = mine s ++ ((std v).2 ++ [.own false r]) := fun r => by
      rw [mine_saw, h1.2, List.append_assoc]
    rw [exec, stdCode, hs.2]
    rw [h1.1]
    cases hr : (std v).1 with
    | ok j =>
      have h2 := exec_std a _ (hf (.ok j)) h.2.1
      exact ⟨h2.1, h2.2.trans (by rw [hm, List.append_assoc])⟩
    | err e =>
      have h2 := exec_std b _ (hf (.err e)) h.2.2
      exact ⟨h2.1, h2.2.trans (by rw [hm, List.append_assoc])⟩
    | panic p => exact ⟨rfl, hm _⟩
    | exit => exact ⟨rfl, hm _⟩
  | .call args k, s, hs, h => by
    obtain ⟨l, s', _, h2, h3, _, h5, h6⟩ := C99_args args k s h.1 hs.2
    have h7 := exec_std k s' ⟨h2.trans hs.1, h3⟩ h.2
    rw [h6, stdCode]
    exact ⟨h7.1, h7.2.trans (by rw [h5])⟩
  | .load v k, s, hs, h => by
    obtain ⟨l, s', _, h2, h3, _, h5, h6⟩ := C99_load v k s h.1 hs.2
    have h7 := exec_std k s' ⟨h2.trans hs.1, h3⟩ h.2
    rw [h6, stdCode]
    exact ⟨h7.1, h7.2.trans (by rw [h5])⟩
  | .spawn v k, s, hs, h => by
    have h1 := enc_std v {} ⟨rfl, rfl⟩ h.1
    have h7 := exec_std k { s with seen := s.seen ++ [.other s.trapping (enc v {}).1] } ⟨hs.1, hs.2⟩ h.2
    rw [exec, stdCode]
    refine ⟨h7.1, h7.2.trans ?_⟩
    show List.filter Seen.mine (s.seen ++ [.other s.trapping (enc v {}).1]) ++ (stdCode k).2 = _
    rw [List.filter_append, hs.2, h1.1]
    simp [Seen.mine, mine]
end

/-- **C99** (the program marshals as in Go) What a program marshals itself — not in a method that the tracer calls — ends as in Go
    without xgo, whatever is traced meanwhile, and all that the program sees of the outcomes of its own `json.Marshal` is as in Go: a
    func or a chan is an error there, on every goroutine. Missing: what is traced must not end the goroutine, nor have errors that cannot
    say what they are (`C99_exit_counterexample`, `C99_error_counterexample`). -/
theorem C99_own_partial (v : Val) (s : St) (h1 : s.loose = false) (h2 : s.trapping = false) (h : Calm v) :
    (enc v s).1 = (std v).1 ∧ mine (enc v s).2 = mine s ++ (std v).2 :=
  enc_std v s ⟨h1, h2⟩ h

/-! ### What goes wrong -/

/-- A type that asks whether a func can be marshalled. -/
def asker : Val := .method (.marshal (.odd "func()".toList) (.ret (.atom "1".toList)) (.ret (.atom "0".toList)))

/-- **C99** (counterexample: a method that the tracer calls is deceived) A method that marshals a func and looks at the error gets none
    when the tracer calls it: the same value is shown in the trace as something that `json.Marshal` never gives. -/
theorem C99_method_counterexample : (enc asker {}).1 = .ok (.atom "0".toList) ∧ (std asker).1 = .ok (.atom "0".toList) ∧
    (marshalNoError asker {}).1 = .ok (.atom "1".toList) := ⟨rfl, rfl, rfl⟩

/-- **C99** (counterexample: a method that marshals on another goroutine) There the same func is an error, also in a trace. -/
theorem C99_goroutine_counterexample (s : St) :
    ∃ m, (exec (.spawn (.odd "func()".toList) (.ret (.atom "1".toList))) s).2.seen = s.seen ++ [.other s.trapping (.err (.says m))] :=
  ⟨_, rfl⟩

/-- **C99** (counterexample: tracing ends the goroutine) A call with an argument whose `MarshalJSON` ends the goroutine does not come
    back, whatever the function would do. -/
theorem C99_exit_counterexample (n : Str) (k : Code) (s : St) (hs : s.trapping = false) :
    (exec (.call (.cons n (.method .exits) .nil) k) s).1 = .exit := by
  rw [exec, if_neg (by rw [hs]; decide)]
  rfl

/-- **C99** (counterexample: an error that cannot say what it is) A variable whose `MarshalJSON` gives an error whose `Error` method
    panics: reading the variable panics when it is traced. An argument of a call may do so too, if the panic is again such an error. -/
theorem C99_error_counterexample (n : Str) (k : Code) (s : St) (hs : s.trapping = false) (p : Pan) :
    (exec (.load (.method (.fail (.panics p))) k) s).1 = .panic p ∧
    (exec (.call (.cons n (.method (.fail .again)) .nil) k) s).1 = .panic (.error .again) ∧
    (std (.method (.load (.method (.fail (.panics p))) (.ret (.atom []))))).1 = .ok (.atom []) := by
  refine ⟨?_, ?_, rfl⟩
  · rw [exec, if_neg (by rw [hs]; decide)]
    rfl
  · rw [exec, if_neg (by rw [hs]; decide)]
    rfl

/-- **C99** (counterexample: a NaN costs the whole argument) Beside a NaN nothing of the argument is shown; beside a func all is. -/
theorem C99_value_counterexample :
    Alone (.obj (.cons ['N'] (.plain (.atom ['1'])) (.cons ['X'] (.bad (.says "NaN".toList)) .nil))) (.obj [("error".toList, .str "NaN".toList)]) ∧
    Alone (.obj (.cons ['N'] (.plain (.atom ['1'])) (.cons ['X'] (.odd "func()".toList) .nil)))
      (.obj [(['N'], .atom ['1']), (['X'], .obj [("func()".toList, .str ['?'])])]) := ⟨rfl, rfl⟩

/-! ### Examples -/

/-- A call in a program's own method, with a func, a NaN and a panic among its arguments. -/
def sampleArgs : Fields := .cons ['a'] (.odd "func()".toList) (.cons ['b'] (.bad (.says "NaN".toList)) (.cons ['c'] (.method (.panics (.text "p".toList)))
  (.cons ['d'] (.obj (.cons ['N'] (.plain (.atom ['4'])) .nil)) .nil)))

example : GentleFields sampleArgs := ⟨trivial, trivial, trivial, ⟨trivial, trivial⟩, trivial⟩

example : (trace sampleArgs {}).2.shown = [.obj [(['a'], mark "func()".toList), (['b'], trouble "NaN".toList false),
    (['c'], trouble "panic: p".toList true), (['d'], .obj [(['N'], .atom ['4'])])]] := rfl

example : Calm (.method (.call sampleArgs (.tail (.odd "chan int".toList)))) := ⟨⟨trivial, trivial, trivial, ⟨trivial, trivial⟩, trivial⟩, trivial⟩

example : Shown (.obj (.cons ['N'] (.plain (.atom ['1'])) (.cons ['X'] (.odd "func()".toList) .nil)))
    (.obj [(['N'], .atom ['1']), (['X'], .obj [("func()".toList, .str ['?'])])]) :=
  .obj (.cons (.plain _) (.cons (.odd _) .nil))

end Verif.Runtime.LooseJson
