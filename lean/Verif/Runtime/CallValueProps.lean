/-
C23: errors returned by interceptors, as seen by the caller.
-/
import Verif.Runtime.CallValue

namespace Verif.Runtime.CallValue

/-- An interceptor that only watches: does not change the results, returns no error, does not panic. -/
def Watches (f : Option (Comp (Option Err))) : Prop := ∀ g, f = some g → ∀ r, g r = .ok (r, none)

theorem preLoop_watch (lre : Bool) (hs : List Handler) (hw : ∀ h ∈ hs, Watches h.pre) (r : Results) (n : Nat)
    (cur : Option Handler) :
    ∃ n' cur', preLoop lre hs r n cur = .ok (r, false, n', cur') ∧
      (cur' = cur ∨ ∃ h ∈ hs, cur' = some h) ∧
      ((∀ h ∈ hs, h.post = none) → n' = n) ∧ (n' ≠ n → hs ≠ []) := by
  induction hs generalizing n cur with
  | nil => exact ⟨n, cur, rfl, Or.inl rfl, fun _ => rfl, fun h => absurd rfl h⟩
  | cons h hs ih =>
    obtain ⟨n', cur', h1, h2, h3, _⟩ := ih (fun x hx => hw x (by simp [hx]))
      (if h.post.isSome then n + 1 else n) (some h)
    refine ⟨n', cur', ?_, ?_, ?_, fun _ => by simp⟩
    · unfold preLoop
      cases hp : h.pre with
      | none => exact h1
      | some ic =>
        have : preHandler lre ic r = .ok (r, false) := by
          unfold preHandler; rw [hw h (by simp) ic hp r]
        simp only [this]; exact h1
    · rcases h2 with h2 | ⟨x, hx, h2⟩
      · exact Or.inr ⟨h, by simp, h2⟩
      · exact Or.inr ⟨x, by simp [hx], h2⟩
    · intro hn
      rw [h3 (fun x hx => hn x (by simp [hx])), hn h (by simp)]
      rfl

/-- **C23** (mock interceptor) Among any interceptors that only watch through their pre hooks (and have no
    post hook), a call mocked by an interceptor never runs the original; an error it returns becomes the
    call's error result if the function's last result is `error`, and otherwise the call panics with exactly
    that error; without error the caller sees the results as the interceptor set them. -/
theorem C23_mock_error (lre : Bool) (hs : List Handler) (hw : ∀ h ∈ hs, Watches h.pre)
    (hp : ∀ h ∈ hs, h.post = none) (ic : Comp (Option Err)) (body : Body) (r r' : Results) (err : Option Err)
    (hic : ic r = .ok (r', err)) :
    (call lre hs (some ic) body r).ran = false ∧
    (call lre hs (some ic) body r).out =
      match err with
      | none => .ok r'
      | some e => if lre then .ok { r' with err := some e } else .error e := by
  obtain ⟨n', cur', h1, _, h3, _⟩ := preLoop_watch lre hs hw r 0 none
  have hn := h3 hp
  subst hn
  unfold call
  rw [h1]
  simp only [mockHandler, hic]
  cases err with
  | none => exact ⟨rfl, rfl⟩
  | some e =>
    cases lre
    · exact ⟨rfl, rfl⟩
    · exact ⟨rfl, rfl⟩

/-- **C23** (abort) When a pre interceptor returns `ErrMocked`, earlier interceptors having only
    watched, the original and the mock are not run, later interceptors are not run, and (if no earlier
    interceptor has a post hook) the caller gets the results exactly as that interceptor left them — whether or not the function's last
    result is an `error`. -/
theorem C23_errmocked_aborts (lre : Bool) (hs₁ hs₂ : List Handler) (h : Handler) (hw : ∀ x ∈ hs₁, Watches x.pre)
    (hp : ∀ x ∈ hs₁, x.post = none) (ic : Comp (Option Err)) (hpre : h.pre = some ic)
    (mock : Option (Comp (Option Err))) (body : Body) (r r' : Results)
    (hic : ic r = .ok (r', some .mocked)) :
    (call lre (hs₁ ++ h :: hs₂) mock body r).ran = false ∧
    (call lre (hs₁ ++ h :: hs₂) mock body r).out = .ok r' := by
  have key : ∀ (n : Nat) (cur : Option Handler),
      preLoop lre (hs₁ ++ h :: hs₂) r n cur = .ok (r', true, n, some h) := by
    induction hs₁ with
    | nil =>
      intro n cur
      simp only [List.nil_append, preLoop, hpre, preHandler, hic, ↓reduceIte]
    | cons x hs₁ ih =>
      intro n cur
      have ih' := ih (fun y hy => hw y (by simp [hy])) (fun y hy => hp y (by simp [hy]))
      simp only [List.cons_append, preLoop, hp x (by simp), Option.isSome_none, Bool.false_eq_true, ↓reduceIte]
      cases hx : x.pre with
      | none => exact ih' n _
      | some g =>
        have : preHandler lre g r = .ok (r, false) := by
          unfold preHandler; rw [hw x (by simp) g hx r]
        simp only [this]; exact ih' n _
  unfold call
  rw [key]
  exact ⟨rfl, rfl⟩

/-- A computation that does not itself bring `ErrMocked` into the results or panic with it. -/
def Clean {α : Type} (f : Comp α) : Prop :=
  ∀ r, r.err ≠ some .mocked →
    (∀ r' a, f r = .ok (r', a) → r'.err ≠ some .mocked) ∧ f r ≠ .error .mocked

/-- An interceptor that does not return `ErrMocked` as its error. -/
def NotMocked (f : Comp (Option Err)) : Prop := ∀ r r', f r ≠ .ok (r', some .mocked)

def CleanOut (o : Except Err Results) : Prop :=
  (∀ r, o = .ok r → r.err ≠ some .mocked) ∧ o ≠ .error .mocked

theorem putErr_clean (lre : Bool) (r : Results) (e : Err) (he : e ≠ .mocked) : CleanOut (putErr lre r e) := by
  unfold putErr
  cases lre
  · exact ⟨fun _ h => by simp at h, by simpa using he⟩
  · refine ⟨fun r' h => ?_, by simp⟩
    simp at h; subst h; simpa using he

theorem preHandler_clean (lre : Bool) (ic : Comp (Option Err)) (hc : Clean ic) (r : Results)
    (hr : r.err ≠ some .mocked) :
    (∀ r' b, preHandler lre ic r = .ok (r', b) → r'.err ≠ some .mocked) ∧
      preHandler lre ic r ≠ .error .mocked := by
  obtain ⟨h1, h2⟩ := hc r hr
  unfold preHandler
  cases hi : ic r with
  | error e => rw [hi] at h2; exact ⟨fun _ _ h => by simp at h, by simpa using h2⟩
  | ok p =>
    obtain ⟨r1, o⟩ := p
    have hr1 := h1 r1 o hi
    cases o with
    | none =>
      refine ⟨fun r' b h => ?_, by simp⟩
      simp at h; rw [← h.1]; exact hr1
    | some e =>
      by_cases he : e = .mocked
      · simp only [he, ↓reduceIte]
        refine ⟨fun r' b h => ?_, by simp⟩
        simp at h; rw [← h.1]; exact hr1
      · simp only [he, ↓reduceIte]
        obtain ⟨c1, c2⟩ := putErr_clean lre r1 e he
        cases hp : putErr lre r1 e with
        | error e' => rw [hp] at c2; exact ⟨fun _ _ h => by simp at h, by simpa using c2⟩
        | ok r2 =>
          refine ⟨fun r' b h => ?_, by simp⟩
          simp at h; rw [← h.1]; exact c1 r2 hp

theorem handler_clean {α : Type} (lre : Bool) (ic : Comp (Option Err)) (hc : Clean ic) (hm : NotMocked ic) (r : Results)
    (hr : r.err ≠ some .mocked) (a : α) (f : Comp α)
    (hf : f r = match ic r with
      | .error e => .error e
      | .ok (r, none) => .ok (r, a)
      | .ok (r, some e) => match putErr lre r e with
        | .error e => .error e
        | .ok r => .ok (r, a)) :
    (∀ r' b, f r = .ok (r', b) → r'.err ≠ some .mocked) ∧ f r ≠ .error .mocked := by
  obtain ⟨h1, h2⟩ := hc r hr
  rw [hf]
  cases hi : ic r with
  | error e => rw [hi] at h2; exact ⟨fun _ _ h => by simp at h, by simpa using h2⟩
  | ok p =>
    obtain ⟨r1, o⟩ := p
    have hr1 := h1 r1 o hi
    cases o with
    | none =>
      refine ⟨fun r' b h => ?_, by simp⟩
      simp at h; rw [← h.1]; exact hr1
    | some e =>
      have he : e ≠ .mocked := fun h => hm r r1 (by rw [hi, h])
      obtain ⟨c1, c2⟩ := putErr_clean lre r1 e he
      simp only
      cases hp : putErr lre r1 e with
      | error e' => rw [hp] at c2; exact ⟨fun _ _ h => by simp at h, by simpa using c2⟩
      | ok r2 =>
        refine ⟨fun r' b h => ?_, by simp⟩
        simp at h; rw [← h.1]; exact c1 r2 hp

theorem preLoop_clean (lre : Bool) (hs : List Handler) (hc : ∀ h ∈ hs, ∀ ic, h.pre = some ic → Clean ic) :
    ∀ (r : Results) (n : Nat) (cur : Option Handler), r.err ≠ some .mocked →
    (∀ r' s n' c', preLoop lre hs r n cur = .ok (r', s, n', c') →
      r'.err ≠ some .mocked ∧ (c' = cur ∨ ∃ h ∈ hs, c' = some h)) ∧
    preLoop lre hs r n cur ≠ .error .mocked := by
  induction hs with
  | nil =>
    intro r n cur hr
    refine ⟨fun r' s n' c' h => ?_, by simp [preLoop]⟩
    simp [preLoop] at h
    obtain ⟨rfl, _, _, rfl⟩ := h
    exact ⟨hr, Or.inl rfl⟩
  | cons h hs ih =>
    intro r n cur hr
    have ih' := ih (fun x hx => hc x (by simp [hx]))
    unfold preLoop
    cases hp : h.pre with
    | none =>
      obtain ⟨i1, i2⟩ := ih' r (if h.post.isSome then n + 1 else n) (some h) hr
      refine ⟨fun r' s n' c' he => ?_, i2⟩
      obtain ⟨j1, j2⟩ := i1 r' s n' c' he
      refine ⟨j1, Or.inr ?_⟩
      rcases j2 with j2 | ⟨x, hx, j2⟩
      · exact ⟨h, by simp, j2⟩
      · exact ⟨x, by simp [hx], j2⟩
    | some ic =>
      obtain ⟨c1, c2⟩ := preHandler_clean lre ic (hc h (by simp) ic hp) r hr
      simp only
      cases hh : preHandler lre ic r with
      | error e => rw [hh] at c2; exact ⟨fun _ _ _ _ h => by simp at h, by simpa using c2⟩
      | ok p =>
        obtain ⟨r1, b⟩ := p
        have hr1 := c1 r1 b hh
        cases b with
        | true =>
          refine ⟨fun r' s n' c' he => ?_, by simp⟩
          simp at he
          obtain ⟨rfl, _, _, rfl⟩ := he
          exact ⟨hr1, Or.inr ⟨h, by simp, rfl⟩⟩
        | false =>
          obtain ⟨i1, i2⟩ := ih' r1 (if h.post.isSome then n + 1 else n) (some h) hr1
          refine ⟨fun r' s n' c' he => ?_, i2⟩
          obtain ⟨j1, j2⟩ := i1 r' s n' c' he
          refine ⟨j1, Or.inr ?_⟩
          rcases j2 with j2 | ⟨x, hx, j2⟩
          · exact ⟨h, by simp, j2⟩
          · exact ⟨x, by simp [hx], j2⟩

theorem postLoop_clean (lre : Bool) (cur : Option Handler)
    (hc : ∀ h, cur = some h → ∀ ic, h.post = some ic → Clean ic ∧ NotMocked ic) :
    ∀ (n : Nat) (r : Results), r.err ≠ some .mocked → CleanOut (postLoop lre cur n r) := by
  intro n
  induction n with
  | zero => intro r hr; exact ⟨fun r' h => by simp [postLoop] at h; rw [← h]; exact hr, by simp [postLoop]⟩
  | succ n ih =>
    intro r hr
    unfold postLoop
    cases hcur : cur with
    | none => exact ⟨fun _ h => by simp at h, by simp⟩
    | some h =>
      simp only
      cases hp : h.post with
      | none => exact ⟨fun _ h => by simp at h, by simp⟩
      | some ic =>
        simp only
        obtain ⟨hc1, hc2⟩ := hc h hcur ic hp
        obtain ⟨c1, c2⟩ := handler_clean lre ic hc1 hc2 r hr () (postHandler lre ic) rfl
        cases hh : postHandler lre ic r with
        | error e => rw [hh] at c2; exact ⟨fun _ h => by simp at h, by simpa using c2⟩
        | ok p =>
          obtain ⟨r1, u⟩ := p
          have := ih r1 (c1 r1 u hh)
          rw [hcur] at this
          exact this

/-- **C23** (ErrMocked stays internal) For any list of interceptors, any mock and any body: if pre
    interceptors signal `ErrMocked` only by returning it (anything else returning or storing it being the
    user's doing), then the caller never sees `ErrMocked`, neither as a result nor as a panic. -/
theorem C23_errmocked_never_visible (lre : Bool) (hs : List Handler) (mock : Option (Comp (Option Err)))
    (body : Body) (r : Results) (hr : r.err ≠ some .mocked)
    (hpre : ∀ h ∈ hs, ∀ ic, h.pre = some ic → Clean ic)
    (hpost : ∀ h ∈ hs, ∀ ic, h.post = some ic → Clean ic ∧ NotMocked ic)
    (hmock : ∀ ic, mock = some ic → Clean ic ∧ NotMocked ic) (hbody : Clean body) :
    CleanOut (call lre hs mock body r).out := by
  obtain ⟨p1, p2⟩ := preLoop_clean lre hs hpre r 0 none hr
  unfold call
  cases hp : preLoop lre hs r 0 none with
  | error e => rw [hp] at p2; exact ⟨fun _ h => by simp at h, by simpa using p2⟩
  | ok t =>
    obtain ⟨r1, s, n, cur⟩ := t
    obtain ⟨hr1, hcur⟩ := p1 r1 s n cur hp
    have hcur' : ∀ h, cur = some h → ∀ ic, h.post = some ic → Clean ic ∧ NotMocked ic := by
      intro h hh ic hi
      rcases hcur with rfl | ⟨x, hx, rfl⟩
      · cases hh
      · cases hh; exact hpost h hx ic hi
    have P := postLoop_clean lre cur hcur' n
    cases s with
    | true => exact P r1 hr1
    | false =>
      simp only
      have fin : ∀ r2 : Results, r2.err ≠ some .mocked → CleanOut
          (match body r2 with
          | .ok (r, ()) => (⟨postLoop lre cur n r, true⟩ : Observed)
          | .error e =>
            match postLoop lre cur n r2 with
            | .error e' => ⟨.error e', true⟩
            | .ok _ => ⟨.error e, true⟩).out := by
        intro r2 hr2
        obtain ⟨b1, b2⟩ := hbody r2 hr2
        cases hb : body r2 with
        | error e =>
          rw [hb] at b2
          simp only
          obtain ⟨q1, q2⟩ := P r2 hr2
          cases hq : postLoop lre cur n r2 with
          | error e' => rw [hq] at q2; exact ⟨fun _ h => by simp at h, by simpa using q2⟩
          | ok r3 => exact ⟨fun _ h => by simp at h, by simpa using b2⟩
        | ok q =>
          obtain ⟨r3, u⟩ := q
          exact P r3 (b1 r3 u hb)
      cases hm : mock with
      | none => exact fin r1 hr1
      | some ic =>
        obtain ⟨hc1, hc2⟩ := hmock ic hm
        obtain ⟨c1, c2⟩ := handler_clean lre ic hc1 hc2 r1 hr1 true (mockHandler lre ic) rfl
        simp only
        cases hh : mockHandler lre ic r1 with
        | error e => rw [hh] at c2; exact ⟨fun _ h => by simp at h, by simpa using c2⟩
        | ok q =>
          obtain ⟨r2, b⟩ := q
          have := c1 r2 b hh
          cases b with
          | true => exact P r2 this
          | false => exact fin r2 this

/-- An ordinary error returned by a pre interceptor does not abort the call: the original still runs, and if it
    sets its results the error is lost. (Contrast with mocks, `C23_mock_error`.) -/
theorem C23_pre_error_lost (body : Body) (r r' : Results) (n : Nat) (hb : ∀ x, body x = .ok (r', ())) :
    (call true [⟨some fun r => .ok (r, some (.other n)), none⟩] none body r).ran = true ∧
    (call true [⟨some fun r => .ok (r, some (.other n)), none⟩] none body r).out = .ok r' := by
  simp [call, preLoop, preHandler, putErr, postLoop, hb]

/-- **C23** (post interceptor) A post interceptor runs after the mock or the original, on the results they left: what it sets is what
    the caller gets; an error it returns becomes the call's error result or, for functions without one, a panic. -/
theorem C23_post_error (lre : Bool) (pre : Option (Comp (Option Err))) (hw : Watches pre) (ic : Comp (Option Err)) (body : Body)
    (r r1 r2 : Results) (err : Option Err) (mock : Option (Comp (Option Err)))
    (hin : match mock with
      | none => body r = .ok (r1, ())
      | some m => m r = .ok (r1, none))
    (hic : ic r1 = .ok (r2, err)) :
    (call lre [⟨pre, some ic⟩] mock body r).ran = mock.isNone ∧
    (call lre [⟨pre, some ic⟩] mock body r).out =
      match err with
      | none => .ok r2
      | some e => if lre then .ok { r2 with err := some e } else .error e := by
  have hpre : preLoop lre [⟨pre, some ic⟩] r 0 none = .ok (r, false, 1, some ⟨pre, some ic⟩) := by
    cases pre with
    | none => rfl
    | some g => simp [preLoop, preHandler, hw g rfl r]
  have hpost : postLoop lre (some ⟨pre, some ic⟩) 1 r1 = match err with
      | none => .ok r2
      | some e => if lre then .ok { r2 with err := some e } else .error e := by
    cases err with
    | none => simp [postLoop, postHandler, hic]
    | some e => cases lre <;> simp [postLoop, postHandler, hic, putErr]
  unfold call
  rw [hpre]
  cases mock with
  | none => simp only at hin ⊢; rw [hin]; simp [hpost]
  | some m => simp only at hin ⊢; simp [mockHandler, hin, hpost]

/-! ### C50: interceptors that only watch -/

theorem preLoop_watch_count (lre : Bool) (hs : List Handler) (hw : ∀ h ∈ hs, Watches h.pre) (r : Results) (n : Nat)
    (cur : Option Handler) :
    preLoop lre hs r n cur = .ok (r, false, n + (hs.filter (·.post.isSome)).length, (hs.getLast?).or cur) := by
  induction hs generalizing n cur with
  | nil => rfl
  | cons h hs ih =>
    have hl : ((h :: hs).getLast?).or cur = (hs.getLast?).or (some h) := by
      cases hs with
      | nil => rfl
      | cons a l => rw [List.getLast?_cons_cons]; cases hh : (a :: l).getLast? <;> simp_all
    have ih' := ih (fun x hx => hw x (by simp [hx])) (if h.post.isSome then n + 1 else n) (some h)
    have hc : (if h.post.isSome then n + 1 else n) + (hs.filter (·.post.isSome)).length =
        n + ((h :: hs).filter (·.post.isSome)).length := by
      rw [List.filter_cons]; split <;> simp <;> omega
    rw [hl, ← hc]
    unfold preLoop
    cases hp : h.pre with
    | none => exact ih'
    | some ic =>
      have : preHandler lre ic r = .ok (r, false) := by
        unfold preHandler; rw [hw h (by simp) ic hp r]
      simp only [this]; exact ih'

theorem postLoop_watch (lre : Bool) (h : Handler) (hw : Watches h.post) (hs : h.post.isSome) (n : Nat) (r : Results) :
    postLoop lre (some h) n r = .ok r := by
  obtain ⟨ic, hic⟩ := Option.isSome_iff_exists.1 hs
  induction n with
  | zero => rfl
  | succ n ih => simp only [postLoop, hic, postHandler, hw ic hic r]; exact ih

/-- What a call without interceptors gives. -/
def plainCall (body : Body) (r : Results) : Except Err Results := (body r).map (·.1)

/-- **C50** Interceptors that only watch (do not change results, return no error, do not panic) are invisible to the caller: an unmocked
    call runs the original, and returns or panics exactly as it would without them. Missing: lists in which some interceptor has a post
    hook but the last one has none (see `C50_counterexample`). -/
theorem C50_watchers_invisible_partial (lre : Bool) (hs : List Handler) (hpre : ∀ h ∈ hs, Watches h.pre)
    (hpost : ∀ h ∈ hs, Watches h.post) (hlast : ∀ h, hs.getLast? = some h → h.post = none → ∀ x ∈ hs, x.post = none)
    (body : Body) (r : Results) :
    (call lre hs none body r).ran = true ∧ (call lre hs none body r).out = plainCall body r := by
  have hp : ∀ r, postLoop lre (hs.getLast?.or none) (0 + (hs.filter (·.post.isSome)).length) r = .ok r := by
    intro r
    cases hl : hs.getLast? with
    | none =>
      have : hs = [] := List.getLast?_eq_none_iff.1 hl
      subst this; rfl
    | some h =>
      cases hpo : h.post with
      | none =>
        have : hs.filter (·.post.isSome) = [] := by
          rw [List.filter_eq_nil_iff]; intro x hx; simp [hlast h hl hpo x hx]
        rw [this]; rfl
      | some g =>
        exact postLoop_watch lre h (hpost h (List.mem_of_getLast? hl)) (by simp [hpo]) _ r
  unfold call
  rw [preLoop_watch_count lre hs hpre r 0 none]
  simp only [plainCall]
  cases hb : body r with
  | error e => simp only [hp]; simp [Except.map]
  | ok x => simp only [hp]; simp [Except.map]

/-- **C50** is false of the code otherwise: if some interceptor has a post hook and the last one registered has none, every unmocked call
    whose original does not panic ends in a nil dereference, whatever it would have returned. -/
theorem C50_counterexample (lre : Bool) (hs : List Handler) (hpre : ∀ h ∈ hs, Watches h.pre) (l x : Handler)
    (hl : hs.getLast? = some l) (hlp : l.post = none) (hx : x ∈ hs) (hxp : x.post ≠ none) (body : Body) (r r' : Results)
    (hb : body r = .ok (r', ())) :
    (call lre hs none body r).out = .error (.other 0) := by
  have hn : ∃ n, 0 + (hs.filter (·.post.isSome)).length = n + 1 := by
    have : 0 < (hs.filter (·.post.isSome)).length :=
      List.length_pos_of_mem (List.mem_filter.2 ⟨hx, by simpa [Option.isSome_iff_ne_none] using hxp⟩)
    exact ⟨(hs.filter (·.post.isSome)).length - 1, by omega⟩
  obtain ⟨n, hn⟩ := hn
  unfold call
  rw [preLoop_watch_count lre hs hpre r 0 none, hn, hl]
  simp [hb, postLoop, hlp]

/-- two watchers: with posts in both, fine; with a post in the first only, a panic -/
def watchBoth : Handler := ⟨some fun r => .ok (r, none), some fun r => .ok (r, none)⟩
example : Watches watchBoth.pre ∧ Watches watchBoth.post :=
  ⟨fun g h r => by cases h; rfl, fun g h r => by cases h; rfl⟩
example : (call true [watchBoth, watchBoth] none (fun _ => .ok (⟨[1], none⟩, ())) ⟨[0], none⟩).out.toOption = some ⟨[1], none⟩ := by
  decide
example : (call true [watchBoth, ⟨watchBoth.pre, none⟩] none (fun _ => .ok (⟨[1], none⟩, ())) ⟨[0], none⟩).out.toOption = none := by
  decide
/-- a post that turns the result into 9 and returns an error -/
example : (call true [⟨none, some fun r => .ok ({ r with vals := [9] }, some (.other 4))⟩] none (fun _ => .ok (⟨[1], none⟩, ())) ⟨[0], none⟩).out.toOption =
    some ⟨[9], some (.other 4)⟩ := by decide

/-! A concrete call: a watching interceptor, then one aborting with `ErrMocked` after setting the
result to 7; and a mocked call returning an error. -/

def watcher : Handler := ⟨some fun r => .ok (r, none), none⟩
def aborter : Handler := ⟨some fun r => .ok ({ r with vals := [7] }, some .mocked), some fun r => .ok (r, none)⟩
def exBody : Body := fun _ => .ok (⟨[1], none⟩, ())

example : Watches watcher.pre ∧ watcher.post = none := ⟨fun g h r => by cases h; rfl, rfl⟩
example : (call true [watcher, aborter, watcher] none exBody ⟨[0], none⟩).out.toOption = some ⟨[7], none⟩ := by
  decide
example : (call true [watcher] (some fun r => .ok (r, some (.other 3))) exBody ⟨[0], none⟩).out.toOption =
    some ⟨[0], some (.other 3)⟩ := by decide
example : (call false [watcher] (some fun r => .ok (r, some (.other 3))) exBody ⟨[0], none⟩).out.toOption =
    none := by decide
example : Clean exBody := by
  intro r _
  refine ⟨fun r' a h => ?_, by simp [exBody]⟩
  simp [exBody] at h
  rw [← h]
  simp

end Verif.Runtime.CallValue
