/-
**C90**: what xgo puts at the beginning of functions does not change what the program does; replaced functions behave as what replaces them;
hooks see each call once at its begin and once after all that it deferred.
-/
import Verif.Runtime.DeferProps

namespace Verif.Runtime.Defer

variable {S F V P H : Type}

/-- A trap returned with a post function: the frame is run with the post function deferred first. -/
theorem frame_post (T : Trap S F V P H) (O : Observer S F V H) (prog : Nat → Code S F V P) (n : Nat) (c : Ctx V) (s : S) (h : H) (f : F) (p : P)
    (body : Code S F V P) :
    frame T O prog n c s h f (.deferPost p body) = (frame T O prog n c s h f body).map fun r =>
      { r with
        s := (T.post p (peekLeaving c r.recovered r.status) r.s r.f r.h).1
        f := (T.post p (peekLeaving c r.recovered r.status) r.s r.f r.h).2.1
        h := (T.post p (peekLeaving c r.recovered r.status) r.s r.f r.h).2.2.1
        status := after r.status false { panic := (T.post p (peekLeaving c r.recovered r.status) r.s r.f r.h).2.2.2 } } := by
  cases n with
  | zero => rfl
  | succ n =>
    unfold frame
    simp only
    rw [code]
    have hu := code_under T (observed O prog (frame T O prog n)) n c [.post p] body { s := s, h := h, f := f }
    rw [List.nil_append] at hu
    rw [hu]
    cases hc : code T (observed O prog (frame T O prog n)) n c body { s := s, h := h, f := f } with
    | none => rfl
    | some x =>
      obtain ⟨st, e⟩ := x
      simp only [under, Option.map_some]
      rw [leaving_append]
      cases hl : leaving T (observed O prog (frame T O prog n)) (frame T O prog n) c st.recovered st.defers st.s st.h st.f e.status with
      | none => rfl
      | some r =>
        have hrec := leaving_recovered hl
        simp only [Option.bind_some, Option.map_some]
        rw [leaving, hrec]
        rfl

theorem after_nothing (st : Status V) : after st false {} = st := by
  cases st with
  | mk e p => unfold after; simp

/-- Frames of plain code only depend on what calls do. -/
theorem frame_congr {T T' : Trap S F V P H} {O O' : Observer S F V H} {prog prog' : Nat → Code S F V P} {n : Nat}
    (hlit : ∀ c s h f d, Plain d → frame T O prog n c s h f d = frame T' O' prog' n c s h f d)
    (hcall : observed O prog (frame T O prog n) = observed O' prog' (frame T' O' prog' n)) (c : Ctx V) (s : S) (h : H) (f : F) {d}
    (hd : Plain d) : frame T O prog (n + 1) c s h f d = frame T' O' prog' (n + 1) c s h f d := by
  unfold frame
  simp only
  rw [code_call (T' := T') hcall hd]
  cases hc : code T' (observed O' prog' (frame T' O' prog' n)) n c d { s := s, h := h, f := f } with
  | none => rfl
  | some x =>
    exact leaving_call hcall hlit c _ (code_plain hd (by intro d hd; cases hd) hc) _ _ _ _

/-- The hooks of a function that are called around it do not come with a mock that panics. -/
def Hooks.Calm (W : Hooks S F V H) : Prop := ∀ f m, W.on f = true → W.mock f = some m → ∀ s x, (m s x).2.2 = none

theorem frame_trap {T : Trap S F V P H} (O : Observer S F V H) (prog : Nat → Code S F V P) (n : Nat) (c : Ctx V) {s : S} {h : H} {f : F} {g k}
    {s' : S} {h' : H} {f' : F} {post stop} (ht : T.trap g s f h = (s', f', h', .inr (post, stop))) :
    frame T O prog n c s h f (.trap g k) = frame T O prog n c s' h' f' (k post stop) := by
  cases n with
  | zero => rfl
  | succ n =>
    unfold frame
    simp only
    rw [code]
    simp only [ht]

theorem trap_of (W : Hooks S F V H) (g : Nat) (s : S) (f : F) (h : H) : W.trap.trap g s f h =
    match W.mock g with
    | none => (s, f, if W.on g then W.enter g s f h else h, .inr (if W.on g then some g else none, false))
    | some m =>
      match m s f with
      | (s', f', none) => (s', f', if W.on g then W.enter g s f h else h, .inr (if W.on g then some g else none, true))
      | (s', f', some v) => (s', f', if W.on g then W.enter g s f h else h, .inl v) := rfl

theorem stub_frame (W : Hooks S F V H) (hw : W.Calm) (O : Observer S F V H) (prog : Nat → Code S F V Nat) (n : Nat) (c : Ctx V) (g : Nat) (s : S) (h : H)
    (f : F) (body : Code S F V Nat) :
    frame W.trap O prog n c s h f (stub g body) =
      (frame W.trap O prog n c s (if W.on g then W.enter g s f h else h) f (match W.mock g with
        | none => body
        | some m => .prim m .done)).map fun r =>
        { r with h := if W.on g then W.leave g r.s r.f (peekLeaving c r.recovered r.status) r.h else r.h } := by
  have key : ∀ s' h' f' next, frame W.trap O prog n c s' h' f' (deferring (if W.on g then some g else none) next) = (frame W.trap O prog n c s' h' f' next).map fun r =>
        { r with h := if W.on g then W.leave g r.s r.f (peekLeaving c r.recovered r.status) r.h else r.h } := by
    intro s' h' f' next
    by_cases hon : W.on g = true
    · simp only [hon, if_true, deferring]
      rw [frame_post]
      congr 1
      funext r
      simp only [Hooks.trap, after_nothing]
    · simp only [hon, deferring]
      simp
  have ht := trap_of W g s f h
  unfold stub
  cases hm : W.mock g with
  | none =>
    rw [hm] at ht
    simp only at ht ⊢
    rw [frame_trap O prog n c ht]
    simp only [Bool.false_eq_true, if_false]
    exact key s _ f body
  | some m =>
    rw [hm] at ht
    simp only at ht ⊢
    cases hms : m s f with
    | mk s' r =>
      obtain ⟨f', v⟩ := r
      rw [hms] at ht
      cases v with
      | none =>
        simp only at ht
        rw [frame_trap O prog n c ht]
        simp only [if_true]
        refine (key s' _ f' .ret).trans ?_
        congr 1
        cases n with
        | zero => rfl
        | succ n =>
          unfold frame
          simp only [code, hms]
          rfl
      | some v =>
        simp only at ht
        have hon : W.on g = false := by
          cases hon : W.on g with
          | false => rfl
          | true => have := hw g m hon hm s f; rw [hms] at this; cases this
        simp only [hon, Bool.false_eq_true, if_false] at ht ⊢
        have : (frame W.trap O prog n c s h f (.prim m .done)).map (fun r => ({ r with h := r.h } : Res S F V H)) =
          frame W.trap O prog n c s h f (.prim m .done) := by
          cases frame W.trap O prog n c s h f (.prim m .done) <;> rfl
        rw [this]
        cases n with
        | zero => rfl
        | succ n =>
          unfold frame
          simp only [code, hms, ht]

/-- Plain programs stay plain when functions are replaced. -/
theorem replaced_plain {sel : Nat → Bool} {W : Hooks S F V H} {prog : Nat → Code S F V P} (h : ∀ f, Plain (prog f)) (f : Nat) :
    Plain (replaced sel W prog f) := by
  unfold replaced
  split
  · exact h f
  · exact .prim .done

/-- Calls do the same. -/
theorem behaviour {W : Hooks S F V H} (hw : W.Calm) (sel : Nat → Bool) {prog : Nat → Code S F V Nat} (hp : ∀ f, Plain (prog f)) (n : Nat) :
    (∀ c s h f d, Plain d → frame W.trap .none (instrument sel prog) n c s h f d = frame W.trap (watching sel W) (replaced sel W prog) n c s h f d) ∧
      func W.trap .none (instrument sel prog) n = func W.trap (watching sel W) (replaced sel W prog) n := by
  have step : ∀ n, (∀ c s h f d, Plain d →
      frame W.trap .none (instrument sel prog) n c s h f d = frame W.trap (watching sel W) (replaced sel W prog) n c s h f d) →
      func W.trap .none (instrument sel prog) n = func W.trap (watching sel W) (replaced sel W prog) n := by
    intro n hf
    funext c g s h f
    unfold func observed
    have hn : ∀ r : Option (Res S F V H), r.map (fun r => { r with h := (Observer.none (S := S)).leave g r.s r.f r.status (peek c r.recovered) r.h }) = r := by
      intro r; cases r <;> rfl
    rw [hn]
    show frame W.trap .none (instrument sel prog) n c s h f (if sel g then stub g (prog g) else prog g) = _
    by_cases hs : sel g = true
    · rw [if_pos hs, stub_frame W hw, hf]
      · unfold replaced watching
        simp only [hs, if_true, Bool.true_and]
        rfl
      · cases W.mock g with
        | none => exact hp g
        | some m => exact .prim .done
    · rw [if_neg hs]
      have hs : sel g = false := by simpa using hs
      unfold watching
      simp only [hs, Bool.false_and, Bool.false_eq_true, if_false]
      rw [hf _ _ _ _ _ (hp g)]
      unfold replaced
      simp only [hs, Bool.false_eq_true, if_false]
      have : ∀ r : Option (Res S F V H), r = r.map (fun r => ({ r with h := r.h } : Res S F V H)) := by intro r; cases r <;> rfl
      exact this _
  have hlit : ∀ c s h f d, Plain d →
      frame W.trap .none (instrument sel prog) n c s h f d = frame W.trap (watching sel W) (replaced sel W prog) n c s h f d := by
    induction n with
    | zero => intros; rfl
    | succ n ih =>
      intro c s h f d hd
      exact frame_congr ih (step n ih) c s h f hd
  exact ⟨hlit, step n hlit⟩

end Verif.Runtime.Defer
