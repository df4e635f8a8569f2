/- Lemmas on frames with traps. -/
import Verif.Runtime.DeferSpec

namespace Verif.Runtime.Defer

variable {S F V P H : Type}

/-- The result of a block with more deferred below. -/
def under (ds : List (Deferred S F V P)) (r : Option (St S F V P H × End V)) : Option (St S F V P H × End V) :=
  r.map fun x => ({ x.1 with defers := x.1.defers ++ ds }, x.2)

theorem iterate_under (ds : List (Deferred S F V P)) (b : S → F → Bool) (body : St S F V P H → Option (St S F V P H × End V))
    (h : ∀ st, body { st with defers := st.defers ++ ds } = under ds (body st)) (n : Nat) (st : St S F V P H) :
    iterate b body n { st with defers := st.defers ++ ds } = under ds (iterate b body n st) := by
  induction n generalizing st with
  | zero => rfl
  | succ n ih =>
    unfold iterate
    simp only
    split
    · rw [h]
      cases body st with
      | none => rfl
      | some x =>
        obtain ⟨st', e⟩ := x
        cases e with
        | fall => exact ih st'
        | ret => rfl
        | unwind e => rfl
    · rfl

/-- What is deferred before a block does not matter to the block. -/
theorem code_under (T : Trap S F V P H) (call : Call S F V H) (n : Nat) (c : Ctx V) (ds : List (Deferred S F V P)) (p : Code S F V P)
    (st : St S F V P H) : code T call n c p { st with defers := st.defers ++ ds } = under ds (code T call n c p st) := by
  induction p generalizing st with
  | done => rfl
  | prim g rest ih =>
    unfold code
    simp only
    cases g st.s st.f with
    | mk s r =>
      obtain ⟨f, v⟩ := r
      cases v with
      | none => exact ih { st with s := s, f := f }
      | some v => rfl
  | ite b t e rest iht ihe ih =>
    unfold code
    simp only
    have : (if b st.s st.f then code T call n c t { st with defers := st.defers ++ ds } else code T call n c e { st with defers := st.defers ++ ds }) =
        under ds (if b st.s st.f then code T call n c t st else code T call n c e st) := by
      split
      · exact iht st
      · exact ihe st
    rw [this]
    cases (if b st.s st.f then code T call n c t st else code T call n c e st) with
    | none => rfl
    | some x =>
      obtain ⟨st', e⟩ := x
      cases e with
      | fall => exact ih st'
      | ret => rfl
      | unwind e => rfl
  | loop b body rest ihb ih =>
    unfold code
    rw [iterate_under ds b _ ihb]
    cases iterate b (code T call n c body) n st with
    | none => rfl
    | some x =>
      obtain ⟨st', e⟩ := x
      cases e with
      | fall => exact ih st'
      | ret => rfl
      | unwind e => rfl
  | call f x k rest ih =>
    unfold code
    simp only
    cases call { peek := peek c st.recovered } f st.s st.h (x st.s st.f) with
    | none => rfl
    | some r =>
      simp only
      by_cases hn : r.status.normal = true
      · rw [if_pos hn, if_pos hn]
        exact ih { st with s := (k r.f r.s st.f).1, h := r.h, f := (k r.f r.s st.f).2 }
      · rw [if_neg hn, if_neg hn]; rfl
  | deferLit d rest _ ih => exact ih { st with defers := .lit d :: st.defers }
  | deferCall f x rest ih => exact ih { st with defers := .call f (x st.s st.f) :: st.defers }
  | recover k rest ih =>
    exact ih { st with
      s := (k (if st.recovered then none else c.can) st.s st.f).1
      f := (k (if st.recovered then none else c.can) st.s st.f).2
      recovered := st.recovered || c.can.isSome }
  | ret => rfl
  | goexit => rfl
  | trap f k ih =>
    unfold code
    simp only
    cases T.trap f st.s st.f st.h with
    | mk s r =>
      obtain ⟨fr, h, v⟩ := r
      cases v with
      | inl v => rfl
      | inr x =>
        obtain ⟨post, stop⟩ := x
        exact ih post stop { st with s := s, f := fr, h := h }
  | deferPost p rest ih => exact ih { st with defers := .post p :: st.defers }

theorem leaving_append (T : Trap S F V P H) (call : Call S F V H) (lit) (c : Ctx V) (rec : Bool) (a b : List (Deferred S F V P)) (s : S) (h : H)
    (f : F) (e : Status V) : leaving T call lit c rec (a ++ b) s h f e =
      (leaving T call lit c rec a s h f e).bind fun r => leaving T call lit c rec b r.s r.h r.f r.status := by
  induction a generalizing s h f e with
  | nil => rfl
  | cons d a ih =>
    cases d with
    | lit d =>
      rw [List.cons_append, leaving, leaving]
      cases lit { can := e.panic, peek := peekLeaving c rec e } s h f d with
      | none => rfl
      | some r => exact ih r.s r.h r.f _
    | call g x =>
      rw [List.cons_append, leaving, leaving]
      cases call { can := e.panic, peek := peekLeaving c rec e } g s h x with
      | none => rfl
      | some r => exact ih r.s r.h f _
    | post p =>
      rw [List.cons_append, leaving, leaving]
      exact ih _ _ _ _

theorem leaving_recovered {T : Trap S F V P H} {call : Call S F V H} {lit} {c : Ctx V} {rec : Bool} {a : List (Deferred S F V P)} {s : S} {h : H}
    {f : F} {e : Status V} {r} (hr : leaving T call lit c rec a s h f e = some r) : r.recovered = rec := by
  induction a generalizing s h f e with
  | nil => cases hr; rfl
  | cons d a ih =>
    cases d with
    | lit d =>
      unfold leaving at hr
      split at hr
      · cases hr
      · exact ih hr
    | call g x =>
      unfold leaving at hr
      split at hr
      · cases hr
      · exact ih hr
    | post p =>
      unfold leaving at hr
      exact ih hr

/-- Deferred by a user's code. -/
inductive PlainD : Deferred S F V P → Prop
  | lit {d} : Plain d → PlainD (.lit d)
  | call {f x} : PlainD (.call f x)

theorem iterate_plain {b : S → F → Bool} {body : St S F V P H → Option (St S F V P H × End V)}
    (h : ∀ st st' e, (∀ d ∈ st.defers, PlainD d) → body st = some (st', e) → ∀ d ∈ st'.defers, PlainD d) {n : Nat} {st st' : St S F V P H} {e}
    (hp : ∀ d ∈ st.defers, PlainD d) (hr : iterate b body n st = some (st', e)) : ∀ d ∈ st'.defers, PlainD d := by
  induction n generalizing st with
  | zero => cases hr
  | succ n ih =>
    unfold iterate at hr
    split at hr
    · cases hb : body st with
      | none => rw [hb] at hr; cases hr
      | some x =>
        obtain ⟨st1, e1⟩ := x
        rw [hb] at hr
        have h1 := h st st1 e1 hp hb
        cases e1 with
        | fall => exact ih h1 hr
        | ret => cases hr; exact h1
        | unwind _ => cases hr; exact h1
    · cases hr; exact hp

theorem code_plain {T : Trap S F V P H} {call : Call S F V H} {n : Nat} {c : Ctx V} {p : Code S F V P} (h : Plain p) {st st' : St S F V P H} {e}
    (hp : ∀ d ∈ st.defers, PlainD d) (hr : code T call n c p st = some (st', e)) : ∀ d ∈ st'.defers, PlainD d := by
  induction h generalizing st st' e with
  | done => cases hr; exact hp
  | prim _ ih =>
    unfold code at hr
    split at hr
    · exact ih (by exact hp) hr
    · cases hr; exact hp
  | @ite b t e0 rest _ _ _ iht ihe ih =>
    unfold code at hr
    cases hb : (if b st.s st.f then code T call n c t st else code T call n c e0 st) with
    | none => rw [hb] at hr; cases hr
    | some x =>
      obtain ⟨st1, e1⟩ := x
      rw [hb] at hr
      have h1 : ∀ d ∈ st1.defers, PlainD d := by
        split at hb
        · exact iht hp hb
        · exact ihe hp hb
      cases e1 with
      | fall => exact ih h1 hr
      | ret => cases hr; exact h1
      | unwind _ => cases hr; exact h1
  | @loop b body rest _ _ ihb ih =>
    unfold code at hr
    cases hb : iterate b (code T call n c body) n st with
    | none => rw [hb] at hr; cases hr
    | some x =>
      obtain ⟨st1, e1⟩ := x
      rw [hb] at hr
      have h1 := iterate_plain (fun st st' e hp hr => ihb hp hr) hp hb
      cases e1 with
      | fall => exact ih h1 hr
      | ret => cases hr; exact h1
      | unwind _ => cases hr; exact h1
  | call _ ih =>
    unfold code at hr
    split at hr
    · cases hr
    · split at hr
      · exact ih (by exact hp) hr
      · cases hr; exact hp
  | deferLit hd _ _ ih =>
    refine ih ?_ hr
    intro d hm
    rcases List.mem_cons.1 hm with rfl | hm
    · exact .lit hd
    · exact hp d hm
  | deferCall _ ih =>
    refine ih ?_ hr
    intro d hm
    rcases List.mem_cons.1 hm with rfl | hm
    · exact .call
    · exact hp d hm
  | recover _ ih => exact ih (by exact hp) hr
  | ret => cases hr; exact hp
  | goexit => cases hr; exact hp

/-- Plain code does not ask the trap; only what calls do matters. -/
theorem code_call {T T' : Trap S F V P H} {call call' : Call S F V H} (hc : call = call') {n : Nat} {c : Ctx V} {p : Code S F V P} (h : Plain p)
    (st : St S F V P H) : code T call n c p st = code T' call' n c p st := by
  subst hc
  induction h generalizing st with
  | done | ret | goexit => rfl
  | prim _ ih =>
    unfold code
    split <;> rename_i heq
    · rw [ih]
    · rfl
  | @ite b t e rest _ _ _ iht ihe ih =>
    unfold code
    rw [iht, ihe]
    simp only [ih]
  | @loop b body rest _ _ ihb ih =>
    unfold code
    rw [show code T call n c body = code T' call n c body from funext ihb]
    simp only [ih]
  | call _ ih =>
    unfold code
    simp only [ih]
  | deferLit _ _ _ ih => exact ih _
  | deferCall _ ih => exact ih _
  | recover _ ih => exact ih _

theorem leaving_call {T T' : Trap S F V P H} {call call' : Call S F V H} (hc : call = call') {lit lit'}
    (hl : ∀ c s h f d, Plain d → lit c s h f d = lit' c s h f d) (c : Ctx V) (rec : Bool) {l : List (Deferred S F V P)}
    (h : ∀ d ∈ l, PlainD d) (s : S) (hh : H) (f : F) (e : Status V) :
    leaving T call lit c rec l s hh f e = leaving T' call' lit' c rec l s hh f e := by
  subst hc
  induction l generalizing s hh f e with
  | nil => rfl
  | cons d l ih =>
    have hd := h d List.mem_cons_self
    have ih := ih fun d hd => h d (List.mem_cons_of_mem _ hd)
    cases hd with
    | lit hp =>
      unfold leaving
      rw [hl _ _ _ _ _ hp]
      simp only [ih]
    | call =>
      unfold leaving
      simp only [ih]

end Verif.Runtime.Defer
