/-
**C90**, the theorems.
-/
import Verif.Runtime.DeferMain

namespace Verif.Runtime.Defer

variable {S F V P H : Type}

/-! ### The memory of the hooks does not matter -/

def St.erase (st : St S F V P H) : St S F V P Unit := { s := st.s, h := (), f := st.f, recovered := st.recovered, defers := st.defers }
def Res.erase (r : Res S F V H) : Res S F V Unit := { s := r.s, h := (), f := r.f, recovered := r.recovered, status := r.status }

abbrev eraseEnd (x : St S F V P H × End V) : St S F V P Unit × End V := (x.1.erase, x.2)

theorem iterate_erase {b : S → F → Bool} {body : St S F V P H → Option (St S F V P H × End V)} {body0}
    (h : ∀ st, (body st).map eraseEnd = body0 st.erase) (n : Nat) (st : St S F V P H) :
    (iterate b body n st).map eraseEnd = iterate b body0 n st.erase := by
  induction n generalizing st with
  | zero => rfl
  | succ n ih =>
    unfold iterate
    have hb : b st.erase.s st.erase.f = b st.s st.f := rfl
    rw [hb]
    by_cases hc : b st.s st.f = true
    · rw [if_pos hc, if_pos hc, ← h st]
      cases body st with
      | none => rfl
      | some x =>
        obtain ⟨st', e⟩ := x
        cases e with
        | fall => exact ih st'
        | ret => rfl
        | unwind e => rfl
    · rw [if_neg hc, if_neg hc]; rfl

theorem code_erase {T : Trap S F V P H} {T0 : Trap S F V P Unit} {call : Call S F V H} {call0 : Call S F V Unit}
    (hc : ∀ c g s h f, (call c g s h f).map Res.erase = call0 c g s () f) {n : Nat} {c : Ctx V} {p : Code S F V P} (h : Plain p)
    (st : St S F V P H) : (code T call n c p st).map eraseEnd = code T0 call0 n c p st.erase := by
  induction h generalizing st with
  | done | ret | goexit => rfl
  | @prim g rest _ ih =>
    rw [code, code]
    show _ = match g st.s st.f with
      | (s, f, none) => code T0 call0 n c rest { st.erase with s := s, f := f }
      | (s, f, some v) => some ({ st.erase with s := s, f := f }, .unwind { panic := some v })
    cases g st.s st.f with
    | mk s r =>
      obtain ⟨f, v⟩ := r
      cases v with
      | none => exact ih _
      | some v => rfl
  | @ite b t e rest _ _ _ iht ihe ih =>
    rw [code, code]
    have : (if b st.erase.s st.erase.f then code T0 call0 n c t st.erase else code T0 call0 n c e st.erase) =
        (if b st.s st.f then code T call n c t st else code T call n c e st).map eraseEnd := by
      show (if b st.s st.f then _ else _) = _
      split
      · exact (iht st).symm
      · exact (ihe st).symm
    rw [this]
    cases (if b st.s st.f then code T call n c t st else code T call n c e st) with
    | none => rfl
    | some x =>
      obtain ⟨st', e⟩ := x
      cases e with
      | fall => exact ih st'
      | ret => rfl
      | unwind e => rfl
  | @loop b body rest _ _ ihb ih =>
    rw [code, code, ← iterate_erase ihb]
    cases iterate b (code T call n c body) n st with
    | none => rfl
    | some x =>
      obtain ⟨st', e⟩ := x
      cases e with
      | fall => exact ih st'
      | ret => rfl
      | unwind e => rfl
  | @call f x k rest _ ih =>
    rw [code, code]
    have := hc { peek := peek c st.recovered } f st.s st.h (x st.s st.f)
    rw [show call0 { peek := peek c st.erase.recovered } f st.erase.s st.erase.h (x st.erase.s st.erase.f) =
      (call { peek := peek c st.recovered } f st.s st.h (x st.s st.f)).map Res.erase from this.symm]
    cases call { peek := peek c st.recovered } f st.s st.h (x st.s st.f) with
    | none => rfl
    | some r =>
      simp only [Option.map_some]
      have he : r.erase.status.normal = r.status.normal := rfl
      rw [he]
      by_cases hn : r.status.normal = true
      · rw [if_pos hn, if_pos hn]
        exact ih _
      · rw [if_neg hn, if_neg hn]; rfl
  | deferLit _ _ _ ih => exact ih _
  | deferCall _ ih => exact ih _
  | recover _ ih => exact ih _

theorem leaving_erase {T : Trap S F V P H} {T0 : Trap S F V P Unit} {call : Call S F V H} {call0 : Call S F V Unit}
    (hc : ∀ c g s h f, (call c g s h f).map Res.erase = call0 c g s () f) {lit lit0}
    (hl : ∀ c s h f d, Plain d → (lit c s h f d).map Res.erase = lit0 c s () f d) (c : Ctx V) (rec : Bool) {l : List (Deferred S F V P)}
    (h : ∀ d ∈ l, PlainD d) (s : S) (hh : H) (f : F) (e : Status V) :
    (leaving T call lit c rec l s hh f e).map Res.erase = leaving T0 call0 lit0 c rec l s () f e := by
  induction l generalizing s hh f e with
  | nil => rfl
  | cons d l ih =>
    have hd := h d List.mem_cons_self
    have ih := ih fun d hd => h d (List.mem_cons_of_mem _ hd)
    cases hd with
    | @lit d hp =>
      rw [leaving, leaving, ← hl _ _ hh _ _ hp]
      cases lit { can := e.panic, peek := peekLeaving c rec e } s hh f d with
      | none => rfl
      | some r => exact ih _ _ _ _
    | @call g x =>
      rw [leaving, leaving, ← hc _ _ _ hh]
      cases call { can := e.panic, peek := peekLeaving c rec e } g s hh x with
      | none => rfl
      | some r => exact ih _ _ _ _

theorem frame_erase (T : Trap S F V P H) (T0 : Trap S F V P Unit) (O : Observer S F V H) (O0 : Observer S F V Unit) {prog : Nat → Code S F V P}
    (hp : ∀ f, Plain (prog f)) (n : Nat) (c : Ctx V) (s : S) (h : H) (f : F) {d} (hd : Plain d) :
    (frame T O prog n c s h f d).map Res.erase = frame T0 O0 prog n c s () f d := by
  induction n generalizing c s h f d with
  | zero => rfl
  | succ n ih =>
    have hcall : ∀ c g s h f, (observed O prog (frame T O prog n) c g s h f).map Res.erase = observed O0 prog (frame T0 O0 prog n) c g s () f := by
      intro c g s h f
      unfold observed
      have hu : O0.enter g s f () = () := rfl
      rw [hu, ← ih c s (O.enter g s f h) f (hp g)]
      cases frame T O prog n c s (O.enter g s f h) f (prog g) <;> rfl
    unfold frame
    simp only
    have := code_erase (T := T) (T0 := T0) hcall (n := n) (c := c) hd { s := s, h := h, f := f }
    rw [show code T0 (observed O0 prog (frame T0 O0 prog n)) n c d { s := s, h := (), f := f } = _ from this.symm]
    cases hc : code T (observed O prog (frame T O prog n)) n c d { s := s, h := h, f := f } with
    | none => rfl
    | some x =>
      exact leaving_erase hcall (fun c s h f d hd => ih c s h f hd) c _ (code_plain hd (by intro d hd; cases hd) hc) _ _ _ _

theorem func_erase (T : Trap S F V P H) (T0 : Trap S F V P Unit) (O : Observer S F V H) (O0 : Observer S F V Unit) {prog : Nat → Code S F V P}
    (hp : ∀ f, Plain (prog f)) (n : Nat) (c : Ctx V) (g : Nat) (s : S) (h : H) (f : F) :
    (func T O prog n c g s h f).map view = (func T0 O0 prog n c g s () f).map view := by
  unfold func observed
  have := frame_erase T T0 O O0 hp n c s (O.enter g s f h) f (hp g)
  have hu : O0.enter g s f () = () := rfl
  rw [hu, ← this]
  cases frame T O prog n c s (O.enter g s f h) f (prog g) <;> rfl

/-! ### Logs nest -/

theorem nested_append {a b : List (Ev F)} (ha : Nested a) (hb : Nested b) : Nested (a ++ b) := by
  induction ha with
  | nil => exact hb
  | call h1 _ _ ih2 =>
    rw [List.append_assoc]
    exact .call h1 ih2

abbrev Grows (l l' : List (Ev F)) : Prop := ∃ d, l' = l ++ d ∧ Nested d

theorem Grows.refl (l : List (Ev F)) : Grows l l := ⟨[], by simp, .nil⟩
theorem Grows.trans {a b c : List (Ev F)} (h1 : Grows a b) (h2 : Grows b c) : Grows a c := by
  obtain ⟨x, rfl, hx⟩ := h1
  obtain ⟨y, rfl, hy⟩ := h2
  exact ⟨x ++ y, by simp, nested_append hx hy⟩

theorem iterate_grows {b : S → F → Bool} {body : St S F V P (List (Ev F)) → Option (St S F V P (List (Ev F)) × End V)}
    (h : ∀ st st' e, body st = some (st', e) → Grows st.h st'.h) {n : Nat} {st st' e} (hr : iterate b body n st = some (st', e)) :
    Grows st.h st'.h := by
  induction n generalizing st with
  | zero => cases hr
  | succ n ih =>
    unfold iterate at hr
    split at hr
    · cases hb : body st with
      | none => rw [hb] at hr; cases hr
      | some x =>
        obtain ⟨st1, e1⟩ := x
        rw [hb] at hr
        have h1 := h st st1 e1 hb
        cases e1 with
        | fall => exact h1.trans (ih hr)
        | ret => cases hr; exact h1
        | unwind _ => cases hr; exact h1
    · cases hr; exact .refl _

theorem code_grows {T : Trap S F V P (List (Ev F))} {call : Call S F V (List (Ev F))}
    (hc : ∀ c g s h f r, call c g s h f = some r → Grows h r.h) {n : Nat} {c : Ctx V} {p : Code S F V P} (hp : Plain p) {st st' e}
    (hr : code T call n c p st = some (st', e)) : Grows st.h st'.h := by
  induction hp generalizing st st' e with
  | done | ret | goexit => cases hr; exact .refl _
  | prim _ ih =>
    unfold code at hr
    split at hr
    · have h1 := ih hr
      exact h1
    · cases hr; exact .refl _
  | @ite b t e0 rest _ _ _ iht ihe ih =>
    unfold code at hr
    cases hb : (if b st.s st.f then code T call n c t st else code T call n c e0 st) with
    | none => rw [hb] at hr; cases hr
    | some x =>
      obtain ⟨st1, e1⟩ := x
      rw [hb] at hr
      have h1 : Grows st.h st1.h := by
        split at hb
        · exact iht hb
        · exact ihe hb
      cases e1 with
      | fall => exact h1.trans (ih hr)
      | ret => cases hr; exact h1
      | unwind _ => cases hr; exact h1
  | @loop b body rest _ _ ihb ih =>
    unfold code at hr
    cases hb : iterate b (code T call n c body) n st with
    | none => rw [hb] at hr; cases hr
    | some x =>
      obtain ⟨st1, e1⟩ := x
      rw [hb] at hr
      have h1 : Grows st.h st1.h := iterate_grows (fun st st' e hr => ihb hr) hb
      cases e1 with
      | fall => exact h1.trans (ih hr)
      | ret => cases hr; exact h1
      | unwind _ => cases hr; exact h1
  | call _ ih =>
    unfold code at hr
    split at hr
    · cases hr
    · rename_i r hcall
      have h1 := hc _ _ _ _ _ _ hcall
      split at hr
      · exact h1.trans (ih hr)
      · cases hr; exact h1
  | deferLit _ _ _ ih =>
    unfold code at hr
    have h1 := ih hr
    exact h1
  | deferCall _ ih =>
    unfold code at hr
    have h1 := ih hr
    exact h1
  | recover _ ih =>
    unfold code at hr
    have h1 := ih hr
    exact h1

theorem leaving_grows {T : Trap S F V P (List (Ev F))} {call : Call S F V (List (Ev F))}
    (hc : ∀ c g s h f r, call c g s h f = some r → Grows h r.h) {lit} (hl : ∀ c s h f d r, Plain d → lit c s h f d = some r → Grows h r.h)
    {c : Ctx V} {rec : Bool} {l : List (Deferred S F V P)} (h : ∀ d ∈ l, PlainD d) {s : S} {hh} {f : F} {e : Status V} {r}
    (hr : leaving T call lit c rec l s hh f e = some r) : Grows hh r.h := by
  induction l generalizing s hh f e with
  | nil => cases hr; exact .refl _
  | cons d l ih =>
    have hd := h d List.mem_cons_self
    have ih := @ih fun d hd => h d (List.mem_cons_of_mem _ hd)
    cases hd with
    | lit hp =>
      unfold leaving at hr
      split at hr
      · cases hr
      · rename_i r1 h1
        exact (hl _ _ _ _ _ _ hp h1).trans (ih hr)
    | call =>
      unfold leaving at hr
      split at hr
      · cases hr
      · rename_i r1 h1
        exact (hc _ _ _ _ _ _ h1).trans (ih hr)

theorem watch_enter (sel on : Nat → Bool) (mock : Nat → Option (S → F → S × F × Option V)) (g : Nat) (s : S) (f : F) (h) :
    (watching sel (logging on mock)).enter g s f h = if sel g && on g then h ++ [.enter g f] else h := rfl

theorem watch_leave (sel on : Nat → Bool) (mock : Nat → Option (S → F → S × F × Option V)) (g : Nat) (s : S) (f : F) (st b h) :
    (watching sel (logging on mock)).leave g s f st b h =
      if sel g && on g then h ++ [.leave g f (st.panic.isSome || (!st.exit && b))] else h := rfl

theorem frame_grows (T : Trap S F V P (List (Ev F))) (sel on : Nat → Bool) (mock) {prog : Nat → Code S F V P} (hp : ∀ f, Plain (prog f)) {n : Nat}
    {c : Ctx V} {s : S} {h} {f : F} {d r} (hd : Plain d) (hr : frame T (watching sel (logging on mock)) prog n c s h f d = some r) : Grows h r.h := by
  induction n generalizing c s h f d r with
  | zero => cases hr
  | succ n ih =>
    have hcall : ∀ c g s h f r, observed (watching sel (logging on mock)) prog (frame T (watching sel (logging on mock)) prog n) c g s h f = some r →
        Grows h r.h := by
      intro c g s h f r hr
      unfold observed at hr
      cases hf : frame T (watching sel (logging on mock)) prog n c s ((watching sel (logging on mock)).enter g s f h) f (prog g) with
      | none => rw [hf] at hr; cases hr
      | some r1 =>
        rw [hf] at hr
        cases hr
        obtain ⟨x, hx, hn⟩ := ih (hp g) hf
        rw [watch_enter] at hx
        simp only [watch_leave]
        by_cases hs : (sel g && on g) = true
        · rw [if_pos hs] at hx
          rw [if_pos hs, hx]
          exact ⟨.enter g f :: x ++ [.leave g r1.f (r1.status.panic.isSome || !r1.status.exit && peek c r1.recovered)], by simp, .call hn .nil⟩
        · rw [if_neg hs] at hx
          rw [if_neg hs]
          exact ⟨x, hx, hn⟩
    unfold frame at hr
    simp only at hr
    split at hr
    · cases hr
    · rename_i st e hcode
      exact (code_grows hcall hd hcode).trans (leaving_grows hcall (fun c s h f d r hd hr => ih hd hr)
        (code_plain hd (by intro d hd; cases hd) hcode) hr)

/-! ### The theorems -/

/-- **C90**: for every program, every choice of functions that get the trap, every choice of hooks, and every call that ends: the compiled
    program does with its memory, its results and its panics what the program does in which the replaced functions have the body of their
    replacement; hooks are run as if called from outside, before the function begins and after everything it deferred has run, also when it
    panics or the goroutine exits. Calls that do not end are the same, too. -/
theorem C90_behaviour {W : Hooks S F V H} (hw : W.Calm) (sel : Nat → Bool) {prog : Nat → Code S F V Nat} (hp : ∀ f, Plain (prog f)) (n : Nat)
    (c : Ctx V) (g : Nat) (s : S) (h : H) (x : F) :
    func W.trap .none (instrument sel prog) n c g s h x = func W.trap (watching sel W) (replaced sel W prog) n c g s h x := by
  rw [(behaviour hw sel hp n).2]

/-- **C90, hooks that watch are invisible**: with no function replaced, a call does what it does in the program without xgo. -/
theorem C90_transparent {W : Hooks S F V H} (hm : ∀ f, W.mock f = none) (sel : Nat → Bool) {prog : Nat → Code S F V Nat} (hp : ∀ f, Plain (prog f))
    (T0 : Trap S F V Nat Unit) (n : Nat) (c : Ctx V) (g : Nat) (s : S) (h : H) (x : F) :
    (func W.trap .none (instrument sel prog) n c g s h x).map view = (func T0 .none prog n c g s () x).map view := by
  have hw : W.Calm := by
    intro f m _ hf
    rw [hm f] at hf
    cases hf
  have hr : replaced sel W prog = prog := by
    funext f
    unfold replaced
    rw [hm f]
    split <;> simp_all
  rw [C90_behaviour hw sel hp, hr, func_erase _ T0 _ .none hp]

/-- **C90, replacing a function is replacing its body**, for all callers, also those that call it from deferred functions. -/
theorem C90_replaced {W : Hooks S F V H} (hw : W.Calm) (sel : Nat → Bool) {prog : Nat → Code S F V Nat} (hp : ∀ f, Plain (prog f))
    (T0 : Trap S F V Nat Unit) (n : Nat) (c : Ctx V) (g : Nat) (s : S) (h : H) (x : F) :
    (func W.trap .none (instrument sel prog) n c g s h x).map view =
      (func T0 .none (fun f => match if sel f then W.mock f else none with
        | none => prog f
        | some m => .prim m .done) n c g s () x).map view := by
  rw [C90_behaviour hw sel hp]
  exact func_erase _ T0 _ .none (fun f => replaced_plain (sel := sel) (W := W) hp f) n c g s h x

/-- **C90, the log**: each call is logged once when it begins and once when it ends, with calls it makes (also from what it defers) in
    between; what is logged at the end is the frame with the results that the caller gets. It is said to have panicked when it is left
    by a panic, or when a panic is on while it is called. -/
theorem C90_log {on : Nat → Bool} {mock : Nat → Option (S → F → S × F × Option V)} (hw : (logging on mock).Calm) (sel : Nat → Bool)
    {prog : Nat → Code S F V Nat} (hp : ∀ f, Plain (prog f)) {n : Nat} {c : Ctx V} {g : Nat} (hs : sel g = true) (hon : on g = true) {s : S}
    {h : List (Ev F)} {x : F} {r} (hr : func (logging on mock).trap .none (instrument sel prog) n c g s h x = some r) :
    ∃ inner, Nested inner ∧
      r.h = h ++ (.enter g x :: inner ++ [.leave g r.f (r.status.panic.isSome || (!r.status.exit && peek c r.recovered))]) := by
  rw [C90_behaviour hw sel hp] at hr
  unfold func observed at hr
  cases hf : frame (logging on mock).trap (watching sel (logging on mock)) (replaced sel (logging on mock) prog) n c s
      ((watching sel (logging on mock)).enter g s x h) x (replaced sel (logging on mock) prog g) with
  | none => rw [hf] at hr; cases hr
  | some r1 =>
    rw [hf] at hr
    cases hr
    obtain ⟨d, hd, hn⟩ := frame_grows (logging on mock).trap sel on mock (fun f => replaced_plain hp f) (replaced_plain hp g) hf
    refine ⟨d, hn, ?_⟩
    rw [watch_enter] at hd
    simp only [watch_leave]
    rw [hs, hon] at hd ⊢
    simp only [Bool.and_self, if_true] at hd ⊢
    rw [hd]
    simp

/-- **C90, panics in the log, partly**: a call that is not made while a panic is on is logged as panicked exactly when it is left by a
    panic. Missing: calls of deferred functions while a panic is on (`C90_panicked_counterexample`). -/
theorem C90_panicked_partial {on : Nat → Bool} {mock : Nat → Option (S → F → S × F × Option V)} (hw : (logging on mock).Calm) (sel : Nat → Bool)
    {prog : Nat → Code S F V Nat} (hp : ∀ f, Plain (prog f)) {n : Nat} {g : Nat} (hs : sel g = true) (hon : on g = true) {s : S}
    {h : List (Ev F)} {x : F} {r} (hr : func (logging on mock).trap .none (instrument sel prog) n {} g s h x = some r) :
    r.h.getLast? = some (.leave g r.f r.status.panic.isSome) := by
  obtain ⟨inner, _, hh⟩ := C90_log hw sel hp hs hon hr
  rw [hh, ← List.append_assoc, List.getLast?_concat]
  simp [peek]

/-! ### Examples -/

/-- Function 0: `defer func(){ if r := recover(); r != nil { res = 7 } }(); defer 2(); n := 1(4); if n == 5 { panic(n) }`;
    function 1: `defer func(){ res++ }(); res = x; return`; function 2 (cleanup): adds 100 to the memory. -/
def exProg : Nat → Code Nat Nat Nat Nat
  | 0 => .deferLit (.recover (fun r s x => (s, if r.isSome then 7 else x)) .done)
      (.deferCall 2 (fun _ _ => 0) (.call 1 (fun _ _ => 4) (fun r s _ => (s, r))
        (.ite (fun _ x => x == 5) (.prim (fun s x => (s, x, some x)) .done) .done .ret)))
  | 1 => .deferLit (.prim (fun s x => (s, x + 1, none)) .done) .ret
  | _ => .prim (fun s x => (s + 100, x, none)) .ret

theorem exProg_plain : ∀ f, Plain (exProg f)
  | 0 => .deferLit (.recover .done) (.deferCall (.call (.ite (.prim .done) .done .ret)))
  | 1 => .deferLit (.prim .done) .ret
  | _ + 2 => .prim .ret

/-- The hypotheses of the theorems are met: the program panics, cleans up and recovers; the calls are logged. -/
example : (∀ f, Plain (exProg f)) ∧ (logging (fun _ => true) (fun _ => none) : Hooks Nat Nat Nat _).Calm ∧
    (func (logging (fun _ => true) (fun _ => none)).trap .none (instrument (fun _ => true) exProg) 5 {} 0 0 [] 0).map (fun r => (r.s, r.f, r.status, r.h)) =
      some (100, 7, {}, [.enter 0 0, .enter 1 4, .leave 1 5 false, .enter 2 0, .leave 2 0 true, .leave 0 7 false]) :=
  ⟨exProg_plain, fun _ _ _ h => (by cases h), by decide +kernel⟩

/-- With function 1 replaced by one that returns 3, nothing panics. -/
example : (func (logging (fun _ => true) (fun f => if f = 1 then some (fun s _ => (s, 3, none)) else none)).trap .none
      (instrument (fun _ => true) exProg) 5 {} 0 0 [] 0).map (fun r => (r.s, r.f, r.status, r.h)) =
    some (100, 3, {}, [.enter 0 0, .enter 1 4, .leave 1 3 false, .enter 2 0, .leave 2 0 false, .leave 0 3 false]) := by decide +kernel

/-- **C90** is false for calls made by deferred functions while a panic is on: the cleanup of `exProg` is logged as panicked although it
    returns. -/
theorem C90_panicked_counterexample : ∃ (l : List (Ev Nat)) (r : Res Nat Nat Nat (List (Ev Nat))),
    func (logging (fun _ => true) (fun _ => none)).trap .none (instrument (fun _ => true) exProg) 5 {} 0 0 [] 0 = some r ∧
      r.h = l ∧ Ev.leave 2 0 true ∈ l ∧
      (∀ n c s h x r, func (logging (fun _ => true) (fun _ => none)).trap .none (instrument (fun _ => true) exProg) n c 2 s h x = some r →
        r.status = {}) := by
  refine ⟨_, _, rfl, rfl, by decide +kernel, ?_⟩
  intro n c s h x r hr
  cases n with
  | zero => cases hr
  | succ n =>
    cases hr
    rfl

/-- A replacement that panics leaves the entry of the call in the log open: the panic comes before the post function is deferred. -/
example : (func (logging (fun _ => true) (fun f => if f = 1 then some (fun s x => (s, x, some 9)) else none)).trap .none
      (instrument (fun _ => true) exProg) 5 {} 0 0 [] 0).map (fun r => (r.f, r.status, r.h)) =
    some (7, {}, [.enter 0 0, .enter 1 4, .enter 2 0, .leave 2 0 true, .leave 0 7 false]) := by decide +kernel

/-- A goroutine that exits (as by `t.FailNow`) runs what is deferred, and is not logged as panicked. -/
example : (func (logging (fun _ => true) (fun _ => none) : Hooks Nat Nat Nat _).trap .none (instrument (fun _ => true) fun f =>
      if f = 0 then .deferCall 1 (fun _ _ => 0) (.call 2 (fun _ _ => 0) (fun r s _ => (s, r)) .ret) else if f = 1 then .ret else .goexit) 5 {} 0 0 [] 0).map
        (fun r => (r.status, r.h)) =
    some ({ exit := true }, [.enter 0 0, .enter 2 0, .leave 2 0 false, .enter 1 0, .leave 1 0 false, .leave 0 0 false]) := by decide +kernel

/-! ### The language is Go's -/

/-- **C90** (`C90_language`): what the theorems take for Go does what Go does with panics: the panic of a deferred function takes the place of the
    one it was run for; a recovered panic is gone, and `recover` has its value; a second `recover` has none; `recover` in what the deferred
    function calls has none; the frame of a goroutine that exits is left, whatever is recovered. -/
theorem C90_language (T : Trap S F V P H) (O : Observer S F V H) (prog : Nat → Code S F V P) (n : Nat) (c : Ctx V) (s : S) (h : H) (f : F)
    (v w : V) (k k' : Option V → S → F → S × F) (hk : prog 0 = .recover k .done) :
    let raise (v : V) : Code S F V P := .prim (fun s f => (s, f, some v)) .done
    frame T O prog (n + 2) c s h f (.deferLit (raise w) (raise v)) = some ⟨s, h, f, false, { panic := some w }⟩ ∧
    frame T O prog (n + 2) c s h f (.deferLit (.recover k .done) (raise v)) = some ⟨(k (some v) s f).1, h, (k (some v) s f).2, false, {}⟩ ∧
    frame T O prog (n + 2) c s h f (.deferLit (.recover k (.recover k' .done)) (raise v)) =
      some ⟨(k' none (k (some v) s f).1 (k (some v) s f).2).1, h, (k' none (k (some v) s f).1 (k (some v) s f).2).2, false, {}⟩ ∧
    frame T .none prog (n + 3) c s h f (.deferLit (.call 0 (fun _ x => x) (fun _ s x => (s, x)) .done) (raise v)) =
      some ⟨(k none s f).1, h, f, false, { panic := some v }⟩ ∧
    frame T O prog (n + 2) c s h f (.deferLit (.recover k .done) .goexit) = some ⟨(k none s f).1, h, (k none s f).2, false, { exit := true }⟩ := by
  refine ⟨rfl, rfl, rfl, ?_, rfl⟩
  simp [frame, code, leaving, observed, Observer.none, hk, End.status, after, Status.normal]

end Verif.Runtime.Defer
