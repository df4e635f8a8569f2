/-
Properties of the hooks (C78).
-/
import Verif.Runtime.HooksSpec

namespace Verif.Runtime.Hooks

variable {G : Type}

theorem snoc_induction {A : Type} {P : List A → Prop} (h0 : P []) (hs : ∀ l a, P l → P (l ++ [a])) (l : List A) : P l := by
  have : ∀ r : List A, P r.reverse := by
    intro r
    induction r with
    | nil => exact h0
    | cons a r ih => rw [List.reverse_cons]; exact hs _ _ ih
  have h := this l.reverse
  rwa [List.reverse_reverse] at h

theorem run_snoc (E : Env G) (h : List (Ev G)) (e : Ev G) : run E (h ++ [e]) = step E (run E h) e := by
  simp [run, List.foldl_append]

theorem upd_same {A : Type} (f : Nat → A) (n : Nat) (v : A) : upd f n v n = v := by simp [upd]

theorem upd_other {A : Type} (f : Nat → A) {n m : Nat} (v : A) (h : m ≠ n) : upd f n v m = f m := by simp [upd, h]

/-! ### Loops leave the other fields -/

theorem runInit_eq (l : List Cb) : ∀ s : St G, St.runInit l s =
    { s with onInit := s.onInit ++ l.flatMap Cb.body, log := s.log ++ l.map (fun cb => Eff.ran cb.id s.finished) } := by
  induction l with
  | nil => intro s; simp [St.runInit]
  | cons cb l ih => intro s; simp [St.runInit, ih]

theorem runCreate_fields (E : Env G) (p g : Gid) (sp sg : Slot) (l : List Nat) : ∀ s : St G,
    runCreate E p g sp sg l s =
      { s with slots := (runCreate E p g sp sg l s).slots, log := s.log ++ l.map (fun c => Eff.created c p g) } := by
  induction l with
  | nil => intro s; simp [runCreate]
  | cons c l ih =>
    intro s
    rw [runCreate]
    rw [ih]
    simp

theorem runExit_fields (E : Env G) (g : Gid) (sg : Slot) (l : List Nat) : ∀ s : St G,
    runExit E g sg l s =
      { s with slots := (runExit E g sg l s).slots, log := s.log ++ l.map (fun c => Eff.exited c g) } := by
  induction l with
  | nil => intro s; simp [runExit]
  | cons c l ih =>
    intro s
    rw [runExit]
    rw [ih]
    simp

theorem create_log (E : Env G) (s : St G) (p : Option Gid) (g : Gid) (sl : Slot) :
    (s.create E p g sl).log = s.log ++ (match p with | none => [] | some q => s.onCreate.map (fun c => Eff.created c q g)) := by
  cases p with
  | none => simp [St.create]
  | some q => simp only [St.create]; rw [runCreate_fields]

theorem create_handler (E : Env G) (s : St G) (p : Option Gid) (g : Gid) (sl : Slot) :
    (s.create E p g sl).handler = s.handler ∧ (s.create E p g sl).staging = s.staging ∧
    (s.create E p g sl).onInit = s.onInit ∧ (s.create E p g sl).finished = s.finished ∧
    (s.create E p g sl).onCreate = s.onCreate ∧ (s.create E p g sl).onExit = s.onExit ∧
    (s.create E p g sl).trap = s.trap ∧ (s.create E p g sl).slotOf = upd s.slotOf g sl := by
  cases p with
  | none => simp [St.create]
  | some q => simp only [St.create]; rw [runCreate_fields]; simp

theorem exit_log (E : Env G) (s : St G) (g : Gid) :
    (s.exit E g).log = s.log ++ s.onExit.map (fun c => Eff.exited c g) := by
  simp only [St.exit]; rw [runExit_fields]

theorem exit_handler (E : Env G) (s : St G) (g : Gid) :
    (s.exit E g).handler = s.handler ∧ (s.exit E g).staging = s.staging ∧
    (s.exit E g).onInit = s.onInit ∧ (s.exit E g).finished = s.finished ∧
    (s.exit E g).onCreate = s.onCreate ∧ (s.exit E g).onExit = s.onExit ∧
    (s.exit E g).trap = s.trap ∧ (s.exit E g).slotOf = s.slotOf := by
  simp only [St.exit]; rw [runExit_fields]; simp

/-! ### Registration -/

theorem handlings_append (a b : List Eff) : handlings (a ++ b) = handlings a ++ handlings b := by
  induction a with
  | nil => rfl
  | cons x a ih => cases x <;> simp [handlings, ih]

theorem handlings_created (l : List Nat) (p g : Gid) : handlings (l.map (fun c => Eff.created c p g)) = [] := by
  induction l with
  | nil => rfl
  | cons x a ih => simp [handlings, ih]

theorem handlings_exited (l : List Nat) (g : Gid) : handlings (l.map (fun c => Eff.exited c g)) = [] := by
  induction l with
  | nil => rfl
  | cons x a ih => simp [handlings, ih]

theorem handlings_ran (l : List Cb) (b : Bool) : handlings (l.map (fun c => Eff.ran c.id b)) = [] := by
  induction l with
  | nil => rfl
  | cons x a ih => simp [handlings, ih]

theorem handlings_handled (l : List Nat) (h : Nat) : handlings (l.map (fun f => Eff.handled h f)) = l.map (fun f => (h, f)) := by
  induction l with
  | nil => rfl
  | cons x a ih => simp [handlings, ih]

theorem registered_append (a b : List (Ev G)) : registered (a ++ b) = registered a ++ registered b := by
  induction a with
  | nil => rfl
  | cons x a ih => cases x <;> simp [registered, ih]

theorem firstHandler_append (a b : List (Ev G)) : firstHandler (a ++ b) = (firstHandler a).or (firstHandler b) := by
  induction a with
  | nil => simp [firstHandler]
  | cons x a ih => cases x <;> simp [firstHandler, ih]

theorem register_inv (E : Env G) (h : List (Ev G)) :
    (run E h).handler = firstHandler h ∧
    (firstHandler h = none → (run E h).staging = registered h ∧ handlings (run E h).log = []) ∧
    (∀ k, firstHandler h = some k → handlings (run E h).log = (registered h).map (fun f => (k, f))) := by
  induction h using snoc_induction with
  | h0 => simp [run, St.init, firstHandler, registered, handlings]
  | hs h e ih =>
    obtain ⟨h1, h2, h3⟩ := ih
    rw [run_snoc, firstHandler_append, registered_append]
    have hc := create_handler E (run E h)
    have he := exit_handler E (run E h)
    cases e with
    | register f =>
      cases hf : firstHandler h with
      | none => simp [step, St.register, h1, hf, firstHandler, registered, h2 hf]
      | some k => simp [step, St.register, h1, hf, firstHandler, registered, h3 k hf, handlings_append, handlings]
    | setup x =>
      cases hf : firstHandler h with
      | none =>
        simp [step, St.setup, h1, hf, firstHandler, registered, h2 hf, handlings_append, handlings_handled]
      | some k => simp [step, St.setup, h1, hf, firstHandler, registered, h3 k hf, handlings_append, handlings]
    | initDone =>
      simp only [step, St.initDone, runInit_eq, handlings_append, handlings_ran, firstHandler, registered, List.append_nil,
        Option.or_none]
      exact ⟨h1, h2, h3⟩
    | create p g s =>
      obtain ⟨a, b, _⟩ := hc p g s
      simp only [step, a, b, create_log, handlings_append, firstHandler, registered, List.append_nil, Option.or_none]
      cases p with
      | none => simpa [handlings] using ⟨h1, h2, h3⟩
      | some q => simp only [handlings_created, List.append_nil]; exact ⟨h1, h2, h3⟩
    | exit g =>
      obtain ⟨a, b, _⟩ := he g
      simp only [step, a, b, exit_log, handlings_append, firstHandler, registered, List.append_nil, Option.or_none,
        handlings_exited]
      exact ⟨h1, h2, h3⟩
    | setTrap k t =>
      simp only [step, St.setTrap]
      split <;> simpa [firstHandler, registered, handlings_append, handlings] using ⟨h1, h2, h3⟩
    | call k t =>
      simp only [step, St.call]
      split <;> simpa [firstHandler, registered, handlings_append, handlings] using ⟨h1, h2, h3⟩
    | _ => simpa [step, firstHandler, registered] using ⟨h1, h2, h3⟩

/-- **C78.** Whatever the order in which the packages are initialised: once a handler is set, it has been given every
    instrumented function that was registered, before or after, once each and in the order of registration; until then
    none is given to anyone. -/
theorem C78_registered (E : Env G) (h : List (Ev G)) :
    handlings (run E h).log =
      match firstHandler h with
      | none => []
      | some k => (registered h).map (fun f => (k, f)) := by
  obtain ⟨_, h2, h3⟩ := register_inv E h
  cases hf : firstHandler h with
  | none => exact (h2 hf).2
  | some k => exact h3 k hf

example : handlings (run (G := Nat) ⟨0, fun _ a b => (a, b), fun _ a => a⟩
    [.register 5, .register 7, .setup 1, .register 9, .setup 2, .register 7]).log = [(1, 5), (1, 7), (1, 9), (1, 7)] := by
  decide

/-! ### The end of initialisation -/

theorem inits_append (a b : List Eff) : inits (a ++ b) = inits a ++ inits b := by
  induction a with
  | nil => rfl
  | cons x a ih => cases x <;> simp [inits, ih]

theorem inits_created (l : List Nat) (p g : Gid) : inits (l.map (fun c => Eff.created c p g)) = [] := by
  induction l with
  | nil => rfl
  | cons x a ih => simp [inits, ih]

theorem inits_exited (l : List Nat) (g : Gid) : inits (l.map (fun c => Eff.exited c g)) = [] := by
  induction l with
  | nil => rfl
  | cons x a ih => simp [inits, ih]

theorem inits_handled (l : List Nat) (k : Nat) : inits (l.map (fun f => Eff.handled k f)) = [] := by
  induction l with
  | nil => rfl
  | cons x a ih => simp [inits, ih]

theorem inits_ran (l : List Cb) (b : Bool) : inits (l.map (fun c => Eff.ran c.id b)) = l.map (fun c => (c.id, b)) := by
  induction l with
  | nil => rfl
  | cons x a ih => simp [inits, ih]

theorem initHooks_append (a b : List (Ev G)) : initHooks (a ++ b) = initHooks a ++ initHooks b := by
  induction a with
  | nil => rfl
  | cons x a ih => cases x <;> simp [initHooks, ih]

/-- Every event but the end of initialisation leaves the flag, and only `OnInitFinished` adds callbacks. -/
theorem init_step (E : Env G) (s : St G) (e : Ev G) (he : isDone e = false) :
    (step E s e).finished = s.finished ∧ inits (step E s e).log = inits s.log ∧
    (step E s e).onInit.map Cb.id = s.onInit.map Cb.id ++ initHooks [e] := by
  cases e with
  | initDone => simp [isDone] at he
  | register f =>
    simp only [step, St.register]
    split <;> simp [initHooks, inits_append, inits]
  | setup x =>
    simp only [step, St.setup]
    split <;> simp [initHooks, inits_append, inits, inits_handled]
  | create p g sl =>
    obtain ⟨_, _, a, b, _⟩ := create_handler E s p g sl
    simp only [step, a, b, create_log, inits_append]
    cases p with
    | none => simp [inits, initHooks]
    | some q => simp [inits_created, initHooks]
  | exit g =>
    obtain ⟨_, _, a, b, _⟩ := exit_handler E s g
    simp [step, a, b, exit_log, inits_append, inits_exited, initHooks]
  | setTrap k t =>
    simp only [step, St.setTrap]
    split <;> simp [initHooks, inits_append, inits]
  | call k t =>
    simp only [step, St.call]
    split <;> simp [initHooks, inits_append, inits]
  | _ => simp [step, initHooks]

theorem init_before (E : Env G) (h : List (Ev G)) : (∀ e ∈ h, isDone e = false) →
    (run E h).finished = false ∧ inits (run E h).log = [] ∧ (run E h).onInit.map Cb.id = initHooks h := by
  induction h using snoc_induction with
  | h0 => simp [run, St.init, inits, initHooks]
  | hs h e ih =>
    intro hn
    obtain ⟨h1, h2, h3⟩ := ih (fun x hx => hn x (List.mem_append_left _ hx))
    obtain ⟨a, b, c⟩ := init_step E (run E h) e (hn e (by simp))
    rw [run_snoc, a, b, c, initHooks_append]
    exact ⟨h1, h2, by rw [h3]⟩

theorem init_after (E : Env G) (a : List (Ev G)) (b : List (Ev G)) : (∀ e ∈ a ++ b, isDone e = false) →
    (run E (a ++ .initDone :: b)).finished = true ∧
    inits (run E (a ++ .initDone :: b)).log = (initHooks a).map (fun c => (c, true)) := by
  induction b using snoc_induction with
  | h0 =>
    intro hn
    obtain ⟨_, h2, h3⟩ := init_before E a (fun x hx => hn x (List.mem_append_left _ hx))
    rw [run_snoc]
    simp only [step, St.initDone, runInit_eq, inits_append, h2, inits_ran]
    refine ⟨trivial, ?_⟩
    rw [← h3]
    simp
  | hs b e ih =>
    intro hn
    have h' := ih (fun x hx => hn x (by simp at hx ⊢; rcases hx with hx | hx <;> simp [hx]))
    obtain ⟨p, q, _⟩ := init_step E (run E (a ++ .initDone :: b)) e (hn e (by simp))
    have hs : a ++ .initDone :: (b ++ [e]) = (a ++ .initDone :: b) ++ [e] := by simp
    rw [hs, run_snoc, p, q]
    exact h'

/-- **C78.** While packages are being initialised, no callback of `OnInitFinished` has run and `InitFinished` is false. -/
theorem C78_init_pending (E : Env G) (h : List (Ev G)) (hn : ∀ e ∈ h, isDone e = false) :
    (run E h).finished = false ∧ inits (run E h).log = [] :=
  ⟨(init_before E h hn).1, (init_before E h hn).2.1⟩

/-- **C78.** At the end of the initialisation the functions given to `OnInitFinished` so far run, once each, in order, and
    see `InitFinished` true; nothing runs after that. -/
theorem C78_init_partial (E : Env G) (a b : List (Ev G)) (hn : ∀ e ∈ a ++ b, isDone e = false) :
    (run E (a ++ .initDone :: b)).finished = true ∧
    inits (run E (a ++ .initDone :: b)).log = (initHooks a).map (fun c => (c, true)) := init_after E a b hn

example : (∀ e ∈ [Ev.onInit (.mk 1 [.mk 5 []]), .onInit (.mk 2 [])] ++ ([.onInit (.mk 3 [])] : List (Ev Nat)), isDone e = false) ∧
    inits (run (G := Nat) ⟨0, fun _ a b => (a, b), fun _ a => a⟩
      [.onInit (.mk 1 [.mk 5 []]), .onInit (.mk 2 []), .initDone, .onInit (.mk 3 [])]).log = [(1, true), (2, true)] := by
  decide

/-- What is missing: a function given to `OnInitFinished` when the initialisation is finished, or by such a callback, is
    dropped without a word. -/
theorem C78_init_late_lost (E : Env G) (a b : List (Ev G)) (hn : ∀ e ∈ a ++ b, isDone e = false) (cb : Cb)
    (_late : .onInit cb ∈ b) (hnew : cb.id ∉ initHooks a) (x : Bool) :
    (cb.id, x) ∉ inits (run E (a ++ .initDone :: b)).log := by
  rw [(init_after E a b hn).2]
  intro hm
  obtain ⟨c, hc, he⟩ := List.mem_map.mp hm
  have : c = cb.id := congrArg Prod.fst he
  exact hnew (this ▸ hc)

/-! ### Traps -/

theorem firstTrap_append (k : Kind) (a b : List (Ev G)) : firstTrap k (a ++ b) = (firstTrap k a).or (firstTrap k b) := by
  induction a with
  | nil => simp [firstTrap]
  | cons x a ih =>
    cases x <;> simp [firstTrap, ih]
    split <;> simp

theorem trap_inv (E : Env G) (h : List (Ev G)) : ∀ k, (run E h).trap k = firstTrap k h := by
  induction h using snoc_induction with
  | h0 => simp [run, St.init, firstTrap]
  | hs h e ih =>
    intro k
    rw [run_snoc, firstTrap_append, ← ih k]
    cases e with
    | register f => simp only [step, St.register]; split <;> simp [firstTrap]
    | setup f => simp only [step, St.setup]; split <;> simp [firstTrap]
    | initDone => simp [step, St.initDone, runInit_eq, firstTrap]
    | create p g s =>
      obtain ⟨_, _, _, _, _, _, a, _⟩ := create_handler E (run E h) p g s
      simp [step, a, firstTrap]
    | exit g =>
      obtain ⟨_, _, _, _, _, _, a, _⟩ := exit_handler E (run E h) g
      simp [step, a, firstTrap]
    | call k' t => simp only [step, St.call]; split <;> simp [firstTrap]
    | setTrap k' t =>
      simp only [step, St.setTrap]
      cases hk : (run E h).trap k' with
      | none =>
        simp only
        by_cases hkk : k = k'
        · subst hkk; simp [hk, firstTrap]
        · simp [hkk, firstTrap, Ne.symm hkk]
      | some t' =>
        simp only
        by_cases hkk : k = k'
        · subst hkk; simp [hk]
        · simp [firstTrap, Ne.symm hkk]
    | _ => simp [step, firstTrap]

/-- **C78.** A call of an instrumented function, or a read of an instrumented variable, goes to the first trap that was
    set for it, and runs untouched if none was set yet: setting a trap a second time panics and changes nothing. -/
theorem C78_trap (E : Env G) (h : List (Ev G)) (k : Kind) (f : Nat) :
    (run E (h ++ [.call k f])).log = (run E h).log ++
      [match firstTrap k h with | none => .plain k f | some t => .trapped k t f] := by
  rw [run_snoc]
  simp only [step, St.call]
  rw [trap_inv]
  cases firstTrap k h <;> rfl

theorem C78_trap_twice (E : Env G) (h : List (Ev G)) (k : Kind) (t t' : Nat) (hs : firstTrap k h = some t') :
    run E (h ++ [.setTrap k t]) = { run E h with log := (run E h).log ++ [.panic] } := by
  rw [run_snoc]
  simp only [step, St.setTrap]
  rw [trap_inv, hs]

example : (run (G := Nat) ⟨0, fun _ a b => (a, b), fun _ a => a⟩
    [.call .func 1, .setTrap .func 8, .call .func 2, .setTrap .func 9, .call .func 3, .call .var 4]).log =
    [.plain .func 1, .trapped .func 8 2, .panic, .trapped .func 8 3, .plain .var 4] := by decide

/-! ### Goroutines -/

theorem createHooks_append (a b : List (Ev G)) : createHooks (a ++ b) = createHooks a ++ createHooks b := by
  induction a with
  | nil => rfl
  | cons x a ih => cases x <;> simp [createHooks, ih]

theorem exitHooks_append (a b : List (Ev G)) : exitHooks (a ++ b) = exitHooks a ++ exitHooks b := by
  induction a with
  | nil => rfl
  | cons x a ih => cases x <;> simp [exitHooks, ih]

theorem hooks_inv (E : Env G) (h : List (Ev G)) :
    (run E h).onCreate = createHooks h ∧ (run E h).onExit = exitHooks h := by
  induction h using snoc_induction with
  | h0 => simp [run, St.init, createHooks, exitHooks]
  | hs h e ih =>
    rw [run_snoc, createHooks_append, exitHooks_append, ← ih.1, ← ih.2]
    cases e with
    | register f => simp only [step, St.register]; split <;> simp [createHooks, exitHooks]
    | setup f => simp only [step, St.setup]; split <;> simp [createHooks, exitHooks]
    | initDone => simp [step, St.initDone, runInit_eq, createHooks, exitHooks]
    | create p g s =>
      obtain ⟨_, _, _, _, a, b, _⟩ := create_handler E (run E h) p g s
      simp [step, a, b, createHooks, exitHooks]
    | exit g =>
      obtain ⟨_, _, _, _, a, b, _⟩ := exit_handler E (run E h) g
      simp [step, a, b, createHooks, exitHooks]
    | call k' t => simp only [step, St.call]; split <;> simp [createHooks, exitHooks]
    | setTrap k' t => simp only [step, St.setTrap]; split <;> simp [createHooks, exitHooks]
    | _ => simp [step, createHooks, exitHooks]

/-- **C78.** When a goroutine starts another with `go`, every callback of `XgoOnCreateG` runs once, in order; when it ends
    through `goexit1`, every callback of `XgoOnExitG` does. -/
theorem C78_callbacks (E : Env G) (h : List (Ev G)) (p g : Gid) (s : Slot) :
    (run E (h ++ [.create (some p) g s])).log = (run E h).log ++ (createHooks h).map (fun c => Eff.created c p g) ∧
    (run E (h ++ [.exit g])).log = (run E h).log ++ (exitHooks h).map (fun c => Eff.exited c g) := by
  rw [run_snoc, run_snoc]
  simp only [step, create_log, exit_log]
  rw [(hooks_inv E h).1, (hooks_inv E h).2]
  exact ⟨rfl, rfl⟩

theorem place_snoc (h : List (Ev G)) (e : Ev G) (g : Gid) : place (h ++ [e]) g =
    match e with
    | .create _ g' s => if g' = g then some s else place h g
    | .bare g' s => if g' = g then some s else place h g
    | .exit g' => if g' = g then none else place h g
    | .vanish g' => if g' = g then none else place h g
    | _ => place h g := by
  simp only [place, List.foldl_append, List.foldl_cons, List.foldl_nil]
  cases e <;> rfl

/-- The pair folded over in `stale`. -/
def stalePair (h : List (Ev G)) (s : Slot) : (Gid → Option Slot) × Bool :=
  h.foldl (fun (r : (Gid → Option Slot) × Bool) e =>
    match e with
    | .create _ g' s' => (upd r.1 g' (some s'), if s' = s then false else r.2)
    | .bare g' s' => (upd r.1 g' (some s'), r.2)
    | .exit g' => (upd r.1 g' none, if r.1 g' = some s then false else r.2)
    | .vanish g' => (upd r.1 g' none, if r.1 g' = some s then true else r.2)
    | _ => r) ((fun _ => none), false)

theorem stalePair_snoc (h : List (Ev G)) (e : Ev G) (s : Slot) : stalePair (h ++ [e]) s =
    match e with
    | .create _ g' s' => (upd (stalePair h s).1 g' (some s'), if s' = s then false else (stalePair h s).2)
    | .bare g' s' => (upd (stalePair h s).1 g' (some s'), (stalePair h s).2)
    | .exit g' => (upd (stalePair h s).1 g' none, if (stalePair h s).1 g' = some s then false else (stalePair h s).2)
    | .vanish g' => (upd (stalePair h s).1 g' none, if (stalePair h s).1 g' = some s then true else (stalePair h s).2)
    | _ => stalePair h s := by
  simp only [stalePair, List.foldl_append, List.foldl_cons, List.foldl_nil]
  cases e <;> rfl

theorem stalePair_place (h : List (Ev G)) (s : Slot) : (stalePair h s).1 = place h := by
  induction h using snoc_induction with
  | h0 => rfl
  | hs h e ih =>
    funext g
    rw [stalePair_snoc, place_snoc]
    cases e <;> simp only [ih, upd] <;> try rfl
    all_goals simp only [eq_comm]

theorem stale_eq (h : List (Ev G)) (s : Slot) : stale h s = (stalePair h s).2 := rfl

theorem stale_snoc (h : List (Ev G)) (e : Ev G) (s : Slot) : stale (h ++ [e]) s =
    match e with
    | .create _ _ s' => if s' = s then false else stale h s
    | .exit g' => if place h g' = some s then false else stale h s
    | .vanish g' => if place h g' = some s then true else stale h s
    | _ => stale h s := by
  simp only [stale_eq, stalePair_snoc, ← stalePair_place h s]
  cases e <;> rfl

theorem ideal_snoc (E : Env G) (h : List (Ev G)) (e : Ev G) : ideal E (h ++ [e]) = Ideal.step E (ideal E h) e := by
  simp [ideal, List.foldl_append]

theorem ideal_hooks (E : Env G) (h : List (Ev G)) : (ideal E h).hooks = createHooks h := by
  induction h using snoc_induction with
  | h0 => rfl
  | hs h e ih =>
    rw [ideal_snoc, createHooks_append, ← ih]
    cases e with
    | create p g s => cases p <;> simp [Ideal.step, createHooks]
    | _ => simp [Ideal.step, createHooks]

theorem runCreate_slots (E : Env G) (p g : Gid) (sp sg : Slot) (hne : sp ≠ sg) (l : List Nat) : ∀ s : St G,
    (runCreate E p g sp sg l s).slots =
      upd (upd s.slots sp (applyHooks E l (s.slots sp, s.slots sg)).1) sg (applyHooks E l (s.slots sp, s.slots sg)).2 := by
  induction l with
  | nil =>
    intro s
    funext x
    simp only [runCreate, applyHooks, upd]
    by_cases h1 : x = sg
    · simp [h1]
    · by_cases h2 : x = sp
      · simp [h2, hne]
      · simp [h1, h2]
  | cons c l ih =>
    intro s
    rw [runCreate]
    rw [ih]
    simp only [upd_same, upd_other _ _ hne, applyHooks]
    funext x
    simp only [upd]
    by_cases h1 : x = sg
    · simp [h1]
    · by_cases h2 : x = sp
      · simp [h2, hne]
      · simp [h1, h2]

theorem runExit_slots (E : Env G) (g : Gid) (sg : Slot) (l : List Nat) : ∀ (s : St G) (x : Slot), x ≠ sg →
    (runExit E g sg l s).slots x = s.slots x := by
  induction l with
  | nil => intro s x _; rfl
  | cons c l ih =>
    intro s x hx
    rw [runExit, ih _ x hx]
    simp [upd, hx]

theorem sensible_pre {h : List (Ev G)} {e : Ev G} (hs : Sensible (h ++ [e])) : Sensible h := by
  intro pre x post heq
  exact hs pre x (post ++ [e]) (by simp [heq])

theorem clean_pre {h : List (Ev G)} {e : Ev G} (hs : CleanStarts (h ++ [e])) : CleanStarts h := by
  intro pre g s post heq
  exact hs pre g s (post ++ [e]) (by simp [heq])

/-- Events that have nothing to do with the states. -/
theorem step_slots (E : Env G) (s : St G) (e : Ev G) :
    (match e with
      | .create .. => False | .bare .. => False | .exit .. => False | .write .. => False | _ => True) →
    (step E s e).slots = s.slots ∧ (step E s e).slotOf = s.slotOf := by
  intro hk
  cases e with
  | create => exact hk.elim
  | bare => exact hk.elim
  | exit => exact hk.elim
  | write => exact hk.elim
  | register f => simp only [step, St.register]; split <;> simp
  | setup f => simp only [step, St.setup]; split <;> simp
  | initDone => simp [step, St.initDone, runInit_eq]
  | call k' t => simp only [step, St.call]; split <;> simp
  | setTrap k' t => simp only [step, St.setTrap]; split <;> simp
  | _ => simp [step]

/-- What is kept along a history: the struct of every goroutine is where the history says, no two share one, every
    goroutine's struct has its ideal state, and a struct that is free and not stale is empty. -/
structure Good (E : Env G) (h : List (Ev G)) : Prop where
  at_ : ∀ g s, place h g = some s → (run E h).slotOf g = s
  inj : ∀ g g' s, place h g = some s → place h g' = some s → g = g'
  val : ∀ g s, place h g = some s → (run E h).slots s = (ideal E h).val g
  free : ∀ s, (∀ g, place h g ≠ some s) → stale h s = false → (run E h).slots s = E.zero

theorem good_of (E : Env G) (h : List (Ev G)) : Sensible h → CleanStarts h → Good E h := by
  induction h using snoc_induction with
  | h0 =>
    intro _ _
    exact ⟨by simp [place], by simp [place], by simp [place], by simp [run, St.init]⟩
  | hs h e ih =>
    intro hs hc
    have good := ih (sensible_pre hs) (clean_pre hc)
    have hse := hs h e [] rfl
    cases e with
    | create p g s =>
      obtain ⟨hp, hg, hfree⟩ := hse
      have hplace : ∀ g', place (h ++ [.create p g s]) g' = if g = g' then some s else place h g' :=
        fun g' => by rw [place_snoc]
      have hslot := (create_handler E (run E h) p g s).2.2.2.2.2.2.2
      refine ⟨?_, ?_, ?_, ?_⟩
      · intro g' s' hg'
        rw [run_snoc]
        simp only [step, hslot]
        rw [hplace] at hg'
        by_cases heq : g = g'
        · subst heq
          rw [if_pos rfl] at hg'
          rw [upd_same]
          exact Option.some.inj hg'
        · rw [if_neg heq] at hg'
          rw [upd_other _ _ (Ne.symm heq)]
          exact good.at_ g' s' hg'
      · intro g1 g2 s' h1 h2
        rw [hplace] at h1 h2
        by_cases e1 : g = g1
        · by_cases e2 : g = g2
          · rw [← e1, ← e2]
          · rw [if_pos e1] at h1
            rw [if_neg e2] at h2
            have : s = s' := Option.some.inj h1
            exact absurd (this ▸ h2) (hfree g2)
        · rw [if_neg e1] at h1
          by_cases e2 : g = g2
          · rw [if_pos e2] at h2
            have : s = s' := Option.some.inj h2
            exact absurd (this ▸ h1) (hfree g1)
          · rw [if_neg e2] at h2
            exact good.inj g1 g2 s' h1 h2
      · intro g' s' hg'
        rw [run_snoc, ideal_snoc]
        rw [hplace] at hg'
        cases p with
        | none =>
          simp only [step, St.create, Ideal.step]
          by_cases heq : g = g'
          · subst heq
            rw [if_pos rfl] at hg'
            rw [Option.some.inj hg', upd_same, upd_same]
          · rw [if_neg heq] at hg'
            have hne : s' ≠ s := fun hss => hfree g' (hss ▸ hg')
            rw [upd_other _ _ hne, upd_other _ _ (Ne.symm heq)]
            exact good.val g' s' hg'
        | some q =>
          cases hq : place h q with
          | none => exact absurd hq (hp q rfl)
          | some sq =>
            have hsq := good.at_ q sq hq
            have hvq := good.val q sq hq
            have hne : sq ≠ s := fun hss => hfree q (hss ▸ hq)
            have hqg : q ≠ g := fun hh => by rw [hh, hg] at hq; exact absurd hq (by simp)
            simp only [step, St.create, Ideal.step, hsq]
            rw [runCreate_slots E q g sq s hne]
            simp only [upd_same, upd_other _ _ hne]
            rw [ideal_hooks, (hooks_inv E h).1, hvq]
            by_cases heq : g = g'
            · subst heq
              rw [if_pos rfl] at hg'
              rw [← Option.some.inj hg', upd_same, upd_same]
            · rw [if_neg heq] at hg'
              have hne' : s' ≠ s := fun hss => hfree g' (hss ▸ hg')
              rw [upd_other _ _ hne', upd_other _ _ (Ne.symm heq)]
              by_cases hqq : g' = q
              · subst hqq
                rw [hq] at hg'
                rw [← Option.some.inj hg', upd_same, upd_same]
              · have hss : s' ≠ sq := fun hh => hqq (good.inj g' q sq (hh ▸ hg') hq)
                rw [upd_other _ _ hss, upd_other _ _ hqq, upd_other _ _ hne']
                exact good.val g' s' hg'
      · intro s' hno hst
        have hsne : s ≠ s' := fun hh => hno g (by rw [hplace, if_pos rfl, hh])
        have hno' : ∀ g', place h g' ≠ some s' := by
          intro g' hg'
          by_cases heq : g = g'
          · subst heq; rw [hg] at hg'; exact absurd hg' (by simp)
          · exact hno g' (by rw [hplace, if_neg heq]; exact hg')
        rw [stale_snoc] at hst
        simp only [if_neg hsne] at hst
        have h0 := good.free s' hno' hst
        rw [run_snoc]
        cases p with
        | none =>
          simp only [step, St.create]
          rw [upd_other _ _ (Ne.symm hsne)]
          exact h0
        | some q =>
          cases hq : place h q with
          | none => exact absurd hq (hp q rfl)
          | some sq =>
            have hsq := good.at_ q sq hq
            have hne : sq ≠ s := fun hss => hfree q (hss ▸ hq)
            have hss : s' ≠ sq := fun hh => hno' q (hh ▸ hq)
            simp only [step, St.create, hsq]
            rw [runCreate_slots E q g sq s hne]
            rw [upd_other _ _ (Ne.symm hsne), upd_other _ _ hss]
            simp only
            rw [upd_other _ _ (Ne.symm hsne)]
            exact h0
    | bare g s =>
      obtain ⟨hg, hfree⟩ := hse
      have hclean := hc h g s [] rfl
      have hplace : ∀ g', place (h ++ [.bare g s]) g' = if g = g' then some s else place h g' :=
        fun g' => by rw [place_snoc]
      refine ⟨?_, ?_, ?_, ?_⟩
      · intro g' s' hg'
        rw [run_snoc]
        simp only [step]
        rw [hplace] at hg'
        by_cases heq : g = g'
        · subst heq
          rw [if_pos rfl] at hg'
          rw [upd_same]
          exact Option.some.inj hg'
        · rw [if_neg heq] at hg'
          rw [upd_other _ _ (Ne.symm heq)]
          exact good.at_ g' s' hg'
      · intro g1 g2 s' h1 h2
        rw [hplace] at h1 h2
        by_cases e1 : g = g1
        · by_cases e2 : g = g2
          · rw [← e1, ← e2]
          · rw [if_pos e1] at h1
            rw [if_neg e2] at h2
            have : s = s' := Option.some.inj h1
            exact absurd (this ▸ h2) (hfree g2)
        · rw [if_neg e1] at h1
          by_cases e2 : g = g2
          · rw [if_pos e2] at h2
            have : s = s' := Option.some.inj h2
            exact absurd (this ▸ h1) (hfree g1)
          · rw [if_neg e2] at h2
            exact good.inj g1 g2 s' h1 h2
      · intro g' s' hg'
        rw [run_snoc, ideal_snoc]
        rw [hplace] at hg'
        simp only [step, Ideal.step]
        by_cases heq : g = g'
        · subst heq
          rw [if_pos rfl] at hg'
          rw [upd_same, ← Option.some.inj hg']
          exact good.free s hfree hclean
        · rw [if_neg heq] at hg'
          rw [upd_other _ _ (Ne.symm heq)]
          exact good.val g' s' hg'
      · intro s' hno hst
        have hno' : ∀ g', place h g' ≠ some s' := by
          intro g' hg'
          by_cases heq : g = g'
          · subst heq; rw [hg] at hg'; exact absurd hg' (by simp)
          · exact hno g' (by rw [hplace, if_neg heq]; exact hg')
        rw [stale_snoc] at hst
        rw [run_snoc]
        exact good.free s' hno' hst
    | exit g =>
      have hplace : ∀ g', place (h ++ [.exit g]) g' = if g = g' then none else place h g' :=
        fun g' => by rw [place_snoc]
      have hlive : ∀ g' s', place (h ++ [.exit g]) g' = some s' → g ≠ g' ∧ place h g' = some s' := by
        intro g' s' hg'
        rw [hplace] at hg'
        by_cases heq : g = g'
        · rw [if_pos heq] at hg'; exact absurd hg' (by simp)
        · rw [if_neg heq] at hg'; exact ⟨heq, hg'⟩
      have hslot := (exit_handler E (run E h) g).2.2.2.2.2.2.2
      cases hg : place h g with
      | none => exact absurd hg hse
      | some sg =>
        have hsg := good.at_ g sg hg
        refine ⟨?_, ?_, ?_, ?_⟩
        · intro g' s' hg'
          rw [run_snoc]
          simp only [step, hslot]
          exact good.at_ g' s' (hlive g' s' hg').2
        · intro g1 g2 s' h1 h2
          exact good.inj g1 g2 s' (hlive g1 s' h1).2 (hlive g2 s' h2).2
        · intro g' s' hg'
          obtain ⟨hne, hg''⟩ := hlive g' s' hg'
          have hss : s' ≠ sg := fun hh => hne (good.inj g' g sg (hh ▸ hg'') hg).symm
          rw [run_snoc, ideal_snoc]
          simp only [step, St.exit, hsg, Ideal.step]
          rw [upd_other _ _ hss, runExit_slots E g sg _ _ s' hss]
          exact good.val g' s' hg''
        · intro s' hno hst
          rw [run_snoc]
          simp only [step, St.exit, hsg]
          by_cases hss : s' = sg
          · rw [hss, upd_same]
          · rw [upd_other _ _ hss, runExit_slots E g sg _ _ s' hss]
            apply good.free s'
            · intro g' hg'
              have hne : g ≠ g' := fun hh => hss (by rw [← hh, hg] at hg'; exact (Option.some.inj hg').symm)
              exact hno g' (by rw [hplace, if_neg hne]; exact hg')
            · rw [stale_snoc] at hst
              simp only [hg] at hst
              rw [if_neg (fun hh => hss (Option.some.inj hh).symm)] at hst
              exact hst
    | vanish g =>
      have hplace : ∀ g', place (h ++ [.vanish g]) g' = if g = g' then none else place h g' :=
        fun g' => by rw [place_snoc]
      have hlive : ∀ g' s', place (h ++ [.vanish g]) g' = some s' → g ≠ g' ∧ place h g' = some s' := by
        intro g' s' hg'
        rw [hplace] at hg'
        by_cases heq : g = g'
        · rw [if_pos heq] at hg'; exact absurd hg' (by simp)
        · rw [if_neg heq] at hg'; exact ⟨heq, hg'⟩
      cases hg : place h g with
      | none => exact absurd hg hse
      | some sg =>
        refine ⟨?_, ?_, ?_, ?_⟩
        · intro g' s' hg'
          rw [run_snoc]
          exact good.at_ g' s' (hlive g' s' hg').2
        · intro g1 g2 s' h1 h2
          exact good.inj g1 g2 s' (hlive g1 s' h1).2 (hlive g2 s' h2).2
        · intro g' s' hg'
          rw [run_snoc, ideal_snoc]
          exact good.val g' s' (hlive g' s' hg').2
        · intro s' hno hst
          rw [stale_snoc] at hst
          simp only [hg] at hst
          by_cases hss : sg = s'
          · rw [if_pos (by rw [hss])] at hst; exact absurd hst (by simp)
          · rw [if_neg (fun hh => hss (Option.some.inj hh))] at hst
            rw [run_snoc]
            apply good.free s' _ hst
            intro g' hg'
            have hne : g ≠ g' := fun hh => hss (by rw [← hh, hg] at hg'; exact (Option.some.inj hg'))
            exact hno g' (by rw [hplace, if_neg hne]; exact hg')
    | write g v =>
      have hplace : ∀ g', place (h ++ [.write g v]) g' = place h g' := fun g' => by rw [place_snoc]
      cases hg : place h g with
      | none => exact absurd hg hse
      | some sg =>
        have hsg := good.at_ g sg hg
        refine ⟨?_, ?_, ?_, ?_⟩
        · intro g' s' hg'
          rw [run_snoc]
          rw [hplace] at hg'
          exact good.at_ g' s' hg'
        · intro g1 g2 s' h1 h2
          rw [hplace] at h1 h2
          exact good.inj g1 g2 s' h1 h2
        · intro g' s' hg'
          rw [hplace] at hg'
          rw [run_snoc, ideal_snoc]
          simp only [step, hsg, Ideal.step]
          by_cases hss : s' = sg
          · have hgg := good.inj g' g sg (hss ▸ hg') hg
            rw [hss, hgg, upd_same, upd_same]
          · have hgg : g' ≠ g := fun hh => hss (by rw [hh, hg] at hg'; exact (Option.some.inj hg').symm)
            rw [upd_other _ _ hss, upd_other _ _ hgg]
            exact good.val g' s' hg'
        · intro s' hno hst
          have hno' : ∀ g', place h g' ≠ some s' := fun g' => by rw [← hplace]; exact hno g'
          rw [stale_snoc] at hst
          have hss : s' ≠ sg := fun hh => hno' g (by rw [hh]; exact hg)
          rw [run_snoc]
          simp only [step, hsg]
          rw [upd_other _ _ hss]
          exact good.free s' hno' hst
    | _ =>
      refine ⟨?_, ?_, ?_, ?_⟩
      · intro g' s' hg'
        rw [run_snoc, (step_slots E _ _ trivial).2]
        rw [place_snoc] at hg'
        exact good.at_ g' s' hg'
      · intro g1 g2 s' h1 h2
        rw [place_snoc] at h1 h2
        exact good.inj g1 g2 s' h1 h2
      · intro g' s' hg'
        rw [place_snoc] at hg'
        rw [run_snoc, (step_slots E _ _ trivial).1, ideal_snoc]
        exact good.val g' s' hg'
      · intro s' hno hst
        rw [stale_snoc] at hst
        rw [run_snoc, (step_slots E _ _ trivial).1]
        exact good.free s' (fun g' hg' => hno g' (by rw [place_snoc]; exact hg')) hst

/-- **C78.** Whatever `g` structs the scheduler reuses: the state of every goroutine is the one it would have if every
    goroutine had a new struct of its own, for any callbacks, provided that goroutines that are not made by `go` are put in
    structs that were last left through `goexit1` (or never used). -/
theorem C78_state_partial (E : Env G) (h : List (Ev G)) (hs : Sensible h) (hc : CleanStarts h) (g : Gid)
    (hg : place h g ≠ none) : stateOf (run E h) g = (ideal E h).val g := by
  have good := good_of E h hs hc
  cases hp : place h g with
  | none => exact absurd hp hg
  | some s => rw [stateOf, good.at_ g s hp, good.val g s hp]

/-- **C78.** A goroutine made by `go` starts with what the callbacks make of an empty state, whatever was in the struct
    that it gets, and whoever left it and how. -/
theorem C78_go_starts_empty (E : Env G) (h : List (Ev G)) (p : Option Gid) (g : Gid) (s : Slot)
    (hp : ∀ q, p = some q → (run E h).slotOf q ≠ s) :
    stateOf (run E (h ++ [.create p g s])) g =
      match p with
      | none => E.zero
      | some q => (applyHooks E (createHooks h) (stateOf (run E h) q, E.zero)).2 := by
  rw [run_snoc, stateOf]
  simp only [step]
  rw [(create_handler E (run E h) p g s).2.2.2.2.2.2.2, upd_same]
  cases p with
  | none => simp [St.create, upd]
  | some q =>
    have hne := hp q rfl
    simp only [St.create]
    rw [runCreate_slots E q g _ s hne, upd_same]
    simp only [upd_same, upd_other _ _ hne, stateOf]
    rw [(hooks_inv E h).1]

/-- A callback that lets the new goroutine inherit the state of its creator. -/
def inherit : Env Nat := ⟨0, fun _ a _ => (a, a), fun _ a => a⟩

/-- Two goroutines, one of which inherits; the struct of the first is reused. -/
def reuse : List (Ev Nat) :=
  [.onCreate 1, .create none 1 0, .write 1 7, .create (some 1) 2 1, .exit 1, .bare 3 0, .create (some 2) 4 2]

example : stateOf (run inherit reuse) 3 = 0 ∧ stateOf (run inherit reuse) 4 = 7 ∧ place reuse 3 = some 0 ∧
    place reuse 4 = some 2 ∧ (ideal inherit reuse).val 3 = 0 ∧ (ideal inherit reuse).val 4 = 7 := by decide

/-- A decision procedure for the two conditions, by looking at every prefix. -/
def okStep (bound : Nat) (pre : List (Ev G)) (e : Ev G) : Bool :=
  match e with
  | .create p g s =>
    (match p with | none => true | some q => (place pre q).isSome) && (place pre g).isNone && decide (g < bound) &&
      (List.range bound).all (fun g' => place pre g' ≠ some s)
  | .bare g s => (place pre g).isNone && decide (g < bound) && (List.range bound).all (fun g' => place pre g' ≠ some s)
  | .exit g => (place pre g).isSome
  | .vanish g => (place pre g).isSome
  | .write g _ => (place pre g).isSome
  | _ => true

def okFrom (bound : Nat) : List (Ev G) → List (Ev G) → Bool
  | _, [] => true
  | pre, e :: rest => okStep bound pre e && okFrom bound (pre ++ [e]) rest

def cleanFrom : List (Ev G) → List (Ev G) → Bool
  | _, [] => true
  | pre, e :: rest =>
    (match e with | .bare _ s => !stale pre s | _ => true) && cleanFrom (pre ++ [e]) rest

/-- Only goroutines below the bound exist. -/
theorem place_bound (bound : Nat) (rest : List (Ev G)) : ∀ pre, okFrom bound pre rest = true →
    (∀ g, bound ≤ g → place pre g = none) → ∀ a e b, rest = a ++ e :: b → okStep bound (pre ++ a) e = true ∧
      ∀ g, bound ≤ g → place (pre ++ a) g = none := by
  induction rest with
  | nil => intro pre _ _ a e b h; cases a <;> cases h
  | cons x rest ih =>
    intro pre hok hb a e b h
    simp only [okFrom, Bool.and_eq_true] at hok
    cases a with
    | nil =>
      simp only [List.nil_append, List.cons.injEq] at h
      rw [List.append_nil, ← h.1]
      exact ⟨hok.1, hb⟩
    | cons y a =>
      simp only [List.cons_append, List.cons.injEq] at h
      have hb' : ∀ g, bound ≤ g → place (pre ++ [x]) g = none := by
        intro g hg
        rw [place_snoc]
        cases x with
        | create p g' s =>
          have : g' < bound := by simp [okStep] at hok; exact hok.1.1.2
          have hne : g' ≠ g := Nat.ne_of_lt (Nat.lt_of_lt_of_le this hg)
          simp [hne, hb g hg]
        | bare g' s =>
          have : g' < bound := by simp [okStep] at hok; exact hok.1.1.2
          have hne : g' ≠ g := Nat.ne_of_lt (Nat.lt_of_lt_of_le this hg)
          simp [hne, hb g hg]
        | exit g' => simp [hb g hg]
        | vanish g' => simp [hb g hg]
        | _ => exact hb g hg
      have := ih (pre ++ [x]) hok.2 hb' a e b h.2
      rw [← h.1]
      simpa using this

theorem sensible_of (bound : Nat) (h : List (Ev G)) (hok : okFrom bound [] h = true) : Sensible h := by
  intro pre e post heq
  obtain ⟨ho, hb⟩ := place_bound bound h [] hok (fun _ _ => rfl) pre e post heq
  simp only [List.nil_append] at ho hb
  have hall : ∀ s, (List.range bound).all (fun g' => place pre g' ≠ some s) = true → ∀ g', place pre g' ≠ some s := by
    intro s ha g' hg'
    by_cases hlt : g' < bound
    · have := List.all_eq_true.mp ha g' (List.mem_range.mpr hlt)
      simp [hg'] at this
    · rw [hb g' (Nat.le_of_not_lt hlt)] at hg'; cases hg'
  cases e with
  | create p g s =>
    simp only [okStep, Bool.and_eq_true] at ho
    refine ⟨?_, by simpa using ho.1.1.2, hall s ho.2⟩
    intro q hq hn
    have := ho.1.1.1
    rw [hq] at this
    simp [hn] at this
  | bare g s =>
    simp only [okStep, Bool.and_eq_true] at ho
    exact ⟨by simpa using ho.1.1, hall s ho.2⟩
  | exit g => intro hn; simp [okStep, hn] at ho
  | vanish g => intro hn; simp [okStep, hn] at ho
  | write g v => intro hn; simp [okStep, hn] at ho
  | _ => trivial

theorem clean_of (rest : List (Ev G)) : ∀ pre, cleanFrom pre rest = true → ∀ a g s b, rest = a ++ .bare g s :: b →
    stale (pre ++ a) s = false := by
  induction rest with
  | nil => intro pre _ a g s b h; cases a <;> cases h
  | cons x rest ih =>
    intro pre hok a g s b h
    simp only [cleanFrom, Bool.and_eq_true] at hok
    cases a with
    | nil =>
      simp only [List.nil_append, List.cons.injEq] at h
      rw [h.1] at hok
      simpa using hok.1
    | cons y a =>
      simp only [List.cons_append, List.cons.injEq] at h
      have := ih (pre ++ [x]) hok.2 a g s b h.2
      rw [← h.1]
      simpa using this

example : Sensible reuse ∧ CleanStarts reuse :=
  ⟨sensible_of 5 reuse (by decide), fun pre g s post h => clean_of reuse [] (by decide) pre g s post h⟩

/-- What is missing: a goroutine that is not made by `go` (as the coroutines of `iter.Pull`, which neither start in `newproc`
    nor end in `goexit1`) finds the state of the goroutine that had its struct before: its mocks, interceptors, recorders
    and thread-local values, and if that one was being intercepted, it is never intercepted itself. -/
def coroutines : List (Ev Nat) := [.create none 1 0, .bare 2 1, .write 2 7, .vanish 2, .bare 3 1]

theorem C78_state_left_behind : Sensible coroutines ∧ place coroutines 3 = some 1 ∧
    (ideal inherit coroutines).val 3 = 0 ∧ stateOf (run inherit coroutines) 3 = 7 :=
  ⟨sensible_of 4 coroutines (by decide), by decide, by decide, by decide⟩

end Verif.Runtime.Hooks
