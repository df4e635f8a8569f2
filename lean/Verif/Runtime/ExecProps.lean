/-
Properties C07, C08, C10-C14 of `trap` (runtime/internal/trap/trap.go), stated on the event log of arbitrary
programs (`execStmts E n St.start ss = some (σ', p)`: program `ss` run to completion, `p` = it panicked). "For every run" is
the quantification over the environment `E` (registries, hooks and their behaviours), the program and the fuel `n`.
-/
import Verif.Runtime.ExecCall

namespace Verif.Runtime.Exec

/-! ### example environment used for the non-vacuity examples -/

/-- function 1 is mocked (mock 7, calls function 2), function 2 has a recorder bound to instance 5 and an unbound one
    (whose pre hook calls function 1), there are two general interceptors; the pre hook of interceptor 31 calls function 3. -/
def exEnv : Env where
  mock fn := if fn = 1 then some ⟨7, none⟩ else none
  recorders fn := if fn = 2 then [⟨20, some 5, true, false⟩, ⟨21, none, true, true⟩] else []
  interceptors := [⟨31, none, true, false⟩, ⟨32, none, true, true⟩]
  tracing := true
  filter fn := fn != 4
  preBeh h _ := { body := if h = 31 then [.call 3 none []] else if h = 21 then [.call 1 none []] else [], stop := false }
  postBeh _ _ := []
  mockBeh _ _ := { body := [.call 3 none []], ok := true }

/-- calls 0(→2 on instance 5), 1 mocked, 4 not traced but calling 0; with a recovered panic -/
def exProg : List Stmt :=
  [.call 0 none [.call 2 (some 5) []], .protect [.call 1 none [.panic], .call 0 none [.panic]], .call 4 none [.call 0 none []]]

/-! ### C13 -/

/-- C13 -/
theorem C13_depth_balanced (E : Env) (n : Nat) (σ σ' : St) (ss : List Stmt) (p : Bool)
    (h : execStmts E n σ ss = some (σ', p)) : σ'.depth = σ.depth := by
  obtain ⟨_, hr⟩ := (run_of_exec E n).1 _ _ _ _ h
  exact hr.depth_eq

/-- C13, observable form: whatever happened before, including recovered panics of functions, mocks and hooks, the first general
    interceptor still sees the next top-level call (of a function without recorders). -/
theorem C13_interceptors_stay_enabled (E : Env) (n m : Nat) (ss body : List Stmt) (σ1 σ2 : St) (p q : Bool) (fn : Nat)
    (recv : Option Nat) (i : Handler) (is : List Handler)
    (h1 : execStmts E n St.start ss = some (σ1, p))
    (h2 : execStmt E m σ1 (.call fn recv body) = some (σ2, q))
    (hr : E.recorders fn = []) (hi : E.interceptors = i :: is) (hp : i.hasPre = true) :
    ∃ data, Ev.pre σ1.tick true i.id data ∈ σ2.log := by
  have hd := C13_depth_balanced _ _ _ _ _ _ h1
  obtain ⟨ev, hrun⟩ := (run_of_exec E m).2.1 _ _ _ _ h2
  have hc := hrun.callEvs
  have hlog := hrun.log_eq
  rw [hd] at hc
  have key : ∀ {L L2 e1 e2}, HookEvs σ1.tick false recv (E.recorders fn) Loop.start e1 L →
      HookEvs σ1.tick true recv (if St.start.depth + 1 ≤ 1 then E.interceptors else []) Loop.start e2 L2 →
      ∃ data, Ev.pre σ1.tick true i.id data ∈ e2 := by
    intro L L2 e1 e2 _ g2
    rw [if_pos (by simp [St.start]), hi] at g2
    cases g2 with
    | skip h => cases h
    | panic d => exact ⟨d, by simp⟩
    | stop d => exact ⟨d, by simp⟩
    | pre d => exact ⟨d, by simp⟩
    | noPre _ h => rw [hp] at h; cases h
  have k1 : ∀ {L e1}, HookEvs σ1.tick false recv (E.recorders fn) Loop.start e1 L → L = Loop.start := by
    intro L e1 g; rw [hr] at g; cases g; rfl
  have fin : (∃ data, Ev.pre σ1.tick true i.id data ∈ ownEvs σ1.tick ev) → ∃ data, Ev.pre σ1.tick true i.id data ∈ σ2.log := by
    rintro ⟨d, hd⟩
    exact ⟨d, by rw [hlog]; exact List.mem_append_right _ ((mem_own rfl).1 hd)⟩
  apply fin
  generalize ownEvs σ1.tick ev = l at hc ⊢
  cases hc with
  | p1 g1 gp => have := k1 g1; subst this; cases gp
  | p2 g1 _ _ g2 _ => obtain ⟨d, hd⟩ := key g1 g2; exact ⟨d, by simp [hd]⟩
  | stop1 par b g1 _ gs _ => have := k1 g1; subst this; cases gs
  | stop2 par b g1 _ _ g2 _ _ _ => obtain ⟨d, hd⟩ := key g1 g2; exact ⟨d, by simp [hd]⟩
  | orig par b g1 _ _ g2 _ _ _ _ => obtain ⟨d, hd⟩ := key g1 g2; exact ⟨d, by simp [hd]⟩
  | mockP par g1 _ _ g2 _ _ _ => obtain ⟨d, hd⟩ := key g1 g2; exact ⟨d, by simp [hd]⟩
  | mockOk par b t g1 _ _ g2 _ _ _ _ => obtain ⟨d, hd⟩ := key g1 g2; exact ⟨d, by simp [hd]⟩

/-- the example program runs to completion, with 99 events -/
example : ((execStmts exEnv 60 St.start exProg).map fun r => (r.1.log.length, r.1.depth, r.2)) = some (99, 0, false) := by
  decide +kernel

/-! ### C12 -/

/-- C12, interceptors: whenever a hook of a general interceptor begins, no hook (pre hook, post hook or mock) is running on the
    goroutine. -/
theorem C12_general_interceptors_never_nested (E : Env) (n : Nat) (ss : List Stmt) (σ' : St) (p : Bool) (l1 l2 : List Ev) (e : Ev)
    (h : execStmts E n St.start ss = some (σ', p)) (hl : σ'.log = l1 ++ e :: l2) (he : e.isGeneral = true) :
    openHooks l1 = 0 := by
  obtain ⟨ev, hr⟩ := (run_of_exec E n).1 _ _ _ _ h
  have hg := (hr.good trivial).1
  have hlog := hr.log_eq
  simp only [St.start, List.nil_append] at hlog
  have := hg l1 e l2 (by rw [← hlog, hl])
  have h2 := this.2 he
  simp [Job.base, St.start] at h2
  omega

theorem run_deep {E : Env} (hrec : ∀ fn, E.recorders fn = []) (hmock : ∀ fn, E.mock fn = none) :
    ∀ k (ss : List Stmt), sizeOf ss ≤ k → ∀ σ, 0 < σ.depth → ∃ e p σ', Run E (.stmts ss) σ e (.done p) σ' := by
  have call : ∀ (fn : Nat) (recv : Option Nat) (body : List Stmt), (∀ σ, 0 < σ.depth → ∃ e p σ', Run E (.stmts body) σ e (.done p) σ') →
      ∀ σ, 0 < σ.depth → ∃ e p σ', Run E (.stmt (.call fn recv body)) σ e (.done p) σ' := by
    intro fn recv body hb σ hd
    have ht : ∃ e1 σ1, Run E (.trap σ.tick fn recv) (σ.emit (.call σ.tick fn recv)) e1 (.trapped (some ([], none, false))) σ1 ∧
        σ1.depth = σ.depth := by
      have hm : E.activeMock fn recv = none := by simp [Env.activeMock, hmock]
      have g1 : Run E (.hooks σ.tick false recv (E.recorders fn) Loop.start) (σ.emit (.call σ.tick fn recv)).inc [] (.loop Loop.start)
          (σ.emit (.call σ.tick fn recv)).inc := by rw [hrec]; exact .hooksNil
      have g2 : Run E (.hooks σ.tick true recv (if (σ.emit (.call σ.tick fn recv)).depth + 1 ≤ 1 then E.interceptors else []) Loop.start)
          (σ.emit (.call σ.tick fn recv)).inc [] (.loop Loop.start) (σ.emit (.call σ.tick fn recv)).inc := by
        rw [if_neg (show ¬ ((σ.emit (.call σ.tick fn recv)).depth + 1 ≤ 1) from show ¬ (σ.depth + 1 ≤ 1) by omega)]; exact .hooksNil
      have := Run.trapNoMock g1 rfl rfl g2 rfl rfl hm
      have hf : decide ((σ.emit (Ev.call σ.tick fn recv)).depth + 1 ≤ 1) = false :=
        decide_eq_false (show ¬ (σ.depth + 1 ≤ 1) by omega)
      rw [hf, Bool.and_false] at this
      exact ⟨_, _, this, by simp [St.enter, St.emit, St.inc, St.dec]⟩
    obtain ⟨e1, σ1, r1, d1⟩ := ht
    obtain ⟨e2, p, σ2, r2⟩ := hb (σ1.emit (.orig σ.tick)) (by simp [St.emit, d1, hd])
    have r3 : Run E (.post σ.tick [] none p) σ2 [] (.done false) σ2.inc.dec := .postU .postsNil
    exact ⟨_, _, _, .callRun r1 r2 r3⟩
  intro k
  induction k with
  | zero => intro ss hs; cases ss <;> simp at hs
  | succ k ih =>
    intro ss hs σ hd
    cases ss with
    | nil => exact ⟨_, _, _, .nil σ⟩
    | cons s ss =>
      have hs' : sizeOf ss ≤ k := by simp at hs; omega
      have one : ∃ e p σ', Run E (.stmt s) σ e (.done p) σ' := by
        cases s with
        | panic => exact ⟨_, _, _, .panic σ⟩
        | protect b =>
          obtain ⟨e, p, σ', h⟩ := ih b (by simp at hs; omega) σ hd
          exact ⟨_, _, _, .protect h⟩
        | call fn recv b =>
          exact call fn recv b (fun σ hd => ih b (by simp at hs; omega) σ hd) σ hd
      obtain ⟨e, p, σ1, r⟩ := one
      cases p with
      | true => exact ⟨_, _, _, .consP r⟩
      | false =>
        obtain ⟨e2, p2, σ2, r2⟩ := ih ss hs' σ1 (by rw [r.depth_eq]; exact hd)
        exact ⟨_, _, _, .cons r r2⟩

theorem run_top {E : Env} (hrec : ∀ fn, E.recorders fn = []) (hmock : ∀ fn, E.mock fn = none) :
    ∀ k (ss : List Stmt), sizeOf ss ≤ k → ∀ σ, 0 ≤ σ.depth → ∃ e p σ', Run E (.stmts ss) σ e (.done p) σ' := by
  have deep : ∀ ss σ, 0 < σ.depth → ∃ e p σ', Run E (.stmts ss) σ e (.done p) σ' :=
    fun ss σ hd => run_deep hrec hmock _ ss (Nat.le_refl _) σ hd
  have hooks : ∀ hs σ c recv L, 0 < σ.depth → ∃ e L' σ', Run E (.hooks c true recv hs L) σ e (.loop L') σ' := by
    intro hs
    induction hs with
    | nil => intro σ c recv L _; exact ⟨_, _, _, .hooksNil⟩
    | cons h hs ih =>
      intro σ c recv L hd
      cases hp : h.hasPre with
      | false =>
        obtain ⟨e, L', σ', r⟩ := ih σ c recv { L with cur := some h, posts := if h.hasPost then L.posts ++ [none] else L.posts } hd
        exact ⟨_, _, _, .hooksNoPre (.inl rfl) hp r⟩
      | true =>
        obtain ⟨e, p, σ', r⟩ := deep (E.preBeh h.id σ.tick).body (σ.emit (.pre c true h.id σ.tick)) hd
        cases p with
        | true => exact ⟨_, _, _, .hooksP (.inl rfl) hp r⟩
        | false =>
          cases hst : (E.preBeh h.id σ.tick).stop with
          | true => exact ⟨_, _, _, .hooksStop (.inl rfl) hp r hst⟩
          | false =>
            obtain ⟨e2, L', σ2, r2⟩ := ih (σ'.emit (.preEnd c true h.id)) c recv
              { L with cur := some h, posts := if h.hasPost then L.posts ++ [some σ.tick] else L.posts }
              (by have := r.depth_eq; simp [St.emit] at this ⊢; omega)
            exact ⟨_, _, _, .hooksPre (.inl rfl) hp r hst r2⟩
  have posts : ∀ cs σ c, 0 < σ.depth → ∃ e p σ', Run E (.posts c cs) σ e (.done p) σ' := by
    intro cs
    induction cs with
    | nil => intro σ c _; exact ⟨_, _, _, .postsNil⟩
    | cons x cs ih =>
      intro σ c hd
      by_cases hx : ∃ h, x.h = some h ∧ h.hasPost = true
      · obtain ⟨h, hh, hpo⟩ := hx
        obtain ⟨e, p, σ', r⟩ := deep (E.postBeh h.id σ.tick) (σ.emit (.post c x.gen h.id x.data)) hd
        cases p with
        | true => exact ⟨_, _, _, .postsP hh hpo r⟩
        | false =>
          obtain ⟨e2, p2, σ2, r2⟩ := ih (σ'.emit (.postEnd c x.gen h.id)) c (by have := r.depth_eq; simp [St.emit] at this ⊢; omega)
          exact ⟨_, _, _, .postsOk hh hpo r r2⟩
      · refine ⟨_, _, _, .postsBad (fun h hh => ?_)⟩
        cases hpo : h.hasPost with
        | false => rfl
        | true => exact absurd ⟨h, hh, hpo⟩ hx
  have post : ∀ c ps tr p σ, 0 ≤ σ.depth → ∃ e p2 σ', Run E (.post c ps tr p) σ e (.done p2) σ' := by
    intro c ps tr p σ hd
    obtain ⟨e, p2, σ', r⟩ := posts ps.reverse σ.inc c (by simp [St.inc]; omega)
    cases p2 with
    | true => exact ⟨_, _, _, .postP r⟩
    | false => cases tr with
      | none => exact ⟨_, _, _, .postU r⟩
      | some old => exact ⟨_, _, _, .postT r⟩
  have trap : ∀ c fn recv σ, 0 ≤ σ.depth → ∃ e r σ', Run E (.trap c fn recv) σ e (.trapped r) σ' := by
    intro c fn recv σ hd
    have g1 : Run E (.hooks c false recv (E.recorders fn) Loop.start) σ.inc [] (.loop Loop.start) σ.inc := by
      rw [hrec]; exact .hooksNil
    have hm : E.activeMock fn recv = none := by simp [Env.activeMock, hmock]
    obtain ⟨e2, L2, σ2, g2⟩ := hooks (if σ.depth + 1 ≤ 1 then E.interceptors else []) σ.inc c recv Loop.start (by simp [St.inc]; omega)
    cases hp : L2.panicked with
    | true => exact ⟨_, _, _, .trapP2 g1 rfl rfl g2 hp⟩
    | false => cases hs : L2.stopped with
      | true => exact ⟨_, _, _, .trapStop2 g1 rfl rfl g2 hp hs⟩
      | false => exact ⟨_, _, _, .trapNoMock g1 rfl rfl g2 hp hs hm⟩
  intro k
  induction k with
  | zero => intro ss hs; cases ss <;> simp at hs
  | succ k ih =>
    intro ss hs σ hd
    cases ss with
    | nil => exact ⟨_, _, _, .nil σ⟩
    | cons s ss =>
      have hs' : sizeOf ss ≤ k := by simp at hs; omega
      have one : ∃ e p σ', Run E (.stmt s) σ e (.done p) σ' := by
        cases s with
        | panic => exact ⟨_, _, _, .panic σ⟩
        | protect b =>
          obtain ⟨e, p, σ', h⟩ := ih b (by simp at hs; omega) σ hd
          exact ⟨_, _, _, .protect h⟩
        | call fn recv b =>
          obtain ⟨e1, r, σ1, r1⟩ := trap σ.tick fn recv (σ.emit (.call σ.tick fn recv)) hd
          have d1 := r1.depth_eq
          match r with
          | none => exact ⟨_, _, _, .callTP r1⟩
          | some (ps, tr, true) =>
            obtain ⟨e2, p2, σ2, r2⟩ := post σ.tick ps tr false σ1 (by simp [d1, St.emit, hd])
            exact ⟨_, _, _, .callStop r1 r2⟩
          | some (ps, tr, false) =>
            obtain ⟨e2, p2, σ2, r2⟩ := ih b (by simp at hs; omega) (σ1.emit (.orig σ.tick)) (by simp [d1, St.emit, hd])
            obtain ⟨e3, p3, σ3, r3⟩ := post σ.tick ps tr p2 σ2 (by rw [r2.depth_eq]; simp [d1, St.emit, hd])
            exact ⟨_, _, _, .callRun r1 r2 r3⟩
      obtain ⟨e, p, σ1, r⟩ := one
      cases p with
      | true => exact ⟨_, _, _, .consP r⟩
      | false =>
        obtain ⟨e2, p2, σ2, r2⟩ := ih ss hs' σ1 (by rw [r.depth_eq]; exact hd)
        exact ⟨_, _, _, .cons r r2⟩

/-- C12, no infinite interception: with any number of general interceptors, whose hooks may call any instrumented function (including
    the ones they intercept), every program terminates. (Recorders and mocks of specific functions can loop by calling their own
    target; they are excluded here.) -/
theorem C12_interception_terminates (E : Env) (hrec : ∀ fn, E.recorders fn = []) (hmock : ∀ fn, E.mock fn = none) (ss : List Stmt) :
    ∃ n σ' p, execStmts E n St.start ss = some (σ', p) := by
  obtain ⟨e, p, σ', r⟩ := run_top hrec hmock _ ss (Nat.le_refl _) St.start (by simp [St.start])
  obtain ⟨N, hN⟩ := exec_of_run r
  exact ⟨N, σ', p, hN N (Nat.le_refl _)⟩

/-- an interceptor that calls the function it intercepts -/
example : ∃ n σ' p, execStmts { exEnv with
    mock := (fun _ => none), recorders := (fun _ => []),
    preBeh := (fun _ _ => ⟨[.call 0 none [.call 0 none []]], false⟩) } n St.start [.call 0 none []] = some (σ', p) :=
  C12_interception_terminates _ (fun _ => rfl) (fun _ => rfl) _

/-- C12, tracing part, is false of the code: a call made by a mock (hook open: `openHooks = 1`) that is aborted by a recorder
    of its target gets a trace entry (trap.go:248-252 does not test the depth). -/
def cexTraceInHook : Env where
  mock fn := if fn = 0 then some ⟨1, none⟩ else none
  recorders fn := if fn = 1 then [⟨2, none, true, false⟩] else []
  interceptors := []
  tracing := true
  filter _ := true
  preBeh _ _ := ⟨[], true⟩
  postBeh _ _ := []
  mockBeh _ _ := ⟨[.call 1 none []], true⟩

theorem C12_trace_counterexample :
    (execStmts cexTraceInHook 20 St.start [.call 0 none []]).map (fun r => r.1.log) = some
      [.call 0 0 none, .entry 0 none, .mock 0 1, .call 3 1 none, .pre 3 false 2 4, .preEnd 3 false 2, .abort 3 2, .entry 3 (some 0),
       .finish 3 false, .callEnd 3 false, .mockEnd 0 1, .finish 0 false, .callEnd 0 false] := by
  decide +kernel

/-- C12, tracing part, for calls that are not aborted by a pre hook: a call made while some hook is running gets no trace entry.
    Missing: aborted calls (see the counterexample). -/
theorem C12_no_trace_in_hooks_partial (E : Env) (n : Nat) (ss : List Stmt) (σ' : St) (p : Bool) (l1 l2 : List Ev) (c fn : Nat)
    (recv : Option Nat) (h : execStmts E n St.start ss = some (σ', p)) (hl : σ'.log = l1 ++ .call c fn recv :: l2)
    (ho : 0 < openHooks l1) (ha : ∀ i, Ev.abort c i ∉ σ'.log) (hp : Ev.hookPanic c ∉ σ'.log) :
    ∀ par, Ev.entry c par ∉ σ'.log := by
  intro par hx
  have := (callEvs_of_exec h hl).traced (fun x => hp ((mem_own rfl).1 x))
  obtain ⟨-, -, hd⟩ := this.1 ⟨par, (mem_own rfl).2 hx⟩
  rcases hd with hd | ⟨i, hi⟩
  · omega
  · exact ha i ((mem_own rfl).1 hi)

/-- in the example run, calls are made inside hooks, e.g. by the pre hook of interceptor 31 -/
example : (execStmts exEnv 60 St.start exProg).map (fun r => (r.1.log.take 3, openHooks (r.1.log.take 2))) =
    some ([.call 0 0 none, .pre 0 true 31 1, .call 2 3 none], 1) := by
  decide +kernel

/-! ### C10 -/

/-- C10: for every call that appears in a run, at most one of {original body, mock, abort} happens, and exactly one if no hook of the
    call panicked. The hypothesis on `ok` is what build.go:76 and build.go:264 guarantee for every mock xgo can install. -/
theorem C10_one_implementation (E : Env) (n : Nat) (ss : List Stmt) (σ' : St) (p : Bool) (l1 l2 : List Ev) (c fn : Nat)
    (recv : Option Nat) (hok : ∀ m t, (E.mockBeh m t).ok = true)
    (h : execStmts E n St.start ss = some (σ', p)) (hl : σ'.log = l1 ++ .call c fn recv :: l2) :
    implCount c σ'.log ≤ 1 ∧ (Ev.hookPanic c ∉ σ'.log → implCount c σ'.log = 1) := by
  have := (callEvs_of_exec h hl).impl hok
  rw [implCount_own, mem_own (c := c) (e := Ev.hookPanic c) rfl] at this
  rcases this with h | ⟨h, h2⟩
  · exact ⟨by omega, fun _ => h⟩
  · exact ⟨by omega, fun hn => absurd h2 hn⟩

/-- C10, which one: if no pre hook of the call aborts or panics, the applicable mock runs if there is one, else the original. A mock
    is applicable if it is unbound or bound to the receiver of the call. -/
theorem C10_which_implementation (E : Env) (n : Nat) (ss : List Stmt) (σ' : St) (p : Bool) (l1 l2 : List Ev) (c fn : Nat)
    (recv : Option Nat)
    (h : execStmts E n St.start ss = some (σ', p)) (hl : σ'.log = l1 ++ .call c fn recv :: l2)
    (hp : Ev.hookPanic c ∉ σ'.log) (ha : ∀ i, Ev.abort c i ∉ σ'.log) :
    (E.mock fn = none → Ev.orig c ∈ σ'.log) ∧
    (∀ mk, E.mock fn = some mk → (mk.want = none ∨ mk.want = recv) → Ev.mock c mk.id ∈ σ'.log) ∧
    (∀ mk, E.mock fn = some mk → ¬ (mk.want = none ∨ mk.want = recv) → Ev.orig c ∈ σ'.log) := by
  have hc := callEvs_of_exec h hl
  obtain ⟨w1, w2⟩ := hc.which (fun x => hp ((mem_own rfl).1 x)) (fun i x => ha i ((mem_own rfl).1 x))
  refine ⟨fun hm => (mem_own rfl).1 (w1 (by simp [Env.activeMock, hm])), fun mk hm hw => ?_, fun mk hm hw => ?_⟩
  · exact (mem_own rfl).1 (w2 mk (by simp [Env.activeMock, hm, wantOk_iff, hw]))
  · exact (mem_own rfl).1 (w1 (by simp [Env.activeMock, hm, wantOk_iff, hw]))

/-- the mocked call of function 1 in the example -/
example : (execStmts exEnv 60 St.start exProg).map (fun r => decide
    (Ev.call 41 1 none ∈ r.1.log ∧ Ev.mock 41 7 ∈ r.1.log ∧ Ev.orig 41 ∉ r.1.log ∧ Ev.orig 0 ∈ r.1.log)) = some true := by
  decide +kernel

/-! ### C07, C08 -/

/-- C07, mocks: a mock runs only for calls of the function whose mock in effect it is, and, if bound to an instance, only for calls on
    that instance. -/
theorem C07_mock_only_for_its_instance (E : Env) (n : Nat) (ss : List Stmt) (σ' : St) (p : Bool) (l1 l2 : List Ev) (c fn m : Nat)
    (recv : Option Nat)
    (h : execStmts E n St.start ss = some (σ', p)) (hl : σ'.log = l1 ++ .call c fn recv :: l2) (hm : Ev.mock c m ∈ σ'.log) :
    ∃ mk, E.mock fn = some mk ∧ mk.id = m ∧ ∀ v, mk.want = some v → recv = some v := by
  obtain ⟨mk, h1, h2⟩ := (callEvs_of_exec h hl).mock_mem ((mem_own rfl).2 hm)
  obtain ⟨a, b⟩ := activeMock_some h1
  exact ⟨mk, a, h2, b⟩

/-- C07, recorders, pre hooks. -/
theorem C07_recorder_pre_only_for_its_instance (E : Env) (n : Nat) (ss : List Stmt) (σ' : St) (p : Bool) (l1 l2 : List Ev)
    (c fn i d : Nat) (recv : Option Nat)
    (h : execStmts E n St.start ss = some (σ', p)) (hl : σ'.log = l1 ++ .call c fn recv :: l2) (hm : Ev.pre c false i d ∈ σ'.log) :
    ∃ hd ∈ E.recorders fn, hd.id = i ∧ ∀ v, hd.want = some v → recv = some v := by
  obtain ⟨hd, h1, h2, h3⟩ := (callEvs_of_exec h hl).pre_mem ((mem_own rfl).2 hm)
  refine ⟨hd, h1, h2, fun v hv => ?_⟩
  rw [wantOk_iff] at h3
  simp [hv] at h3; exact h3.symm

/-- C07 is false of the code for post hooks of recorders: recorder 2 is bound to instance 5, yet its post hook runs (with the data of
    recorder 1) for a call on instance 7, because the closure of recorder 1 captured the shared loop variable (trap.go:157,171-173; the
    runtime module is compiled as Go 1.14). -/
def cexPostOther : Env where
  mock _ := none
  recorders fn := if fn = 0 then [⟨1, none, true, true⟩, ⟨2, some 5, true, true⟩] else []
  interceptors := []
  tracing := false
  filter _ := true
  preBeh _ _ := ⟨[], false⟩
  postBeh _ _ := []
  mockBeh _ _ := ⟨[], true⟩

theorem C07_recorder_post_counterexample :
    (execStmts cexPostOther 20 St.start [.call 0 (some 7) []]).map (fun r => r.1.log) = some
      [.call 0 0 (some 7), .pre 0 false 1 1, .preEnd 0 false 1, .orig 0, .post 0 false 2 (some 1), .postEnd 0 false 2,
       .callEnd 0 false] := by
  decide +kernel

theorem Onion.mem {c A es ps} (h : Onion c A es ps) : ∀ x ∈ ps, ∃ g, ∃ hd, (g, hd) ∈ A ∧ ∃ d, x = .post c g hd.id d := by
  induction h with
  | nil => simp
  | @noPre g h A es ps _ _ ih =>
    intro x hx
    rcases List.mem_append.1 hx with hx | hx
    · unfold owed at hx
      split at hx <;> simp at hx
      exact ⟨g, h, by simp, _, hx⟩
    · obtain ⟨g', hd, hm, d, he⟩ := ih x hx
      exact ⟨g', hd, by simp [hm], d, he⟩
  | @pre g h A es ps d0 _ _ ih =>
    intro x hx
    rcases List.mem_append.1 hx with hx | hx
    · unfold owed at hx
      split at hx <;> simp at hx
      exact ⟨g, h, by simp, _, hx⟩
    · obtain ⟨g', hd, hm, d, he⟩ := ih x hx
      exact ⟨g', hd, by simp [hm], d, he⟩
  | abort => simp

/-- C11 is false of the code: two interceptors with post hooks, the post hook of the second runs twice, with the data of both, and the
    post hook of the first never runs. -/
def cexOnion : Env where
  mock _ := none
  recorders _ := []
  interceptors := [⟨1, none, true, true⟩, ⟨2, none, true, true⟩]
  tracing := false
  filter _ := true
  preBeh _ _ := ⟨[], false⟩
  postBeh _ _ := []
  mockBeh _ _ := ⟨[], true⟩

theorem C11_counterexample :
    (execStmts cexOnion 20 St.start [.call 0 none []]).map (fun r => r.1.log) = some
      [.call 0 0 none, .pre 0 true 1 1, .preEnd 0 true 1, .pre 0 true 2 3, .preEnd 0 true 2, .orig 0,
       .post 0 true 2 (some 3), .postEnd 0 true 2, .post 0 true 2 (some 1), .postEnd 0 true 2, .callEnd 0 false] := by
  decide +kernel

/-- C11 is false in a second way: when the last interceptor has no post hook, the call panics (nil function). -/
theorem C11_counterexample_nil :
    (execStmts { cexOnion with interceptors := [⟨1, none, true, true⟩, ⟨2, none, true, false⟩] } 20 St.start
      [.call 0 none []]).map (fun r => (r.1.log.contains (.nilPost 0), r.2)) = some (true, true) := by
  decide +kernel

/-- C11, the part that holds for every list of handlers: pre hooks run in registration order, function specific recorders before
    general interceptors, skipping only recorders bound to another instance, up to the first that aborts or panics. -/
theorem C11_pre_order (E : Env) (n : Nat) (ss : List Stmt) (σ' : St) (p : Bool) (l1 l2 : List Ev) (c fn : Nat) (recv : Option Nat)
    (h : execStmts E n St.start ss = some (σ', p)) (hl : σ'.log = l1 ++ .call c fn recv :: l2) :
    (σ'.log.filter (Ev.isPreOf c)).map Ev.hookId <+:
      ((applicable E fn recv (decide (0 < openHooks l1))).filter (·.2.hasPre)).map (·.2.id) := by
  have := (callEvs_of_exec h hl).prefix
  rwa [filter_own (fun _ => preOf_cid)] at this

/-- C11, full onion, under the condition that in each of the two lists only the last handler has a post hook (in particular when there is
    at most one recorder per function and at most one interceptor), and no hook of the call panics. Missing: lists with several
    post hooks, for which the code is wrong (see the counterexamples). -/
theorem C11_onion_partial (E : Env) (n : Nat) (ss : List Stmt) (σ' : St) (p : Bool) (l1 l2 : List Ev) (c fn : Nat) (recv : Option Nat)
    (hr : onlyLastPost (E.recorders fn)) (hi : onlyLastPost E.interceptors)
    (h : execStmts E n St.start ss = some (σ', p)) (hl : σ'.log = l1 ++ .call c fn recv :: l2)
    (hp : Ev.hookPanic c ∉ σ'.log) (hn : Ev.nilPost c ∉ σ'.log) :
    ∃ posts, Onion c (applicable E fn recv (decide (0 < openHooks l1))) (σ'.log.filter (Ev.isPreOf c)) posts ∧
      σ'.log.filter (Ev.isPostOf c) = posts.reverse := by
  have := (callEvs_of_exec h hl).onion (fun x => hp ((mem_own rfl).1 x)) (fun x => hn ((mem_own rfl).1 x)) hr hi
  rwa [filter_own (fun _ => preOf_cid), filter_own (fun _ => postOf_cid)] at this

/-- C07, post hooks, under the condition of `C11_onion_partial`. -/
theorem C07_recorder_post_partial (E : Env) (n : Nat) (ss : List Stmt) (σ' : St) (p : Bool) (l1 l2 : List Ev)
    (c fn i : Nat) (d : Option Nat) (recv : Option Nat)
    (hr : onlyLastPost (E.recorders fn)) (hi : onlyLastPost E.interceptors)
    (h : execStmts E n St.start ss = some (σ', p)) (hl : σ'.log = l1 ++ .call c fn recv :: l2)
    (hp : Ev.hookPanic c ∉ σ'.log) (hn : Ev.nilPost c ∉ σ'.log) (hm : Ev.post c false i d ∈ σ'.log) :
    ∃ hd ∈ E.recorders fn, hd.id = i ∧ ∀ v, hd.want = some v → recv = some v := by
  obtain ⟨ps, ho, he⟩ := C11_onion_partial E n ss σ' p l1 l2 c fn recv hr hi h hl hp hn
  have : Ev.post c false i d ∈ σ'.log.filter (Ev.isPostOf c) := by simp [hm, Ev.isPostOf]
  rw [he, List.mem_reverse] at this
  obtain ⟨g, hd, hA, d', hx⟩ := ho.mem _ this
  cases hx
  simp only [applicable, List.mem_append, List.mem_map, List.mem_filter, Prod.mk.injEq, decide_eq_true_eq] at hA
  rcases hA with ⟨h', ⟨hm', hw⟩, -, rfl⟩ | hA
  · refine ⟨h', hm', rfl, fun v hv => ?_⟩
    rw [hv] at hw; simp at hw; exact hw.symm
  · split at hA
    · simp at hA
    · simp at hA

/-- an onion: one recorder and one interceptor, both with hooks, a call inside a call -/
def exOnion : Env where
  mock _ := none
  recorders fn := if fn = 0 then [⟨1, none, true, true⟩] else []
  interceptors := [⟨2, none, true, true⟩]
  tracing := false
  filter _ := true
  preBeh _ _ := ⟨[.call 1 none []], false⟩
  postBeh _ _ := []
  mockBeh _ _ := ⟨[], true⟩

example : onlyLastPost (exOnion.recorders 0) ∧ onlyLastPost exOnion.interceptors ∧
    (execStmts exOnion 20 St.start [.call 0 none []]).map
      (fun r => (r.1.log.filter (Ev.isPreOf 0), r.1.log.filter (Ev.isPostOf 0), r.2)) =
      some ([.pre 0 false 1 1, .pre 0 true 2 6], [.post 0 true 2 (some 6), .post 0 false 1 (some 1)], false) := by
  refine ⟨⟨by simp, trivial⟩, ⟨by simp, trivial⟩, ?_⟩
  decide +kernel

/-- The mock in effect for a function with goroutine-local mocks `loc` and init-time mocks `glob`, oldest first
    (`getLastMock`, trap/mock.go:293-313; refinement of the registries: `Verif.Runtime.World.lastMock`). -/
def lastMockOf (loc glob : List Mock) : Option Mock :=
  match loc.getLast? with
  | some m => some m
  | none => glob.getLast?

/-- C08 is false of the code: a method is mocked on instance 1 (mock 10), then on instance 2 (mock 20); a call on instance 1 runs
    the original. -/
theorem C08_counterexample :
    (execStmts { cexOnion with interceptors := [], mock := fun _ => lastMockOf [⟨10, some 1⟩, ⟨20, some 2⟩] [] } 20 St.start
      [.call 0 (some 1) []]).map (fun r => r.1.log) = some [.call 0 0 (some 1), .orig 0, .callEnd 0 false] := by
  decide +kernel

/-- C08, the part that holds: the mock bound to instance `v` installed last serves every call on `v` (if no pre hook aborts or panics).
    Missing: mocks bound to `v` that are followed by a mock for another instance. -/
theorem C08_last_bound_mock_partial (E : Env) (n : Nat) (ss : List Stmt) (σ' : St) (p : Bool) (l1 l2 : List Ev) (c fn v id : Nat)
    (loc glob : List Mock) (hmock : E.mock fn = lastMockOf (loc ++ [⟨id, some v⟩]) glob)
    (h : execStmts E n St.start ss = some (σ', p)) (hl : σ'.log = l1 ++ .call c fn (some v) :: l2)
    (hp : Ev.hookPanic c ∉ σ'.log) (ha : ∀ i, Ev.abort c i ∉ σ'.log) :
    Ev.mock c id ∈ σ'.log := by
  have := C10_which_implementation E n ss σ' p l1 l2 c fn (some v) h hl hp ha
  exact this.2.1 ⟨id, some v⟩ (by rw [hmock]; simp [lastMockOf]) (.inr rfl)

example : (execStmts { cexOnion with interceptors := [], mock := fun _ => lastMockOf ([⟨10, some 1⟩] ++ [⟨20, some 2⟩]) [] } 20 St.start
      [.call 0 (some 2) []]).map (fun r => r.1.log) =
    some [.call 0 0 (some 2), .mock 0 20, .mockEnd 0 20, .callEnd 0 false] := by
  decide +kernel

/-! ### C14 -/

/-- C14 is false of the code when a mock panics: the entry of the mocked call is never finished (`Finish` is in the deferred closure which
    `trap` did not get to return) and stays the parent of everything recorded later. -/
def cexTree : Env where
  mock fn := if fn = 1 then some ⟨7, none⟩ else none
  recorders _ := []
  interceptors := []
  tracing := true
  filter _ := true
  preBeh _ _ := ⟨[], false⟩
  postBeh _ _ := []
  mockBeh _ _ := ⟨[.panic], true⟩

theorem C14_counterexample :
    (execStmts cexTree 20 St.start [.protect [.call 1 none []], .call 0 none []]).map (fun r => (r.1.log, scan [] r.1.log)) = some
      ([.call 0 1 none, .entry 0 none, .mock 0 7, .hookPanic 0, .callEnd 0 true,
        .call 5 0 none, .entry 5 (some 0), .orig 5, .finish 5 false, .callEnd 5 false], none) := by
  decide +kernel

/-- C14, tree structure: if no hook panics (functions may), the trace entries of a run describe the call tree: every entry is created for the
    innermost open call, has the nearest enclosing traced call as parent, and is finished, with the right panic flag, before its
    call returns. Missing: runs in which a mock or hook panics. -/
theorem C14_trace_is_call_tree_partial (E : Env) (n : Nat) (ss : List Stmt) (σ' : St) (p : Bool)
    (h : execStmts E n St.start ss = some (σ', p)) (hn : noHookPanic σ'.log) : scan [] σ'.log = some [] := by
  obtain ⟨ev, hr⟩ := (run_of_exec E n).1 _ _ _ _ h
  have hlog := hr.log_eq
  simp only [St.start, List.nil_append] at hlog
  rw [hlog] at hn ⊢
  have := (hr.scanOK hn).2 [] [] rfl
  simpa [scan] using this

/-- C14, which calls: a call made by the program itself (not inside a hook) whose hooks do not panic has a trace entry iff tracing is on
    and the filter accepts the function. -/
theorem C14_traced_iff (E : Env) (n : Nat) (ss : List Stmt) (σ' : St) (p : Bool) (l1 l2 : List Ev) (c fn : Nat) (recv : Option Nat)
    (h : execStmts E n St.start ss = some (σ', p)) (hl : σ'.log = l1 ++ .call c fn recv :: l2) (ho : openHooks l1 = 0)
    (hp : Ev.hookPanic c ∉ σ'.log) :
    (∃ par, Ev.entry c par ∈ σ'.log) ↔ (E.tracing = true ∧ E.filter fn = true) := by
  have := (callEvs_of_exec h hl).traced (fun x => hp ((mem_own rfl).1 x))
  rw [ho] at this
  constructor
  · rintro ⟨par, hx⟩
    have := this.1 ⟨par, (mem_own rfl).2 hx⟩
    exact ⟨this.1, this.2.1⟩
  · rintro ⟨h1, h2⟩
    obtain ⟨par, hx⟩ := this.2 ⟨h1, h2, .inl (by omega)⟩
    exact ⟨par, (mem_own rfl).1 hx⟩

/-- a run with a filtered call (function 4), a recovered panic, a mock: no hook panics, and the tree is right -/
def exTree : Env where
  mock fn := if fn = 1 then some ⟨7, none⟩ else none
  recorders fn := if fn = 2 then [⟨21, none, true, true⟩] else []
  interceptors := [⟨31, none, true, true⟩]
  tracing := true
  filter fn := fn != 4
  preBeh _ _ := ⟨[.call 3 none []], false⟩
  postBeh _ _ := [.call 3 none []]
  mockBeh _ _ := { body := [.call 3 none []], ok := true }

example : (execStmts exTree 60 St.start exProg).map (fun r =>
    ((r.1.log.all fun e => match e with | .hookPanic _ | .nilPost _ => false | _ => true),
     (r.1.log.filter fun e => match e with | .entry .. => true | _ => false))) = some (true,
      [.entry 0 none, .entry 8 (some 0), .entry 40 none, .entry 59 none, .entry 81 none]) := by
  decide +kernel

end Verif.Runtime.Exec
