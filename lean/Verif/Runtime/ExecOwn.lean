/- The events of one call: what the injected code does for a single call, with everything nested in it filtered out. -/
import Verif.Runtime.ExecNest

namespace Verif.Runtime.Exec

def ownEvs (c : Nat) (l : List Ev) : List Ev := l.filter fun e => e.cid == c

theorem ownEvs_append (c a b) : ownEvs c (a ++ b) = ownEvs c a ++ ownEvs c b := by simp [ownEvs]
theorem ownEvs_cons_own (c e b) : ownEvs c (e :: b) = if e.cid = c then e :: ownEvs c b else ownEvs c b := by
  by_cases h : e.cid = c <;> simp [ownEvs, h]
theorem ownEvs_nil (c) : ownEvs c [] = [] := rfl
theorem ownEvs_none {c l} (h : ∀ e ∈ l, e.cid ≠ c) : ownEvs c l = [] := by
  simp [ownEvs]; exact h

theorem ownEvs_entryEv (σ c t) : ownEvs c (entryEv σ c t) = entryEv σ c t := by
  cases t <;> simp [entryEv, ownEvs, Ev.cid]

theorem Run.own_stmts {E : Env} {ss σ e o σ' c} (h : Run E (.stmts ss) σ e o σ') (hc : c < σ.tick) : ownEvs c e = [] :=
  ownEvs_none fun x hx => by
    rcases h.range x hx with h | h
    · cases h
    · omega

/-- own events of a hook loop -/
inductive HookEvs (c : Nat) (gen : Bool) (recv : Option Nat) : List Handler → Loop → List Ev → Loop → Prop where
  | nil {L} : HookEvs c gen recv [] L [] L
  | skip {h hs L e L'} : gen = false → wantOk h.want recv = false →
      HookEvs c gen recv hs { L with cur := some h } e L' → HookEvs c gen recv (h :: hs) L e L'
  | panic {h hs L} (d) : (gen = true ∨ wantOk h.want recv = true) → h.hasPre = true →
      HookEvs c gen recv (h :: hs) L [.pre c gen h.id d, .hookPanic c] { L with cur := some h, panicked := true }
  | stop {h hs L} (d) : (gen = true ∨ wantOk h.want recv = true) → h.hasPre = true →
      HookEvs c gen recv (h :: hs) L [.pre c gen h.id d, .preEnd c gen h.id, .abort c h.id]
        { L with cur := some h, stopped := true }
  | pre {h hs L e L'} (d) : (gen = true ∨ wantOk h.want recv = true) → h.hasPre = true →
      HookEvs c gen recv hs { L with cur := some h, posts := if h.hasPost then L.posts ++ [some d] else L.posts } e L' →
      HookEvs c gen recv (h :: hs) L (.pre c gen h.id d :: .preEnd c gen h.id :: e) L'
  | noPre {h hs L e L'} : (gen = true ∨ wantOk h.want recv = true) → h.hasPre = false →
      HookEvs c gen recv hs { L with cur := some h, posts := if h.hasPost then L.posts ++ [none] else L.posts } e L' →
      HookEvs c gen recv (h :: hs) L e L'

/-- own events of running post closures -/
inductive PostEvs (c : Nat) : List PostC → List Ev → Bool → Prop where
  | nil : PostEvs c [] [] false
  | bad {p ps} : (∀ h, p.h = some h → h.hasPost = false) → PostEvs c (p :: ps) [.nilPost c] true
  | panic {p ps h} : p.h = some h → h.hasPost = true →
      PostEvs c (p :: ps) [.post c p.gen h.id p.data, .hookPanic c] true
  | ok {p ps h e b} : p.h = some h → h.hasPost = true → PostEvs c ps e b →
      PostEvs c (p :: ps) (.post c p.gen h.id p.data :: .postEnd c p.gen h.id :: e) b

def entOf (c : Nat) (par : Option Nat) (t : Bool) : List Ev := if t then [.entry c par] else []

/-- own events of the deferred post -/
inductive TailEvs (c : Nat) (ps : List PostC) (t : Bool) : List Ev → Prop where
  | panic {e} : PostEvs c ps.reverse e true → TailEvs c ps t e
  | fin {e} (f : Bool) : PostEvs c ps.reverse e false → TailEvs c ps t (e ++ if t then [.finish c f] else [])

/-- own events of a call of `fn` on `recv` made at trapping depth `d` -/
inductive CallEvs (E : Env) (c fn : Nat) (recv : Option Nat) (d : Int) : List Ev → Prop where
  | p1 {e1 L} : HookEvs c false recv (E.recorders fn) Loop.start e1 L → L.panicked = true →
      CallEvs E c fn recv d (.call c fn recv :: (e1 ++ [.callEnd c true]))
  | p2 {e1 L e2 L2} : HookEvs c false recv (E.recorders fn) Loop.start e1 L → L.panicked = false → L.stopped = false →
      HookEvs c true recv (if d + 1 ≤ 1 then E.interceptors else []) Loop.start e2 L2 → L2.panicked = true →
      CallEvs E c fn recv d (.call c fn recv :: (e1 ++ (e2 ++ [.callEnd c true])))
  | stop1 {e1 L pe} (par b) : HookEvs c false recv (E.recorders fn) Loop.start e1 L → L.panicked = false → L.stopped = true →
      TailEvs c (L.closures false) (E.tracing && E.filter fn) pe →
      CallEvs E c fn recv d (.call c fn recv :: (e1 ++ (entOf c par (E.tracing && E.filter fn) ++ (pe ++ [.callEnd c b]))))
  | stop2 {e1 L e2 L2 pe} (par b) : HookEvs c false recv (E.recorders fn) Loop.start e1 L → L.panicked = false →
      L.stopped = false →
      HookEvs c true recv (if d + 1 ≤ 1 then E.interceptors else []) Loop.start e2 L2 → L2.panicked = false →
      L2.stopped = true → TailEvs c (L.closures false ++ L2.closures true) (E.tracing && E.filter fn) pe →
      CallEvs E c fn recv d (.call c fn recv ::
        (e1 ++ (e2 ++ (entOf c par (E.tracing && E.filter fn) ++ (pe ++ [.callEnd c b])))))
  | orig {e1 L e2 L2 pe} (par b) : HookEvs c false recv (E.recorders fn) Loop.start e1 L → L.panicked = false →
      L.stopped = false →
      HookEvs c true recv (if d + 1 ≤ 1 then E.interceptors else []) Loop.start e2 L2 → L2.panicked = false →
      L2.stopped = false → E.activeMock fn recv = none →
      TailEvs c (L.closures false ++ L2.closures true) (E.tracing && E.filter fn && decide (d + 1 ≤ 1)) pe →
      CallEvs E c fn recv d (.call c fn recv ::
        (e1 ++ (e2 ++ (entOf c par (E.tracing && E.filter fn && decide (d + 1 ≤ 1)) ++ (.orig c :: (pe ++ [.callEnd c b]))))))
  | mockP {e1 L e2 L2 m} (par) : HookEvs c false recv (E.recorders fn) Loop.start e1 L → L.panicked = false →
      L.stopped = false →
      HookEvs c true recv (if d + 1 ≤ 1 then E.interceptors else []) Loop.start e2 L2 → L2.panicked = false →
      L2.stopped = false → E.activeMock fn recv = some m →
      CallEvs E c fn recv d (.call c fn recv ::
        (e1 ++ (e2 ++ (entOf c par (E.tracing && E.filter fn && decide (d + 1 ≤ 1)) ++
          [.mock c m.id, .hookPanic c, .callEnd c true]))))
  | mockOk {e1 L e2 L2 m pe} (par b t) : HookEvs c false recv (E.recorders fn) Loop.start e1 L → L.panicked = false →
      L.stopped = false →
      HookEvs c true recv (if d + 1 ≤ 1 then E.interceptors else []) Loop.start e2 L2 → L2.panicked = false →
      L2.stopped = false → E.activeMock fn recv = some m →
      TailEvs c (L.closures false ++ L2.closures true) (E.tracing && E.filter fn && decide (d + 1 ≤ 1)) pe →
      CallEvs E c fn recv d (.call c fn recv ::
        (e1 ++ (e2 ++ (entOf c par (E.tracing && E.filter fn && decide (d + 1 ≤ 1)) ++
          (.mock c m.id :: .mockEnd c m.id ::
            ((if (E.mockBeh m.id t).ok then [] else [.orig c]) ++ (pe ++ [.callEnd c b])))))))

theorem Run.hookEvs {E j σ ev o σ'} (h : Run E j σ ev o σ') : ∀ c gen recv hs L L', j = .hooks c gen recv hs L →
    o = .loop L' → c < σ.tick → HookEvs c gen recv hs L (ownEvs c ev) L' := by
  induction h <;> intro c gen recv hs L L' hj ho hc <;> cases hj <;> cases ho
  case hooksNil => exact .nil
  case hooksSkip hg hw _ ih => exact .skip hg hw (ih _ _ _ _ _ _ rfl rfl hc)
  case hooksP hw hp h1 ih =>
    have := h1.own_stmts (Nat.lt_succ_of_lt hc)
    simp only [if_true, ownEvs_cons_own, Ev.cid, ownEvs_append, this, ownEvs_nil, List.nil_append]
    exact .panic _ hw hp
  case hooksStop hw hp h1 hst ih =>
    have := h1.own_stmts (Nat.lt_succ_of_lt hc)
    simp only [if_true, ownEvs_cons_own, Ev.cid, ownEvs_append, this, ownEvs_nil, List.nil_append]
    exact .stop _ hw hp
  case hooksPre hw hp h1 hst h2 ih1 ih2 =>
    have t := h1.tick_eq
    simp only [St.emit] at t
    have := h1.own_stmts (Nat.lt_succ_of_lt hc)
    simp only [if_true, ownEvs_cons_own, Ev.cid, ownEvs_append, this, ownEvs_nil, List.nil_append]
    exact .pre _ hw hp (ih2 _ _ _ _ _ _ rfl rfl (by simp only [St.emit]; omega))
  case hooksNoPre hw hp h1 ih => exact .noPre hw hp (ih _ _ _ _ _ _ rfl rfl hc)

theorem Run.postEvs {E j σ ev o σ'} (h : Run E j σ ev o σ') : ∀ c cs p, j = .posts c cs →
    o = .done p → c < σ.tick → PostEvs c cs (ownEvs c ev) p := by
  induction h <;> intro c cs p hj ho hc <;> cases hj <;> cases ho
  case postsNil => exact .nil
  case postsBad hb => simp only [if_true, ownEvs_cons_own, Ev.cid, ownEvs_nil]; exact .bad hb
  case postsP hw hp h1 ih =>
    have := h1.own_stmts (Nat.lt_succ_of_lt hc)
    simp only [if_true, ownEvs_cons_own, Ev.cid, ownEvs_append, this, ownEvs_nil, List.nil_append]
    exact .panic hw hp
  case postsOk hw hp h1 h2 ih1 ih2 =>
    have t := h1.tick_eq
    simp only [St.emit] at t
    have := h1.own_stmts (Nat.lt_succ_of_lt hc)
    simp only [if_true, ownEvs_cons_own, Ev.cid, ownEvs_append, this, ownEvs_nil, List.nil_append]
    exact .ok hw hp (ih2 _ _ _ rfl rfl (by simp only [St.emit]; omega))

theorem Run.tailEvs {E c ps tr p σ ev p' σ'} (h : Run E (.post c ps tr p) σ ev (.done p') σ') (hc : c < σ.tick) :
    TailEvs c ps tr.isSome (ownEvs c ev) := by
  cases h with
  | postP h1 => exact .panic (h1.postEvs _ _ _ rfl rfl hc)
  | postU h1 => simpa using TailEvs.fin (t := false) false (h1.postEvs _ _ _ rfl rfl hc)
  | postT h1 =>
    simp only [if_true, ownEvs_cons_own, Ev.cid, ownEvs_append, ownEvs_nil]
    exact .fin p (h1.postEvs _ _ _ rfl rfl hc)

theorem trOf_isSome (σ t) : (trOf σ t).isSome = t := by cases t <;> rfl

theorem entryEv_entOf (σ c t) : entryEv σ c t = entOf c σ.top t := by cases t <;> rfl

theorem ownEvs_entOf (c p t) : ownEvs c (entOf c p t) = entOf c p t := by
  cases t <;> simp [entOf, ownEvs, Ev.cid]

theorem St.emit_depth (σ : St) (e) : (σ.emit e).depth = σ.depth := rfl

theorem Run.callEvs {E fn recv body σ ev o σ'} (h : Run E (.stmt (.call fn recv body)) σ ev o σ') :
    CallEvs E σ.tick fn recv σ.depth (ownEvs σ.tick ev) := by
  have hc0 : σ.tick < (σ.emit (.call σ.tick fn recv)).inc.tick := by simp [St.emit, St.inc]
  cases h with
  | callTP h1 =>
    simp only [if_true, ownEvs_cons_own, Ev.cid, ownEvs_append, ownEvs_nil]
    cases h1 with
    | trapP1 g1 hp => exact .p1 (g1.hookEvs _ _ _ _ _ _ rfl rfl hc0) hp
    | trapP2 g1 hp hs g2 hp2 =>
      have t1 := g1.tick_eq
      simp only [ownEvs_append, List.append_assoc]
      exact .p2 (g1.hookEvs _ _ _ _ _ _ rfl rfl hc0) hp hs (g2.hookEvs _ _ _ _ _ _ rfl rfl (by omega)) hp2
    | @trapMockP _ _ _ _ e1 σ1 e2 σ2 e3 σ3 L L2 m g1 hp hs g2 hp2 hs2 hm g3 =>
      have t1 := g1.tick_eq; have t2 := g2.tick_eq
      have te := St.tick_enter σ2 σ.tick (E.tracing && E.filter fn && decide ((σ.emit (.call σ.tick fn recv)).depth + 1 ≤ 1))
      have g3 := g3.own_stmts (c := σ.tick) (by simp only [St.emit] at *; omega)
      simp only [ownEvs_append, ownEvs_entryEv, ownEvs_entOf, g3, if_true, ownEvs_cons_own, Ev.cid,
        ownEvs_nil]
      have := CallEvs.mockP (d := σ.depth) σ2.top (g1.hookEvs _ _ _ _ _ _ rfl rfl hc0) hp hs
        (g2.hookEvs _ _ _ _ _ _ rfl rfl (by omega)) hp2 hs2 hm
      simp [entryEv_entOf] at this ⊢; exact this
  | @callStop _ _ _ _ _ _ _ _ _ _ pp h1 h2 =>
    have t1 := h1.tick_eq
    have pe := h2.tailEvs (by simp only [St.emit] at t1; omega)
    simp only [if_true, ownEvs_cons_own, Ev.cid, ownEvs_append, ownEvs_nil]
    generalize hst : true = st at h1
    cases h1 with
    | trapNoMock => cases hst
    | trapStop1 g1 hp hs =>
      rw [trOf_isSome] at pe
      simp only [ownEvs_append, ownEvs_entryEv, ownEvs_entOf, List.append_assoc, entryEv_entOf]
      exact .stop1 _ _ (g1.hookEvs _ _ _ _ _ _ rfl rfl hc0) hp hs pe
    | trapStop2 g1 hp hs g2 hp2 hs2 =>
      have t1 := g1.tick_eq
      rw [trOf_isSome] at pe
      simp only [ownEvs_append, ownEvs_entryEv, ownEvs_entOf, List.append_assoc, entryEv_entOf]
      exact .stop2 _ _ (g1.hookEvs _ _ _ _ _ _ rfl rfl hc0) hp hs (g2.hookEvs _ _ _ _ _ _ rfl rfl (by omega)) hp2 hs2 pe
    | @trapMock _ _ _ _ e1 σ1 e2 σ2 e3 σ3 L L2 m g1 hp hs g2 hp2 hs2 hm g3 =>
      have t1 := g1.tick_eq; have t2 := g2.tick_eq
      have te := St.tick_enter σ2 σ.tick (E.tracing && E.filter fn && decide ((σ.emit (.call σ.tick fn recv)).depth + 1 ≤ 1))
      have g3 := g3.own_stmts (c := σ.tick) (by simp only [St.emit] at *; omega)
      rw [trOf_isSome] at pe
      have := CallEvs.mockOk (d := σ.depth) σ2.top pp (σ2.enter σ.tick (E.tracing && E.filter fn && decide ((σ.emit (.call σ.tick fn recv)).depth + 1 ≤ 1))).tick (g1.hookEvs _ _ _ _ _ _ rfl rfl hc0) hp hs
        (g2.hookEvs _ _ _ _ _ _ rfl rfl (by omega)) hp2 hs2 hm pe
      simp only [ownEvs_append, ownEvs_entryEv, ownEvs_entOf, g3, if_true, ownEvs_cons_own, Ev.cid,
        ownEvs_nil, entryEv_entOf]
      rw [← hst] at this
      simp at this ⊢; exact this
  | @callRun _ _ _ _ _ _ _ _ _ _ _ _ p1 p2 h1 h2 h3 =>
    have t1 := h1.tick_eq; have t2 := h2.tick_eq
    have s2 := h2.own_stmts (c := σ.tick) (by simp only [St.emit] at *; omega)
    have pe := h3.tailEvs (by simp only [St.emit] at t1 t2; omega)
    simp only [if_true, ownEvs_cons_own, Ev.cid, ownEvs_append, ownEvs_nil, s2]
    generalize hst : false = st at h1
    cases h1 with
    | trapStop1 => cases hst
    | trapStop2 => cases hst
    | @trapNoMock _ _ _ _ _ _ _ σ2 _ _ g1 hp hs g2 hp2 hs2 hm =>
      have t1 := g1.tick_eq
      rw [trOf_isSome] at pe
      simp only [ownEvs_append, ownEvs_entryEv, ownEvs_entOf, entryEv_entOf]
      have := CallEvs.orig (d := σ.depth) σ2.top (p1 || p2) (g1.hookEvs _ _ _ _ _ _ rfl rfl hc0) hp hs
        (g2.hookEvs _ _ _ _ _ _ rfl rfl (by omega)) hp2 hs2 hm pe
      simp at this ⊢; exact this
    | @trapMock _ _ _ _ e1 σ1 e2 σ2 e3 σ3 L L2 m g1 hp hs g2 hp2 hs2 hm g3 =>
      have t1 := g1.tick_eq; have t2 := g2.tick_eq
      have te := St.tick_enter σ2 σ.tick (E.tracing && E.filter fn && decide ((σ.emit (.call σ.tick fn recv)).depth + 1 ≤ 1))
      have g3 := g3.own_stmts (c := σ.tick) (by simp only [St.emit] at *; omega)
      rw [trOf_isSome] at pe
      have := CallEvs.mockOk (d := σ.depth) σ2.top (p1 || p2) (σ2.enter σ.tick (E.tracing && E.filter fn && decide ((σ.emit (.call σ.tick fn recv)).depth + 1 ≤ 1))).tick (g1.hookEvs _ _ _ _ _ _ rfl rfl hc0) hp hs
        (g2.hookEvs _ _ _ _ _ _ rfl rfl (by omega)) hp2 hs2 hm pe
      simp only [ownEvs_append, ownEvs_entryEv, ownEvs_entOf, g3, if_true, ownEvs_cons_own, Ev.cid,
        ownEvs_nil, entryEv_entOf]
      rw [← hst] at this
      simp at this ⊢; exact this

/-- Every call in the log of a program has the shape `CallEvs`, at depth = number of hooks open when it was made. -/
theorem callEvs_of_exec {E : Env} {n ss σ' p l1 c fn recv l2}
    (h : execStmts E n St.start ss = some (σ', p)) (hl : σ'.log = l1 ++ .call c fn recv :: l2) :
    CallEvs E c fn recv (openHooks l1) (ownEvs c σ'.log) := by
  obtain ⟨ev, hr⟩ := (run_of_exec E n).1 _ _ _ _ h
  have hlog := hr.log_eq
  simp only [St.start, List.nil_append] at hlog
  have hs := hr.sub (by intro c h; cases h)
  rw [hlog] at hl ⊢
  obtain ⟨-, -, body, σc, evc, o, σc', l3, hrc, ht, he, hd, hf1, hf3⟩ := hs.2 _ _ _ _ _ hl
  have := hrc.callEvs
  rw [ht, hd] at this
  rw [he, ownEvs_append, ownEvs_append, ownEvs_none hf1, ownEvs_none hf3]
  simpa [Job.base, St.start] using this

end Verif.Runtime.Exec
