/-
C19: reads of instrumented package variables.
-/
import Verif.Runtime.VarTrap
import Verif.Runtime.RegistryProps

namespace Verif.Runtime.Var
open Verif.Runtime RegSpec

/-- A hook that only observes: it returns and leaves the memory as it is. -/
def Observes (f : Option HookFn) : Prop := ∀ g, f = some g → ∀ m res, g m res = some m

/-- A hook that never writes cell `b` (unless `b` is the result cell it was given). -/
def Spares (b : Nat) (f : HookFn) : Prop := ∀ m res m', b ≠ res → f m res = some m' → m' b = m b

theorem runPres_observes (hs : List Handler) (ho : ∀ h ∈ hs, Observes h.pre) (m : Mem) (res : Nat) :
    runPres hs m res = some m := by
  unfold runPres
  induction hs with
  | nil => rfl
  | cons h hs ih =>
    simp only [List.foldl_cons, Option.bind_some]
    have h1 : callOpt h.pre m res = some m := by
      unfold callOpt
      cases hp : h.pre with
      | none => rfl
      | some f => exact ho h (by simp) f hp m res
    rw [h1]
    exact ih fun x hx => ho x (by simp [hx])

theorem foldl_none {α β : Type} (l : List α) (f : α → β → Option β) :
    l.foldl (fun acc a => acc.bind (f a)) none = none := by
  induction l with
  | nil => rfl
  | cons a l ih => simpa using ih

/-- A fold of hook steps each of which spares cell `b`. -/
theorem foldl_spares {α : Type} (l : List α) (f : α → Mem → Option Mem) (b : Nat)
    (hs : ∀ a ∈ l, ∀ m m', f a m = some m' → m' b = m b) (m m' : Mem)
    (h : l.foldl (fun acc a => acc.bind (f a)) (some m) = some m') : m' b = m b := by
  induction l generalizing m with
  | nil => cases h; rfl
  | cons a l ih =>
    simp only [List.foldl_cons, Option.bind_some] at h
    cases hf : f a m with
    | none => rw [hf, foldl_none] at h; cases h
    | some m1 =>
      rw [hf] at h
      have := ih (fun x hx => hs x (by simp [hx])) m1 h
      rw [this]
      exact hs a (by simp) m m1 hf

theorem runPres_spares (hs : List Handler) (b res : Nat) (hne : b ≠ res)
    (ho : ∀ h ∈ hs, ∀ f, h.pre = some f → Spares b f) (m m' : Mem)
    (h : runPres hs m res = some m') : m' b = m b := by
  refine foldl_spares hs (fun h m => callOpt h.pre m res) b ?_ m m' h
  intro a ha m m' hm
  unfold callOpt at hm
  cases hp : a.pre with
  | none => simp [hp] at hm; rw [hm]
  | some f => rw [hp] at hm; exact ho a ha f hp m res m' hne hm

theorem runPosts_spares (hs : List Handler) (b res : Nat) (hne : b ≠ res)
    (ho : ∀ h ∈ hs, ∀ f, h.post = some f → Spares b f) (m m' : Mem)
    (h : runPosts hs m res = some m') : m' b = m b := by
  refine foldl_spares (List.replicate (hs.filter fun h => h.post.isSome).length ())
    (fun _ m => match hs.getLast? with
      | none => none
      | some l => match l.post with
        | none => none
        | some f => f m res) b ?_ m m' h
  intro _ _ m m' hm
  cases hl : hs.getLast? with
  | none => simp [hl] at hm
  | some l =>
    have hmem := List.mem_of_getLast? hl
    cases hp : l.post with
    | none => simp [hl, hp] at hm
    | some f => simp only [hl, hp] at hm; exact ho l hmem f hp m res m' hne hm

theorem runPosts_observes (hs : List Handler) (ho : ∀ h ∈ hs, Observes h.post) (m m' : Mem) (res : Nat)
    (h : runPosts hs m res = some m') : m' = m := by
  funext b
  refine foldl_spares (List.replicate (hs.filter fun h => h.post.isSome).length ())
    (fun _ m => match hs.getLast? with
      | none => none
      | some l => match l.post with
        | none => none
        | some f => f m res) b ?_ m m' h
  intro _ _ m m' hm
  cases hl : hs.getLast? with
  | none => simp [hl] at hm
  | some l =>
    have hmem := List.mem_of_getLast? hl
    cases hp : l.post with
    | none => simp [hl, hp] at hm
    | some f =>
      simp only [hl, hp] at hm
      rw [ho l hmem f hp m res] at hm
      cases hm; rfl

/-- If every holder has a post, the posts of observers all return. -/
theorem runPosts_returns (hs : List Handler) (ho : ∀ h ∈ hs, Observes h.post)
    (hall : (∀ h ∈ hs, h.post.isSome) ∨ (∀ h ∈ hs, h.post = none)) (m : Mem) (res : Nat) :
    runPosts hs m res = some m := by
  rcases hall with hall | hall
  · unfold runPosts
    simp only
    cases hl : hs.getLast? with
    | none =>
      have : hs = [] := by simpa using hl
      subst this
      rfl
    | some l =>
      have hmem := List.mem_of_getLast? hl
      obtain ⟨f, hp⟩ := Option.isSome_iff_exists.1 (hall l hmem)
      simp only [hp]
      generalize (hs.filter fun h => h.post.isSome).length = n
      induction n with
      | zero => rfl
      | succ n ih =>
        rw [List.replicate_succ, List.foldl_cons, Option.bind_some, ho l hmem f hp m res]
        exact ih
  · unfold runPosts
    have : hs.filter (fun h => h.post.isSome) = [] := by
      rw [List.filter_eq_nil_iff]
      intro h hh; simp [hall h hh]
    rw [this]; rfl

/-! ### What the user specifies -/

/-- The value a reader gets according to the specification: the latest value mock in force decides,
    else the variable itself. `repl` maps a registration to the function the user gave. `none`: the
    replacer panicked. -/
def expectedRead (repl : Nat → Mem → Option (Mem × Val)) (reg : Option Reg) (m : Mem) (addr : Nat) :
    Option Val :=
  match reg with
  | none => some (m addr)
  | some r => (repl r.fn m).map (·.2)

/-- All observers (recorders, interceptors) in force for a read only observe. -/
def ObserversOnly (sem : Nat → Handler) (regs : List Reg) : Prop :=
  ∀ r ∈ regs, Observes (sem r.fn).pre ∧ Observes (sem r.fn).post

/-- Either all the holders have a post hook or none. -/
def UniformPosts (sem : Nat → Handler) (regs : List Reg) : Prop :=
  (∀ r ∈ regs, (sem r.fn).post.isSome) ∨ (∀ r ∈ regs, (sem r.fn).post = none)

theorem handlers_sem (sem : Nat → Handler) (rs : Bool) (h : Hist) (hwf : WF h) (g : Gid) (s : Slot) :
    ((World.after rs h).handlers g s).map (fun e => sem e.fn) =
      (localRegs rs h g s ++ globalRegs h s).map (fun r => sem r.fn) := by
  rw [← C11_handler_order rs h hwf g s, List.map_map]
  rfl

theorem lastMock_sem (sem : Nat → Handler) (rs : Bool) (h : Hist) (hwf : WF h) (g : Gid) (s : Slot) :
    ((World.after rs h).lastMock g s).map (fun e => sem e.fn) =
      (((localRegs rs h g s).getLast?).or ((globalRegs h s).getLast?)).map (fun r => sem r.fn) := by
  rw [← C01_latest_uncancelled_mock rs h hwf g s, Option.map_map]
  rfl

/-- The trap in terms of the specification lists (the early return does nothing different). -/
theorem trap_eq (sem : Nat → Handler) (rs : Bool) (h : Hist) (hwf : WF h) (g : Gid) (mk rk : Kind)
    (addr depth : Nat) (tracing : Bool) (m : Mem) (res : Nat) :
    trap sem (World.after rs h) g mk rk addr depth tracing m res =
      doTrapVar ((localRegs rs h g ⟨rk, addr⟩ ++ globalRegs h ⟨rk, addr⟩).map fun r => sem r.fn)
        (if depth ≤ 1 then
          (localRegs rs h g ⟨.interceptors, 0⟩ ++ globalRegs h ⟨.interceptors, 0⟩).map fun r => sem r.fn
         else [])
        ((((localRegs rs h g ⟨mk, addr⟩).getLast?).or ((globalRegs h ⟨mk, addr⟩).getLast?)).map
          fun r => sem r.fn) m res := by
  rw [← handlers_sem sem rs h hwf, ← handlers_sem sem rs h hwf, ← lastMock_sem sem rs h hwf]
  unfold trap
  simp only
  generalize (World.after rs h).handlers g ⟨rk, addr⟩ = R
  generalize (World.after rs h).lastMock g ⟨mk, addr⟩ = M
  have hI : (if depth ≤ 1 then List.map (fun e : Entry => sem e.fn)
        ((World.after rs h).handlers g ⟨.interceptors, 0⟩) else []) =
      (if depth ≤ 1 then (World.after rs h).handlers g ⟨.interceptors, 0⟩ else []).map
        (fun e => sem e.fn) := by split <;> rfl
  rw [hI]
  generalize (if depth ≤ 1 then (World.after rs h).handlers g ⟨.interceptors, 0⟩ else []) = I
  split
  · rename_i hc
    simp only [Bool.and_eq_true, beq_iff_eq, List.length_eq_zero_iff, Option.isNone_iff_eq_none] at hc
    obtain ⟨⟨⟨h1, h2⟩, h3⟩, _⟩ := hc
    subst h1 h2 h3
    rfl
  · rfl

/-- **C19** (value reads) Whatever the history of registrations, cancellations and goroutines: if the
    recorders and interceptors in force merely observe, then a read of an instrumented variable that
    returns yields what the latest value mock in force produces, and the variable's own value if
    there is none; and it returns exactly if the mock does, provided the observers in force are uniform in
    having post hooks. -/
theorem C19_read_partial (sem : Nat → Handler) (repl : Nat → Mem → Option (Mem × Val)) (rs : Bool)
    (h : Hist) (hwf : WF h) (g : Gid) (addr depth : Nat) (tracing : Bool) (m : Mem) (res : Nat)
    -- value mocks were registered with replacers
    (hrepl : ∀ r ∈ localRegs rs h g ⟨.varMock, addr⟩ ++ globalRegs h ⟨.varMock, addr⟩,
      (sem r.fn).mock = replacerHook (repl r.fn))
    -- the observers observe
    (hrec : ObserversOnly sem (localRegs rs h g ⟨.varRecorder, addr⟩ ++ globalRegs h ⟨.varRecorder, addr⟩))
    (hint : ObserversOnly sem (localRegs rs h g ⟨.interceptors, 0⟩ ++ globalRegs h ⟨.interceptors, 0⟩)) :
    let mock := ((localRegs rs h g ⟨.varMock, addr⟩).getLast?).or ((globalRegs h ⟨.varMock, addr⟩).getLast?)
    let want := expectedRead repl mock (m.set res (m addr)) addr
    (∀ m' v, getVar sem (World.after rs h) g addr depth tracing m res = some (m', v) →
      addr ≠ res → want = some v) ∧
    (UniformPosts sem (localRegs rs h g ⟨.varRecorder, addr⟩ ++ globalRegs h ⟨.varRecorder, addr⟩) →
     UniformPosts sem (localRegs rs h g ⟨.interceptors, 0⟩ ++ globalRegs h ⟨.interceptors, 0⟩) →
     addr ≠ res →
     (getVar sem (World.after rs h) g addr depth tracing m res).map (·.2) = want) := by
  intro mock want
  have hmem : ∀ r, mock = some r →
      r ∈ localRegs rs h g ⟨.varMock, addr⟩ ++ globalRegs h ⟨.varMock, addr⟩ := by
    intro r hr
    rw [List.mem_append]
    simp only [mock] at hr
    cases hl : (localRegs rs h g ⟨.varMock, addr⟩).getLast? with
    | some x =>
      rw [hl] at hr
      cases hr
      exact Or.inl (List.mem_of_getLast? hl)
    | none =>
      rw [hl, Option.none_or] at hr
      exact Or.inr (List.mem_of_getLast? hr)
  unfold getVar trapVar
  rw [trap_eq sem rs h hwf]
  rw [show (((localRegs rs h g ⟨.varMock, addr⟩).getLast?).or ((globalRegs h ⟨.varMock, addr⟩).getLast?)) = mock from rfl]
  clear_value mock
  generalize hR : localRegs rs h g ⟨.varRecorder, addr⟩ ++ globalRegs h ⟨.varRecorder, addr⟩ = R at *
  generalize hI : localRegs rs h g ⟨.interceptors, 0⟩ ++ globalRegs h ⟨.interceptors, 0⟩ = I at *
  have hR1 : ∀ x ∈ R.map (fun r => sem r.fn), Observes x.pre := by
    intro x hx; rw [List.mem_map] at hx; obtain ⟨r, hr, rfl⟩ := hx; exact (hrec r hr).1
  have hR2 : ∀ x ∈ R.map (fun r => sem r.fn), Observes x.post := by
    intro x hx; rw [List.mem_map] at hx; obtain ⟨r, hr, rfl⟩ := hx; exact (hrec r hr).2
  have hI1 : ∀ x ∈ (if depth ≤ 1 then I.map (fun r => sem r.fn) else []), Observes x.pre := by
    split
    · intro x hx; rw [List.mem_map] at hx; obtain ⟨r, hr, rfl⟩ := hx; exact (hint r hr).1
    · intro x hx; cases hx
  have hI2 : ∀ x ∈ (if depth ≤ 1 then I.map (fun r => sem r.fn) else []), Observes x.post := by
    split
    · intro x hx; rw [List.mem_map] at hx; obtain ⟨r, hr, rfl⟩ := hx; exact (hint r hr).2
    · intro x hx; cases hx
  have hU : ∀ L : List Reg, UniformPosts sem L →
      (∀ x ∈ L.map (fun r => sem r.fn), x.post.isSome) ∨
      (∀ x ∈ L.map (fun r => sem r.fn), x.post = none) := by
    intro L hL
    rcases hL with hL | hL
    · left; intro x hx; rw [List.mem_map] at hx; obtain ⟨r, hr, rfl⟩ := hx; exact hL r hr
    · right; intro x hx; rw [List.mem_map] at hx; obtain ⟨r, hr, rfl⟩ := hx; exact hL r hr
  have hUI : UniformPosts sem I →
      (∀ x ∈ (if depth ≤ 1 then I.map (fun r => sem r.fn) else []), x.post.isSome) ∨
      (∀ x ∈ (if depth ≤ 1 then I.map (fun r => sem r.fn) else []), x.post = none) := by
    intro hL
    by_cases hd : depth ≤ 1
    · rw [if_pos hd]; exact hU I hL
    · rw [if_neg hd]; left; intro x hx; cases hx
  have hU' := hU R
  clear hU
  generalize R.map (fun r => sem r.fn) = RH at *
  generalize (if depth ≤ 1 then I.map (fun r => sem r.fn) else []) = IH at *
  have hdo : ∀ m0, doTrapVar RH IH (mock.map fun r : Reg => sem r.fn) m0 res =
      ((callOpt (mock.map fun r : Reg => (sem r.fn).mock) m0 res).bind fun m =>
        (runPosts RH m res).bind fun m => runPosts IH m res) := by
    intro m0
    unfold doTrapVar
    rw [runPres_observes RH hR1, Option.bind_some, runPres_observes IH hI1, Option.bind_some,
      Option.map_map]
    rfl
  simp only [hdo]
  have hmock : callOpt (mock.map fun r : Reg => (sem r.fn).mock) (m.set res (m addr)) res =
      callOpt (mock.map fun r : Reg => replacerHook (repl r.fn)) (m.set res (m addr)) res := by
    cases hm : mock with
    | none => rfl
    | some r => simp only [Option.map_some]; rw [hrepl r (hmem r hm)]
  rw [hmock]
  have key : ∀ mm, callOpt (mock.map fun r : Reg => replacerHook (repl r.fn)) (m.set res (m addr)) res = some mm → addr ≠ res →
       want = some (mm res) := by
    intro mm hmm hne
    simp only [want, expectedRead]
    cases hm : mock with
    | none =>
      rw [hm] at hmm; simp only [callOpt, Option.map_none, Option.some.injEq] at hmm
      subst hmm
      simp [Mem.set, hne]
    | some r =>
      rw [hm] at hmm
      simp only [callOpt, Option.map_some, replacerHook] at hmm ⊢
      cases hr : repl r.fn (m.set res (m addr)) with
      | none => rw [hr] at hmm; cases hmm
      | some p =>
        rw [hr] at hmm
        obtain ⟨p1, p2⟩ := p
        simp only [Option.some.injEq] at hmm
        subst hmm
        simp [Mem.set]
  have keyNone : callOpt (mock.map fun r : Reg => replacerHook (repl r.fn)) (m.set res (m addr)) res = none → want = none := by
    intro hmm
    simp only [want, expectedRead]
    cases hm : mock with
    | none => rw [hm] at hmm; cases hmm
    | some r =>
      rw [hm] at hmm
      simp only [callOpt, Option.map_some, replacerHook] at hmm ⊢
      cases hr : repl r.fn (m.set res (m addr)) with
      | none => rfl
      | some p => rw [hr] at hmm; cases hmm
  generalize callOpt (mock.map fun r : Reg => replacerHook (repl r.fn)) (m.set res (m addr)) res = MM at *
  constructor
  · intro m' v hv hne
    cases hMM : MM with
    | none => rw [hMM] at hv; cases hv
    | some mm =>
      rw [hMM, Option.bind_some] at hv
      cases hp : runPosts RH mm res with
      | none => rw [hp] at hv; cases hv
      | some m1 =>
        rw [hp, Option.bind_some] at hv
        have h1 := runPosts_observes RH hR2 _ _ _ hp
        subst h1
        cases hp2 : runPosts IH m1 res with
        | none => rw [hp2] at hv; cases hv
        | some m2 =>
          rw [hp2] at hv
          have h2 := runPosts_observes IH hI2 _ _ _ hp2
          subst h2
          simp only [Option.some.injEq, Prod.mk.injEq] at hv
          rw [← hv.2]
          exact key m2 hMM hne
  · intro hu1 hu2 hne
    cases hMM : MM with
    | none => rw [keyNone hMM]; rfl
    | some mm =>
      rw [Option.bind_some, runPosts_returns RH hR2 (hU' hu1), Option.bind_some,
        runPosts_returns IH hI2 (hUI hu2)]
      rw [key mm hMM hne]
      rfl

/-- **C19** (frame) A read (or address-of) of an instrumented variable never changes any memory cell
    that the user's own hooks spare; in particular the variable itself is not overwritten by a value mock
    (whose result only goes to the reader). -/
theorem C19_variable_untouched (sem : Nat → Handler) (w : World) (g : Gid) (addr depth : Nat)
    (tracing : Bool) (m : Mem) (res b : Nat) (hb : b ≠ res)
    (hs : ∀ fn, Spares b (sem fn).mock ∧ (∀ f, (sem fn).pre = some f → Spares b f) ∧
      (∀ f, (sem fn).post = some f → Spares b f)) :
    (∀ m' v, getVar sem w g addr depth tracing m res = some (m', v) → m' b = m b) ∧
    (∀ m' v, getVarAddr sem w g addr depth tracing m res = some (m', v) → m' b = m b) := by
  have hdo : ∀ (R I : List Entry) (M : Option Entry) (m m' : Mem),
      doTrapVar (R.map fun e => sem e.fn) (I.map fun e => sem e.fn) (M.map fun e => sem e.fn) m res = some m' →
      m' b = m b := by
    intro R I M m m' h
    have hpre : ∀ L : List Entry, ∀ x ∈ L.map (fun e => sem e.fn), ∀ f, x.pre = some f → Spares b f := by
      intro L x hx; rw [List.mem_map] at hx; obtain ⟨e, _, rfl⟩ := hx; exact (hs e.fn).2.1
    have hpost : ∀ L : List Entry, ∀ x ∈ L.map (fun e => sem e.fn), ∀ f, x.post = some f → Spares b f := by
      intro L x hx; rw [List.mem_map] at hx; obtain ⟨e, _, rfl⟩ := hx; exact (hs e.fn).2.2
    unfold doTrapVar at h
    simp only [Option.bind_eq_some_iff] at h
    obtain ⟨m1, h1, m2, h2, m3, h3, m4, h4, h5⟩ := h
    have e1 := runPres_spares _ b res hb (hpre R) _ _ h1
    have e2 := runPres_spares _ b res hb (hpre I) _ _ h2
    have e3 : m3 b = m2 b := by
      cases M with
      | none => simp [callOpt] at h3; rw [h3]
      | some e => exact (hs e.fn).1 m2 res m3 hb h3
    have e4 := runPosts_spares _ b res hb (hpost R) _ _ h4
    have e5 := runPosts_spares _ b res hb (hpost I) _ _ h5
    rw [e5, e4, e3, e2, e1]
  have htrap : ∀ mk rk m m', trap sem w g mk rk addr depth tracing m res = some m' → m' b = m b := by
    intro mk rk m m' h
    unfold trap at h
    simp only at h
    generalize (if depth ≤ 1 then w.handlers g ⟨.interceptors, 0⟩ else []) = I at h
    split at h
    · cases h; rfl
    · exact hdo _ _ _ _ _ h
  constructor
  · intro m' v h
    unfold getVar at h
    split at h
    · cases h
    · rename_i mm hmm
      cases h
      rw [htrap _ _ _ _ hmm]
      simp [Mem.set, hb]
  · intro m' v h
    unfold getVarAddr at h
    split at h
    · cases h
    · rename_i mm hmm
      cases h
      rw [htrap _ _ _ _ hmm]
      simp [Mem.set, hb]

/-- Installing a replacer as a mock spares every cell the replacer spares. -/
theorem replacerHook_spares (b : Nat) (r : Mem → Option (Mem × Val))
    (hr : ∀ m m' v, r m = some (m', v) → m' b = m b) : Spares b (replacerHook r) := by
  intro m res m' hne h
  unfold replacerHook at h
  split at h
  · cases h
  · rename_i m1 v h1
    cases h
    simp [Mem.set, hne, hr m m1 v h1]

/-- **C19** (address-of) Registering or cancelling value mocks or value recorders never affects what
    `&V` yields: after any history, one more registration of a value mock or value recorder (on any
    goroutine, for any variable) changes nothing. -/
theorem C19_address_unaffected_by_value_mocks (sem : Nat → Handler) (rs : Bool) (h : Hist) (hwf : WF h)
    (g g' : Gid) (k : Kind) (hk : k = .varMock ∨ k = .varRecorder) (key : Nat) (want : Option Nat) (fn : Nat)
    (addr depth : Nat) (tracing : Bool) (m : Mem) (res : Nat) :
    getVarAddr sem (World.after rs (.push g' ⟨k, key⟩ want fn :: h)) g addr depth tracing m res =
      getVarAddr sem (World.after rs h) g addr depth tracing m res := by
  have hwf' : WF (.push g' ⟨k, key⟩ want fn :: h) := hwf
  unfold getVarAddr trapVarPtr
  rw [trap_eq sem rs _ hwf', trap_eq sem rs _ hwf]
  have hl : ∀ s : Slot, s.kind ≠ k →
      localRegs rs (.push g' ⟨k, key⟩ want fn :: h) g s = localRegs rs h g s := by
    intro s hs
    have : ¬ (inited h = true ∧ g' = g ∧ (⟨k, key⟩ : Slot) = s) := by
      rintro ⟨_, _, rfl⟩; exact hs rfl
    simp only [localRegs, if_neg this, List.append_nil]
  have hg : ∀ s : Slot, s.kind ≠ k →
      globalRegs (.push g' ⟨k, key⟩ want fn :: h) s = globalRegs h s := by
    intro s hs
    have : ¬ (¬ inited h = true ∧ (⟨k, key⟩ : Slot) = s) := by
      rintro ⟨_, rfl⟩; exact hs rfl
    simp only [globalRegs, if_neg this, List.append_nil]
  have h1 : Kind.varPtrRecorder ≠ k := by rcases hk with rfl | rfl <;> decide
  have h2 : Kind.varPtrMock ≠ k := by rcases hk with rfl | rfl <;> decide
  have h3 : Kind.interceptors ≠ k := by rcases hk with rfl | rfl <;> decide
  rw [hl ⟨.varPtrRecorder, addr⟩ h1, hl ⟨.varPtrMock, addr⟩ h2, hl ⟨.interceptors, 0⟩ h3,
    hg ⟨.varPtrRecorder, addr⟩ h1, hg ⟨.varPtrMock, addr⟩ h2, hg ⟨.interceptors, 0⟩ h3]

/-! Examples: variable at address 9 holds 1. Registrations: handler 50 mocks it with 42, handler 60 is
a recorder with both hooks. -/

def exSem : Nat → Handler
  | 50 => ⟨replacerHook fun m => some (m, .data 42), none, none⟩
  | 51 => ⟨replacerHook fun m => some (m, .ptr 77), none, none⟩
  | 60 => ⟨fun m _ => some m, some fun m _ => some m, some fun m _ => some m⟩
  | 61 => ⟨fun m _ => some m, some fun m _ => some m, none⟩
  | _ => ⟨fun m _ => some m, none, none⟩

def exMem : Mem := fun a => if a = 9 then .data 1 else .data 0

def exVarHist : Hist :=
  [.push 1 ⟨.varRecorder, 9⟩ none 60, .push 1 ⟨.varMock, 9⟩ none 50, .finishInit]

/-- the value mock decides the value read; the variable keeps its value -/
example : (getVar exSem (World.after false exVarHist) 1 9 1 false exMem 1000).map
    (fun p => (p.2, p.1 9)) = some (.data 42, .data 1) := by decide
/-- another goroutine reads the variable itself -/
example : (getVar exSem (World.after false exVarHist) 2 9 1 false exMem 1000).map
    (fun p => (p.2, p.1 9)) = some (.data 1, .data 1) := by decide
/-- the address is not affected by the value mock, but is by a pointer mock -/
example : (getVarAddr exSem (World.after false exVarHist) 1 9 1 false exMem 1000).map (·.2) =
    some (.ptr 9) := by decide
example : (getVarAddr exSem (World.after false (.push 1 ⟨.varPtrMock, 9⟩ none 51 :: exVarHist)) 1 9 1 false
    exMem 1000).map (·.2) = some (.ptr 77) := by decide
/-- the hypotheses of `C19_read_partial` hold of the example -/
example : WF exVarHist ∧
    (∀ r ∈ localRegs false exVarHist 1 ⟨.varMock, 9⟩ ++ globalRegs exVarHist ⟨.varMock, 9⟩,
      (exSem r.fn).mock = replacerHook fun m => some (m, .data 42)) ∧
    ObserversOnly exSem (localRegs false exVarHist 1 ⟨.varRecorder, 9⟩ ++ globalRegs exVarHist ⟨.varRecorder, 9⟩) ∧
    UniformPosts exSem (localRegs false exVarHist 1 ⟨.varRecorder, 9⟩ ++ globalRegs exVarHist ⟨.varRecorder, 9⟩) := by
  refine ⟨trivial, ?_, ?_, ?_⟩
  · intro r hr
    have : r = ⟨some 0, none, 50⟩ := by
      have h : localRegs false exVarHist 1 ⟨.varMock, 9⟩ ++ globalRegs exVarHist ⟨.varMock, 9⟩ =
        [⟨some 0, none, 50⟩] := by decide
      rw [h] at hr; simpa using hr
    subst this; rfl
  · intro r hr
    have : r = ⟨some 1, none, 60⟩ := by
      have h : localRegs false exVarHist 1 ⟨.varRecorder, 9⟩ ++ globalRegs exVarHist ⟨.varRecorder, 9⟩ =
        [⟨some 1, none, 60⟩] := by decide
      rw [h] at hr; simpa using hr
    subst this
    constructor <;> (intro f hf m res; simp [exSem] at hf; subst hf; rfl)
  · left
    intro r hr
    have : r = ⟨some 1, none, 60⟩ := by
      have h : localRegs false exVarHist 1 ⟨.varRecorder, 9⟩ ++ globalRegs exVarHist ⟨.varRecorder, 9⟩ =
        [⟨some 1, none, 60⟩] := by decide
      rw [h] at hr; simpa using hr
    subst this; rfl

/-- **C19** is false in full: a variable with a recorder having a post hook, followed by a pre-only
    recorder, cannot be read at all: the read panics (the post closure of the first calls the nil post of
    the last). -/
theorem C19_counterexample :
    ∃ h : Hist, WF h ∧
      getVar exSem (World.after false h) 1 9 1 false exMem 1000 = none ∧
      ObserversOnly exSem (localRegs false h 1 ⟨.varRecorder, 9⟩ ++ globalRegs h ⟨.varRecorder, 9⟩) := by
  refine ⟨[.push 1 ⟨.varRecorder, 9⟩ none 61, .push 1 ⟨.varRecorder, 9⟩ none 60, .finishInit], trivial, ?_, ?_⟩
  · have : (getVar exSem (World.after false [.push 1 ⟨.varRecorder, 9⟩ none 61,
      .push 1 ⟨.varRecorder, 9⟩ none 60, .finishInit]) 1 9 1 false exMem 1000).isNone = true := by decide
    exact Option.isNone_iff_eq_none.1 this
  · intro r hr
    have h : localRegs false [.push 1 ⟨.varRecorder, 9⟩ none 61, .push 1 ⟨.varRecorder, 9⟩ none 60,
      .finishInit] 1 ⟨.varRecorder, 9⟩ ++ globalRegs [.push 1 ⟨.varRecorder, 9⟩ none 61,
      .push 1 ⟨.varRecorder, 9⟩ none 60, .finishInit] ⟨.varRecorder, 9⟩ =
      [⟨some 0, none, 60⟩, ⟨some 1, none, 61⟩] := by decide
    rw [h] at hr
    simp only [List.mem_cons, List.not_mem_nil, or_false] at hr
    rcases hr with rfl | rfl
    · constructor <;> (intro f hf m res; simp [exSem] at hf; subst hf; rfl)
    · constructor
      · intro f hf m res; simp [exSem] at hf; subst hf; rfl
      · intro f hf; simp [exSem] at hf

end Verif.Runtime.Var
