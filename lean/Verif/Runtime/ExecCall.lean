/- Facts about the events of a single call. -/
import Verif.Runtime.ExecOwn
import Verif.Runtime.ExecScan

namespace Verif.Runtime.Exec

theorem implCount_append (c a b) : implCount c (a ++ b) = implCount c a + implCount c b := by simp [implCount]
theorem implCount_cons (c e b) : implCount c (e :: b) = (if e.isImpl c then 1 else 0) + implCount c b := by
  simp [implCount, List.countP_cons, Nat.add_comm]
theorem implCount_nil (c) : implCount c [] = 0 := rfl

theorem implCount_own (c l) : implCount c (ownEvs c l) = implCount c l := by
  simp only [implCount, ownEvs, List.countP_filter]
  congr 1; funext e
  cases e <;> simp [Ev.isImpl, Ev.cid]

theorem filter_own {c : Nat} {f : Ev → Bool} (hf : ∀ e, f e = true → e.cid = c) (l : List Ev) :
    (ownEvs c l).filter f = l.filter f := by
  simp only [ownEvs, List.filter_filter]
  congr 1; funext e
  by_cases h : f e = true
  · simp [h, hf e h]
  · simp [h]

theorem preOf_cid {c e} (h : Ev.isPreOf c e = true) : e.cid = c := by
  cases e <;> simp [Ev.isPreOf, Ev.cid] at h ⊢; exact h
theorem postOf_cid {c e} (h : Ev.isPostOf c e = true) : e.cid = c := by
  cases e <;> simp [Ev.isPostOf, Ev.cid] at h ⊢; exact h

theorem mem_own {c e l} (h : e.cid = c) : e ∈ ownEvs c l ↔ e ∈ l := by simp [ownEvs, h]

theorem wantOk_iff (w r : Option Nat) : wantOk w r = decide (w = none ∨ w = r) := by
  cases w with
  | none => simp [wantOk]
  | some v => cases r with
    | none => simp [wantOk]
    | some u =>
      simp only [wantOk, Option.some.injEq, reduceCtorEq, false_or]
      by_cases h : u = v
      · subst h; simp
      · rw [beq_eq_false_iff_ne.2 h, eq_comm, decide_eq_false_iff_not]; exact fun e => h e.symm

theorem HookEvs.impl {c gen recv hs L e L'} (h : HookEvs c gen recv hs L e L') (h0 : L.stopped = false) :
    implCount c e = if L'.stopped then 1 else 0 := by
  induction h with
  | nil => simp [h0, implCount_nil]
  | skip _ _ _ ih => exact ih h0
  | panic => simp [implCount_cons, implCount_nil, Ev.isImpl, h0]
  | stop => simp [implCount_cons, implCount_nil, Ev.isImpl]
  | pre _ _ _ _ ih => simp [implCount_cons, Ev.isImpl]; exact ih h0
  | noPre _ _ _ ih => exact ih h0

theorem HookEvs.panicked {c gen recv hs L e L'} (h : HookEvs c gen recv hs L e L') (h0 : L.panicked = false) :
    (L'.panicked = true ↔ .hookPanic c ∈ e) := by
  induction h with
  | nil => simp [h0]
  | skip _ _ _ ih => exact ih h0
  | panic => simp
  | stop => simp [h0]
  | pre _ _ _ _ ih => simp; exact ih h0
  | noPre _ _ _ ih => exact ih h0

theorem HookEvs.excl {c gen recv hs L e L'} (h : HookEvs c gen recv hs L e L') (h0 : L.panicked = false)
    (h1 : L.stopped = false) (h2 : L'.panicked = true) : L'.stopped = false := by
  induction h with
  | nil => simp [h0] at h2
  | skip _ _ _ ih => exact ih h0 h1 h2
  | panic => exact h1
  | stop => simp [h0] at h2
  | pre _ _ _ _ ih => exact ih h0 h1 h2
  | noPre _ _ _ ih => exact ih h0 h1 h2

theorem PostEvs.impl {c cs e b} (h : PostEvs c cs e b) : implCount c e = 0 := by
  induction h with
  | nil => rfl
  | bad | panic => simp [implCount_cons, implCount_nil, Ev.isImpl]
  | ok _ _ _ ih => simp [implCount_cons, Ev.isImpl]; exact ih

theorem PostEvs.panicked {c cs e} (h : PostEvs c cs e true) : Ev.hookPanic c ∈ e ∨ Ev.nilPost c ∈ e := by
  generalize hb : true = b at h
  induction h with
  | nil => cases hb
  | bad => simp
  | panic => simp
  | ok _ _ _ ih => rcases ih hb with h | h <;> simp [h]

theorem TailEvs.impl {c ps t e} (h : TailEvs c ps t e) : implCount c e = 0 := by
  cases h with
  | panic h => exact h.impl
  | fin f h => rw [implCount_append, h.impl]; cases t <;> simp [implCount_cons, implCount_nil, Ev.isImpl]

theorem entOf_impl (c p t) : implCount c (entOf c p t) = 0 := by
  cases t <;> simp [entOf, implCount_cons, implCount_nil, Ev.isImpl]

/-- Which implementation ran. -/
theorem CallEvs.impl {E c fn recv d l} (h : CallEvs E c fn recv d l) (hok : ∀ m t, (E.mockBeh m t).ok = true) :
    implCount c l = 1 ∨ (implCount c l = 0 ∧ Ev.hookPanic c ∈ l) := by
  cases h with
  | p1 h1 hp =>
    have := h1.impl rfl; have hh := (h1.panicked rfl).1 hp
    simp [implCount_cons, implCount_append, implCount_nil, Ev.isImpl, this, hh, h1.excl rfl rfl hp]
  | p2 h1 hp hs h2 hp2 =>
    have := h1.impl rfl; have i2 := h2.impl rfl; have hh := (h2.panicked rfl).1 hp2
    simp [implCount_cons, implCount_append, implCount_nil, Ev.isImpl, this, i2, hs, hh, h2.excl rfl rfl hp2]
  | stop1 par b h1 hp hs ht =>
    have := h1.impl rfl
    simp [implCount_cons, implCount_append, implCount_nil, Ev.isImpl, this, hs, entOf_impl, ht.impl]
  | stop2 par b h1 hp hs h2 hp2 hs2 ht =>
    have := h1.impl rfl; have i2 := h2.impl rfl
    simp [implCount_cons, implCount_append, implCount_nil, Ev.isImpl, this, i2, hs, hs2, entOf_impl, ht.impl]
  | orig par b h1 hp hs h2 hp2 hs2 hm ht =>
    have := h1.impl rfl; have i2 := h2.impl rfl
    simp [implCount_cons, implCount_append, implCount_nil, Ev.isImpl, this, i2, hs, hs2, entOf_impl, ht.impl]
  | mockP par h1 hp hs h2 hp2 hs2 hm =>
    have := h1.impl rfl; have i2 := h2.impl rfl
    simp [implCount_cons, implCount_append, implCount_nil, Ev.isImpl, this, i2, hs, hs2, entOf_impl]
  | mockOk par b t h1 hp hs h2 hp2 hs2 hm ht =>
    have := h1.impl rfl; have i2 := h2.impl rfl
    simp [implCount_cons, implCount_append, implCount_nil, Ev.isImpl, this, i2, hs, hs2, entOf_impl, ht.impl, hok]

/-- the only events a hook loop can contain -/
theorem HookEvs.mem {c gen recv hs L e L'} (h : HookEvs c gen recv hs L e L') : ∀ x ∈ e,
    (∃ d, ∃ hd ∈ hs, x = .pre c gen hd.id d ∧ (gen = true ∨ wantOk hd.want recv = true)) ∨
    (∃ i, x = .preEnd c gen i) ∨ (∃ i, x = .abort c i) ∨ x = .hookPanic c := by
  induction h with
  | nil => simp
  | @skip h hs L e L' _ _ _ ih =>
    intro x hx
    rcases ih x hx with ⟨d, hd, hm, h⟩ | h
    · exact .inl ⟨d, hd, by simp [hm], h⟩
    · exact .inr h
  | @panic h hs L d hw hp =>
    intro x hx
    simp at hx
    rcases hx with rfl | rfl
    · exact .inl ⟨_, h, by simp, rfl, hw⟩
    · simp
  | @stop h hs L d hw hp =>
    intro x hx
    simp at hx
    rcases hx with rfl | rfl | rfl
    · exact .inl ⟨_, h, by simp, rfl, hw⟩
    · simp
    · simp
  | @pre h hs L e L' d hw hp _ ih =>
    intro x hx
    simp at hx
    rcases hx with rfl | rfl | hx
    · exact .inl ⟨_, h, by simp, rfl, hw⟩
    · simp
    · rcases ih x hx with ⟨d, hd, hm, h⟩ | h
      · exact .inl ⟨d, hd, by simp [hm], h⟩
      · exact .inr h
  | @noPre h hs L e L' hw hp _ ih =>
    intro x hx
    rcases ih x hx with ⟨d, hd, hm, h⟩ | h
    · exact .inl ⟨d, hd, by simp [hm], h⟩
    · exact .inr h

/-- the only events running post closures can contain -/
theorem PostEvs.mem {c cs e b} (h : PostEvs c cs e b) : ∀ x ∈ e,
    (∃ p ∈ cs, ∃ hd, p.h = some hd ∧ x = .post c p.gen hd.id p.data) ∨
    (∃ g i, x = .postEnd c g i) ∨ x = .nilPost c ∨ x = .hookPanic c := by
  induction h with
  | nil => simp
  | bad => intro x hx; simp at hx; subst hx; simp
  | @panic p ps hd hh _ =>
    intro x hx; simp at hx
    rcases hx with rfl | rfl
    · exact .inl ⟨p, by simp, hd, hh, rfl⟩
    · simp
  | @ok p ps hd e b hh _ _ ih =>
    intro x hx; simp at hx
    rcases hx with rfl | rfl | hx
    · exact .inl ⟨p, by simp, hd, hh, rfl⟩
    · simp
    · rcases ih x hx with ⟨q, hq, h⟩ | h
      · exact .inl ⟨q, by simp [hq], h⟩
      · exact .inr h

theorem TailEvs.mem {c ps t e} (h : TailEvs c ps t e) : ∀ x ∈ e,
    (∃ p ∈ ps, ∃ hd, p.h = some hd ∧ x = .post c p.gen hd.id p.data) ∨
    (∃ g i, x = .postEnd c g i) ∨ x = .nilPost c ∨ x = .hookPanic c ∨ (t = true ∧ ∃ f, x = .finish c f) := by
  cases h with
  | panic h =>
    intro x hx
    rcases h.mem x hx with ⟨p, hp, h⟩ | h | h | h
    · exact .inl ⟨p, by simpa using hp, h⟩
    · simp [h]
    · simp [h]
    · simp [h]
  | fin f h =>
    intro x hx
    rcases List.mem_append.1 hx with hx | hx
    · rcases h.mem x hx with ⟨p, hp, h⟩ | h | h | h
      · exact .inl ⟨p, by simpa using hp, h⟩
      · simp [h]
      · simp [h]
      · simp [h]
    · cases t <;> simp at hx; subst hx; simp

/-- A mock that runs for a call is the mock in effect for the called function, and accepts the receiver. -/
theorem CallEvs.mock_mem {E c fn recv d l m} (h : CallEvs E c fn recv d l) (hm : Ev.mock c m ∈ l) :
    ∃ mk, E.activeMock fn recv = some mk ∧ mk.id = m := by
  have key : ∀ {gen hs L e L'}, HookEvs c gen recv hs L e L' → Ev.mock c m ∉ e := by
    intro gen hs L e L' h hx
    rcases h.mem _ hx with ⟨_, _, _, h, _⟩ | ⟨_, h⟩ | ⟨_, h⟩ | h <;> cases h
  have keyT : ∀ {ps t e}, TailEvs c ps t e → Ev.mock c m ∉ e := by
    intro ps t e h hx
    rcases h.mem _ hx with ⟨_, _, _, _, h⟩ | ⟨_, _, h⟩ | h | h | ⟨_, _, h⟩ <;> cases h
  have keyE : ∀ p t, Ev.mock c m ∉ entOf c p t := by intro p t; cases t <;> simp [entOf]
  cases h with
  | p1 h1 _ => have := key h1; simp_all
  | p2 h1 _ _ h2 _ => have := key h1; have := key h2; simp_all
  | stop1 par b h1 hp hs ht => have := key h1; have := keyT ht; have := keyE par (E.tracing && E.filter fn); simp_all
  | stop2 par b h1 hp hs h2 hp2 hs2 ht =>
    have := key h1; have := key h2; have := keyT ht; have := keyE par (E.tracing && E.filter fn); simp_all
  | orig par b h1 hp hs h2 hp2 hs2 hmk ht =>
    have := key h1; have := key h2; have := keyT ht
    have := keyE par (E.tracing && E.filter fn && decide (d + 1 ≤ 1)); simp_all
  | @mockP _ _ _ _ mk par h1 hp hs h2 hp2 hs2 hmk =>
    have := key h1; have := key h2; have := keyE par (E.tracing && E.filter fn && decide (d + 1 ≤ 1))
    refine ⟨mk, hmk, ?_⟩
    simp [*] at hm; exact hm.symm
  | @mockOk _ _ _ _ mk _ par b t h1 hp hs h2 hp2 hs2 hmk ht =>
    have := key h1; have := key h2; have := keyT ht
    have := keyE par (E.tracing && E.filter fn && decide (d + 1 ≤ 1))
    refine ⟨mk, hmk, ?_⟩
    have keyO : ∀ b : Bool, Ev.mock c m ∉ (if b then ([] : List Ev) else [.orig c]) := by intro b; cases b <;> simp
    simp only [List.mem_cons, List.mem_append, reduceCtorEq, false_or, *, List.not_mem_nil, or_false, Ev.mock.injEq, true_and] at hm
    exact hm.symm

theorem activeMock_some {E : Env} {fn recv mk} (h : E.activeMock fn recv = some mk) :
    E.mock fn = some mk ∧ ∀ v, mk.want = some v → recv = some v := by
  unfold Env.activeMock at h
  split at h
  · cases h
  · rename_i m hm
    split at h
    · rename_i hw
      cases h
      refine ⟨hm, fun v hv => ?_⟩
      rw [wantOk_iff] at hw
      simp [hv] at hw; exact hw.symm
    · cases h

theorem activeMock_none {E : Env} {fn recv} (h : E.activeMock fn recv = none) :
    ∀ mk, E.mock fn = some mk → ∃ v, mk.want = some v ∧ recv ≠ some v := by
  intro mk hmk
  unfold Env.activeMock at h
  rw [hmk] at h
  simp only [wantOk_iff] at h
  split at h
  · cases h
  · rename_i hw
    simp at hw
    cases hv : mk.want with
    | none => simp [hv] at hw
    | some v => exact ⟨v, rfl, fun e => hw.2 (by rw [hv, e])⟩

/-- Which implementation runs when no pre hook panics or aborts. -/
theorem CallEvs.which {E c fn recv d l} (h : CallEvs E c fn recv d l) (hp : Ev.hookPanic c ∉ l)
    (ha : ∀ h, Ev.abort c h ∉ l) :
    (E.activeMock fn recv = none → Ev.orig c ∈ l) ∧
    (∀ mk, E.activeMock fn recv = some mk → Ev.mock c mk.id ∈ l) := by
  have hst : ∀ {gen hs L e L'}, HookEvs c gen recv hs L e L' → L.stopped = false → L'.stopped = true → ∃ h, Ev.abort c h ∈ e := by
    intro gen hs L e L' h
    induction h with
    | nil => intro a b; simp [a] at b
    | skip _ _ _ ih => exact ih
    | panic => intro a b; simp [a] at b
    | @stop h _ _ _ _ _ => intro _ _; exact ⟨h.id, by simp⟩
    | pre _ _ _ _ ih => intro a b; obtain ⟨h, hh⟩ := ih a b; exact ⟨h, by simp [hh]⟩
    | noPre _ _ _ ih => exact ih
  cases h with
  | p1 h1 hp1 => exact absurd ((h1.panicked rfl).1 hp1) (by simp_all)
  | p2 h1 _ _ h2 hp2 => exact absurd ((h2.panicked rfl).1 hp2) (by simp_all)
  | stop1 par b h1 _ hs ht => obtain ⟨h, hh⟩ := hst h1 rfl hs; exact absurd hh (by have := ha h; simp_all)
  | stop2 par b h1 _ hs h2 hp2 hs2 ht => obtain ⟨h, hh⟩ := hst h2 rfl hs2; exact absurd hh (by have := ha h; simp_all)
  | orig par b h1 _ hs h2 hp2 hs2 hmk ht => simp [hmk]
  | mockP par h1 _ hs h2 hp2 hs2 hmk => simp [hmk]
  | mockOk par b t h1 _ hs h2 hp2 hs2 hmk ht => simp [hmk]

/-- a pre hook of a recorder runs only for handlers of the function that accept the receiver -/
theorem CallEvs.pre_mem {E c fn recv d l i x} (h : CallEvs E c fn recv d l) (hm : Ev.pre c false i x ∈ l) :
    ∃ hd ∈ E.recorders fn, hd.id = i ∧ wantOk hd.want recv = true := by
  have key : ∀ {hs L e L'}, HookEvs c false recv hs L e L' → Ev.pre c false i x ∈ e → ∃ hd ∈ hs, hd.id = i ∧ wantOk hd.want recv = true := by
    intro hs L e L' h hx
    rcases h.mem _ hx with ⟨_, hd, hmm, h, hw⟩ | ⟨_, h⟩ | ⟨_, h⟩ | h
    · cases h; exact ⟨hd, hmm, rfl, by simpa using hw⟩
    all_goals cases h
  have key2 : ∀ {hs L e L'}, HookEvs c true recv hs L e L' → Ev.pre c false i x ∉ e := by
    intro hs L e L' h hx
    rcases h.mem _ hx with ⟨_, _, _, h, _⟩ | ⟨_, h⟩ | ⟨_, h⟩ | h <;> cases h
  have keyT : ∀ {ps t e}, TailEvs c ps t e → Ev.pre c false i x ∉ e := by
    intro ps t e h hx
    rcases h.mem _ hx with ⟨_, _, _, _, h⟩ | ⟨_, _, h⟩ | h | h | ⟨_, _, h⟩ <;> cases h
  have keyE : ∀ p t, Ev.pre c false i x ∉ entOf c p t := by intro p t; cases t <;> simp [entOf]
  have keyO : ∀ b : Bool, Ev.pre c false i x ∉ (if b then ([] : List Ev) else [.orig c]) := by intro b; cases b <;> simp
  cases h with
  | p1 h1 _ => exact key h1 (by simpa using hm)
  | p2 h1 _ _ h2 _ => exact key h1 (by have k0 := key2 h2; simpa [k0, keyE, keyO] using hm)
  | stop1 par b h1 hp hs ht => exact key h1 (by have k0 := keyT ht; simpa [k0, keyE, keyO] using hm)
  | stop2 par b h1 hp hs h2 hp2 hs2 ht => exact key h1 (by have k0 := keyT ht; have k1 := key2 h2; simpa [k0, k1, keyE, keyO] using hm)
  | orig par b h1 hp hs h2 hp2 hs2 hmk ht => exact key h1 (by have k0 := keyT ht; have k1 := key2 h2; simpa [k0, k1, keyE, keyO] using hm)
  | mockP par h1 hp hs h2 hp2 hs2 hmk => exact key h1 (by have k0 := key2 h2; simpa [k0, keyE, keyO] using hm)
  | mockOk par b t h1 hp hs h2 hp2 hs2 hmk ht =>
    exact key h1 (by have k0 := keyT ht; have k1 := key2 h2; simpa [k0, k1, keyE, keyO] using hm)

/-- Is there a trace entry? -/
theorem CallEvs.traced {E c fn recv d l} (h : CallEvs E c fn recv d l) (hp : Ev.hookPanic c ∉ l) :
    ((∃ p, Ev.entry c p ∈ l) ↔ E.tracing = true ∧ E.filter fn = true ∧ (d ≤ 0 ∨ ∃ h, Ev.abort c h ∈ l)) := by
  have key : ∀ {gen hs L e L'}, HookEvs c gen recv hs L e L' → ∀ p, Ev.entry c p ∉ e := by
    intro gen hs L e L' h p hx
    rcases h.mem _ hx with ⟨_, _, _, h, _⟩ | ⟨_, h⟩ | ⟨_, h⟩ | h <;> cases h
  have keyT : ∀ {ps t e}, TailEvs c ps t e → ∀ p, Ev.entry c p ∉ e := by
    intro ps t e h p hx
    rcases h.mem _ hx with ⟨_, _, _, _, h⟩ | ⟨_, _, h⟩ | h | h | ⟨_, _, h⟩ <;> cases h
  have keyA : ∀ {ps t e}, TailEvs c ps t e → ∀ p, Ev.abort c p ∉ e := by
    intro ps t e h p hx
    rcases h.mem _ hx with ⟨_, _, _, _, h⟩ | ⟨_, _, h⟩ | h | h | ⟨_, _, h⟩ <;> cases h
  have hst : ∀ {gen hs L e L'}, HookEvs c gen recv hs L e L' → L.stopped = false → (L'.stopped = true ↔ ∃ h, Ev.abort c h ∈ e) := by
    intro gen hs L e L' h
    induction h with
    | nil => intro a; simp [a]
    | skip _ _ _ ih => exact ih
    | panic => intro a; simp [a]
    | @stop h _ _ _ _ _ => intro _; simp
    | pre _ _ _ _ ih => intro a; simp; exact ih a
    | noPre _ _ _ ih => exact ih
  have hE : ∀ q t, (∃ p, Ev.entry c p ∈ entOf c q t) ↔ t = true := by intro q t; cases t <;> simp [entOf]
  have hEA : ∀ q t h, Ev.abort c h ∉ entOf c q t := by intro q t; cases t <;> simp [entOf]
  have hO : ∀ (b : Bool) p, Ev.entry c p ∉ (if b then ([] : List Ev) else [.orig c]) := by intro b; cases b <;> simp
  have hOA : ∀ (b : Bool) p, Ev.abort c p ∉ (if b then ([] : List Ev) else [.orig c]) := by intro b; cases b <;> simp
  cases h with
  | p1 h1 hp1 => exact absurd ((h1.panicked rfl).1 hp1) (by simp_all)
  | p2 h1 _ _ h2 hp2 => exact absurd ((h2.panicked rfl).1 hp2) (by simp_all)
  | @stop1 e1 L pe par b h1 _ hs ht =>
    have a := (hst h1 rfl).1 hs; have k := key h1; have kt := keyT ht
    obtain ⟨h, a⟩ := a
    have : ∃ h, Ev.abort c h ∈ (Ev.call c fn recv :: (e1 ++ (entOf c par (E.tracing && E.filter fn) ++ (pe ++ [Ev.callEnd c b])))) :=
      ⟨h, List.mem_cons_of_mem _ (List.mem_append_left _ a)⟩
    have hE' := hE par (E.tracing && E.filter fn)
    simp only [Bool.and_eq_true] at hE'
    simp only [this, or_true, and_true, ← hE']
    simp [k, kt]
  | @stop2 e1 L e2 L2 pe par b h1 _ hs h2 hp2 hs2 ht =>
    have a := (hst h2 rfl).1 hs2; have k := key h1; have k2 := key h2; have kt := keyT ht
    obtain ⟨h, a⟩ := a
    have : ∃ h, Ev.abort c h ∈ (Ev.call c fn recv :: (e1 ++ (e2 ++ (entOf c par (E.tracing && E.filter fn) ++ (pe ++ [Ev.callEnd c b]))))) :=
      ⟨h, List.mem_cons_of_mem _ (List.mem_append_right _ (List.mem_append_left _ a))⟩
    have hE' := hE par (E.tracing && E.filter fn)
    simp only [Bool.and_eq_true] at hE'
    simp only [this, or_true, and_true, ← hE']
    simp [k, k2, kt]
  | orig par b h1 _ hs h2 hp2 hs2 hmk ht =>
    have k := key h1; have k2 := key h2; have kt := keyT ht
    have n1 : ∀ h, Ev.abort c h ∉ _ := fun h hx => by have := (hst h1 rfl).2 ⟨h, hx⟩; rw [hs] at this; cases this
    have n2 : ∀ h, Ev.abort c h ∉ _ := fun h hx => by have := (hst h2 rfl).2 ⟨h, hx⟩; rw [hs2] at this; cases this
    have hE' := hE par (E.tracing && E.filter fn && decide (d + 1 ≤ 1))
    have hEA' := hEA par (E.tracing && E.filter fn && decide (d + 1 ≤ 1))
    have n3 := keyA ht
    simp [k, k2, kt, n1, n2, n3, hE', hEA', -exists_or] 
    rw [and_assoc, show d + 1 ≤ 1 ↔ d ≤ 0 by omega]
  | mockP par h1 _ hs h2 hp2 hs2 hmk => simp at hp
  | mockOk par b t h1 _ hs h2 hp2 hs2 hmk ht =>
    have k := key h1; have k2 := key h2; have kt := keyT ht
    have n1 : ∀ h, Ev.abort c h ∉ _ := fun h hx => by have := (hst h1 rfl).2 ⟨h, hx⟩; rw [hs] at this; cases this
    have n2 : ∀ h, Ev.abort c h ∉ _ := fun h hx => by have := (hst h2 rfl).2 ⟨h, hx⟩; rw [hs2] at this; cases this
    have hE' := hE par (E.tracing && E.filter fn && decide (d + 1 ≤ 1))
    have hEA' := hEA par (E.tracing && E.filter fn && decide (d + 1 ≤ 1))
    have n3 := keyA ht
    simp [k, k2, kt, n1, n2, n3, hE', hEA', hO, hOA, -exists_or]
    rw [and_assoc, show d + 1 ≤ 1 ↔ d ≤ 0 by omega]

/-! ### onion -/

/-- only the last handler of the list has a post hook -/
def onlyLastPost : List Handler → Prop
  | [] => True
  | h :: hs => (hs ≠ [] → h.hasPost = false) ∧ onlyLastPost hs

def app (gen : Bool) (recv : Option Nat) (hs : List Handler) : List Handler :=
  if gen then hs else hs.filter fun h => wantOk h.want recv

theorem app_cons {gen recv h hs} (hw : gen = true ∨ wantOk h.want recv = true) :
    app gen recv (h :: hs) = h :: app gen recv hs := by
  cases gen
  · simp at hw; simp [app, hw]
  · simp [app]

/-- the post hook event run for a closure -/
def PostC.ev (c : Nat) (p : PostC) : Option Ev := p.h.map fun h => .post c p.gen h.id p.data

theorem HookEvs.onion {c gen recv hs L e L'} (h : HookEvs c gen recv hs L e L') (h0 : L.stopped = false)
    (hp : L'.panicked = false) (hl : onlyLastPost hs) (hL : L.posts = []) (A2 : List (Bool × Handler)) (es2 ps2 : List Ev)
    (h2 : L'.stopped = false → Onion c A2 es2 ps2) (h3 : L'.stopped = true → es2 = [] ∧ ps2 = []) :
    Onion c ((app gen recv hs).map (fun h => (gen, h)) ++ A2) (e.filter (Ev.isPreOf c) ++ es2)
      ((L'.closures gen).filterMap (PostC.ev c) ++ ps2) := by
  induction h with
  | nil =>
    have := h2 h0
    cases gen <;> simpa [app, Loop.closures, hL] using this
  | @skip h hs L e L' hg hw _ ih =>
    subst hg
    have := ih h0 hp hl.2 hL h2 h3
    simpa [app, hw] using this
  | panic => simp at hp
  | @stop h hs L d hw hpre =>
    obtain ⟨rfl, rfl⟩ := h3 rfl
    rw [app_cons hw]
    simp [Ev.isPreOf, Loop.closures, hL]
    exact .abort d hpre
  | @pre h hs L e L' d hw hpre hr ih =>
    rw [app_cons hw]
    cases hs with
    | nil =>
      cases hr
      have := h2 h0
      simp only [List.map_cons, List.cons_append, List.filter_cons, Ev.isPreOf, beq_self_eq_true, if_true,
        Bool.false_eq_true, if_false, List.filter_nil]
      have ha : app gen recv [] = [] := by cases gen <;> rfl
      rw [ha]
      have := Onion.pre (g := gen) d hpre this
      cases hpo : h.hasPost <;> simpa [hpo, Loop.closures, hL, owed, PostC.ev] using this
    | cons h' hs' =>
      have hno : h.hasPost = false := hl.1 (by simp)
      have := ih h0 hp hl.2 (by simp [hno, hL]) h2 h3
      have := Onion.pre (g := gen) d hpre this
      simpa [hno, owed, Ev.isPreOf] using this
  | @noPre h hs L e L' hw hpre hr ih =>
    rw [app_cons hw]
    cases hs with
    | nil =>
      cases hr
      have := h2 h0
      have ha : app gen recv [] = [] := by cases gen <;> rfl
      rw [ha]
      have := Onion.noPre (g := gen) hpre this
      cases hpo : h.hasPost <;> simpa [hpo, Loop.closures, hL, owed, PostC.ev] using this
    | cons h' hs' =>
      have hno : h.hasPost = false := hl.1 (by simp)
      have := ih h0 hp hl.2 (by simp [hno, hL]) h2 h3
      have := Onion.noPre (g := gen) hpre this
      simpa [hno, owed, Ev.isPreOf] using this

theorem PostEvs.posts {c cs e} (h : PostEvs c cs e false) : e.filter (Ev.isPostOf c) = cs.filterMap (PostC.ev c) := by
  generalize hb : false = b at h
  induction h with
  | nil => rfl
  | bad => cases hb
  | panic => cases hb
  | ok hh _ _ ih => simp [Ev.isPostOf, PostC.ev, hh]; exact ih hb

theorem filter_none {f : Ev → Bool} {l : List Ev} (h : ∀ x ∈ l, f x = false) : l.filter f = [] := by
  simp; exact h

theorem HookEvs.noPost {c gen recv hs L e L'} (h : HookEvs c gen recv hs L e L') : e.filter (Ev.isPostOf c) = [] := by
  refine filter_none fun x hx => ?_
  rcases h.mem _ hx with ⟨_, _, _, h, _⟩ | ⟨_, h⟩ | ⟨_, h⟩ | h <;> subst h <;> rfl

theorem TailEvs.noPre {c ps t e} (h : TailEvs c ps t e) : e.filter (Ev.isPreOf c) = [] := by
  refine filter_none fun x hx => ?_
  rcases h.mem _ hx with ⟨_, _, _, _, h⟩ | ⟨_, _, h⟩ | h | h | ⟨_, _, h⟩ <;> subst h <;> rfl

theorem TailEvs.posts {c ps t e} (h : TailEvs c ps t e) (hp : Ev.hookPanic c ∉ e) (hn : Ev.nilPost c ∉ e) :
    e.filter (Ev.isPostOf c) = (ps.filterMap (PostC.ev c)).reverse := by
  cases h with
  | panic h => rcases h.panicked with h | h <;> contradiction
  | fin f h =>
    rw [List.filter_append, h.posts]
    cases t <;> simp [Ev.isPostOf]

theorem entOf_pre (k c p t) : (entOf c p t).filter (Ev.isPreOf k) = [] := by
  cases t <;> simp [entOf, Ev.isPreOf]

theorem entOf_post (k c p t) : (entOf c p t).filter (Ev.isPostOf k) = [] := by
  cases t <;> simp [entOf, Ev.isPostOf]

theorem applicable_eq (E : Env) (fn recv) (d : Int) :
    applicable E fn recv (decide (0 < d)) =
      (app false recv (E.recorders fn)).map (fun h => (false, h)) ++
      (app true recv (if d + 1 ≤ 1 then E.interceptors else [])).map (fun h => (true, h)) := by
  unfold applicable app
  congr 1
  · simp [wantOk_iff]
  · by_cases h : 0 < d
    · rw [if_pos (by simpa using h), if_neg (by omega : ¬ d + 1 ≤ 1)]; rfl
    · rw [if_neg (by simpa using h), if_pos (by omega : d + 1 ≤ 1)]; rfl

theorem onlyLastPost_ite {p : Prop} [Decidable p] {l} (h : onlyLastPost l) : onlyLastPost (if p then l else []) := by
  split
  · exact h
  · trivial

theorem CallEvs.onion {E c fn recv d l} (h : CallEvs E c fn recv d l) (hp : Ev.hookPanic c ∉ l) (hn : Ev.nilPost c ∉ l)
    (hr : onlyLastPost (E.recorders fn)) (hi : onlyLastPost E.interceptors) :
    ∃ ps, Onion c (applicable E fn recv (decide (0 < d))) (l.filter (Ev.isPreOf c)) ps ∧
      l.filter (Ev.isPostOf c) = ps.reverse := by
  rw [applicable_eq]
  have hnilO : Onion c [] [] [] := .nil
  cases h with
  | p1 h1 hp1 => exact absurd ((h1.panicked rfl).1 hp1) (by simp_all)
  | p2 h1 _ _ h2 hp2 => exact absurd ((h2.panicked rfl).1 hp2) (by simp_all)
  | @stop1 _ L _ par b h1 hp1 hs ht =>
    have := h1.onion rfl hp1 hr rfl (es2 := []) (ps2 := []) (h2 := by simp [hs]) (h3 := by simp)
      (A2 := (app true recv (if d + 1 ≤ 1 then E.interceptors else [])).map (fun h => (true, h)))
    refine ⟨(L.closures false).filterMap (PostC.ev c), ?_, ?_⟩
    rotate_left
    · simp only [List.filter_cons, List.filter_append, List.filter_nil, h1.noPost, ht.posts (by simp_all) (by simp_all),
        entOf_post, Ev.isPostOf, Bool.false_eq_true, if_false, List.append_nil, List.nil_append]
    · simpa [ht.noPre, entOf_pre, Ev.isPreOf] using this
  | @stop2 _ L _ L2 _ par b h1 hp1 hs h2 hp2 hs2 ht =>
    have o2 := h2.onion rfl hp2 (onlyLastPost_ite hi) rfl [] [] [] (by simp [hs2]) (by simp)
    have := h1.onion rfl hp1 hr rfl _ _ _ (fun _ => o2) (by simp [hs])
    refine ⟨(L.closures false ++ L2.closures true).filterMap (PostC.ev c), ?_, ?_⟩
    rotate_left
    · simp only [List.filter_cons, List.filter_append, List.filter_nil, h1.noPost, h2.noPost, ht.posts (by simp_all) (by simp_all),
        entOf_post, Ev.isPostOf, Bool.false_eq_true, if_false, List.append_nil, List.nil_append]
    · simpa [ht.noPre, entOf_pre, Ev.isPreOf] using this
  | @orig _ L _ L2 _ par b h1 hp1 hs h2 hp2 hs2 hm ht =>
    have o2 := h2.onion rfl hp2 (onlyLastPost_ite hi) rfl [] [] [] (fun _ => hnilO) (by simp)
    have := h1.onion rfl hp1 hr rfl _ _ _ (fun _ => o2) (by simp [hs])
    refine ⟨(L.closures false ++ L2.closures true).filterMap (PostC.ev c), ?_, ?_⟩
    rotate_left
    · simp only [List.filter_cons, List.filter_append, List.filter_nil, h1.noPost, h2.noPost, ht.posts (by simp_all) (by simp_all),
        entOf_post, Ev.isPostOf, Bool.false_eq_true, if_false, List.append_nil, List.nil_append]
    · simpa [ht.noPre, entOf_pre, Ev.isPreOf] using this
  | mockP par h1 hp1 hs h2 hp2 hs2 hm => simp at hp
  | @mockOk _ L _ L2 mk _ par b t h1 hp1 hs h2 hp2 hs2 hm ht =>
    have o2 := h2.onion rfl hp2 (onlyLastPost_ite hi) rfl [] [] [] (fun _ => hnilO) (by simp)
    have := h1.onion rfl hp1 hr rfl _ _ _ (fun _ => o2) (by simp [hs])
    have hO1 : (if (E.mockBeh mk.id t).ok then ([] : List Ev) else [.orig c]).filter (Ev.isPostOf c) = [] := by
      split <;> rfl
    have hO2 : (if (E.mockBeh mk.id t).ok then ([] : List Ev) else [.orig c]).filter (Ev.isPreOf c) = [] := by
      split <;> rfl
    refine ⟨(L.closures false ++ L2.closures true).filterMap (PostC.ev c), ?_, ?_⟩
    rotate_left
    · simp only [List.filter_cons, List.filter_append, List.filter_nil, h1.noPost, h2.noPost, ht.posts (by simp_all) (by simp_all),
        entOf_post, Ev.isPostOf, Bool.false_eq_true, if_false, List.append_nil, List.nil_append, hO1]
    · simpa only [List.filter_cons, List.filter_append, List.filter_nil, ht.noPre, entOf_pre, Ev.isPreOf, hO2, Bool.false_eq_true, if_false, List.append_nil, List.nil_append, List.filterMap_append] using this

/-! ### order of the pre hooks, without any assumption -/

def Ev.hookId : Ev → Nat
  | .pre _ _ h _ => h
  | _ => 0

theorem HookEvs.prefix {c gen recv hs L e L'} (h : HookEvs c gen recv hs L e L') (h0 : L.stopped = false) (h1 : L.panicked = false) :
    ∃ rest, ((app gen recv hs).filter (·.hasPre)).map (·.id) = (e.filter (Ev.isPreOf c)).map Ev.hookId ++ rest ∧
      (L'.stopped = false → L'.panicked = false → rest = []) := by
  induction h with
  | nil => refine ⟨[], ?_, by simp⟩; cases gen <;> rfl
  | @skip h hs L e L' hg hw _ ih =>
    subst hg
    have := ih h0 h1
    simpa [app, hw] using this
  | @panic h hs L d hw hp =>
    rw [app_cons hw]
    refine ⟨((app gen recv hs).filter (·.hasPre)).map (·.id), ?_, by simp⟩
    simp [hp, Ev.isPreOf, Ev.hookId]
  | @stop h hs L d hw hp =>
    rw [app_cons hw]
    refine ⟨((app gen recv hs).filter (·.hasPre)).map (·.id), ?_, by simp⟩
    simp [hp, Ev.isPreOf, Ev.hookId]
  | @pre h hs L e L' d hw hp _ ih =>
    rw [app_cons hw]
    obtain ⟨rest, hr, hx⟩ := ih h0 h1
    exact ⟨rest, by simp [hp, Ev.isPreOf, Ev.hookId, hr], hx⟩
  | @noPre h hs L e L' hw hp _ ih =>
    rw [app_cons hw]
    obtain ⟨rest, hr, hx⟩ := ih h0 h1
    exact ⟨rest, by simp [hp, hr], hx⟩

theorem CallEvs.prefix {E c fn recv d l} (h : CallEvs E c fn recv d l) :
    (l.filter (Ev.isPreOf c)).map Ev.hookId <+:
      ((applicable E fn recv (decide (0 < d))).filter (·.2.hasPre)).map (·.2.id) := by
  rw [applicable_eq]
  have one : ∀ {e1 L}, HookEvs c false recv (E.recorders fn) Loop.start e1 L →
      (e1.filter (Ev.isPreOf c)).map Ev.hookId <+: (((app false recv (E.recorders fn)).map (fun h => (false, h)) ++
      (app true recv (if d + 1 ≤ 1 then E.interceptors else [])).map (fun h => (true, h))).filter (·.2.hasPre)).map (·.2.id) := by
    intro e1 L h1
    obtain ⟨rest, hr, -⟩ := h1.prefix rfl rfl
    refine ⟨rest ++ ((app true recv (if d + 1 ≤ 1 then E.interceptors else [])).filter (·.hasPre)).map (·.id), ?_⟩
    rw [← List.append_assoc, ← hr]
    simp [List.filter_map, Function.comp_def]
  have two : ∀ {e1 L e2 L2}, HookEvs c false recv (E.recorders fn) Loop.start e1 L → L.panicked = false → L.stopped = false →
      HookEvs c true recv (if d + 1 ≤ 1 then E.interceptors else []) Loop.start e2 L2 →
      (e1.filter (Ev.isPreOf c)).map Ev.hookId ++ (e2.filter (Ev.isPreOf c)).map Ev.hookId <+: (((app false recv (E.recorders fn)).map (fun h => (false, h)) ++
      (app true recv (if d + 1 ≤ 1 then E.interceptors else [])).map (fun h => (true, h))).filter (·.2.hasPre)).map (·.2.id) := by
    intro e1 L e2 L2 h1 hp hs h2
    obtain ⟨rest, hr, hx⟩ := h1.prefix rfl rfl
    obtain ⟨rest2, hr2, -⟩ := h2.prefix rfl rfl
    rw [hx hs hp, List.append_nil] at hr
    refine ⟨rest2, ?_⟩
    rw [List.append_assoc, ← hr, ← hr2]
    simp [List.filter_map, Function.comp_def]
  cases h with
  | p1 h1 hp1 => simpa [Ev.isPreOf] using one h1
  | p2 h1 hp1 hs h2 hp2 => simpa [Ev.isPreOf] using two h1 hp1 hs h2
  | stop1 par b h1 hp1 hs ht => simpa [Ev.isPreOf, ht.noPre, entOf_pre] using one h1
  | stop2 par b h1 hp1 hs h2 hp2 hs2 ht => simpa [Ev.isPreOf, ht.noPre, entOf_pre] using two h1 hp1 hs h2
  | orig par b h1 hp1 hs h2 hp2 hs2 hm ht => simpa [Ev.isPreOf, ht.noPre, entOf_pre] using two h1 hp1 hs h2
  | mockP par h1 hp1 hs h2 hp2 hs2 hm => simpa [Ev.isPreOf, entOf_pre] using two h1 hp1 hs h2
  | @mockOk _ _ _ _ mk _ par b t h1 hp1 hs h2 hp2 hs2 hm ht =>
    have hO2 : (if (E.mockBeh mk.id t).ok then ([] : List Ev) else [.orig c]).filter (Ev.isPreOf c) = [] := by
      split <;> rfl
    have := two h1 hp1 hs h2
    simpa only [List.filter_cons, List.filter_append, List.filter_nil, ht.noPre, entOf_pre, Ev.isPreOf, hO2, Bool.false_eq_true, if_false, List.append_nil, List.nil_append, List.map_append, List.map_nil] using this

end Verif.Runtime.Exec
