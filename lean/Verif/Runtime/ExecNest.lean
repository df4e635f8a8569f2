/- General interceptors are never nested in hooks; every call event comes from a sub-run. -/
import Verif.Runtime.ExecLemmas

namespace Verif.Runtime.Exec

theorem split_append {α} {l1 l2 a b : List α} {x : α} (h : a ++ b = l1 ++ x :: l2) :
    (∃ m, a = l1 ++ x :: m ∧ l2 = m ++ b) ∨ (∃ m, l1 = a ++ m ∧ b = m ++ x :: l2) := by
  rcases List.append_eq_append_iff.1 h with ⟨m, h1, h2⟩ | ⟨m, h1, h2⟩
  · exact .inr ⟨m, h1, h2⟩
  · cases m with
    | nil => exact .inr ⟨[], by simpa using h1.symm, by simpa using h2.symm⟩
    | cons y m =>
      simp only [List.cons_append, List.cons.injEq] at h2
      obtain ⟨rfl, h2⟩ := h2
      exact .inl ⟨m, h1, h2⟩

theorem split_cons {α} {l1 l2 b : List α} {e x : α} (h : e :: b = l1 ++ x :: l2) :
    (l1 = [] ∧ e = x ∧ b = l2) ∨ (∃ m, l1 = e :: m ∧ b = m ++ x :: l2) := by
  cases l1 with
  | nil => simp at h; exact .inl ⟨rfl, h⟩
  | cons y m => simp at h; exact .inr ⟨m, by rw [h.1], h.2⟩

/-! ### nesting of general interceptors -/

def Good (b : Int) (ev : List Ev) : Prop :=
  ∀ l1 e l2, ev = l1 ++ e :: l2 → 0 ≤ openHooks l1 ∧ (e.isGeneral = true → b + openHooks l1 ≤ 0)

theorem Good.nil (b) : Good b [] := by intro l1 e l2 h; simp at h

theorem Good.append {b a c} (h1 : Good b a) (h0 : openHooks a = 0) (h2 : Good b c) : Good b (a ++ c) := by
  intro l1 e l2 h
  rcases split_append h with ⟨m, ha, _⟩ | ⟨m, ha, hb⟩
  · exact h1 _ _ _ ha
  · subst ha
    have := h2 _ _ _ hb
    rw [openHooks_append, h0, Int.zero_add]; exact this

theorem Good.single {b e} (hg : e.isGeneral = true → b ≤ 0) : Good b [e] := by
  intro l1 e' l2 h
  rcases split_cons h with ⟨rfl, rfl, _⟩ | ⟨m, _, h⟩
  · simp [openHooks_nil]; exact hg
  · simp at h

theorem Good.neutral {b e c} (hg : e.isGeneral = false) (ho : e.isOpen = false) (hc : e.isClose = false)
    (h : Good b c) : Good b (e :: c) := by
  have : openHooks [e] = 0 := by simp [openHooks_cons, openHooks_nil, ho, hc]
  exact Good.append (a := [e]) (Good.single (by simp [hg])) this h

/-- a hook: open event, body one level deeper, close event -/
theorem Good.hook {b o e c} (ho : o.isOpen = true) (hoc : o.isClose = false) (hcg : c.isGeneral = false)
    (hg : o.isGeneral = true → b ≤ 0) (h : Good (b + 1) e) (h0 : openHooks e = 0) :
    Good b (o :: (e ++ [c])) := by
  intro l1 x l2 hx
  rcases split_cons hx with ⟨rfl, rfl, _⟩ | ⟨m, rfl, hx2⟩
  · simp [openHooks_nil]; exact hg
  · rw [openHooks_cons, ho, hoc]
    rcases split_append hx2 with ⟨m', ha, _⟩ | ⟨m', ha, hb⟩
    · have := h _ _ _ ha
      simp
      refine ⟨by omega, fun hx => ?_⟩
      have := this.2 hx; omega
    · subst ha
      rw [openHooks_append, h0]
      rcases split_cons hb with ⟨rfl, rfl, _⟩ | ⟨_, _, hb⟩
      · simp [openHooks_nil, hcg]
      · simp at hb

theorem Good.entryEv (b σ c t) : Good b (entryEv σ c t) := by
  cases t
  · exact Good.nil _
  · exact Good.single (by simp [Ev.isGeneral])

def Job.base : Job → St → Int
  | .stmts _, σ | .stmt _, σ | .trap _ _ _, σ | .post _ _ _ _, σ => σ.depth
  | .hooks _ _ _ _ _, σ | .posts _ _, σ => σ.depth - 1

def Job.pre : Job → St → Prop
  | .hooks _ gen _ hs _, σ => gen = true → hs ≠ [] → σ.depth ≤ 1
  | .posts _ cs, σ => ∀ c ∈ cs, c.gen = true → σ.depth ≤ 1
  | .post _ ps _ _, σ => ∀ c ∈ ps, c.gen = true → σ.depth ≤ 0
  | _, _ => True

def Out.gens : Out → St → Prop
  | .trapped (some (ps, _, _)), σ => ∀ c ∈ ps, c.gen = true → σ.depth ≤ 0
  | _, _ => True

theorem open_hook {o c e} (ho : o.isOpen = true) (hoc : o.isClose = false)
    (hc : c.isClose = true) (hco : c.isOpen = false) (h0 : openHooks e = 0) : openHooks (o :: (e ++ [c])) = 0 := by
  simp [openHooks_cons, openHooks_append, openHooks_nil, ho, hoc, hc, hco, h0]

theorem Run.inters_pre {E : Env} {σ σ1 : St} {cid recv} (hd : σ1.depth = σ.inc.depth) :
    (Job.hooks cid true recv (if σ.depth + 1 ≤ 1 then E.interceptors else []) Loop.start).pre σ1 := by
  intro _ hne
  split at hne
  · simp [hd, St.inc]; omega
  · exact absurd rfl hne

theorem closures_gens {E : Env} {σ σ1 σ2 : St} {cid recv e2} {L L2 : Loop}
    (h2 : Run E (.hooks cid true recv (if σ.depth + 1 ≤ 1 then E.interceptors else []) Loop.start) σ1 e2 (.loop L2) σ2) :
    ∀ c ∈ L.closures false ++ L2.closures true, c.gen = true → σ.depth ≤ 0 := by
  intro c hc hg
  rcases List.mem_append.1 hc with hc | hc
  · simp [Loop.closures] at hc; obtain ⟨_, _, rfl⟩ := hc; simp at hg
  · by_cases hd : σ.depth + 1 ≤ 1
    · omega
    · rw [if_neg hd] at h2
      cases h2
      simp [Loop.closures, Loop.start] at hc

theorem Run.good {E j σ ev o σ'} (h : Run E j σ ev o σ') (hj : j.pre σ) :
    Good (j.base σ) ev ∧ o.gens σ := by
  induction h with
  | nil | panic | hooksNil | postsNil => exact ⟨Good.nil _, trivial⟩
  | consP _ ih => exact ⟨(ih trivial).1, trivial⟩
  | protect _ ih => exact ⟨(ih trivial).1, trivial⟩
  | cons h1 h2 ih1 ih2 =>
    refine ⟨(ih1 trivial).1.append h1.open_eq ?_, trivial⟩
    have := (ih2 trivial).1
    simpa [Job.base, h1.depth_eq] using this
  | callTP h1 ih1 =>
    refine ⟨Good.neutral rfl rfl rfl ((ih1 trivial).1.append h1.open_eq (Good.single (by simp [Ev.isGeneral]))), trivial⟩
  | callStop h1 h2 ih1 ih2 =>
    have hd := h1.depth_eq
    have i1 := ih1 trivial
    refine ⟨Good.neutral rfl rfl rfl (i1.1.append h1.open_eq ?_), trivial⟩
    have i2 := ih2 (by intro c hc hg; have := i1.2 c hc hg; rw [hd]; exact this)
    refine Good.append ?_ h2.open_eq (Good.single (by simp [Ev.isGeneral]))
    simpa [Job.base, hd, St.emit] using i2.1
  | callRun h1 h2 h3 ih1 ih2 ih3 =>
    have hd := h1.depth_eq; have hd2 := h2.depth_eq
    have i1 := ih1 trivial
    have i2 := ih2 trivial
    have i3 := ih3 (by intro c hc hg; have := i1.2 c hc hg; rw [hd2, ]; simp [St.emit] at this ⊢; rw [hd]; exact this)
    refine ⟨Good.neutral rfl rfl rfl (i1.1.append h1.open_eq (Good.neutral rfl rfl rfl
      (Good.append ?_ h2.open_eq (Good.append ?_ h3.open_eq (Good.single (by simp [Ev.isGeneral])))))), trivial⟩
    · simpa [Job.base, hd, St.emit] using i2.1
    · simpa [Job.base, hd, hd2, St.emit] using i3.1
  | trapP1 h1 _ ih1 =>
    refine ⟨?_, trivial⟩
    have i1 := (ih1 (by intro h; cases h)).1
    simpa [Job.base, St.inc] using i1
  | @trapP2 cid fn recv σ e1 σ1 e2 σ2 L L2 h1 _ _ h2 _ ih1 ih2 =>
    refine ⟨?_, trivial⟩
    have hd := h1.depth_eq
    have i1 := (ih1 (by intro h; cases h)).1
    have i2 := (ih2 (Run.inters_pre hd)).1
    simp [Job.base, St.inc, hd] at i1 i2 ⊢
    exact i1.append h1.open_eq i2
  | trapStop1 h1 _ _ ih1 =>
    have i1 := (ih1 (by intro h; cases h)).1
    simp [Job.base, St.inc] at i1 ⊢
    refine ⟨i1.append h1.open_eq (Good.entryEv _ _ _ _), ?_⟩
    intro c hc hg
    simp [Loop.closures] at hc; obtain ⟨_, _, rfl⟩ := hc; simp at hg
  | trapStop2 h1 _ _ h2 _ _ ih1 ih2 =>
    have hd := h1.depth_eq
    have i1 := (ih1 (by intro h; cases h)).1
    have i2 := (ih2 (Run.inters_pre hd)).1
    simp [Job.base, St.inc, hd] at i1 i2 ⊢
    exact ⟨i1.append h1.open_eq (i2.append h2.open_eq (Good.entryEv _ _ _ _)), closures_gens h2⟩
  | trapNoMock h1 _ _ h2 _ _ _ ih1 ih2 =>
    have hd := h1.depth_eq
    have i1 := (ih1 (by intro h; cases h)).1
    have i2 := (ih2 (Run.inters_pre hd)).1
    simp [Job.base, St.inc, hd] at i1 i2 ⊢
    exact ⟨i1.append h1.open_eq (i2.append h2.open_eq (Good.entryEv _ _ _ _)), closures_gens h2⟩
  | trapMockP h1 _ _ h2 _ _ _ h3 ih1 ih2 ih3 =>
    have hd := h1.depth_eq; have hd2 := h2.depth_eq
    have i1 := (ih1 (by intro h; cases h)).1
    have i2 := (ih2 (Run.inters_pre hd)).1
    have i3 := (ih3 trivial).1
    simp only [Job.base, St.inc, hd, hd2, St.emit, St.enter_depth] at i1 i2 i3 ⊢
    rw [show ∀ x : Int, x + 1 - 1 = x by omega] at i1 i2
    refine ⟨i1.append h1.open_eq (i2.append h2.open_eq ((Good.entryEv _ _ _ _).append (openHooks_entryEv _ _ _) ?_)),
      trivial⟩
    exact Good.hook rfl rfl rfl (by simp [Ev.isGeneral]) i3 h3.open_eq
  | trapMock h1 _ _ h2 _ _ _ h3 ih1 ih2 ih3 =>
    have hd := h1.depth_eq; have hd2 := h2.depth_eq
    have i1 := (ih1 (by intro h; cases h)).1
    have i2 := (ih2 (Run.inters_pre hd)).1
    have i3 := (ih3 trivial).1
    simp only [Job.base, St.inc, hd, hd2, St.emit, St.enter_depth] at i1 i2 i3 ⊢
    rw [show ∀ x : Int, x + 1 - 1 = x by omega] at i1 i2
    refine ⟨i1.append h1.open_eq (i2.append h2.open_eq ((Good.entryEv _ _ _ _).append (openHooks_entryEv _ _ _) ?_)),
      closures_gens h2⟩
    exact Good.hook rfl rfl rfl (by simp [Ev.isGeneral]) i3 h3.open_eq
  | hooksSkip hg _ _ ih => exact ih (by intro h; simp [hg] at h)
  | hooksP _ _ h1 ih1 =>
    refine ⟨?_, trivial⟩
    refine Good.hook rfl rfl rfl ?_ ?_ h1.open_eq
    · intro hg; have := hj hg (by simp); simp [Job.base]; omega
    · have := (ih1 trivial).1
      simp only [Job.base, St.emit] at this ⊢
      rwa [show ∀ x : Int, x - 1 + 1 = x by omega]
  | @hooksStop cid gen recv h hs σ e σ' L _ _ h1 _ ih1 =>
    refine ⟨?_, trivial⟩
    have : (Ev.pre cid gen h.id σ.tick :: (e ++ [.preEnd cid gen h.id, .abort cid h.id])) =
      (Ev.pre cid gen h.id σ.tick :: (e ++ [.preEnd cid gen h.id])) ++ [.abort cid h.id] := by simp
    rw [this]
    refine Good.append (Good.hook rfl rfl rfl ?_ ?_ h1.open_eq) (open_hook rfl rfl rfl rfl h1.open_eq)
      (Good.single (by simp [Ev.isGeneral]))
    · intro hg; have := hj hg (by simp); simp [Job.base]; omega
    · have := (ih1 trivial).1
      simp only [Job.base, St.emit] at this ⊢
      rwa [show ∀ x : Int, x - 1 + 1 = x by omega]
  | @hooksPre cid gen recv h hs σ e σ' e' σ'' L L' _ _ h1 _ h2 ih1 ih2 =>
    have hd := h1.depth_eq
    refine ⟨?_, trivial⟩
    have : (Ev.pre cid gen h.id σ.tick :: (e ++ (.preEnd cid gen h.id :: e'))) =
      (Ev.pre cid gen h.id σ.tick :: (e ++ [.preEnd cid gen h.id])) ++ e' := by simp
    rw [this]
    refine Good.append (Good.hook rfl rfl rfl ?_ ?_ h1.open_eq) (open_hook rfl rfl rfl rfl h1.open_eq) ?_
    · intro hg; have := hj hg (by simp); simp [Job.base]; omega
    · have := (ih1 trivial).1
      simp only [Job.base, St.emit] at this ⊢
      rwa [show ∀ x : Int, x - 1 + 1 = x by omega]
    · have := (ih2 (by intro hg _; have := hj hg (by simp); simp [St.emit, hd]; exact this)).1
      simpa [Job.base, St.emit, hd] using this
  | hooksNoPre _ _ h1 ih1 => exact ih1 (by intro hg _; exact hj hg (by simp))
  | postP _ ih =>
    refine ⟨?_, trivial⟩
    have := (ih (by intro c hc hg; have := hj c (by simpa using hc) hg; simp [St.inc]; omega)).1
    simpa [Job.base, St.inc] using this
  | postU _ ih =>
    refine ⟨?_, trivial⟩
    have := (ih (by intro c hc hg; have := hj c (by simpa using hc) hg; simp [St.inc]; omega)).1
    simpa [Job.base, St.inc] using this
  | postT h1 ih =>
    refine ⟨?_, trivial⟩
    have := (ih (by intro c hc hg; have := hj c (by simpa using hc) hg; simp [St.inc]; omega)).1
    refine Good.append ?_ h1.open_eq (Good.single (by simp [Ev.isGeneral]))
    simpa [Job.base, St.inc] using this
  | postsBad _ => exact ⟨Good.single (by simp [Ev.isGeneral]), trivial⟩
  | postsP _ _ h1 ih1 =>
    refine ⟨?_, trivial⟩
    refine Good.hook rfl rfl rfl ?_ ?_ h1.open_eq
    · intro hg; have := hj _ (by simp) hg; simp [Job.base]; omega
    · have := (ih1 trivial).1
      simp only [Job.base, St.emit] at this ⊢
      rwa [show ∀ x : Int, x - 1 + 1 = x by omega]
  | @postsOk cid c cs h σ e σ' e' σ'' p _ _ h1 h2 ih1 ih2 =>
    have hd := h1.depth_eq
    refine ⟨?_, trivial⟩
    have : (Ev.post cid c.gen h.id c.data :: (e ++ (.postEnd cid c.gen h.id :: e'))) =
      (Ev.post cid c.gen h.id c.data :: (e ++ [.postEnd cid c.gen h.id])) ++ e' := by simp
    rw [this]
    refine Good.append (Good.hook rfl rfl rfl ?_ ?_ h1.open_eq) (open_hook rfl rfl rfl rfl h1.open_eq) ?_
    · intro hg; have := hj _ (by simp) hg; simp [Job.base]; omega
    · have := (ih1 trivial).1
      simp only [Job.base, St.emit] at this ⊢
      rwa [show ∀ x : Int, x - 1 + 1 = x by omega]
    · have := (ih2 (by intro c' hc hg; have := hj c' (by simp [hc]) hg; simp [St.emit, hd]; exact this)).1
      simpa [Job.base, St.emit, hd] using this

/-! ### every call event comes from a sub-run -/

/-- the call event at the end of `l1` in `ev` starts a sub-run, the only part of `ev` with events of that call -/
def SubAt (E : Env) (b : Int) (ev l1 : List Ev) (c fn : Nat) (recv : Option Nat) : Prop :=
  ∃ body σc evc o σc' l3, Run E (.stmt (.call fn recv body)) σc evc o σc' ∧ σc.tick = c ∧
    ev = l1 ++ (evc ++ l3) ∧ σc.depth = b + openHooks l1 ∧ (∀ e ∈ l1, e.cid ≠ c) ∧ (∀ e ∈ l3, e.cid ≠ c)

def Sub (E : Env) (b : Int) (own : Option Nat) (lo hi : Nat) (ev : List Ev) : Prop :=
  (∀ e ∈ ev, InR own lo hi e) ∧
  ∀ l1 c fn recv l2, ev = l1 ++ .call c fn recv :: l2 → lo ≤ c ∧ c < hi ∧ SubAt E b ev l1 c fn recv

theorem Sub.nil (E b own lo hi) : Sub E b own lo hi [] := ⟨by simp, by intro l1 c fn recv l2 h; simp at h⟩

theorem Sub.append {E b own lo mid hi a d} (h1 : Sub E b own lo mid a) (h2 : Sub E b own mid hi d)
    (hl : lo ≤ mid) (hh : mid ≤ hi) (hown : ∀ c, own = some c → c < lo) (h0 : openHooks a = 0) :
    Sub E b own lo hi (a ++ d) := by
  refine ⟨?_, ?_⟩
  · intro e he
    rcases List.mem_append.1 he with he | he
    · exact (h1.1 e he).mono (Nat.le_refl _) hh
    · exact (h2.1 e he).mono hl (Nat.le_refl _)
  · intro l1 c fn recv l2 h
    rcases split_append h with ⟨m, ha, _⟩ | ⟨m, ha, hb⟩
    · obtain ⟨c1, c2, body, σc, evc, o, σc', l3, hr, ht, he, hd, hf, hf3⟩ := h1.2 _ _ _ _ _ ha
      refine ⟨c1, by omega, body, σc, evc, o, σc', l3 ++ d, hr, ht, by rw [he]; simp, hd, hf, ?_⟩
      intro e hm
      rcases List.mem_append.1 hm with hm | hm
      · exact hf3 e hm
      · rcases h2.1 e hm with hx | hx
        · have := hown _ hx; omega
        · omega
    · obtain ⟨c1, c2, body, σc, evc, o, σc', l3, hr, ht, he, hd, hf, hf3⟩ := h2.2 _ _ _ _ _ hb
      subst ha
      refine ⟨by omega, c2, body, σc, evc, o, σc', l3, hr, ht, by rw [he]; simp, ?_, ?_, hf3⟩
      · rw [openHooks_append, h0]; omega
      · intro e hm
        rcases List.mem_append.1 hm with hm | hm
        · rcases h1.1 e hm with hx | hx
          · have := hown _ hx; omega
          · omega
        · exact hf e hm

theorem Sub.single {E b own lo hi e} (hr : InR own lo hi e) (hc : ∀ c fn recv, e ≠ .call c fn recv) :
    Sub E b own lo hi [e] := by
  refine ⟨by simpa using hr, ?_⟩
  intro l1 c fn recv l2 h
  rcases split_cons h with ⟨_, rfl, _⟩ | ⟨m, _, h⟩
  · exact absurd rfl (hc _ _ _)
  · simp at h

theorem Sub.own {E b lo hi c e} (he : e.cid = c) (hc : ∀ c fn recv, e ≠ .call c fn recv) :
    Sub E b (some c) lo hi [e] := Sub.single (InR.self he) hc

theorem Sub.mono {E b own lo hi lo' hi' ev} (h : Sub E b own lo hi ev) (h1 : lo' ≤ lo) (h2 : hi ≤ hi') :
    Sub E b own lo' hi' ev := by
  refine ⟨fun e he => (h.1 e he).mono h1 h2, fun l1 c fn recv l2 he => ?_⟩
  have := h.2 _ _ _ _ _ he
  exact ⟨by omega, by omega, this.2.2⟩

theorem Sub.of_none {E b lo hi ev} (own) (h : Sub E b none lo hi ev) : Sub E b own lo hi ev :=
  ⟨fun e he => (h.1 e he).of_none _, h.2⟩

/-- prefixing with an event that opens a hook -/
theorem Sub.openEv {E b own lo hi o ev} (h : Sub E (b + 1) own lo hi ev) (hr : InR own lo hi o)
    (ho : o.isOpen = true) (hoc : o.isClose = false) (hnc : ∀ c fn recv, o ≠ .call c fn recv)
    (hown : ∀ c, own = some c → c < lo) (hself : own = some o.cid) :
    Sub E b own lo hi (o :: ev) := by
  refine ⟨?_, ?_⟩
  · intro e he
    rcases List.mem_cons.1 he with rfl | he
    · exact hr
    · exact h.1 e he
  · intro l1 c fn recv l2 hx
    rcases split_cons hx with ⟨_, rfl, _⟩ | ⟨m, rfl, hb⟩
    · exact absurd rfl (hnc _ _ _)
    · obtain ⟨c1, c2, body, σc, evc, o', σc', l3, hr, ht, he, hd, hf, hf3⟩ := h.2 _ _ _ _ _ hb
      refine ⟨c1, c2, body, σc, evc, o', σc', l3, hr, ht, by rw [he]; simp, ?_, ?_, hf3⟩
      · rw [openHooks_cons, ho, hoc]; simp; omega
      · intro e hm
        rcases List.mem_cons.1 hm with rfl | hm
        · have := hown _ hself; omega
        · exact hf e hm

/-- suffix events that belong to the own call do not matter -/
theorem Sub.snocs {E b c lo hi ev l} (h : Sub E b (some c) lo hi ev) (hl : ∀ e ∈ l, e.cid = c)
    (hnc : ∀ e ∈ l, ∀ c fn recv, e ≠ .call c fn recv) (hown : c < lo) :
    Sub E b (some c) lo hi (ev ++ l) := by
  refine ⟨?_, ?_⟩
  · intro e he
    rcases List.mem_append.1 he with he | he
    · exact h.1 e he
    · exact InR.self (hl e he)
  · intro l1 c' fn recv l2 hx
    rcases split_append hx with ⟨m, ha, _⟩ | ⟨m, ha, hb⟩
    · obtain ⟨c1, c2, body, σc, evc, o', σc', l3, hr, ht, he, hd, hf, hf3⟩ := h.2 _ _ _ _ _ ha
      refine ⟨c1, c2, body, σc, evc, o', σc', l3 ++ l, hr, ht, by rw [he]; simp, hd, hf, ?_⟩
      intro e hm
      rcases List.mem_append.1 hm with hm | hm
      · exact hf3 e hm
      · rw [hl e hm]; omega
    · have : Ev.call c' fn recv ∈ l := by rw [hb]; simp
      exact absurd rfl (hnc _ this _ _ _)

theorem Sub.hook {E b c lo hi o e x} (h : Sub E (b + 1) none lo hi e) (ho : o.isOpen = true) (hoc : o.isClose = false)
    (hnc : ∀ c fn recv, o ≠ .call c fn recv) (hself : o.cid = c) (hx : x.cid = c)
    (hxc : ∀ c fn recv, x ≠ .call c fn recv) (hown : c < lo) : Sub E b (some c) lo hi (o :: (e ++ [x])) := by
  refine Sub.openEv (Sub.snocs (h.of_none _) ?_ ?_ hown) (InR.self hself) ho hoc hnc ?_ (by rw [hself])
  · simpa using hx
  · simpa using hxc
  · intro c h; cases h; exact hown

theorem Sub.entryEv {E b c lo hi} (σ t) : Sub E b (some c) lo hi (entryEv σ c t) := by
  cases t
  · exact Sub.nil _ _ _ _ _
  · exact Sub.own rfl (by simp)

def Job.ownOk (j : Job) (σ : St) : Prop := ∀ c, j.own = some c → c < σ.tick

/-- a whole call: the call event itself is the sub-run; other calls are inside -/
theorem Sub.wholeCall {E : Env} {fn recv body} {σ σ' : St} {ev inner : List Ev} {o}
    (h : Run E (.stmt (.call fn recv body)) σ ev o σ')
    (he : ev = .call σ.tick fn recv :: inner)
    (hi : Sub E σ.depth (some σ.tick) (σ.tick + 1) σ'.tick inner) (hle : σ.tick + 1 ≤ σ'.tick) :
    Sub E σ.depth none σ.tick σ'.tick ev := by
  refine ⟨?_, ?_⟩
  · intro e hm
    rw [he] at hm
    rcases List.mem_cons.1 hm with rfl | hm
    · exact .inr ⟨Nat.le_refl _, by simp [Ev.cid]; omega⟩
    · exact (hi.1 e hm).toNone _ (by intro c hc; cases hc; omega) (by omega)
  · intro l1 c fn' recv' l2 hx
    rw [he] at hx
    rcases split_cons hx with ⟨rfl, heq, _⟩ | ⟨m, rfl, hb⟩
    · cases heq
      refine ⟨Nat.le_refl _, by omega, body, σ, ev, o, σ', [], h, rfl, by simp, by simp [openHooks_nil], by simp, by simp⟩
    · obtain ⟨c1, c2, body, σc, evc, o', σc', l3, hr, ht, he', hd, hf, hf3⟩ := hi.2 _ _ _ _ _ hb
      refine ⟨by omega, c2, body, σc, evc, o', σc', l3, hr, ht, by rw [he, he']; simp, ?_, ?_, hf3⟩
      · rw [openHooks_cons]; simp [Ev.isOpen, Ev.isClose]; exact hd
      · intro e hm
        rcases List.mem_cons.1 hm with rfl | hm
        · simp [Ev.cid]; omega
        · exact hf e hm

theorem St.tick_enter (σ : St) (c b) : σ.tick ≤ (σ.enter c b).tick := by
  simp only [St.enter]; split <;> simp [St.emit]

theorem Run.sub {E j σ ev o σ'} (h : Run E j σ ev o σ') (hj : j.ownOk σ) :
    Sub E (j.base σ) j.own σ.tick σ'.tick ev := by
  induction h with
  | nil | panic | hooksNil | postsNil => exact Sub.nil _ _ _ _ _
  | consP _ ih => exact ih (by intro c h; cases h)
  | protect _ ih => exact ih (by intro c h; cases h)
  | cons h1 h2 ih1 ih2 =>
    have t1 := h1.tick_eq; have t2 := h2.tick_eq; have d1 := h1.depth_eq
    have i1 := ih1 (by intro c h; cases h)
    have i2 := ih2 (by intro c h; cases h)
    simp only [Job.base, Job.own, d1] at i1 i2 ⊢
    exact i1.append i2 (by omega) (by omega) (by simp) h1.open_eq
  | @callTP fn recv body σ e σ' h1 ih1 =>
    have t1 := h1.tick_eq
    have i1 := ih1 (by intro c h; cases h; simp [St.emit])
    simp only [Job.base, Job.own, St.emit] at i1 t1 ⊢
    refine Sub.wholeCall (Run.callTP (body := body) h1) rfl ?_ (by simp only [St.emit]; omega)
    refine Sub.snocs (i1.mono (by omega) (by simp only [St.emit]; omega)) (by simp [Ev.cid]) (by simp) (by omega)
  | @callStop fn recv body σ e1 σ1 e2 σ2 ps tr p h1 h2 ih1 ih2 =>
    have t1 := h1.tick_eq; have t2 := h2.tick_eq; have d1 := h1.depth_eq
    have i1 := ih1 (by intro c h; cases h; simp [St.emit])
    have i2 := ih2 (by intro c h; cases h; simp only [St.emit] at t1; omega)
    simp only [Job.base, Job.own, St.emit, d1] at i1 i2 t1 t2 ⊢
    refine Sub.wholeCall (Run.callStop (body := body) h1 h2) rfl ?_ (by simp only [St.emit]; omega)
    rw [← List.append_assoc]
    refine Sub.snocs ((i1.append i2 (by omega) (by omega) ?_ h1.open_eq).mono (by omega) (by simp only [St.emit]; omega))
      (by simp [Ev.cid]) (by simp) (by omega)
    intro c h; cases h; omega
  | @callRun fn recv body σ e1 σ1 e2 σ2 e3 σ3 ps tr p p2 h1 h2 h3 ih1 ih2 ih3 =>
    have t1 := h1.tick_eq; have t2 := h2.tick_eq; have t3 := h3.tick_eq; have d1 := h1.depth_eq; have d2 := h2.depth_eq
    simp only [St.emit] at t1 t2 t3 d1 d2
    have i1 := ih1 (by intro c h; cases h; simp [St.emit])
    have i2 := ih2 (by intro c h; cases h)
    have i3 := ih3 (by intro c h; cases h; omega)
    simp only [Job.base, Job.own, St.emit, d1, d2] at i1 i2 i3 ⊢
    refine Sub.wholeCall (Run.callRun (body := body) h1 h2 h3) rfl ?_ (by simp only [St.emit]; omega)
    rw [show e1 ++ (Ev.orig σ.tick :: (e2 ++ (e3 ++ [Ev.callEnd σ.tick (p || p2)]))) =
      (e1 ++ ([Ev.orig σ.tick] ++ (e2 ++ e3))) ++ [Ev.callEnd σ.tick (p || p2)] by simp]
    refine Sub.snocs ?_ (by simp [Ev.cid]) (by simp) (by omega)
    simp only [St.emit]
    refine Sub.append i1 (mid := σ1.tick) (Sub.append (mid := σ1.tick + 1) (Sub.own rfl (by simp))
      (Sub.append (mid := σ2.tick) (i2.of_none _) (i3.mono (by omega) (by omega)) (by omega) (by omega) ?_ h2.open_eq)
      (by omega) (by omega) ?_ ?_) (by omega) (by omega) ?_ h1.open_eq
    · intro c h; cases h; omega
    · intro c h; cases h; omega
    · rfl
    · intro c h; cases h; omega
  | trapP1 h1 _ ih1 =>
    have i1 := ih1 hj
    simp only [Job.base, Job.own, St.inc] at i1 ⊢
    rwa [show ∀ x : Int, x + 1 - 1 = x by omega] at i1
  | trapP2 h1 _ _ h2 _ ih1 ih2 =>
    have t1 := h1.tick_eq; have t2 := h2.tick_eq; have d1 := h1.depth_eq
    have i1 := ih1 hj
    have i2 := ih2 (by intro c h; have := hj c h; simp only [St.inc] at t1; omega)
    simp only [Job.base, Job.own, St.inc, d1] at i1 i2 t1 ⊢
    rw [show ∀ x : Int, x + 1 - 1 = x by omega] at i1 i2
    exact i1.append i2 (by omega) (by simp only [St.dec]; omega) hj h1.open_eq
  | @trapStop1 cid fn recv σ e1 σ1 L h1 _ _ ih1 =>
    have t1 := h1.tick_eq
    have i1 := ih1 hj
    have te := St.tick_enter σ1 cid (E.tracing && E.filter fn)
    simp only [Job.base, Job.own, St.inc] at i1 t1 ⊢
    rw [show ∀ x : Int, x + 1 - 1 = x by omega] at i1
    exact i1.append (Sub.entryEv _ _) (by omega) (by simp only [St.dec]; omega) hj h1.open_eq
  | @trapStop2 cid fn recv σ e1 σ1 e2 σ2 L L2 h1 _ _ h2 _ _ ih1 ih2 =>
    have t1 := h1.tick_eq; have t2 := h2.tick_eq; have d1 := h1.depth_eq
    have i1 := ih1 hj
    have i2 := ih2 (by intro c h; have := hj c h; simp only [St.inc] at t1; omega)
    have te := St.tick_enter σ2 cid (E.tracing && E.filter fn)
    simp only [Job.base, Job.own, St.inc, d1] at i1 i2 t1 ⊢
    rw [show ∀ x : Int, x + 1 - 1 = x by omega] at i1 i2
    have hj' : ∀ c, some cid = some c → c < σ1.tick := by intro c h; have := hj c h; omega
    exact i1.append (i2.append (Sub.entryEv _ _) (by omega) (by simp only [St.dec]; omega) hj' h2.open_eq)
      (by omega) (by simp only [St.dec]; omega) hj h1.open_eq
  | @trapNoMock cid fn recv σ e1 σ1 e2 σ2 L L2 h1 _ _ h2 _ _ _ ih1 ih2 =>
    have t1 := h1.tick_eq; have t2 := h2.tick_eq; have d1 := h1.depth_eq
    have i1 := ih1 hj
    have i2 := ih2 (by intro c h; have := hj c h; simp only [St.inc] at t1; omega)
    have te := St.tick_enter σ2 cid (E.tracing && E.filter fn && decide (σ.depth + 1 ≤ 1))
    simp only [Job.base, Job.own, St.inc, d1] at i1 i2 t1 ⊢
    rw [show ∀ x : Int, x + 1 - 1 = x by omega] at i1 i2
    have hj' : ∀ c, some cid = some c → c < σ1.tick := by intro c h; have := hj c h; omega
    exact i1.append (i2.append (Sub.entryEv _ _) (by omega) (by simp only [St.dec]; omega) hj' h2.open_eq)
      (by omega) (by simp only [St.dec]; omega) hj h1.open_eq
  | @trapMockP cid fn recv σ e1 σ1 e2 σ2 e3 σ3 L L2 m h1 _ _ h2 _ _ _ h3 ih1 ih2 ih3 =>
    have t1 := h1.tick_eq; have t2 := h2.tick_eq; have t3 := h3.tick_eq; have d1 := h1.depth_eq; have d2 := h2.depth_eq
    have i1 := ih1 hj
    have i2 := ih2 (by intro c h; have := hj c h; simp only [St.inc] at t1; omega)
    have i3 := ih3 (by intro c h; cases h)
    have te := St.tick_enter σ2 cid (E.tracing && E.filter fn && decide (σ.depth + 1 ≤ 1))
    simp only [Job.base, Job.own, St.inc, d1, d2, St.emit, St.enter_depth] at i1 i2 i3 t1 t3 ⊢
    rw [show ∀ x : Int, x + 1 - 1 = x by omega] at i1 i2
    have hc : cid < σ.tick := hj cid rfl
    have hj' : ∀ c, some cid = some c → c < σ1.tick := by intro c h; have := hj c h; omega
    have hj'' : ∀ c, some cid = some c → c < σ2.tick := by intro c h; have := hj c h; omega
    refine i1.append (i2.append ((Sub.entryEv (hi := σ2.tick) _ _).append (Sub.hook (i3.mono (lo' := σ2.tick) (hi' := σ3.tick + 1) ?_ ?_)
      rfl rfl (by simp) rfl rfl (by simp) ?_) (Nat.le_refl _) ?_ hj'' (openHooks_entryEv _ _ _)) ?_ ?_ hj' h2.open_eq)
      ?_ ?_ hj h1.open_eq
    all_goals (try simp only [St.dec]
               omega)
  | @trapMock cid fn recv σ e1 σ1 e2 σ2 e3 σ3 L L2 m h1 _ _ h2 _ _ _ h3 ih1 ih2 ih3 =>
    have t1 := h1.tick_eq; have t2 := h2.tick_eq; have t3 := h3.tick_eq; have d1 := h1.depth_eq; have d2 := h2.depth_eq
    have i1 := ih1 hj
    have i2 := ih2 (by intro c h; have := hj c h; simp only [St.inc] at t1; omega)
    have i3 := ih3 (by intro c h; cases h)
    have te := St.tick_enter σ2 cid (E.tracing && E.filter fn && decide (σ.depth + 1 ≤ 1))
    simp only [Job.base, Job.own, St.inc, d1, d2, St.emit, St.enter_depth] at i1 i2 i3 t1 t3 ⊢
    rw [show ∀ x : Int, x + 1 - 1 = x by omega] at i1 i2
    have hc : cid < σ.tick := hj cid rfl
    have hj' : ∀ c, some cid = some c → c < σ1.tick := by intro c h; have := hj c h; omega
    have hj'' : ∀ c, some cid = some c → c < σ2.tick := by intro c h; have := hj c h; omega
    refine i1.append (i2.append ((Sub.entryEv (hi := σ2.tick) _ _).append (Sub.hook (i3.mono (lo' := σ2.tick) (hi' := σ3.tick + 1) ?_ ?_)
      rfl rfl (by simp) rfl rfl (by simp) ?_) (Nat.le_refl _) ?_ hj'' (openHooks_entryEv _ _ _)) ?_ ?_ hj' h2.open_eq)
      ?_ ?_ hj h1.open_eq
    all_goals (try simp only [St.dec]
               omega)
  | hooksSkip _ _ _ ih => exact ih hj
  | hooksNoPre _ _ _ ih => exact ih hj
  | @hooksP cid gen recv h hs σ e σ' L _ _ h1 ih1 =>
    have t1 := h1.tick_eq
    have i1 := ih1 (by intro c h; cases h)
    have hc : cid < σ.tick := hj cid rfl
    simp only [Job.base, Job.own, St.emit] at i1 t1 ⊢
    refine Sub.hook (Sub.mono (lo := σ.tick + 1) (hi := σ'.tick) ?_ (by omega) (by omega)) rfl rfl (by simp) rfl rfl (by simp) hc
    rwa [show ∀ x : Int, x - 1 + 1 = x by omega]
  | @hooksStop cid gen recv h hs σ e σ' L _ _ h1 _ ih1 =>
    have t1 := h1.tick_eq
    have i1 := ih1 (by intro c h; cases h)
    have hc : cid < σ.tick := hj cid rfl
    simp only [Job.base, Job.own, St.emit] at i1 t1 ⊢
    have : (Ev.pre cid gen h.id σ.tick :: (e ++ [.preEnd cid gen h.id, .abort cid h.id])) =
      (Ev.pre cid gen h.id σ.tick :: (e ++ [.preEnd cid gen h.id])) ++ [.abort cid h.id] := by simp
    rw [this]
    refine Sub.snocs (Sub.hook (Sub.mono (lo := σ.tick + 1) (hi := σ'.tick) ?_ (by omega) (by omega)) rfl rfl (by simp) rfl rfl (by simp) hc)
      (by simp [Ev.cid]) (by simp) hc
    rwa [show ∀ x : Int, x - 1 + 1 = x by omega]
  | @hooksPre cid gen recv h hs σ e σ' e' σ'' L L' _ _ h1 _ h2 ih1 ih2 =>
    have t1 := h1.tick_eq; have t2 := h2.tick_eq; have d1 := h1.depth_eq
    have hc : cid < σ.tick := hj cid rfl
    simp only [St.emit] at t1 t2 d1
    have i1 := ih1 (by intro c h; cases h)
    have i2 := ih2 (by intro c h; cases h; simp only [St.emit]; omega)
    simp only [Job.base, Job.own, St.emit, d1] at i1 i2 ⊢
    have : (Ev.pre cid gen h.id σ.tick :: (e ++ (.preEnd cid gen h.id :: e'))) =
      (Ev.pre cid gen h.id σ.tick :: (e ++ [.preEnd cid gen h.id])) ++ e' := by simp
    rw [this]
    refine Sub.append (mid := σ'.tick + 1) (Sub.hook (Sub.mono (lo := σ.tick + 1) (hi := σ'.tick) ?_ (by omega) (by omega)) rfl rfl (by simp) rfl rfl (by simp) hc)
      i2 (by omega) (by omega) hj (open_hook rfl rfl rfl rfl h1.open_eq)
    rwa [show ∀ x : Int, x - 1 + 1 = x by omega]
  | postP h1 ih =>
    have i1 := ih hj
    simp only [Job.base, Job.own, St.inc] at i1 ⊢
    rwa [show ∀ x : Int, x + 1 - 1 = x by omega] at i1
  | postU h1 ih =>
    have i1 := ih hj
    simp only [Job.base, Job.own, St.inc] at i1 ⊢
    rwa [show ∀ x : Int, x + 1 - 1 = x by omega] at i1
  | postT h1 ih =>
    have t1 := h1.tick_eq
    have i1 := ih hj
    simp only [Job.base, Job.own, St.inc] at i1 t1 ⊢
    rw [show ∀ x : Int, x + 1 - 1 = x by omega] at i1
    exact Sub.snocs (i1.mono (Nat.le_refl _) (by simp only [St.dec, St.emit]; omega)) (by simp [Ev.cid]) (by simp) (hj _ rfl)
  | postsBad _ => exact Sub.own rfl (by simp)
  | @postsP cid c cs h σ e σ' _ _ h1 ih1 =>
    have t1 := h1.tick_eq
    have i1 := ih1 (by intro c h; cases h)
    have hc : cid < σ.tick := hj cid rfl
    simp only [Job.base, Job.own, St.emit] at i1 t1 ⊢
    refine Sub.hook (Sub.mono (lo := σ.tick + 1) (hi := σ'.tick) ?_ (by omega) (by omega)) rfl rfl (by simp) rfl rfl (by simp) hc
    rwa [show ∀ x : Int, x - 1 + 1 = x by omega]
  | @postsOk cid c cs h σ e σ' e' σ'' p _ _ h1 h2 ih1 ih2 =>
    have t1 := h1.tick_eq; have t2 := h2.tick_eq; have d1 := h1.depth_eq
    have hc : cid < σ.tick := hj cid rfl
    simp only [St.emit] at t1 t2 d1
    have i1 := ih1 (by intro c h; cases h)
    have i2 := ih2 (by intro c h; cases h; simp only [St.emit]; omega)
    simp only [Job.base, Job.own, St.emit, d1] at i1 i2 ⊢
    have : (Ev.post cid c.gen h.id c.data :: (e ++ (.postEnd cid c.gen h.id :: e'))) =
      (Ev.post cid c.gen h.id c.data :: (e ++ [.postEnd cid c.gen h.id])) ++ e' := by simp
    rw [this]
    refine Sub.append (mid := σ'.tick + 1) (Sub.hook (Sub.mono (lo := σ.tick + 1) (hi := σ'.tick) ?_ (by omega) (by omega)) rfl rfl (by simp) rfl rfl (by simp) hc)
      i2 (by omega) (by omega) hj (open_hook rfl rfl rfl rfl h1.open_eq)
    rwa [show ∀ x : Int, x - 1 + 1 = x by omega]

end Verif.Runtime.Exec
