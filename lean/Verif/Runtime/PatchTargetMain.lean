/-
Properties of `Verif.Runtime.PatchTarget` (C97).
-/
import Verif.Runtime.PatchTarget

namespace Verif.Runtime.PatchTarget

/-- What the events of a run outside of `Inspect` are. -/
def Fine (p : Prog) (g : G) : Ev → Prop
  | .entered c => (p.decl c.fn).instr = false ∨ verdict p g c = .body
  | .replaced id c => (p.decl c.fn).instr = true ∧ verdict p g c = .mock id
  | .effect _ => True

/-- What the events of a run inside of `Inspect` are. -/
def FineInsp (p : Prog) : Ev → Prop
  | .entered c => (p.decl c.fn).instr = false
  | .replaced _ _ => False
  | .effect _ => True

theorem runActs_inv (I : G → Prop) (P : Ev → Prop) (k : G → Call → Option (G × List Ev × Bool))
    (hk : ∀ g c r, I g → k g c = some r → I r.1 ∧ ∀ e ∈ r.2.1, P e) (hP : ∀ e, P (.effect e)) :
    ∀ as g r, I g → runActs k g as = some r → I r.1 ∧ ∀ e ∈ r.2.1, P e := by
  intro as
  induction as with
  | nil =>
    intro g r hg h
    rw [runActs] at h
    cases h
    exact ⟨hg, fun e he => absurd he (by simp)⟩
  | cons a as ih =>
    intro g r hg h
    cases a with
    | effect e =>
      rw [runActs] at h
      obtain ⟨s, hs, rfl⟩ := Option.map_eq_some_iff.1 h
      obtain ⟨h1, h2⟩ := ih g s hg hs
      refine ⟨h1, fun e' he => ?_⟩
      rcases List.mem_cons.1 he with he | he
      · rw [he]; exact hP e
      · exact h2 e' he
    | panics =>
      rw [runActs] at h
      cases h
      exact ⟨hg, fun e he => absurd he (by simp)⟩
    | call c =>
      rw [runActs] at h
      obtain ⟨s, hs, h⟩ := Option.bind_eq_some_iff.1 h
      obtain ⟨h1, h2⟩ := hk g c s hg hs
      by_cases hp : s.2.2 = true
      · rw [if_pos hp] at h
        cases h
        exact ⟨h1, h2⟩
      · rw [if_neg hp] at h
        obtain ⟨u, hu, rfl⟩ := Option.map_eq_some_iff.1 h
        obtain ⟨h3, h4⟩ := ih s.1 u h1 hu
        refine ⟨h3, fun e he => ?_⟩
        rcases List.mem_append.1 he with he | he
        · exact h2 e he
        · exact h4 e he

theorem runCall_fine (p : Prog) (g : G) (hi : g.insp = false) :
    ∀ n g' c r, g' = g → runCall n p g' c = some r → r.1 = g ∧ ∀ e ∈ r.2.1, Fine p g e := by
  intro n
  induction n with
  | zero => intro g' c r _ h; rw [runCall] at h; cases h
  | succ n ih =>
    intro g' c r hg h
    subst hg
    have hbody : ∀ r, (runActs (runCall n p) g' (p.decl c.fn).acts).map
        (fun r => (r.1, Ev.entered c :: r.2.1, r.2.2)) = some r → Fine p g' (.entered c) →
        r.1 = g' ∧ ∀ e ∈ r.2.1, Fine p g' e := by
      intro r hr hf
      obtain ⟨s, hs, rfl⟩ := Option.map_eq_some_iff.1 hr
      obtain ⟨h1, h2⟩ := runActs_inv (· = g') (Fine p g') (runCall n p) (fun a c r => ih a c r) (fun _ => trivial) _ g' s rfl hs
      refine ⟨h1, fun e he => ?_⟩
      rcases List.mem_cons.1 he with he | he
      · rw [he]; exact hf
      · exact h2 e he
    rw [runCall] at h
    by_cases hins : (p.decl c.fn).instr = true
    · rw [if_pos hins, hi] at h
      rw [if_neg (by decide)] at h
      cases hv : verdict p g' c with
      | body =>
        rw [hv] at h
        exact hbody r h (Or.inr hv)
      | mock id =>
        rw [hv] at h
        cases h
        refine ⟨rfl, fun e he => ?_⟩
        have := List.mem_singleton.1 he
        rw [this]
        exact ⟨hins, hv⟩
      | crash =>
        rw [hv] at h
        cases h
        exact ⟨rfl, fun e he => absurd he (by simp)⟩
    · rw [if_neg hins] at h
      exact hbody r h (Or.inl (by simpa using hins))

theorem runCall_insp (p : Prog) (ms : List Hook) :
    ∀ n g c r, (g.insp = true ∧ g.mocks = ms) → runCall n p g c = some r →
      (r.1.insp = true ∧ r.1.mocks = ms) ∧ ∀ e ∈ r.2.1, FineInsp p e := by
  intro n
  induction n with
  | zero => intro g c r _ h; rw [runCall] at h; cases h
  | succ n ih =>
    intro g c r hg h
    rw [runCall] at h
    by_cases hins : (p.decl c.fn).instr = true
    · rw [if_pos hins, if_pos hg.1] at h
      cases h
      exact ⟨hg, fun e he => absurd he (by simp)⟩
    · rw [if_neg hins] at h
      obtain ⟨s, hs, rfl⟩ := Option.map_eq_some_iff.1 h
      obtain ⟨h1, h2⟩ := runActs_inv (fun g => g.insp = true ∧ g.mocks = ms) (FineInsp p) (runCall n p)
        (fun a c r => ih a c r) (fun _ => trivial) _ g s hg hs
      refine ⟨h1, fun e he => ?_⟩
      rcases List.mem_cons.1 he with he | he
      · rw [he]
        show (p.decl c.fn).instr = false
        simpa using hins
      · exact h2 e he

/-! ### What asking for a mock does to the state -/

/-- **C97.** However `mock.Patch` ends, whatever it ran: functions are trapped as usual afterwards (nothing is left in the
    inspecting state), and the mocks are those from before, with one more at the end exactly if it succeeded. -/
theorem C97_state (n : Nat) (p : Prog) (g : G) (v : FnVal) (id : Nat) (hi : g.insp = false)
    (g' : G) (evs : List Ev) (o : Out) (h : patch n p g v id = some (g', evs, o)) :
    g'.insp = false ∧ (o = .ok → ∃ pc want, g'.mocks = g.mocks ++ [⟨pc, want, id⟩]) ∧ (o ≠ .ok → g'.mocks = g.mocks) := by
  rw [patch] at h
  obtain ⟨r, hr, h⟩ := Option.map_eq_some_iff.1 h
  have hr' : r.1.insp = false ∧ r.1.mocks = g.mocks := by
    rw [inspect] at hr
    by_cases hk : known p v = false
    · rw [if_pos hk] at hr; cases hr; exact ⟨hi, rfl⟩
    · rw [if_neg hk] at hr
      cases hp : probe v with
      | none => rw [hp] at hr; cases hr; exact ⟨hi, rfl⟩
      | some q =>
        obtain ⟨c, need⟩ := q
        rw [hp] at hr
        dsimp only at hr
        obtain ⟨s, hs, hr⟩ := Option.map_eq_some_iff.1 hr
        obtain ⟨⟨-, hm⟩, -⟩ := runCall_insp p g.mocks n { g with insp := true, seen := [] } c s ⟨rfl, rfl⟩ hs
        by_cases hc : s.2.2 = true
        · rw [if_pos hc] at hr; subst hr; exact ⟨rfl, hm⟩
        · rw [if_neg hc] at hr
          by_cases hn : (need && (if need = true then (s.1.seen.getLast?.getD (0, none)).2 else none).isNone) = true
          · rw [if_pos hn] at hr; subst hr; exact ⟨rfl, hm⟩
          · rw [if_neg hn] at hr; subst hr; exact ⟨rfl, hm⟩
  obtain ⟨r1, r2, r3, r4⟩ := r
  dsimp only at h hr'
  cases r3 with
  | ok =>
    dsimp only at h
    cases h
    exact ⟨hr'.1, fun _ => ⟨r4.1, r4.2, by rw [hr'.2]⟩, fun h => absurd rfl h⟩
  | notInstrumented => dsimp only at h; cases h; exact ⟨hr'.1, (fun h => (by cases h)), fun _ => hr'.2⟩
  | noInstance => dsimp only at h; cases h; exact ⟨hr'.1, (fun h => (by cases h)), fun _ => hr'.2⟩
  | crashed => dsimp only at h; cases h; exact ⟨hr'.1, (fun h => (by cases h)), fun _ => hr'.2⟩

/-- **C97.** A function that xgo has not instrumented, and a method of an interface it does not know, is refused with a panic;
    no code of the program has run and nothing has changed. -/
theorem C97_refused (n : Nat) (p : Prog) (g : G) (v : FnVal) (id : Nat) :
    ((∃ f, (p.decl f).instr = false ∧ (v = .func f ∨ (∃ a r, v = .bound f a r) ∨ ∃ a, v = .inst f a)) ∨
      ∃ i, p.intfKnown i = false ∧ (v = .intfExpr i ∨ ∃ f a r, v = .viaIntf i f a r)) →
    patch n p g v id = some (g, [], .notInstrumented) := by
  intro h
  have hk : known p v = false := by
    rcases h with ⟨f, hf, h | ⟨a, r, h⟩ | ⟨a, h⟩⟩ | ⟨i, hi, h | ⟨f, a, r, h⟩⟩ <;> subst h
    · show ((p.decl f).instr && _) = false
      rw [hf]; rfl
    · exact hf
    · exact hf
    · exact hi
    · exact hi
  rw [patch, inspect, if_pos hk]
  rfl

/-! ### What is caught -/

/-- The values for which the code that a call of them enters is instrumented: what `mock.Patch` is made for. -/
def Direct (p : Prog) : FnVal → Prop
  | .func f => (p.decl f).instr = true ∧ (p.decl f).generic = false
  | .bound f _ _ => (p.decl f).instr = true
  | .inst f _ => (p.decl f).instr = true
  | .viaIntf i f _ _ => p.intfKnown i = true ∧ (p.decl f).instr = true
  | .intfExpr _ => False

/-- **C97.** Asking for a mock of a function, of a method value, of an instance of a generic function, or of a method reached
    through an interface, all instrumented, succeeds and runs none of the program's code. -/
theorem C97_quiet (n : Nat) (p : Prog) (g : G) (v : FnVal) (id : Nat) (hd : Direct p v) :
    ∃ g', patch (n + 1) p g v id = some (g', [], .ok) := by
  cases v with
  | func f =>
    have hk : known p (.func f) = true := by
      show ((p.decl f).instr && !(p.decl f).generic) = true
      rw [hd.1, hd.2]; rfl
    rw [patch, inspect, if_neg (by rw [hk]; decide)]
    exact ⟨_, rfl⟩
  | bound f a r =>
    have hk : known p (.bound f a r) = true := hd
    rw [patch, inspect, if_neg (by rw [hk]; decide)]
    simp only [probe, runCall]
    rw [if_pos (show (p.decl f).instr = true from hd)]
    simp
  | inst f a =>
    have hk : known p (.inst f a) = true := hd
    rw [patch, inspect, if_neg (by rw [hk]; decide)]
    simp only [probe, runCall]
    rw [if_pos (show (p.decl f).instr = true from hd)]
    simp
  | viaIntf i f a r =>
    have hk : known p (.viaIntf i f a r) = true := hd.1
    rw [patch, inspect, if_neg (by rw [hk]; decide)]
    simp only [probe, runCall]
    rw [if_pos hd.2]
    simp
  | intfExpr i => exact absurd hd (fun h => h)

/-- The hook that is pushed. -/
theorem patch_hook (n : Nat) (p : Prog) (g : G) (v : FnVal) (id : Nat) (hd : Direct p v) (hi : g.insp = false)
    (g' : G) (evs : List Ev) (o : Out) (h : patch n p g v id = some (g', evs, o)) :
    g'.insp = false ∧ ∃ f, fnOf v = some f ∧ g'.mocks = g.mocks ++ [⟨p.entry f (targsOf v), recvOf v, id⟩] := by
  cases n with
  | zero =>
    cases v with
    | func f =>
      have hk : known p (.func f) = true := by
        show ((p.decl f).instr && !(p.decl f).generic) = true
        rw [hd.1, hd.2]; rfl
      rw [patch, inspect, if_neg (by rw [hk]; decide)] at h
      cases h
      exact ⟨hi, f, rfl, rfl⟩
    | bound f a r =>
      have hk : known p (.bound f a r) = true := hd
      rw [patch, inspect, if_neg (by rw [hk]; decide)] at h
      simp [probe, runCall] at h
    | inst f a =>
      have hk : known p (.inst f a) = true := hd
      rw [patch, inspect, if_neg (by rw [hk]; decide)] at h
      simp [probe, runCall] at h
    | viaIntf i f a r =>
      have hk : known p (.viaIntf i f a r) = true := hd.1
      rw [patch, inspect, if_neg (by rw [hk]; decide)] at h
      simp [probe, runCall] at h
    | intfExpr i => exact absurd hd (fun h => h)
  | succ n =>
    cases v with
    | func f =>
      have hk : known p (.func f) = true := by
        show ((p.decl f).instr && !(p.decl f).generic) = true
        rw [hd.1, hd.2]; rfl
      rw [patch, inspect, if_neg (by rw [hk]; decide)] at h
      cases h
      exact ⟨hi, f, rfl, rfl⟩
    | bound f a r =>
      have hk : known p (.bound f a r) = true := hd
      rw [patch, inspect, if_neg (by rw [hk]; decide)] at h
      simp only [probe, runCall] at h
      rw [if_pos (show (p.decl f).instr = true from hd)] at h
      simp at h
      exact ⟨by rw [← h.1], f, rfl, by rw [← h.1]; rfl⟩
    | inst f a =>
      have hk : known p (.inst f a) = true := hd
      rw [patch, inspect, if_neg (by rw [hk]; decide)] at h
      simp only [probe, runCall] at h
      rw [if_pos (show (p.decl f).instr = true from hd)] at h
      simp at h
      exact ⟨by rw [← h.1], f, rfl, by rw [← h.1]; rfl⟩
    | viaIntf i f a r =>
      have hk : known p (.viaIntf i f a r) = true := hd.1
      rw [patch, inspect, if_neg (by rw [hk]; decide)] at h
      simp only [probe, runCall] at h
      rw [if_pos hd.2] at h
      simp at h
      exact ⟨by rw [← h.1], f, rfl, by rw [← h.1]; rfl⟩
    | intfExpr i => exact absurd hd (fun h => h)

/-- No other instance of the function shares its code. -/
def OwnCode (p : Prog) (v : FnVal) : Prop :=
  ∀ f, fnOf v = some f → (p.decl f).generic = true → ∀ a, p.entry f a = p.entry f (targsOf v) → a = targsOf v

theorem verdict_last (p : Prog) (g : G) (ms : List Hook) (h : Hook) (hm : g.mocks = ms ++ [h]) (c : Call)
    (hpc : h.pc = p.entry c.fn c.targs) :
    (g.mocks.filter fun h => h.pc = p.entry c.fn c.targs).getLast? = some h := by
  rw [hm, List.filter_append]
  have : (List.filter (fun h => decide (h.pc = p.entry c.fn c.targs)) [h]) = [h] := by
    simp [hpc]
  rw [this, List.getLast?_concat]

theorem verdict_other (p : Prog) (g : G) (ms : List Hook) (h : Hook) (hm : g.mocks = ms ++ [h]) (c : Call)
    (hpc : h.pc ≠ p.entry c.fn c.targs) :
    verdict p g c = verdict p { g with mocks := ms } c := by
  unfold verdict
  rw [hm, List.filter_append]
  have : (List.filter (fun h => decide (h.pc = p.entry c.fn c.targs)) [h]) = [] := by
    simp [hpc]
  rw [this, List.append_nil]

theorem verdict_mock_mem (p : Prog) (g : G) (c : Call) (id : Nat) (h : verdict p g c = .mock id) :
    ∃ k ∈ g.mocks, k.id = id := by
  unfold verdict at h
  cases hl : (g.mocks.filter fun h => h.pc = p.entry c.fn c.targs).getLast? with
  | none => rw [hl] at h; cases h
  | some k =>
    rw [hl] at h
    dsimp only at h
    have hk : k ∈ g.mocks := (List.mem_filter.1 (List.mem_of_getLast? hl)).1
    cases hw : k.want with
    | none =>
      rw [hw] at h
      dsimp only at h
      exact ⟨k, hk, Verdict.mock.inj h⟩
    | some w =>
      rw [hw] at h
      dsimp only at h
      cases hr : c.recv with
      | none => rw [hr] at h; cases h
      | some r =>
        rw [hr] at h
        dsimp only at h
        by_cases h1 : p.comparable w = false ∨ p.comparable r = false
        · rw [if_pos h1] at h; cases h
        · rw [if_neg h1] at h
          by_cases h2 : w = r
          · rw [if_pos h2] at h; exact ⟨k, hk, Verdict.mock.inj h⟩
          · rw [if_neg h2] at h; cases h

/-- Whether the hook's key is the entry point of a call. -/
theorem key_iff (p : Prog) (hl : Linked p) (v : FnVal) (f : Nat) (hf : fnOf v = some f) (ho : OwnCode p v) (c : Call) :
    p.entry f (targsOf v) = p.entry c.fn c.targs ↔ c.fn = f ∧ ((p.decl f).generic = true → c.targs = targsOf v) := by
  constructor
  · intro h
    have hfn : f = c.fn := hl.functions _ _ _ _ h
    refine ⟨hfn.symm, fun hg => ho f hf hg c.targs ?_⟩
    rw [h, hfn]
  · rintro ⟨h1, h2⟩
    rw [h1]
    cases hg : (p.decl f).generic with
    | true => rw [h2 hg]
    | false => exact hl.plain f _ _ hg

theorem named_iff (v : FnVal) (f : Nat) (hf : fnOf v = some f) (c : Call) (p : Prog) (hd : Direct p v) :
    Named p v c ↔ (c.fn = f ∧ ((p.decl f).generic = true → c.targs = targsOf v)) ∧
      (∀ r, recvOf v = some r → c.recv = some r) := by
  cases v with
  | func g =>
    cases hf
    constructor
    · intro h
      exact ⟨⟨h, fun hg => by rw [hd.2] at hg; cases hg⟩, (fun r h => (by cases h))⟩
    · intro h; exact h.1.1
  | bound g a r =>
    cases hf
    constructor
    · intro h; exact ⟨⟨h.1, h.2.1⟩, fun r' hr => by cases hr; exact h.2.2⟩
    · intro h; exact ⟨h.1.1, h.1.2, h.2 r rfl⟩
  | viaIntf i g a r =>
    cases hf
    constructor
    · intro h; exact ⟨⟨h.1, h.2.1⟩, fun r' hr => by cases hr; exact h.2.2⟩
    · intro h; exact ⟨h.1.1, h.1.2, h.2 r rfl⟩
  | inst g a =>
    cases hf
    constructor
    · intro h; exact ⟨h, (fun r h => (by cases h))⟩
    · intro h; exact h.1
  | intfExpr i => cases hf

/-- **C97.** After `mock.Patch(v, …)` on code that is instrumented, in any program, with any mocks set before: a call that `v`
    names is replaced by the mock, and by it alone: nothing else happens. -/
theorem C97_catches_partial (n m : Nat) (p : Prog) (hl : Linked p) (g : G) (v : FnVal) (id : Nat) (hd : Direct p v)
    (hi : g.insp = false) (ho : OwnCode p v) (g' : G) (evs : List Ev) (o : Out) (h : patch n p g v id = some (g', evs, o))
    (hc : ∀ r, recvOf v = some r → p.comparable r = true) (c : Call) (hn : Named p v c) :
    runCall (m + 1) p g' c = some (g', [.replaced id c], false) := by
  obtain ⟨hi', f, hf, hm⟩ := patch_hook n p g v id hd hi g' evs o h
  obtain ⟨h1, h2⟩ := (named_iff v f hf c p hd).1 hn
  have hpc := (key_iff p hl v f hf ho c).2 h1
  have hins : (p.decl c.fn).instr = true := by
    rw [h1.1]
    cases v with
    | func g => cases hf; exact hd.1
    | bound g a r => cases hf; exact hd
    | viaIntf i g a r => cases hf; exact hd.2
    | inst g a => cases hf; exact hd
    | intfExpr i => cases hf
  have hv : verdict p g' c = .mock id := by
    unfold verdict
    rw [verdict_last p g' _ _ hm c hpc]
    dsimp only
    cases hr : recvOf v with
    | none => rfl
    | some r =>
      dsimp only
      rw [h2 r hr]
      dsimp only
      rw [if_neg (by rw [hc r hr]; decide), if_pos rfl]
  rw [runCall, if_pos hins, hi', if_neg (by decide), hv]

/-- **C97.** After `mock.Patch(v, …)` on code that is instrumented, in every run of every program, however deep: the new mock
    replaces only calls that `v` names, and the body of a function that `v` names is never entered by such a call. -/
theorem C97_only_partial (n m : Nat) (p : Prog) (hl : Linked p) (g : G) (v : FnVal) (id : Nat) (hd : Direct p v)
    (hi : g.insp = false) (ho : OwnCode p v) (g' : G) (evs : List Ev) (o : Out) (h : patch n p g v id = some (g', evs, o))
    (hfresh : ∀ k ∈ g.mocks, k.id ≠ id) (c : Call) (r : G × List Ev × Bool)
    (hr : runCall m p g' c = some r) :
    r.1 = g' ∧ (∀ d, Ev.replaced id d ∈ r.2.1 → Named p v d) ∧ (∀ d, Ev.entered d ∈ r.2.1 → ¬ Named p v d) := by
  obtain ⟨hi', f, hf, hm⟩ := patch_hook n p g v id hd hi g' evs o h
  obtain ⟨h1, h2⟩ := runCall_fine p g' hi' m g' c r rfl hr
  refine ⟨h1, fun d hdm => ?_, fun d hdm hn => ?_⟩
  · have hv := (h2 _ hdm).2
    refine (named_iff v f hf d p hd).2 ?_
    by_cases hpc : p.entry f (targsOf v) = p.entry d.fn d.targs
    · refine ⟨(key_iff p hl v f hf ho d).1 hpc, fun w hw => ?_⟩
      unfold verdict at hv
      rw [verdict_last p g' _ _ hm d hpc] at hv
      dsimp only at hv
      rw [hw] at hv
      dsimp only at hv
      cases hdr : d.recv with
      | none => rw [hdr] at hv; cases hv
      | some x =>
        rw [hdr] at hv
        dsimp only at hv
        by_cases ha : p.comparable w = false ∨ p.comparable x = false
        · rw [if_pos ha] at hv; cases hv
        · rw [if_neg ha] at hv
          by_cases hb : w = x
          · rw [hb]
          · rw [if_neg hb] at hv; cases hv
    · rw [verdict_other p g' _ _ hm d hpc] at hv
      obtain ⟨k, hk, hid⟩ := verdict_mock_mem p _ d id hv
      exact absurd hid (hfresh k hk)
  · obtain ⟨ha, hb⟩ := (named_iff v f hf d p hd).1 hn
    have hpc := (key_iff p hl v f hf ho d).2 ha
    have hins : (p.decl d.fn).instr = true := by
      rw [ha.1]
      cases v with
      | func g => cases hf; exact hd.1
      | bound g a r => cases hf; exact hd
      | viaIntf i g a r => cases hf; exact hd.2
      | inst g a => cases hf; exact hd
      | intfExpr i => cases hf
    rcases h2 _ hdm with hx | hv
    · rw [hins] at hx; cases hx
    · unfold verdict at hv
      rw [verdict_last p g' _ _ hm d hpc] at hv
      dsimp only at hv
      cases hw : recvOf v with
      | none => rw [hw] at hv; cases hv
      | some w =>
        rw [hw] at hv
        dsimp only at hv
        rw [hb w hw] at hv
        dsimp only at hv
        by_cases hz : p.comparable w = false ∨ p.comparable w = false
        · rw [if_pos hz] at hv; cases hv
        · rw [if_neg hz, if_pos rfl] at hv; cases hv

/-- **C97.** What is decided for calls of other functions, and of instances with other code, is what was decided before. -/
theorem C97_others (n : Nat) (p : Prog) (hl : Linked p) (g : G) (v : FnVal) (id : Nat) (hd : Direct p v)
    (hi : g.insp = false) (g' : G) (evs : List Ev) (o : Out) (h : patch n p g v id = some (g', evs, o))
    (c : Call) (hc : fnOf v ≠ some c.fn ∨ p.entry c.fn c.targs ≠ p.entry c.fn (targsOf v)) : verdict p g' c = verdict p g c := by
  obtain ⟨hi', f, hf, hm⟩ := patch_hook n p g v id hd hi g' evs o h
  have hne : p.entry f (targsOf v) ≠ p.entry c.fn c.targs := by
    intro he
    have hfc : f = c.fn := hl.functions _ _ _ _ he
    rcases hc with hc | hc
    · exact hc (by rw [hf, hfc])
    · exact hc (by rw [← he, hfc])
  rw [verdict_other p g' _ _ hm c hne]
  rfl

/-! ### Where the code falls short -/

/-- **C97.** A method reached through an interface whose code is not instrumented: `mock.Patch(v.M, …)` calls it for real, with zero
    arguments, every time it comes back at all. -/
theorem C97_interface_runs (n : Nat) (p : Prog) (g : G) (i f a r id : Nat) (hk : p.intfKnown i = true)
    (hf : (p.decl f).instr = false) (g' : G) (evs : List Ev) (o : Out)
    (h : patch n p g (.viaIntf i f a r) id = some (g', evs, o)) : Ev.entered ⟨f, a, some r⟩ ∈ evs := by
  cases n with
  | zero =>
    rw [patch, inspect, if_neg (show ¬ known p (.viaIntf i f a r) = false by rw [known, hk]; decide)] at h
    simp [probe, runCall] at h
  | succ n =>
    rw [patch, inspect, if_neg (show ¬ known p (.viaIntf i f a r) = false by rw [known, hk]; decide)] at h
    simp only [probe, runCall] at h
    rw [if_neg (by rw [hf]; decide)] at h
    obtain ⟨x, hx, h⟩ := Option.map_eq_some_iff.1 h
    obtain ⟨y, hy, rfl⟩ := Option.map_eq_some_iff.1 hx
    obtain ⟨z, hz, rfl⟩ := Option.map_eq_some_iff.1 hy
    have key : ∀ (q : G × List Ev × Out × Nat × Option Nat), q.2.1 = Ev.entered ⟨f, a, some r⟩ :: z.2.1 →
        (match q.2.2.1 with
          | .ok => (({ q.1 with mocks := q.1.mocks ++ [⟨q.2.2.2.1, q.2.2.2.2, id⟩] } : G), q.2.1, Out.ok)
          | o => (q.1, q.2.1, o)) = (g', evs, o) → Ev.entered ⟨f, a, some r⟩ ∈ evs := by
      intro q hq he
      obtain ⟨q1, q2, q3, q4⟩ := q
      dsimp only at hq he
      have : q2 = evs := by
        cases q3 <;> exact congrArg (fun t => t.2.1) he
      rw [← this, hq]
      exact List.mem_cons_self
    refine key _ ?_ h
    dsimp only
    split
    · rfl
    · split <;> first | rfl | (split <;> rfl)

/-- **C97.** A method expression of an interface type, `mock.Patch(I.M, …)`: it succeeds, and the mock never replaces anything, in
    any run of any program. -/
theorem C97_interface_expr (n m : Nat) (p : Prog) (hl : Linked p) (g : G) (i id : Nat) (hk : p.intfKnown i = true)
    (hi : g.insp = false) (hfresh : ∀ k ∈ g.mocks, k.id ≠ id) :
    ∃ g', patch n p g (.intfExpr i) id = some (g', [], .ok) ∧
      ∀ c r, runCall m p g' c = some r → ∀ d, Ev.replaced id d ∉ r.2.1 := by
  have hp : patch n p g (.intfExpr i) id = some ({ g with mocks := g.mocks ++ [⟨p.wrap i, none, id⟩] }, [], .ok) := by
    rw [patch, inspect, if_neg (show ¬ known p (.intfExpr i) = false by rw [known, hk]; decide)]
    rfl
  refine ⟨_, hp, fun c r hr d hd => ?_⟩
  obtain ⟨-, h2⟩ := runCall_fine p { g with mocks := g.mocks ++ [⟨p.wrap i, none, id⟩] } hi m _ c r rfl hr
  have hv := (h2 _ hd).2
  rw [verdict_other p _ g.mocks _ rfl d (hl.wrappers i d.fn d.targs)] at hv
  obtain ⟨k, hk, hid⟩ := verdict_mock_mem p _ d id hv
  exact hfresh k hk hid

/-- **C97.** A method value whose receiver cannot be compared with `==` (a struct holding a slice, a map type): `mock.Patch`
    succeeds, and from then on every call of the method on such a receiver panics instead of running either body. -/
theorem C97_uncomparable (n m : Nat) (p : Prog) (g : G) (f a r id : Nat) (hd : (p.decl f).instr = true)
    (hi : g.insp = false) (hu : p.comparable r = false) :
    ∃ g', patch (n + 1) p g (.bound f a r) id = some (g', [], .ok) ∧
      ∀ r', runCall (m + 1) p g' ⟨f, a, some r'⟩ = some (g', [], true) := by
  obtain ⟨g', hp⟩ := C97_quiet n p g (.bound f a r) id hd
  obtain ⟨hi', f', hf', hm⟩ := patch_hook (n + 1) p g (.bound f a r) id hd hi g' [] .ok hp
  cases hf'
  refine ⟨g', hp, fun r' => ?_⟩
  have hv : verdict p g' ⟨f, a, some r'⟩ = .crash := by
    unfold verdict
    rw [verdict_last p g' _ _ hm _ rfl]
    dsimp only [recvOf]
    rw [if_pos (Or.inl hu)]
  rw [runCall, if_pos hd, hi', if_neg (by decide), hv]

/-! ### A program -/

/-- 1 `Save`, a function; 2 `(*Store).Put`, a method; 3 `ToString[T]`; 4 `(*lib.Conn).Close`, in a module that is not
    instrumented: it closes the connection (effect 7) and tells the store; 5 `Main`. Interface 0 is known. The types 11 and 12 are pointer
    types: they share code. -/
def sample : Prog where
  decl := fun f => match f with
    | 1 => { instr := true, acts := [.effect 1] }
    | 2 => { instr := true, acts := [.effect 2, .call ⟨1, 0, none⟩] }
    | 3 => { instr := true, generic := true, acts := [.effect 3] }
    | 4 => { instr := false, acts := [.effect 7, .call ⟨2, 0, some 50⟩] }
    | 5 => { instr := true, acts := [.call ⟨1, 0, none⟩, .call ⟨2, 0, some 50⟩, .call ⟨2, 0, some 51⟩, .call ⟨3, 10, none⟩, .call ⟨3, 11, none⟩, .call ⟨3, 12, none⟩] }
    | _ => { instr := false }
  entry := fun f a => if f = 3 then (if a = 12 then 3 * 11 + 1 else 3 * a + 1) else 3 * f + 3
  wrap := fun i => 3 * i + 2
  intfKnown := fun i => i = 0
  comparable := fun _ => true

/-- **C97.** The mock of the function catches the calls made from inside other functions too, that of a method value only its
    receiver's. -/
example : (patch 9 sample {} (.func 1) 100).bind (fun r => (runCall 9 sample r.1 ⟨5, 0, none⟩).map (·.2.1)) =
      some [.entered ⟨5, 0, none⟩, .replaced 100 ⟨1, 0, none⟩, .entered ⟨2, 0, some 50⟩, .effect 2, .replaced 100 ⟨1, 0, none⟩, .entered ⟨2, 0, some 51⟩, .effect 2, .replaced 100 ⟨1, 0, none⟩, .entered ⟨3, 10, none⟩, .effect 3, .entered ⟨3, 11, none⟩, .effect 3, .entered ⟨3, 12, none⟩, .effect 3] ∧
    (patch 9 sample {} (.bound 2 0 51) 100).bind (fun r => (runCall 9 sample r.1 ⟨5, 0, none⟩).map (·.2.1)) =
      some [.entered ⟨5, 0, none⟩, .entered ⟨1, 0, none⟩, .effect 1, .entered ⟨2, 0, some 50⟩, .effect 2, .entered ⟨1, 0, none⟩, .effect 1, .replaced 100 ⟨2, 0, some 51⟩, .entered ⟨3, 10, none⟩, .effect 3, .entered ⟨3, 11, none⟩, .effect 3, .entered ⟨3, 12, none⟩, .effect 3] := by
  decide +kernel

/-- **C97.** Instances of a generic function for pointer types: `mock.Patch(ToString[*A], …)` also replaces `ToString[*B]`, but not
    `ToString[int]`. -/
theorem C97_instances_wrong :
    (patch 9 sample {} (.inst 3 11) 100).bind (fun r => (runCall 9 sample r.1 ⟨3, 12, none⟩).map (·.2.1)) =
      some [.replaced 100 ⟨3, 12, none⟩] ∧ ¬ Named sample (.inst 3 11) ⟨3, 12, none⟩ ∧
    (patch 9 sample {} (.inst 3 11) 100).bind (fun r => (runCall 9 sample r.1 ⟨3, 10, none⟩).map (·.2.1)) =
      some [.entered ⟨3, 10, none⟩, .effect 3] := by
  refine ⟨by decide +kernel, ?_, by decide +kernel⟩
  intro h
  exact absurd (h.2 rfl) (by decide)

/-- **C97.** `mock.Patch(c.Close, …)` where `c` holds a connection of a module that is not instrumented: the connection is closed, and
    the mock, without a word, is set on the store's `Put`, which `Close` happens to call. -/
theorem C97_interface_wrong :
    (patch 9 sample {} (.viaIntf 0 4 0 60) 100).map (·.2) = some ([.entered ⟨4, 0, some 60⟩, .effect 7], .ok) ∧
    (patch 9 sample {} (.viaIntf 0 4 0 60) 100).bind (fun r => (runCall 9 sample r.1 ⟨4, 0, some 60⟩).map (·.2.1)) =
      some [.entered ⟨4, 0, some 60⟩, .effect 7, .replaced 100 ⟨2, 0, some 50⟩] := by
  decide +kernel

theorem sample_linked : Linked sample where
  functions := by
    intro f a g b h
    simp only [sample] at h
    by_cases h3 : f = 3
    · by_cases h4 : g = 3
      · rw [h3, h4]
      · rw [if_pos h3, if_neg h4] at h
        split at h <;> omega
    · rw [if_neg h3] at h
      by_cases h4 : g = 3
      · rw [if_pos h4] at h
        split at h <;> omega
      · rw [if_neg h4] at h
        omega
  plain := by
    intro f a b h
    simp only [sample]
    by_cases h3 : f = 3
    · subst h3; exact absurd h (by decide)
    · rw [if_neg h3, if_neg h3]
  wrappers := by
    intro i f a h
    simp only [sample] at h
    by_cases h3 : f = 3
    · rw [if_pos h3] at h
      split at h <;> omega
    · rw [if_neg h3] at h; omega
  nonzero := by
    intro f a h
    simp only [sample] at h
    by_cases h3 : f = 3
    · rw [if_pos h3] at h
      split at h <;> omega
    · rw [if_neg h3] at h; omega

/-- The hypotheses of the theorems are met: by a method value, through an interface; by `Save`; by `ToString[int]`, whose code no
    other instance shares. -/
example : Linked sample ∧ Direct sample (.viaIntf 0 2 0 50) ∧ OwnCode sample (.viaIntf 0 2 0 50) ∧ Direct sample (.func 1) ∧
    OwnCode sample (.func 1) ∧ Direct sample (.inst 3 10) ∧ OwnCode sample (.inst 3 10) := by
  refine ⟨sample_linked, ⟨rfl, rfl⟩, ?_, ⟨rfl, rfl⟩, ?_, rfl, ?_⟩
  · intro f hf hg; cases hf; exact absurd hg (by decide)
  · intro f hf hg; cases hf; exact absurd hg (by decide)
  · intro f hf _ a h
    cases hf
    simp only [sample, targsOf, if_true] at h
    show a = 10
    split at h
    · exact absurd h (by decide)
    · rw [if_neg (by decide)] at h; omega

/-! ### By name -/

/-- **C97.** By name, for a function that is not generic: the same as with the function itself; what is not instrumented is
    refused. -/
theorem C97_by_name_partial (n : Nat) (p : Prog) (g : G) (f id : Nat) (hg : (p.decl f).generic = false) :
    patch n p g (.func f) id = some ((patchByName p g f id).1, [], (patchByName p g f id).2) := by
  cases hi : (p.decl f).instr with
  | true =>
    rw [patchByName, if_pos hi, patch, inspect, if_neg (show ¬ known p (.func f) = false by rw [known, hi, hg]; decide), hg]
    rfl
  | false =>
    rw [patchByName, if_neg (by rw [hi]; decide)]
    exact C97_refused n p g _ id (Or.inl ⟨f, hi, Or.inl rfl⟩)

/-- **C97.** By name, for a generic function: it succeeds, and the mock never replaces anything, in any run of any program. -/
theorem C97_by_name_generic (m : Nat) (p : Prog) (hl : Linked p) (g : G) (f id : Nat) (hins : (p.decl f).instr = true)
    (hg : (p.decl f).generic = true) (hi : g.insp = false) (hfresh : ∀ k ∈ g.mocks, k.id ≠ id) :
    (patchByName p g f id).2 = .ok ∧
      ∀ c r, runCall m p (patchByName p g f id).1 c = some r → ∀ d, Ev.replaced id d ∉ r.2.1 := by
  have hp : patchByName p g f id = ({ g with mocks := g.mocks ++ [⟨0, none, id⟩] }, .ok) := by
    rw [patchByName, if_pos hins, hg]
    rfl
  rw [hp]
  refine ⟨rfl, fun c r hr d hd => ?_⟩
  obtain ⟨-, h2⟩ := runCall_fine p { g with mocks := g.mocks ++ [⟨0, none, id⟩] } hi m _ c r rfl hr
  have hv := (h2 _ hd).2
  rw [verdict_other p _ g.mocks _ rfl d (fun h => hl.nonzero d.fn d.targs h.symm)] at hv
  obtain ⟨k, hk, hid⟩ := verdict_mock_mem p _ d id hv
  exact hfresh k hk hid

example : (sample.decl 3).instr = true ∧ (sample.decl 3).generic = true ∧
    (runCall 9 sample (patchByName sample {} 3 100).1 ⟨3, 10, none⟩).map (·.2.1) = some [.entered ⟨3, 10, none⟩, .effect 3] ∧
    (runCall 9 sample (patchByName sample {} 1 100).1 ⟨1, 0, none⟩).map (·.2.1) = some [.replaced 100 ⟨1, 0, none⟩] := by
  decide +kernel

end Verif.Runtime.PatchTarget
