/-
C100, continued: the invariant of all interleavings, and the theorems.
-/
import Verif.Runtime.MutexMain

namespace Verif.Runtime.Mutex
open Spec
open Stack (Stk Node)

theorem finish_get (m : Mem) (cur old t p r) : (m.stk.finish cur old t p).heap[r]? =
    (m.stk.heap[r]?).map fun n => if r = cur then { n with endNs := t - m.stk.begin, finished := true, panic := p } else n := by
  simp only [Stk.finish, List.getElem?_modify]
  cases m.stk.heap[r]? with
  | none => rfl
  | some n => by_cases h : cur = r <;> simp [h, eq_comm]

/-- What a method leaves behind is a stack in order, with the same `Begin` and all entries. -/
theorem good_does {m op m' r} (h : Does m op m' r) (g : Good m) : Good m' ∧ m'.stk.begin = m.stk.begin ∧ Grows m m' := by
  cases h with
  | @push t c =>
    cases ht : m.stk.top with
    | none =>
      rw [push_none m t c ht]
      refine ⟨⟨?_, ?_, ?_, ?_⟩, rfl, ?_⟩
      · intro u hu
        cases hu
        exact ⟨newNode m t c 0, by simp, rfl⟩
      · intro r hr
        rcases List.mem_append.1 hr with hr | hr
        · have := g.roots r hr; simp; omega
        · rw [List.mem_singleton] at hr; subst hr; simp
      · intro r n hn c' hc
        dsimp only at hn
        by_cases e : r < m.stk.heap.length
        · rw [List.getElem?_append_left e] at hn
          have := g.below r n hn c' hc
          simp; omega
        · have hlt := lt_of_get hn
          have : r = m.stk.heap.length := by simp at hlt; omega
          subst this
          simp at hn
          subst hn
          cases hc
      · intro r hr
        simp at hr
        by_cases e : r = m.stk.heap.length
        · left; simp [e]
        · rcases g.linked r (by omega) with hh | ⟨p, n, hn, hc⟩
          · left; exact List.mem_append_left _ hh
          · right
            exact ⟨p, n, by rw [List.getElem?_append_left (lt_of_get hn)]; exact hn, hc⟩
      · intro r ⟨n, hn, hg⟩
        exact ⟨n, by rw [List.getElem?_append_left (lt_of_get hn)]; exact hn, hg⟩
    | some u =>
      obtain ⟨n, hn, hg⟩ := g.top u ht
      rw [push_some m t c u n ht hn]
      refine ⟨grown_good g ht (newNode m t c n.id) rfl _ rfl rfl ?_, rfl, ?_⟩
      · intro v hv
        cases hv
        exact ⟨newNode m t c n.id, by rw [grown_get, if_pos rfl], rfl⟩
      · intro r ⟨n', hn', hg'⟩
        have := lt_of_get hn'
        refine ⟨_, by rw [grown_get, if_neg (by omega), hn']; rfl, ?_⟩
        split <;> exact hg'
  | @finish cur old t e p hc ho =>
    have keep : Grows m { m with stk := m.stk.finish cur old t p, ended := if e then some t else m.ended } := by
      intro r ⟨n, hn, hg⟩
      refine ⟨_, by rw [finish_get, hn]; rfl, ?_⟩
      split <;> exact hg
    refine ⟨⟨?_, ?_, ?_, ?_⟩, rfl, keep⟩
    · intro u hu
      exact keep u (ho u hu)
    · intro r hr
      have := g.roots r hr
      simpa [Stk.finish] using this
    · intro r n hn c hc
      rw [finish_get] at hn
      obtain ⟨n', hn', rfl⟩ := Option.map_eq_some_iff.1 hn
      have : c ∈ n'.children := by
        revert hc
        split <;> exact id
      have := g.below r n' hn' c this
      simpa [Stk.finish] using this
    · intro r hr
      have hr : r < m.stk.heap.length := by simpa [Stk.finish] using hr
      rcases g.linked r hr with hh | ⟨p', n, hn, hc⟩
      · exact .inl hh
      · right
        refine ⟨p', _, by rw [finish_get, hn]; rfl, ?_⟩
        split <;> exact hc
  | noGo h => exact ⟨g, rfl, fun _ h => h⟩
  | @go ns k t ht =>
    have hh : (m.stk.appendGo ns).heap = grown m.stk.heap t ⟨0, 0, 0, ns, 0, false, false, [], true⟩ := by
      rw [Stk.appendGo, ht]; rfl
    have keep : Grows m { m with stk := m.stk.appendGo ns, kids := (m.stk.heap.length, k) :: m.kids } := by
      intro r ⟨n', hn', hg'⟩
      have := lt_of_get hn'
      refine ⟨_, by rw [hh, grown_get, if_neg (by omega), hn']; rfl, ?_⟩
      split <;> exact hg'
    have h2 : (m.stk.appendGo ns).top = m.stk.top := by rw [Stk.appendGo, ht]
    refine ⟨grown_good g ht ⟨0, 0, 0, ns, 0, false, false, [], true⟩ rfl _ hh ?_ ?_, ?_, keep⟩
    · show (m.stk.appendGo ns).roots = _
      rw [Stk.appendGo, ht]
    · intro u hu
      exact keep u (g.top u (h2 ▸ hu))
    · show (m.stk.appendGo ns).begin = _
      rw [Stk.appendGo, ht]
  | setEnd h => exact ⟨⟨g.top, g.roots, g.below, g.linked⟩, rfl, fun _ h => h⟩
  | keepEnd h => exact ⟨g, rfl, fun _ h => h⟩
  | snapshot h => exact ⟨g, rfl, fun _ h => h⟩
  | getData => exact ⟨g, rfl, fun _ h => h⟩
  | setData => exact ⟨⟨g.top, g.roots, g.below, g.linked⟩, rfl, fun _ h => h⟩

/-- The entries that a call passes exist. -/
def PtrOk (m : Mem) : Op → Prop
  | .finish cur old _ _ _ => IsCall m cur ∧ ∀ r, old = some r → IsCall m r
  | _ => True

/-- A method that is not interrupted does what it should. -/
theorem run_does {m : Mem} (g : Good m) (op : Op) (h : PtrOk m op) :
    Does m op ((code op m.stk.begin).run m).1 ((code op m.stk.begin).run m).2 := by
  cases op with
  | push t c => rw [run_push g]; exact .push
  | finish cur old t e p => rw [run_finish]; exact .finish h.1 h.2
  | appendGo ns k =>
    cases ht : m.stk.top with
    | none => rw [run_noGo ns k ht]; exact .noGo ht
    | some t => rw [run_go g ns k t ht]; exact .go ht
  | setEnd t =>
    rw [run_setEnd]
    cases he : m.ended with
    | none => exact .setEnd he
    | some e =>
      have : ({ m with ended := some e } : Mem) = m := by rw [← he]
      dsimp only
      rw [this]
      exact .keepEnd he
  | snapshot => rw [run_snapshot]; exact .snapshot (copies_all g _ _ fun r hr => ⟨g.roots r hr, by omega⟩)
  | getData => exact .getData
  | setData v => exact .setData

/-- The section makes no call of an instrumented function, and leaves `Begin` as it is. -/
inductive Steady : Code → Prop where
  | ret {r} : Steady (.ret r)
  | act {f k} : (∀ m, (f m).stk.begin = m.stk.begin) → (∀ m, Steady (k m)) → Steady (.act f k)

theorem Steady.rd {k} (h : ∀ m, Steady (k m)) : Steady (.read k) := .act (fun _ => rfl) h
theorem Steady.wr {f k} (h : ∀ m : Mem, (f m).stk.begin = m.stk.begin) (hk : Steady k) : Steady (.write f k) := .act h fun _ => hk

theorem steady_walk {below} (hb : ∀ rs k, (∀ f, Steady (k f)) → Steady (below rs k)) : ∀ rs k, (∀ f, Steady (k f)) → Steady (walk below rs k)
  | [], _, h => h _
  | r :: rs, k, h => .rd fun m => by
    cases m.stk.heap[r]? with
    | none => exact steady_walk hb rs k h
    | some n => exact hb _ _ fun cs => steady_walk hb rs _ fun next => h _

theorem steady_clone : ∀ d rs k, (∀ f, Steady (k f)) → Steady (cloneCode d rs k)
  | 0, _, _, h => h _
  | d + 1, rs, k, h => steady_walk (steady_clone d) rs k h

theorem steady_link (cur old) {k} (h : Steady k) : Steady (link cur old k) := by
  cases old with
  | none => exact .rd fun _ => .wr (fun _ => rfl) h
  | some t => exact .rd fun _ => .wr (fun _ => rfl) (.rd fun _ => .wr (fun _ => rfl) h)

/-- None of the methods calls anything instrumented while it holds the mutex. -/
theorem steady_code (op : Op) (b : Int) : Steady (code op b) := by
  cases op with
  | push t c =>
    refine .rd fun _ => .wr (fun _ => rfl) (.act (fun _ => rfl) fun m => .rd fun _ => .wr (fun _ => rfl) (.rd fun m' => steady_link _ _ ?_))
    exact .wr (fun _ => rfl) (.wr (fun _ => rfl) (.rd fun _ => .wr (fun _ => rfl) .ret))
  | finish cur old t e p =>
    have : Steady (.write (Mem.node cur fun n => { n with endNs := t - b }) (.write (Mem.node cur fun n => { n with finished := true })
      (.write (Mem.node cur fun n => { n with panic := p }) (.write (Mem.top old) (.read fun m => .write (Mem.depth (m.stk.depth - 1)) (.ret .unit)))))) :=
      .wr (fun _ => rfl) (.wr (fun _ => rfl) (.wr (fun _ => rfl) (.wr (fun _ => rfl) (.rd fun _ => .wr (fun _ => rfl) .ret))))
    cases e with
    | true => exact .wr (fun _ => rfl) this
    | false => exact this
  | appendGo ns k =>
    refine .rd fun m => ?_
    cases m.stk.top with
    | none => exact .ret
    | some t => exact .act (fun _ => rfl) fun m => .wr (fun _ => rfl) (.rd fun m => .wr (fun _ => rfl) .ret)
  | setEnd t =>
    refine .rd fun m => ?_
    cases m.ended with
    | none => exact .wr (fun _ => rfl) .ret
    | some e => exact .ret
  | snapshot => exact .rd fun _ => .rd fun _ => .rd fun _ => steady_clone _ _ _ fun _ => .ret
  | getData => exact .rd fun _ => .ret
  | setData v => exact .wr (fun _ => rfl) .ret

/-! ## The goroutines -/

/-- `p` has made the calls `l`, all of which have returned, and goes on with `q`. -/
inductive To (g : Nat) : Prog → List Ev → Prog → Prop where
  | nil {p} : To g p [] p
  | next {s op k r l q} : To g (k r) l q → To g (.call s op k) (⟨g, s, op, none⟩ :: ⟨g, s, op, some r⟩ :: l) q

theorem To.snoc {g p l s op k} (h : To g p l (.call s op k)) (r : Res) : To g p (l ++ [⟨g, s, op, none⟩, ⟨g, s, op, some r⟩]) (k r) := by
  generalize hq : Prog.call s op k = q at h
  induction h with
  | nil => subst hq; exact .next .nil
  | next h ih => exact .next (ih hq)

theorem To.follows {g p l q} (h : To g p l q) : Follows g p l := by
  induction h with
  | nil => exact .nothing
  | next h ih => exact .next ih

theorem To.begun {g p l s op k} (h : To g p l (.call s op k)) : Follows g p (l ++ [⟨g, s, op, none⟩]) := by
  generalize hq : Prog.call s op k = q at h
  induction h with
  | nil => subst hq; exact .begun
  | next h ih => exact .next (ih hq)

/-- The program of which the goroutine is to make the next call, or has begun it. -/
def At.prog : At → Prog
  | .idle p => p
  | .waits s op _ k => .call s op k
  | .inside s op _ k => .call s op k

def At.busy : At → Option (Nat × Op)
  | .idle _ => none
  | .waits s op _ _ => some (s, op)
  | .inside s op _ _ => some (s, op)

/-- The events of goroutine `g`. -/
def eventsOf (g : Nat) (log : List Ev) : List Ev := log.filter fun e => e.g = g

/-- What is so in every interleaving; `w`: what the calls that have returned leave behind. -/
structure Inv (prog : Nat → Prog) (m0 : Nat → Mem) (σ : St) (w : Nat → Mem) : Prop where
  serial : Serial m0 (returned σ.log) w
  good : ∀ s, Good (w s)
  begins : ∀ s, (w s).stk.begin = (m0 s).stk.begin
  free : ∀ s, σ.lock s = none → σ.mem s = w s
  mbegins : ∀ s, (σ.mem s).stk.begin = (m0 s).stk.begin
  held : ∀ s g, σ.lock s = some g → ∃ op c k, σ.goroutine g = .inside s op c k
  inside : ∀ g s op c k, σ.goroutine g = .inside s op c k →
    σ.lock s = some g ∧ c.run (σ.mem s) = (code op (m0 s).stk.begin).run (w s) ∧ Steady c
  waits : ∀ g s op c k, σ.goroutine g = .waits s op c k → c = code op (m0 s).stk.begin
  sane : ∀ g, ∃ known, Sane known (σ.goroutine g).prog ∧ ∀ p, p ∈ known → IsCall (w p.1) p.2
  follows : ∀ g, ∃ l, To g (prog g) l (σ.goroutine g).prog ∧
    eventsOf g σ.log = l ++ (match (σ.goroutine g).busy with | none => [] | some (s, op) => [⟨g, s, op, none⟩])

theorem upd_self (f : Nat → α) (i : Nat) (v : α) : upd f i v i = v := if_pos rfl
theorem upd_other (f : Nat → α) {i j : Nat} (v : α) (h : j ≠ i) : upd f i v j = f j := if_neg h

theorem inv_start (prog m0) (hg : ∀ s, Good (m0 s)) (hs : ∀ g, Sane [] (prog g)) : Inv prog m0 (start prog m0) m0 where
  serial := .nil
  good := hg
  begins := fun _ => rfl
  free := fun _ _ => rfl
  mbegins := fun _ => rfl
  held := fun s g h => by cases h
  inside := fun g s op c k h => by cases h
  waits := fun g s op c k h => by cases h
  sane := fun g => ⟨[], hs g, fun p h => by cases h⟩
  follows := fun g => ⟨[], .nil, rfl⟩

theorem Sane.ptr {known s op k} (h : Sane known (.call s op k)) {w : Nat → Mem} (hk : ∀ p, p ∈ known → IsCall (w p.1) p.2) : PtrOk (w s) op := by
  cases h with
  | finish h1 h2 h3 => exact ⟨hk _ h1, fun r hr => hk _ (h2 r hr)⟩
  | _ => trivial

/-- After a call has returned, its goroutine is sane with what it knows then. -/
theorem Sane.next {known s op k} (h : Sane known (.call s op k)) {w : Nat → Mem} (hk : ∀ p, p ∈ known → IsCall (w p.1) p.2)
    {m r} (hd : Does (w s) op m r) (g : Good (w s)) : ∃ known', Sane known' (k r) ∧ ∀ p, p ∈ known' → IsCall (upd w s m p.1) p.2 := by
  obtain ⟨g', -, grow⟩ := good_does hd g
  have old : ∀ p, p ∈ known → IsCall (upd w s m p.1) p.2 := by
    intro p hp
    by_cases e : p.1 = s
    · rw [e, upd_self]; exact grow _ (e ▸ hk p hp)
    · rw [upd_other _ _ e]; exact hk p hp
  cases h with
  | @push _ _ t c _ h1 =>
    cases hd
    refine ⟨_, h1 _ _, fun p hp => ?_⟩
    rcases List.mem_append.1 hp with hp | hp
    · rcases List.mem_cons.1 hp with rfl | hp
      · rw [upd_self]
        apply g'.top
        cases ht : (w s).stk.top with
        | none => rw [push_none (w s) _ _ ht]
        | some u =>
          obtain ⟨n, hn, -⟩ := g.top u ht
          rw [push_some (w s) _ _ u n ht hn]
      · obtain ⟨r, hr, rfl⟩ := List.mem_map.1 hp
        rw [upd_self]
        apply grow
        cases ht : (w s).stk.top with
        | none => rw [push_none (w s) _ _ ht] at hr; cases hr
        | some u =>
          obtain ⟨n, hn, -⟩ := g.top u ht
          rw [push_some (w s) _ _ u n ht hn] at hr
          simp at hr
          exact hr ▸ g.top u ht
    · exact old p hp
  | finish h1 h2 h3 => cases hd; exact ⟨_, h3, old⟩
  | appendGo h1 => cases hd <;> exact ⟨_, h1, old⟩
  | setEnd h1 => cases hd <;> exact ⟨_, h1, old⟩
  | snapshot h1 => cases hd; exact ⟨_, h1 _ _ _, old⟩
  | getData h1 => cases hd; exact ⟨_, h1 _, old⟩
  | setData h1 => cases hd; exact ⟨_, h1, old⟩

theorem returned_append (a b : List Ev) : returned (a ++ b) = returned a ++ returned b := List.filterMap_append
theorem eventsOf_append (g) (a b : List Ev) : eventsOf g (a ++ b) = eventsOf g a ++ eventsOf g b := List.filter_append ..


section steps
variable {own : Nat → Nat} {σ : St} {g : Nat}

theorem step_done (hg : σ.goroutine g = .idle .done) : (xgo own).step σ g = σ := by
  simp only [Sys.step, hg]

theorem step_call {s op k} (hg : σ.goroutine g = .idle (.call s op k)) : (xgo own).step σ g =
    { σ with goroutine := upd σ.goroutine g (.waits s op (code op (σ.mem s).stk.begin) k), log := σ.log ++ [⟨g, s, op, none⟩] } := by
  simp only [Sys.step, hg, xgo]

theorem step_blocked {s op c k} (hg : σ.goroutine g = .waits s op c k) {x} (hl : σ.lock s = some x) : (xgo own).step σ g = σ := by
  simp [Sys.step, hg, xgo, hl]

theorem step_enter {s op c k} (hg : σ.goroutine g = .waits s op c k) (hl : σ.lock s = none) : (xgo own).step σ g =
    { σ with goroutine := upd σ.goroutine g (.inside s op c k), lock := upd σ.lock s (some g) } := by
  simp [Sys.step, hg, hl]

theorem step_act {s op f c k} (hg : σ.goroutine g = .inside s op (.act f c) k) : (xgo own).step σ g =
    { σ with goroutine := upd σ.goroutine g (.inside s op (c (σ.mem s)) k), mem := upd σ.mem s (f (σ.mem s)) } := by
  simp only [Sys.step, hg]

theorem step_ret {s op r k} (hg : σ.goroutine g = .inside s op (.ret r) k) : (xgo own).step σ g =
    { σ with goroutine := upd σ.goroutine g (.idle (k r)), lock := upd σ.lock s none, log := σ.log ++ [⟨g, s, op, some r⟩] } := by
  simp only [Sys.step, hg]

end steps

theorem eventsOf_other {g x : Nat} (e : Ev) (h : e.g = g) (hx : x ≠ g) : eventsOf x [e] = [] := by
  have : e.g ≠ x := fun h' => hx (h'.symm.trans h)
  simp [eventsOf, this]

theorem eventsOf_self {g : Nat} (e : Ev) (h : e.g = g) : eventsOf g [e] = [e] := by
  simp [eventsOf, h]

theorem inv_step {prog m0 σ w} (own : Nat → Nat) (h : Inv prog m0 σ w) (g : Nat) : ∃ w', Inv prog m0 ((xgo own).step σ g) w' := by
  cases hg : σ.goroutine g with
  | idle p =>
    cases p with
    | done => rw [step_done hg]; exact ⟨w, h⟩
    | call s op k =>
      rw [step_call hg]
      refine ⟨w, ?_, h.good, h.begins, h.free, h.mbegins, ?_, ?_, ?_, ?_, ?_⟩
      · rw [returned_append]
        show Serial m0 (returned σ.log ++ []) w
        rw [List.append_nil]; exact h.serial
      · intro s' g' hl
        obtain ⟨op', c', k', e⟩ := h.held s' g' hl
        have hne : g' ≠ g := fun x => by rw [x, hg] at e; cases e
        exact ⟨op', c', k', by dsimp only; rw [upd_other _ _ hne]; exact e⟩
      · intro g' s' op' c' k' e
        dsimp only at e
        by_cases hne : g' = g
        · subst hne; rw [upd_self] at e; cases e
        · rw [upd_other _ _ hne] at e; exact h.inside g' s' op' c' k' e
      · intro g' s' op' c' k' e
        dsimp only at e
        by_cases hne : g' = g
        · subst hne; rw [upd_self] at e; cases e; rw [h.mbegins]
        · rw [upd_other _ _ hne] at e; exact h.waits g' s' op' c' k' e
      · intro g'
        dsimp only
        by_cases hne : g' = g
        · subst hne; rw [upd_self]
          have := h.sane g'
          rw [hg] at this; exact this
        · rw [upd_other _ _ hne]; exact h.sane g'
      · intro g'
        dsimp only
        rw [eventsOf_append]
        by_cases hne : g' = g
        · subst hne; rw [upd_self, eventsOf_self (g := g') ⟨g', s, op, _⟩ rfl]
          obtain ⟨l, h1, h2⟩ := h.follows g'
          rw [hg] at h1 h2
          refine ⟨l, h1, ?_⟩
          rw [h2]; simp [At.busy]
        · rw [upd_other _ _ hne, eventsOf_other _ rfl hne, List.append_nil]; exact h.follows g'
  | waits s op c k =>
    cases hl : σ.lock s with
    | some x => rw [step_blocked hg hl]; exact ⟨w, h⟩
    | none =>
      rw [step_enter hg hl]
      refine ⟨w, h.serial, h.good, h.begins, ?_, h.mbegins, ?_, ?_, ?_, ?_, ?_⟩
      · intro s' hl'
        dsimp only at hl'
        by_cases hs : s' = s
        · subst hs; rw [upd_self] at hl'; cases hl'
        · rw [upd_other _ _ hs] at hl'; exact h.free s' hl'
      · intro s' g' hl'
        dsimp only at hl' ⊢
        by_cases hs : s' = s
        · subst hs; rw [upd_self] at hl'; cases hl'
          exact ⟨op, c, k, upd_self ..⟩
        · rw [upd_other _ _ hs] at hl'
          obtain ⟨op', c', k', e⟩ := h.held s' g' hl'
          have hne : g' ≠ g := fun x => by rw [x, hg] at e; cases e
          exact ⟨op', c', k', by rw [upd_other _ _ hne]; exact e⟩
      · intro g' s' op' c' k' e
        dsimp only at e ⊢
        by_cases hne : g' = g
        · subst hne; rw [upd_self] at e; cases e
          have hc := h.waits _ _ _ _ _ hg
          refine ⟨upd_self .., ?_, ?_⟩
          · rw [h.free s hl, hc]
          · rw [hc]; exact steady_code _ _
        · rw [upd_other _ _ hne] at e
          obtain ⟨h1, h2, h3⟩ := h.inside g' s' op' c' k' e
          have hs : s' ≠ s := fun x => by rw [x, hl] at h1; cases h1
          exact ⟨by rw [upd_other _ _ hs]; exact h1, h2, h3⟩
      · intro g' s' op' c' k' e
        dsimp only at e
        by_cases hne : g' = g
        · subst hne; rw [upd_self] at e; cases e
        · rw [upd_other _ _ hne] at e; exact h.waits g' s' op' c' k' e
      · intro g'
        dsimp only
        by_cases hne : g' = g
        · subst hne; rw [upd_self]
          have := h.sane g'
          rw [hg] at this; exact this
        · rw [upd_other _ _ hne]; exact h.sane g'
      · intro g'
        dsimp only
        by_cases hne : g' = g
        · subst hne; rw [upd_self]
          have := h.follows g'
          rw [hg] at this; exact this
        · rw [upd_other _ _ hne]; exact h.follows g'
  | inside s op c k =>
    obtain ⟨hl, hrun, hst⟩ := h.inside g s op c k hg
    have other : ∀ g' s' op' c' k', g' ≠ g → σ.goroutine g' = .inside s' op' c' k' → s' ≠ s := by
      intro g' s' op' c' k' hne e x
      have := (h.inside g' s' op' c' k' e).1
      rw [x, hl] at this
      exact hne (Option.some.inj this).symm
    cases hst with
    | @act f c' hf hc' =>
      rw [step_act hg]
      refine ⟨w, h.serial, h.good, h.begins, ?_, ?_, ?_, ?_, ?_, ?_, ?_⟩
      · intro s' hl'
        dsimp only at hl' ⊢
        have hs : s' ≠ s := fun x => by rw [x, hl] at hl'; cases hl'
        rw [upd_other _ _ hs]; exact h.free s' hl'
      · intro s'
        dsimp only
        by_cases hs : s' = s
        · rw [hs, upd_self, hf]; exact h.mbegins s
        · rw [upd_other _ _ hs]; exact h.mbegins s'
      · intro s' g' hl'
        dsimp only at hl' ⊢
        obtain ⟨op', c', k', e⟩ := h.held s' g' hl'
        by_cases hne : g' = g
        · subst hne; rw [hg] at e; cases e
          exact ⟨_, _, _, upd_self ..⟩
        · exact ⟨op', c', k', by rw [upd_other _ _ hne]; exact e⟩
      · intro g' s' op' c'' k' e
        dsimp only at e ⊢
        by_cases hne : g' = g
        · subst hne; rw [upd_self] at e; cases e
          exact ⟨hl, by rw [upd_self]; exact hrun, hc' _⟩
        · rw [upd_other _ _ hne] at e
          rw [upd_other _ _ (other _ _ _ _ _ hne e)]
          exact h.inside g' s' op' c'' k' e
      · intro g' s' op' c'' k' e
        dsimp only at e
        by_cases hne : g' = g
        · subst hne; rw [upd_self] at e; cases e
        · rw [upd_other _ _ hne] at e; exact h.waits g' s' op' c'' k' e
      · intro g'
        dsimp only
        by_cases hne : g' = g
        · subst hne; rw [upd_self]
          have := h.sane g'
          rw [hg] at this; exact this
        · rw [upd_other _ _ hne]; exact h.sane g'
      · intro g'
        dsimp only
        by_cases hne : g' = g
        · subst hne; rw [upd_self]
          have := h.follows g'
          rw [hg] at this; exact this
        · rw [upd_other _ _ hne]; exact h.follows g'
    | @ret r =>
      rw [step_ret hg]
      have hrun : (σ.mem s, r) = (code op (m0 s).stk.begin).run (w s) := hrun
      obtain ⟨known, hs1, hs2⟩ := h.sane g
      rw [hg] at hs1
      have hd := run_does (h.good s) op (Sane.ptr hs1 hs2)
      rw [h.begins s, ← hrun] at hd
      dsimp only at hd
      obtain ⟨g1, g2, g3⟩ := good_does hd (h.good s)
      refine ⟨upd w s (σ.mem s), ?_, ?_, ?_, ?_, h.mbegins, ?_, ?_, ?_, ?_, ?_⟩
      · rw [returned_append]
        exact .snoc h.serial hd
      · intro s'
        by_cases hs : s' = s
        · rw [hs, upd_self]; exact g1
        · rw [upd_other _ _ hs]; exact h.good s'
      · intro s'
        by_cases hs : s' = s
        · rw [hs, upd_self]; exact h.mbegins s
        · rw [upd_other _ _ hs]; exact h.begins s'
      · intro s' hl'
        dsimp only at hl' ⊢
        by_cases hs : s' = s
        · rw [hs, upd_self]
        · rw [upd_other _ _ hs] at hl' ⊢; exact h.free s' hl'
      · intro s' g' hl'
        dsimp only at hl' ⊢
        by_cases hs : s' = s
        · rw [hs, upd_self] at hl'; cases hl'
        · rw [upd_other _ _ hs] at hl'
          obtain ⟨op', c', k', e⟩ := h.held s' g' hl'
          have hne : g' ≠ g := fun x => by rw [x, hg] at e; cases e; exact hs rfl
          exact ⟨op', c', k', by rw [upd_other _ _ hne]; exact e⟩
      · intro g' s' op' c'' k' e
        dsimp only at e ⊢
        by_cases hne : g' = g
        · subst hne; rw [upd_self] at e; cases e
        · rw [upd_other _ _ hne] at e
          have ho := other _ _ _ _ _ hne e
          rw [upd_other _ _ ho, upd_other _ _ ho]
          exact h.inside g' s' op' c'' k' e
      · intro g' s' op' c'' k' e
        dsimp only at e
        by_cases hne : g' = g
        · subst hne; rw [upd_self] at e; cases e
        · rw [upd_other _ _ hne] at e; exact h.waits g' s' op' c'' k' e
      · intro g'
        dsimp only
        by_cases hne : g' = g
        · subst hne; rw [upd_self]
          exact Sane.next hs1 hs2 hd (h.good s)
        · rw [upd_other _ _ hne]
          obtain ⟨kn, a, b⟩ := h.sane g'
          refine ⟨kn, a, fun p hp => ?_⟩
          by_cases e : p.1 = s
          · rw [e, upd_self]; exact g3 _ (e ▸ b p hp)
          · rw [upd_other _ _ e]; exact b p hp
      · intro g'
        dsimp only
        rw [eventsOf_append]
        by_cases hne : g' = g
        · subst hne; rw [upd_self, eventsOf_self (g := g') ⟨g', s, op, _⟩ rfl]
          obtain ⟨l, h1, h2⟩ := h.follows g'
          rw [hg] at h1 h2
          refine ⟨_, h1.snoc r, ?_⟩
          rw [h2]; simp [At.busy]
        · rw [upd_other _ _ hne, eventsOf_other _ rfl hne, List.append_nil]; exact h.follows g'

theorem inv_exec {prog m0} (own : Nat → Nat) (hg : ∀ s, Good (m0 s)) (hs : ∀ g, Sane [] (prog g)) (sched : List Nat) :
    ∃ w, Inv prog m0 ((xgo own).exec (start prog m0) sched) w := by
  suffices ∀ σ w, Inv prog m0 σ w → ∃ w', Inv prog m0 ((xgo own).exec σ sched) w' from this _ _ (inv_start prog m0 hg hs)
  induction sched with
  | nil => exact fun σ w h => ⟨w, h⟩
  | cons g sched ih =>
    intro σ w h
    obtain ⟨w', h'⟩ := inv_step own h g
    exact ih _ _ h'

end Verif.Runtime.Mutex
