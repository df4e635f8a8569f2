/-
Properties C14 (exported trace), C15, C16: the recorded stack and its export.
-/
import Verif.Runtime.StackLemmas
import Verif.Runtime.ExecProps

namespace Verif.Runtime.Stack
open Exec

/-! ### C14: what is exported -/

/-- C14, end to end: run any program; let the trap code drive the recorded stack; export it. If no hook panicked, the export is exactly
    the forest of traced calls of the log (same shape, same order, begin and end times and panic flags, nothing "(running)"), the
    stack depth is back to 0 and there is no top. Missing: runs in which a hook panics (`C14_counterexample`). -/
theorem C14_exported_trace_partial (E : Env) (n : Nat) (ss : List Stmt) (σ' : St) (p : Bool) (clock : Nat → Int) (begin now : Int)
    (h : execStmts E n St.start ss = some (σ', p)) (hn : noHookPanic σ'.log) :
    ∃ f, Forest 0 σ'.log f ∧
      ((Rec.start begin).replay clock 0 σ'.log).stk.export now = Tree.expecteds clock begin f ∧
      ((Rec.start begin).replay clock 0 σ'.log).stk.top = none ∧
      ((Rec.start begin).replay clock 0 σ'.log).stk.depth = 0 := by
  obtain ⟨ev, hr⟩ := (run_of_exec E n).1 _ _ _ _ h
  have hlog := hr.log_eq
  simp only [St.start, List.nil_append] at hlog
  rw [hlog] at hn ⊢
  obtain ⟨f, hf⟩ := Run.shape hr hn
  have hf0 : Forest 0 ev f := hf
  obtain ⟨refs, hx, hreps, -⟩ := replay_forest (clock := clock) hf0 (Rec.start begin) (by simp [Rec.start, Stk.new])
  refine ⟨f, hf0, ?_, by rw [hx.top]; rfl, by rw [hx.depth]; rfl⟩
  simp only [Rec.start, Stk.new] at hx hreps ⊢
  unfold Stk.export
  rw [hx.roots, hx.begin]
  simp only [if_true, List.nil_append, List.length_nil] at hreps ⊢
  exact hreps.export (by omega)

/-! ### C16 -/

mutual
/-- every call is finished after it began, and the calls made by it happen in between -/
def Tree.ordered : Tree → Prop
  | .node c e _ ch => c ≤ e ∧ Tree.orderedIn c e ch
def Tree.orderedIn (lo hi : Nat) : List Tree → Prop
  | [] => True
  | .node c e p ch :: ts => lo ≤ c ∧ e ≤ hi ∧ Tree.ordered (.node c e p ch) ∧ Tree.orderedIn lo hi ts
end

theorem orderedIn_append {lo hi} : ∀ {a b}, Tree.orderedIn lo hi a → Tree.orderedIn lo hi b → Tree.orderedIn lo hi (a ++ b)
  | [], _, _, h => h
  | .node .. :: ts, b, h, h' => by
    simp only [Tree.orderedIn, List.cons_append] at h ⊢
    exact ⟨h.1, h.2.1, h.2.2.1, orderedIn_append h.2.2.2 h'⟩

theorem orderedIn_mono {lo hi lo' hi'} (h1 : lo' ≤ lo) (h2 : hi ≤ hi') : ∀ {a}, Tree.orderedIn lo hi a → Tree.orderedIn lo' hi' a
  | [], _ => trivial
  | .node .. :: ts, h => by
    simp only [Tree.orderedIn] at h ⊢
    exact ⟨by omega, by omega, h.2.2.1, orderedIn_mono h1 h2 h.2.2.2⟩

theorem Forest.ordered {i l f} (h : Forest i l f) : Tree.orderedIn i (i + l.length) f := by
  induction h with
  | nil => trivial
  | plain _ _ _ _ _ ih => exact orderedIn_mono (by omega) (by simp; omega) ih
  | untraced _ _ ih1 ih2 =>
    exact orderedIn_append (orderedIn_mono (by omega) (by simp; omega) ih1) (orderedIn_mono (by omega) (by simp; omega) ih2)
  | @traced i fn r par p e1 e2 l f1 f2 g _ _ _ ih1 ih2 ih3 =>
    refine orderedIn_append (orderedIn_mono (by omega) (by simp; omega) ih1) ?_
    simp only [Tree.orderedIn, Tree.ordered]
    refine ⟨Nat.le_refl _, by simp; omega, ⟨by omega, orderedIn_mono (by omega) (by omega) ih2⟩, orderedIn_mono (by omega) (by simp; omega) ih3⟩

mutual
theorem ordered_nested {clock : Nat → Int} (hc : ∀ i j, i ≤ j → clock i ≤ clock j) (b : Int) : ∀ t : Tree, t.ordered → (t.expected clock b).Nested
  | .node c e p ch, h => by
    simp only [Tree.ordered] at h
    simp only [Tree.expected, XTree.Nested]
    exact ⟨by have := hc _ _ h.1; omega, orderedIn_nested hc b ch h.2⟩
theorem orderedIn_nested {clock : Nat → Int} (hc : ∀ i j, i ≤ j → clock i ≤ clock j) (b : Int) {lo hi : Nat} : ∀ ts : List Tree,
    Tree.orderedIn lo hi ts → XTree.NestedIn (clock lo - b) (clock hi - b) (Tree.expecteds clock b ts)
  | [], _ => trivial
  | .node c e p ch :: ts, h => by
    simp only [Tree.orderedIn] at h
    have h2 := ordered_nested hc b (.node c e p ch) h.2.2.1
    simp only [Tree.expecteds, Tree.expected, XTree.NestedIn] at h2 ⊢
    exact ⟨by have := hc _ _ h.1; omega, by have := hc _ _ h.2.1; omega, h2, orderedIn_nested hc b ts h.2.2.2⟩
end

/-- C16: with a clock that never goes backwards, in the exported trace of any run without hook panics every entry ends no earlier than it
    begins, and its children lie inside its interval; all entries lie within the time span of the run. -/
theorem C16_times_nest_partial (E : Env) (n : Nat) (ss : List Stmt) (σ' : St) (p : Bool) (clock : Nat → Int) (begin now : Int)
    (hc : ∀ i j, i ≤ j → clock i ≤ clock j)
    (h : execStmts E n St.start ss = some (σ', p)) (hn : noHookPanic σ'.log) :
    XTree.NestedIn (clock 0 - begin) (clock σ'.log.length - begin) (((Rec.start begin).replay clock 0 σ'.log).stk.export now) := by
  obtain ⟨f, hf, hx, -, -⟩ := C14_exported_trace_partial E n ss σ' p clock begin now h hn
  rw [hx]
  have := hf.ordered
  rw [Nat.zero_add] at this
  exact orderedIn_nested hc begin f this

/-- the example program of C14: five traced calls, one nested in another, one panicked; clock 10 ns per event -/
example : ((execStmts exTree 60 St.start exProg).map fun r =>
    (((Rec.start 3).replay (fun i => 10 * i) 0 r.1.log).stk.roots.length, ((Rec.start 3).replay (fun i => 10 * i) 0 r.1.log).stk.heap.length,
     ((Rec.start 3).replay (fun i => 10 * i) 0 r.1.log).stk.heap.map fun n => (n.id, n.parentId, n.panic))) =
    some (4, 5, [(1, 0, false), (3, 1, false), (5, 0, false), (7, 0, true), (9, 0, false)]) := by
  decide +kernel

/-- C16 is false when a hook panics: function 1 has two recorders, the second aborts the call and its post hook panics, so the entry of
    the call is never finished and stays on top. A recorder of function 0 calls function 1 and recovers. The entry of the call of function 0 then
    becomes a child of that entry, although it began earlier. -/
def cexTimes : Env where
  mock _ := none
  recorders fn := if fn = 1 then [⟨10, none, true, true⟩, ⟨11, none, true, true⟩] else [⟨12, none, true, false⟩]
  interceptors := []
  tracing := true
  filter _ := true
  preBeh h _ := if h = 12 then ⟨[.protect [.call 1 none []]], false⟩ else ⟨[], h == 11⟩
  postBeh _ _ := [.panic]
  mockBeh _ _ := ⟨[], true⟩

theorem C16_counterexample :
    (execStmts cexTimes 30 St.start [.call 0 none []]).map (fun r =>
      match ((Rec.start 0).replay (fun i => i) 0 r.1.log).stk.export 100 with
      | [.node c b _ running _ [.node c' b' _ running' _ []]] => some ([c, c'], [b, b'], [running, running'])
      | _ => none) = some (some ([2, 0], [2, 0], [true, false])) := by
  decide +kernel

/-! ### C15 -/

/-- invariant behind C15 -/
structure Wf (s : Stk) (I : List (Nat × Option Nat)) : Prop where
  top : ∀ t, s.top = some t → ∃ n : Node, s.heap[t]? = some n ∧ n.isGo = false
  old : ∀ c t, (c, some t) ∈ I → ∃ n : Node, s.heap[t]? = some n ∧ n.isGo = false
  ids : ∀ (i : Nat) (n : Node), s.heap[i]? = some n → n.isGo = false → 0 < n.id ∧ n.id ≤ s.maxId
  lt : ∀ (i j : Nat) (a b : Node), i < j → s.heap[i]? = some a → s.heap[j]? = some b → a.isGo = false → b.isGo = false → a.id < b.id
  kid : ∀ (i j : Nat) (a b : Node), s.heap[i]? = some a → j ∈ a.children → s.heap[j]? = some b → b.isGo = false → b.parentId = a.id
  root : ∀ (j : Nat) (b : Node), j ∈ s.roots → s.heap[j]? = some b → b.isGo = false ∧ b.parentId = 0
  all : (s.roots ++ s.heap.flatMap (·.children)).Perm (List.range s.heap.length)

theorem flatMap_modify {α β} (g : α → List β) (f : α → α) (x : β) : ∀ (l : List α) (t : Nat) (n : α), l[t]? = some n →
    g (f n) = g n ++ [x] → ((l.modify t f).flatMap g).Perm (l.flatMap g ++ [x])
  | [], _, _, h, _ => by simp at h
  | a :: l, 0, n, h, hg => by
    simp at h; subst h
    simp only [List.modify_zero_cons, List.flatMap_cons, hg, List.append_assoc]
    exact List.Perm.append_left _ (List.perm_append_comm)
  | a :: l, t + 1, n, h, hg => by
    simp only [List.modify_succ_cons, List.flatMap_cons, List.append_assoc]
    exact List.Perm.append_left _ (flatMap_modify g f x l t n (by simpa using h) hg)

theorem flatMap_modify_same {α β} (g : α → List β) (f : α → α) (hg : ∀ n, g (f n) = g n) : ∀ (l : List α) (t : Nat),
    (l.modify t f).flatMap g = l.flatMap g
  | [], _ => by simp
  | a :: l, 0 => by simp [hg]
  | a :: l, t + 1 => by simp [flatMap_modify_same g f hg l t]

/-- adding one entry `x` below `top` (or to the roots if there is none) -/
theorem Wf.add {s I} (h : Wf s I) (x : Node) (hx : x.children = [])
    (hid : x.isGo = false → s.maxId < x.id)
    (hp : x.isGo = false → x.parentId = match s.top with | none => 0 | some t => match s.heap[t]? with | some n => n.id | none => 0)
    (hroot : s.top = none → x.isGo = false)
    (s' : Stk) (hm : s.maxId ≤ s'.maxId ∧ (x.isGo = false → x.id ≤ s'.maxId))
    (hh : s'.heap = (match s.top with
      | none => s.heap
      | some t => s.heap.modify t fun n => { n with children := n.children ++ [s.heap.length] }) ++ [x])
    (hr : s'.roots = match s.top with | none => s.roots ++ [s.heap.length] | some _ => s.roots)
    (ht : s'.top = some s.heap.length ∧ x.isGo = false ∨ s'.top = s.top)
    (I' : List (Nat × Option Nat)) (hI : I' = I ∨ I' = (s.heap.length, s.top) :: I) : Wf s' I' := by
  have hlen : s'.heap.length = s.heap.length + 1 := by rw [hh]; cases s.top <;> simp
  have new : s'.heap[s.heap.length]? = some x := by
    rw [hh]; cases s.top <;> simp
  -- old entries
  have lift : ∀ (i : Nat) (n : Node), s.heap[i]? = some n → s'.heap[i]? = some (if s.top = some i then { n with children := n.children ++ [s.heap.length] } else n) := by
    intro i n hn
    have hi : i < s.heap.length := (List.getElem?_eq_some_iff.1 hn).1
    rw [hh]
    cases hs : s.top with
    | none => simp [List.getElem?_append_left hi, hn]
    | some t =>
      rw [List.getElem?_append_left (by simpa using hi), List.getElem?_modify, hn]
      by_cases hti : t = i <;> simp [hti]
  have inv : ∀ (i : Nat) (n : Node), s'.heap[i]? = some n → (i = s.heap.length ∧ n = x) ∨
      ∃ m, s.heap[i]? = some m ∧ n = if s.top = some i then { m with children := m.children ++ [s.heap.length] } else m := by
    intro i n hn
    have hi : i < s'.heap.length := (List.getElem?_eq_some_iff.1 hn).1
    by_cases hil : i = s.heap.length
    · subst hil; rw [new] at hn; exact .inl ⟨rfl, (Option.some.inj hn).symm⟩
    · have hi' : i < s.heap.length := by omega
      obtain ⟨m, hm⟩ : ∃ m, s.heap[i]? = some m := ⟨_, List.getElem?_eq_getElem hi'⟩
      rw [lift i m hm] at hn
      exact .inr ⟨m, hm, (Option.some.inj hn).symm⟩
  have go : ∀ {i m n}, s.heap[i]? = some m → (n = if s.top = some i then { m with children := m.children ++ [s.heap.length] } else m) →
      n.isGo = m.isGo ∧ n.id = m.id ∧ n.parentId = m.parentId := by
    intro i m n _ hn; rw [hn]; split <;> simp
  have liftGo : ∀ t : Nat, (∃ n : Node, s.heap[t]? = some n ∧ n.isGo = false) → ∃ n : Node, s'.heap[t]? = some n ∧ n.isGo = false := by
    rintro t ⟨n, hn, hg⟩
    exact ⟨_, lift t n hn, by split <;> simp [hg]⟩
  have kidlt : ∀ (i : Nat) (a : Node), s.heap[i]? = some a → ∀ j ∈ a.children, j < s.heap.length := by
    intro i a ha j hj
    have : j ∈ s.roots ++ s.heap.flatMap (·.children) := by
      refine List.mem_append_right _ (List.mem_flatMap.2 ⟨a, List.mem_of_getElem? ha, hj⟩)
    simpa using h.all.mem_iff.1 this
  have rootlt : ∀ j ∈ s.roots, j < s.heap.length := by
    intro j hj
    simpa using h.all.mem_iff.1 (List.mem_append_left _ hj)
  constructor
  · intro t htt
    rcases ht with ⟨ht, hg⟩ | ht
    · rw [ht] at htt; cases htt; exact ⟨x, new, hg⟩
    · rw [ht] at htt; exact liftGo t (h.top t htt)
  · intro c t hct
    rcases hI with rfl | rfl
    · exact liftGo t (h.old c t hct)
    · rcases List.mem_cons.1 hct with hct | hct
      · exact liftGo t (h.top t (Prod.mk.inj hct).2.symm)
      · exact liftGo t (h.old c t hct)
  · intro i n hn hg
    rcases inv i n hn with ⟨rfl, rfl⟩ | ⟨m, hm', e⟩
    · have := hid hg; have := hm.2 hg; omega
    · obtain ⟨g1, g2, g3⟩ := go hm' e
      have := h.ids i m hm' (by rw [← g1, hg])
      omega
  · intro i j a b hij ha hb ga gb
    rcases inv i a ha with ⟨rfl, rfl⟩ | ⟨m, hm', e⟩
    · have : j < s'.heap.length := (List.getElem?_eq_some_iff.1 hb).1
      omega
    · obtain ⟨g1, g2, g3⟩ := go hm' e
      rcases inv j b hb with ⟨rfl, rfl⟩ | ⟨m2, hm2, e2⟩
      · have := h.ids i m hm' (by rw [← g1, ga]); have := hid gb; omega
      · obtain ⟨k1, k2, k3⟩ := go hm2 e2
        have := h.lt i j m m2 hij hm' hm2 (by rw [← g1, ga]) (by rw [← k1, gb])
        omega
  · intro i j a b ha hj hb gb
    rcases inv i a ha with ⟨rfl, rfl⟩ | ⟨m, hm', e⟩
    · rw [hx] at hj; cases hj
    · obtain ⟨g1, g2, g3⟩ := go hm' e
      have hcase : j ∈ m.children ∨ (s.top = some i ∧ j = s.heap.length) := by
        rw [e] at hj
        split at hj
        · rename_i ht; simp at hj; rcases hj with hj | hj
          · exact .inl hj
          · exact .inr ⟨ht, hj⟩
        · exact .inl hj
      rcases hcase with hj | ⟨hti, rfl⟩
      · have hjl := kidlt i m hm' j hj
        rcases inv j b hb with ⟨rfl, rfl⟩ | ⟨m2, hm2, e2⟩
        · omega
        · obtain ⟨k1, k2, k3⟩ := go hm2 e2
          rw [k3, g2]; exact h.kid i j m m2 hm' hj hm2 (by rw [← k1, gb])
      · rw [new] at hb; cases hb
        rw [hp gb, hti]; simp [hm', g2]
  · intro j b hj hb
    have hcase : j ∈ s.roots ∨ (s.top = none ∧ j = s.heap.length) := by
      rw [hr] at hj
      split at hj
      · rename_i ht; simp at hj; rcases hj with hj | hj
        · exact .inl hj
        · exact .inr ⟨ht, hj⟩
      · exact .inl hj
    rcases hcase with hj | ⟨ht, rfl⟩
    · have := rootlt j hj
      rcases inv j b hb with ⟨rfl, rfl⟩ | ⟨m2, hm2, e2⟩
      · omega
      · obtain ⟨k1, k2, k3⟩ := go hm2 e2
        rw [k1, k3]; exact h.root j m2 hj hm2
    · rw [new] at hb; cases hb
      exact ⟨hroot ht, by rw [hp (hroot ht), ht]⟩
  · rw [hlen, hr, hh, List.range_succ]
    have hall := h.all
    cases hs : s.top with
    | none =>
      simp only [List.flatMap_append, List.flatMap_cons, List.flatMap_nil, hx, List.append_nil, List.append_assoc]
      refine List.Perm.trans ?_ (hall.append_right _)
      rw [List.append_assoc]
      exact List.Perm.append_left _ List.perm_append_comm
    | some t =>
      obtain ⟨n, hn, -⟩ := h.top t hs
      simp only [List.flatMap_append, List.flatMap_cons, List.flatMap_nil, hx, List.append_nil]
      refine List.Perm.trans ?_ (hall.append_right _)
      rw [List.append_assoc]
      exact List.Perm.append_left _ (flatMap_modify (·.children) _ _ _ t n hn rfl)

theorem Reachable.wf {s I} (h : Reachable s I) : Wf s I := by
  induction h with
  | new b => constructor <;> simp [Stk.new]
  | @push s I b c _ ih =>
    have hI : (s.pushNew b c).2 = (s.heap.length, s.top) := Prod.ext (pushNew_cur ..) (pushNew_old ..)
    refine ih.add ⟨s.maxId + 1, (match s.top with | none => 0 | some t => match s.heap[t]? with | some n => n.id | none => 0), c,
      b - s.begin, 0, false, false, [], false⟩ rfl (fun _ => Nat.lt_succ_self _) (fun _ => rfl) (fun _ => rfl) _ ?_ ?_ ?_
      (.inl ⟨pushNew_top .., rfl⟩) _ (.inr (by rw [hI]))
    · unfold Stk.pushNew; split <;> simp <;> omega
    · cases ht : s.top with
      | none => simp [Stk.pushNew, ht]
      | some t => simp [Stk.pushNew, ht]; rfl
    · unfold Stk.pushNew; split <;> simp_all
  | @go s I b _ ih =>
    unfold Stk.appendGo
    split
    · exact ih
    · rename_i t ht
      refine ih.add ⟨0, 0, 0, b, 0, false, false, [], true⟩ rfl (by simp) (by simp) (by simp [ht]) _ ?_ ?_ ?_ (.inr ?_) _ (.inl rfl)
      · simp
      · simp [ht]
      · simp [ht]
      · simp [ht]
  | @finish s I cur old e p _ hm ih =>
    have key : ∀ (i : Nat) (n : Node), (s.finish cur old e p).heap[i]? = some n → ∃ m, s.heap[i]? = some m ∧ n.isGo = m.isGo ∧ n.id = m.id ∧
        n.parentId = m.parentId ∧ n.children = m.children := by
      intro i n hn
      simp only [Stk.finish, List.getElem?_modify] at hn
      cases hs : s.heap[i]? with
      | none => rw [hs] at hn; simp at hn
      | some m =>
        refine ⟨m, rfl, ?_⟩
        rw [hs] at hn
        have hn := Option.some.inj hn
        rw [← hn]; by_cases hc : cur = i <;> simp [hc]
    have key2 : ∀ t : Nat, (∃ n : Node, s.heap[t]? = some n ∧ n.isGo = false) → ∃ n : Node, (s.finish cur old e p).heap[t]? = some n ∧ n.isGo = false := by
      rintro t ⟨n, hn, hg⟩
      simp only [Stk.finish, List.getElem?_modify, hn]
      by_cases hc : cur = t <;> simp [hc, hg]
    constructor
    · intro t ht
      have : old = some t := ht
      subst this
      exact key2 t (ih.old cur t hm)
    · intro c t hct; exact key2 t (ih.old c t hct)
    · intro i n hn hg
      obtain ⟨m, a, b, c, d, f⟩ := key i n hn
      have := ih.ids i m a (by rw [← b, hg])
      rw [c]; exact this
    · intro i j a b hij ha hb ga gb
      obtain ⟨m, a1, a2, a3, -⟩ := key i a ha
      obtain ⟨m2, b1, b2, b3, -⟩ := key j b hb
      rw [a3, b3]; exact ih.lt i j m m2 hij a1 b1 (by rw [← a2, ga]) (by rw [← b2, gb])
    · intro i j a b ha hj hb gb
      obtain ⟨m, a1, a2, a3, a4, a5⟩ := key i a ha
      obtain ⟨m2, b1, b2, b3, b4, -⟩ := key j b hb
      rw [b4, a3]; exact ih.kid i j m m2 a1 (by rw [← a5]; exact hj) b1 (by rw [← b2, gb])
    · intro j b hj hb
      obtain ⟨m2, b1, b2, b3, b4, -⟩ := key j b hb
      rw [b2, b4]; exact ih.root j m2 hj b1
    · simp only [Stk.finish, List.length_modify]
      rw [flatMap_modify_same (fun n : Node => n.children) (fun n => { n with endNs := e - s.begin, finished := true, panic := p }) (fun _ => rfl)]
      exact ih.all

/-- C15: whatever calls are traced, finished or abandoned, and wherever goroutines are started: entries of different calls have different
    ids, the parent id of an entry listed among the children of another is that one's id, and roots have parent id 0, which is the id
    of no call. (Entries of `go` statements have no id.) -/
theorem C15_ids {s : Stk} {I} (h : Reachable s I) :
    (∀ (i j : Nat) (a b : Node), i ≠ j → s.heap[i]? = some a → s.heap[j]? = some b → a.isGo = false → b.isGo = false → a.id ≠ b.id) ∧
    (∀ (i j : Nat) (a b : Node), s.heap[i]? = some a → j ∈ a.children → s.heap[j]? = some b → b.isGo = false → b.parentId = a.id) ∧
    (∀ (j : Nat) (b : Node), j ∈ s.roots → s.heap[j]? = some b → b.parentId = 0) ∧
    (∀ (i : Nat) (a : Node), s.heap[i]? = some a → a.isGo = false → a.id ≠ 0) := by
  have w := h.wf
  refine ⟨fun i j a b hij ha hb ga gb => ?_, w.kid, fun j b hj hb => (w.root j b hj hb).2, fun i a ha ga => ?_⟩
  · rcases Nat.lt_or_gt_of_ne hij with hl | hl
    · have := w.lt i j a b hl ha hb ga gb; omega
    · have := w.lt j i b a hl hb ha gb ga; omega
  · have := w.ids i a ha ga; omega

/-- C15: every entry ever recorded is listed exactly once, among the roots or among the children of one entry: nothing is lost or
    duplicated. -/
theorem C15_each_entry_once {s : Stk} {I} (h : Reachable s I) :
    (s.roots ++ s.heap.flatMap (·.children)).Perm (List.range s.heap.length) := h.wf.all

/-- the stacks `trap` builds are of this kind, for every log (also when hooks panic) -/
theorem replay_reachable (clock : Nat → Int) (begin : Int) (l : List Ev) : ∃ I, Reachable ((Rec.start begin).replay clock 0 l).stk I := by
  have : ∀ l i (R : Rec) I, Reachable R.stk I → (∀ c x, R.closures c = some x → x ∈ I) → ∃ I, Reachable (R.replay clock i l).stk I := by
    intro l
    induction l with
    | nil => intro i R I h _; exact ⟨I, h⟩
    | cons e l ih =>
      intro i R I h hc
      simp only [Rec.replay]
      cases e with
      | entry c par =>
        refine ih _ _ _ (Reachable.push (clock c) c h) fun c' x hx => ?_
        simp only [Rec.step] at hx
        split at hx
        · cases hx; exact List.mem_cons_self
        · exact List.mem_cons_of_mem _ (hc _ _ hx)
      | finish c p =>
        cases hcc : R.closures c with
        | none => simp only [Rec.step, hcc]; exact ih _ _ _ h hc
        | some x =>
          obtain ⟨cur, old⟩ := x
          simp only [Rec.step, hcc]
          exact ih _ _ I (Reachable.finish _ _ h (hc _ _ hcc)) hc
      | _ => exact ih _ _ _ h hc
  exact this l 0 (Rec.start begin) [] (.new _) (by simp [Rec.start])

/-- a nested push with a `go` statement inside, the inner call abandoned, then another call -/
example : ∃ s I, Reachable s I ∧ s.heap.map (fun n => (n.id, n.parentId, n.children, n.isGo)) =
    [(1, 0, [1], false), (3, 1, [2], false), (0, 0, [], true), (5, 0, [], false)] ∧ s.roots = [0, 3] :=
  ⟨_, _, .push 9 3 (.finish 8 false (.go 7 (.push 6 2 (.push 5 1 (.new 0)))) (List.mem_cons_of_mem _ (List.mem_cons_self))),
    by decide, by decide⟩

end Verif.Runtime.Stack
