/-
C100: the theorems, and cases that meet their hypotheses.
-/
import Verif.Runtime.MutexTop

namespace Verif.Runtime.Mutex
open Spec
open Stack (Stk Node)

/-! ## What the snapshots show -/

/-- An entry after a method: as before but for what `Finish` sets, or new. -/
theorem does_nodes {m op m' r} (h : Does m op m' r) (g : Good m) (i : Nat) (n' : Node) (hn' : m'.stk.heap[i]? = some n') :
    (∃ n, m.stk.heap[i]? = some n ∧ n'.isGo = n.isGo ∧ n'.call = n.call ∧ n'.beginNs = n.beginNs ∧
      ((n'.finished = n.finished ∧ n'.endNs = n.endNs ∧ n'.panic = n.panic) ∨
       ∃ old t e p, op = .finish i old t e p ∧ r = .unit ∧ n'.finished = true ∧ n'.endNs = t - m.stk.begin ∧ n'.panic = p)) ∨
    (∃ t c old, op = .push t c ∧ r = .entry i old ∧ n'.isGo = false ∧ n'.call = c ∧ n'.beginNs = t - m.stk.begin ∧
      n'.finished = false ∧ n'.endNs = 0 ∧ n'.panic = false ∧ m.stk.heap.length ≤ i) ∨
    (∃ ns k, op = .appendGo ns k ∧ r = .unit ∧ n'.isGo = true ∧ n'.beginNs = ns ∧ m.stk.heap.length ≤ i) := by
  cases h with
  | @push t c =>
    cases ht : m.stk.top with
    | none =>
      rw [push_none m t c ht] at hn' ⊢
      dsimp only at hn'
      by_cases e : i < m.stk.heap.length
      · rw [List.getElem?_append_left e] at hn'
        exact .inl ⟨n', hn', rfl, rfl, rfl, .inl ⟨rfl, rfl, rfl⟩⟩
      · have hlt := lt_of_get hn'
        have : i = m.stk.heap.length := by simp at hlt; omega
        subst this
        simp at hn'
        subst hn'
        exact .inr (.inl ⟨t, c, _, rfl, rfl, rfl, rfl, rfl, rfl, rfl, rfl, Nat.le_refl _⟩)
    | some u =>
      obtain ⟨n, hn, hg⟩ := g.top u ht
      rw [push_some m t c u n ht hn] at hn' ⊢
      dsimp only at hn'
      rw [grown_get] at hn'
      split at hn'
      case isTrue e =>
        subst e
        cases hn'
        exact .inr (.inl ⟨t, c, _, rfl, rfl, rfl, rfl, rfl, rfl, rfl, rfl, Nat.le_refl _⟩)
      case isFalse e =>
        obtain ⟨n1, h1, rfl⟩ := Option.map_eq_some_iff.1 hn'
        refine .inl ⟨n1, h1, ?_⟩
        split <;> exact ⟨rfl, rfl, rfl, .inl ⟨rfl, rfl, rfl⟩⟩
  | @finish cur old t e p hc ho =>
    rw [finish_get] at hn'
    obtain ⟨n1, h1, rfl⟩ := Option.map_eq_some_iff.1 hn'
    refine .inl ⟨n1, h1, ?_⟩
    split
    case isTrue e => subst e; exact ⟨rfl, rfl, rfl, .inr ⟨old, t, _, p, rfl, rfl, rfl, rfl, rfl⟩⟩
    case isFalse e => exact ⟨rfl, rfl, rfl, .inl ⟨rfl, rfl, rfl⟩⟩
  | @go ns k t ht =>
    have hh : (m.stk.appendGo ns).heap = grown m.stk.heap t ⟨0, 0, 0, ns, 0, false, false, [], true⟩ := by
      rw [Stk.appendGo, ht]; rfl
    dsimp only at hn'
    rw [hh, grown_get] at hn'
    split at hn'
    case isTrue e => cases hn'; exact .inr (.inr ⟨ns, k, rfl, rfl, rfl, rfl, by omega⟩)
    case isFalse e =>
      obtain ⟨n1, h1, rfl⟩ := Option.map_eq_some_iff.1 hn'
      refine .inl ⟨n1, h1, ?_⟩
      split <;> exact ⟨rfl, rfl, rfl, .inl ⟨rfl, rfl, rfl⟩⟩
  | _ => exact .inl ⟨n', hn', rfl, rfl, rfl, .inl ⟨rfl, rfl, rfl⟩⟩

/-- An entry stays where it is. -/
theorem does_keeps {m op m' r} (h : Does m op m' r) (g : Good m) (i : Nat) (n : Node) (hn : m.stk.heap[i]? = some n) :
    ∃ n', m'.stk.heap[i]? = some n' ∧ n'.isGo = n.isGo ∧ n'.call = n.call ∧ n'.beginNs = n.beginNs ∧ (n.finished = true → n'.finished = true) := by
  have hlt := lt_of_get hn
  have : i < m'.stk.heap.length := by
    cases h with
    | @push t c =>
      cases ht : m.stk.top with
      | none => rw [push_none m t c ht]; simp; omega
      | some u =>
        obtain ⟨n1, h1, -⟩ := g.top u ht
        rw [push_some m t c u n1 ht h1]; simp only [grown_len]; omega
    | @go ns k t ht =>
      have hh : (m.stk.appendGo ns).heap = grown m.stk.heap t ⟨0, 0, 0, ns, 0, false, false, [], true⟩ := by
        rw [Stk.appendGo, ht]; rfl
      simp only [hh, grown_len]; omega
    | finish => simpa [Stk.finish] using hlt
    | _ => exact hlt
  refine ⟨m'.stk.heap[i], List.getElem?_eq_getElem this, ?_⟩
  rcases does_nodes h g i _ (List.getElem?_eq_getElem this) with ⟨n1, h1, a, b, c, d⟩ | ⟨_, _, _, _, _, _, _, _, _, _, _, le⟩ | ⟨_, _, _, _, _, _, le⟩
  · rw [hn] at h1; cases h1
    refine ⟨a, b, c, fun hf => ?_⟩
    rcases d with ⟨d, -⟩ | ⟨_, _, _, _, _, _, d, -⟩
    · exact d.trans hf
    · exact d
  · omega
  · omega

/-- Where entry `i` of stack `s`, with begin `b`, comes from. -/
def Origin (b : Int) (l : List Call) (s i : Nat) (n : Node) : Prop :=
    (n.isGo = true ∧ ∃ g ns k, ⟨g, s, .appendGo ns k, .unit⟩ ∈ l ∧ n.beginNs = ns) ∨
    (n.isGo = false ∧ ∃ g t c old, ⟨g, s, .push t c, .entry i old⟩ ∈ l ∧ n.call = c ∧ n.beginNs = t - b ∧
      ((n.finished = false ∧ n.endNs = 0 ∧ n.panic = false) ∨
       (n.finished = true ∧ ∃ g' old' t' e p, ⟨g', s, .finish i old' t' e p, .unit⟩ ∈ l ∧ n.endNs = t' - b ∧ n.panic = p)))

/-- What is known of the entries after the calls `l`. -/
structure Known (m0 : Nat → Mem) (l : List Call) (w : Nat → Mem) : Prop where
  good : ∀ s, Good (w s)
  begins : ∀ s, (w s).stk.begin = (m0 s).stk.begin
  origin : ∀ (s i : Nat) (n : Node), (w s).stk.heap[i]? = some n →
    Origin (m0 s).stk.begin l s i n
  there : ∀ g s t c cur old, ⟨g, s, .push t c, .entry cur old⟩ ∈ l →
    ∃ n, (w s).stk.heap[cur]? = some n ∧ n.isGo = false ∧ n.call = c ∧ n.beginNs = t - (m0 s).stk.begin
  over : ∀ g s cur old t e p, ⟨g, s, .finish cur old t e p, .unit⟩ ∈ l → ∀ n, (w s).stk.heap[cur]? = some n → n.finished = true
  known : ∀ g s cur old t e p, ⟨g, s, .finish cur old t e p, .unit⟩ ∈ l → cur < (w s).stk.heap.length

theorem known_serial {m0 l w} (h : Serial m0 l w) (h0 : ∀ s, Good (m0 s)) (he : ∀ s, (m0 s).stk.heap = []) : Known m0 l w := by
  induction h with
  | nil =>
    refine ⟨h0, fun _ => rfl, fun s i n hn => ?_, (fun g s t c cur old hm => (by cases hm)), (fun g s cur old t e p hm => (by cases hm)), (fun g s cur old t e p hm => (by cases hm))⟩
    rw [he] at hn; cases hn
  | @snoc l w g s op m r hs hd ih =>
    have k := ih
    obtain ⟨g1, g2, g3⟩ := good_does hd (k.good s)
    refine ⟨?_, ?_, ?_, ?_, ?_, ?_⟩
    · intro s'
      by_cases e : s' = s
      · rw [e, upd_self]; exact g1
      · rw [upd_other _ _ e]; exact k.good s'
    · intro s'
      by_cases e : s' = s
      · rw [e, upd_self, g2]; exact k.begins s
      · rw [upd_other _ _ e]; exact k.begins s'
    · intro s' i n hn
      have more : ∀ x, x ∈ l → x ∈ l ++ [⟨g, s, op, r⟩] := fun x hx => List.mem_append_left _ hx
      have weaken : ∀ n0, (w s').stk.heap[i]? = some n0 → n.isGo = n0.isGo → n.call = n0.call → n.beginNs = n0.beginNs →
          ((n.finished = n0.finished ∧ n.endNs = n0.endNs ∧ n.panic = n0.panic) ∨
           ∃ old t e p, s = s' ∧ op = .finish i old t e p ∧ r = .unit ∧ n.finished = true ∧ n.endNs = t - (m0 s').stk.begin ∧ n.panic = p) →
          Origin (m0 s').stk.begin (l ++ [⟨g, s, op, r⟩]) s' i n := by
        intro n0 hn0 a b c d
        rcases k.origin s' i n0 hn0 with ⟨x, g', ns, kk, y, z⟩ | ⟨x, g', t, c', old, y, z1, z2, z3⟩
        · exact Or.inl ⟨a.trans x, g', ns, kk, more _ y, c.trans z⟩
        · refine Or.inr ⟨a.trans x, g', t, c', old, more _ y, b.trans z1, c.trans z2, ?_⟩
          rcases d with ⟨d1, d2, d3⟩ | ⟨old1, t1, e1, p1, es, eo, er, d1, d2, d3⟩
          · rw [d1, d2, d3]
            rcases z3 with z3 | ⟨z3, g2, o2, t2, e2, p2, z4, z5⟩
            · exact .inl z3
            · exact .inr ⟨z3, g2, o2, t2, e2, p2, more _ z4, z5⟩
          · subst es eo er
            exact .inr ⟨d1, g, old1, t1, e1, p1, List.mem_append_right _ List.mem_cons_self, d2, d3⟩
      by_cases e : s' = s
      · subst e
        rw [upd_self] at hn
        rcases does_nodes hd (k.good s') i n hn with ⟨n0, h1, a, b, c, d⟩ | ⟨t, c, old, rfl, rfl, a, b, d, e1, e2, e3, -⟩ | ⟨ns, kk, rfl, rfl, a, b, -⟩
        · refine weaken n0 h1 a b c ?_
          rcases d with d | ⟨o, t, e, p, x, y, z1, z2, z3⟩
          · exact .inl d
          · exact .inr ⟨o, t, e, p, rfl, x, y, z1, by rw [z2, k.begins], z3⟩
        · refine .inr ⟨a, g, t, c, old, List.mem_append_right _ List.mem_cons_self, b, by rw [d, k.begins], .inl ⟨e1, e2, e3⟩⟩
        · exact .inl ⟨a, g, ns, kk, List.mem_append_right _ List.mem_cons_self, b⟩
      · rw [upd_other _ _ e] at hn
        exact weaken n hn rfl rfl rfl (.inl ⟨rfl, rfl, rfl⟩)
    · intro g' s' t c cur old hm
      rcases List.mem_append.1 hm with hm | hm
      · obtain ⟨n, h1, h2, h3, h4⟩ := k.there g' s' t c cur old hm
        by_cases e : s' = s
        · subst e
          rw [upd_self]
          obtain ⟨n', k1, k2, k3, k4, -⟩ := does_keeps hd (k.good s') cur n h1
          exact ⟨n', k1, k2.trans h2, k3.trans h3, k4.trans h4⟩
        · rw [upd_other _ _ e]; exact ⟨n, h1, h2, h3, h4⟩
      · rw [List.mem_singleton] at hm
        injection hm with e1 e2 e3 e4
        subst e1 e2 e3
        rw [upd_self]
        generalize hO : Op.push t c = O at hd
        cases hd <;> cases hO
        rename_i r0 
        cases ht : (w s').stk.top with
        | none =>
          rw [push_none (w s') t c ht] at e4 ⊢
          cases e4
          exact ⟨newNode (w s') t c 0, by simp, rfl, rfl, by rw [← k.begins]; rfl⟩
        | some u =>
          obtain ⟨n1, h1, -⟩ := (k.good s').top u ht
          rw [push_some (w s') t c u n1 ht h1] at e4 ⊢
          cases e4
          exact ⟨newNode (w s') t c n1.id, by dsimp only; rw [grown_get, if_pos rfl], rfl, rfl, by rw [← k.begins]; rfl⟩
    · intro g' s' cur old t e p hm n hn
      rcases List.mem_append.1 hm with hm1 | hm1
      · by_cases es : s' = s
        · subst es
          rw [upd_self] at hn
          rcases does_nodes hd (k.good s') cur n hn with ⟨n0, h1, -, -, -, d⟩ | ⟨_, _, _, _, _, _, _, _, _, _, _, le⟩ | ⟨_, _, _, _, _, _, le⟩
          · rcases d with ⟨d, -⟩ | ⟨_, _, _, _, _, _, d, -⟩
            · exact d.trans (k.over g' s' cur old t e p hm1 n0 h1)
            · exact d
          · have := k.known g' s' cur old t e p hm1; omega
          · have := k.known g' s' cur old t e p hm1; omega
        · rw [upd_other _ _ es] at hn; exact k.over g' s' cur old t e p hm1 n hn
      · rw [List.mem_singleton] at hm1
        injection hm1 with e1 e2 e3 e4
        subst e1 e2 e3
        rw [upd_self] at hn
        cases hd
        rw [finish_get] at hn
        obtain ⟨n1, -, rfl⟩ := Option.map_eq_some_iff.1 hn
        rw [if_pos rfl]
    · intro g' s' cur old t e p hm
      rcases List.mem_append.1 hm with hm | hm
      · have lt := k.known g' s' cur old t e p hm
        by_cases es : s' = s
        · subst es
          rw [upd_self]
          obtain ⟨n', k1, -⟩ := does_keeps hd (k.good s') cur _ (List.getElem?_eq_getElem lt)
          exact lt_of_get k1
        · rw [upd_other _ _ es]; exact lt
      · rw [List.mem_singleton] at hm
        injection hm with e1 e2 e3 e4
        subst e1 e2 e3
        rw [upd_self]
        cases hd with
        | finish a b => simpa [Stk.finish] using (IsCall.lt a)

theorem serial_split {m0 L w} (h : Serial m0 L w) : ∀ l1 c l2, L = l1 ++ c :: l2 → ∃ w1 m, Serial m0 l1 w1 ∧ Does (w1 c.s) c.op m c.r := by
  induction h with
  | nil => intro l1 c l2 e; cases l1 <;> cases e
  | @snoc l w g s op m r hs hd ih =>
    intro l1 c l2 e
    rcases List.eq_nil_or_concat l2 with rfl | ⟨l2', y, rfl⟩
    · obtain ⟨a, b⟩ := List.append_inj' e rfl
      cases b
      exact ⟨w, m, a ▸ hs, hd⟩
    · rw [List.concat_eq_append, ← List.cons_append, ← List.append_assoc] at e
      obtain ⟨a, -⟩ := List.append_inj' e rfl
      exact ih l1 c l2' a

theorem copies_from {heap kids rs f} (h : Copies heap kids rs f) (n : Node) (hn : n ∈ nodes f) : ∃ i : Nat, heap[i]? = some n := by
  induction h with
  | nil => cases hn
  | @cons r n' rs cs next h1 h2 h3 ih1 ih2 =>
    rw [nodes] at hn
    rcases List.mem_cons.1 hn with rfl | hn
    · exact ⟨r, h1⟩
    · rcases List.mem_append.1 hn with hn | hn
      · exact ih1 hn
      · exact ih2 hn

/-- Entry `i` is one of `rs` or under one of them. -/
inductive From (heap : List Node) : List Nat → Nat → Prop where
  | here {rs i} : i ∈ rs → From heap rs i
  | under {rs p n i} : p ∈ rs → heap[p]? = some n → From heap n.children i → From heap rs i

theorem From.child {heap rs p n i} (h : From heap rs p) (hn : heap[p]? = some n) (hc : i ∈ n.children) : From heap rs i := by
  induction h with
  | here h => exact .under h hn (.here hc)
  | under h1 h2 _ ih => exact .under h1 h2 (ih hn)

theorem from_all {m : Mem} (g : Good m) (i : Nat) (h : i < m.stk.heap.length) : From m.stk.heap m.stk.roots i := by
  induction i using Nat.strongRecOn with
  | _ i ih =>
    rcases g.linked i h with hr | ⟨p, n, hn, hc⟩
    · exact .here hr
    · exact (ih p (g.below p n hn i hc).1 (lt_of_get hn)).child hn hc

theorem copies_has {heap kids rs f} (h : Copies heap kids rs f) : ∀ (i : Nat) (n : Node), From heap rs i → heap[i]? = some n → n ∈ nodes f := by
  induction h with
  | nil => intro i n h; cases h with
    | here h => cases h
    | under h => cases h
  | @cons r n' rs cs next h1 h2 h3 ih1 ih2 =>
    intro i n hf hn
    rw [nodes]
    cases hf with
    | here h =>
      rcases List.mem_cons.1 h with rfl | h
      · rw [hn] at h1; cases h1; exact List.mem_cons_self
      · exact List.mem_cons_of_mem _ (List.mem_append_right _ (ih2 i n (.here h) hn))
    | @under _ p n1 _ h hp hu =>
      rcases List.mem_cons.1 h with rfl | h
      · rw [hp] at h1; cases h1
        exact List.mem_cons_of_mem _ (List.mem_append_left _ (ih1 i n hu hn))
      · exact List.mem_cons_of_mem _ (List.mem_append_right _ (ih2 i n (.under h hp hu) hn))

/-! ## The mutex -/

/-- Who is in a section holds the mutex. -/
def Excl (σ : St) : Prop := ∀ g s op c k, σ.goroutine g = .inside s op c k → σ.lock s = some g

theorem excl_step (y : Sys) (hy : y.locks = true) {σ} (h : Excl σ) (g : Nat) : Excl (y.step σ g) := by
  have keep : ∀ a lg, (∀ s op c k, a ≠ At.inside s op c k) → Excl { σ with goroutine := upd σ.goroutine g a, log := lg } := by
    intro a lg ha g' s op c k e
    dsimp only at e ⊢
    by_cases hne : g' = g
    · subst hne; rw [upd_self] at e; exact absurd e (ha _ _ _ _)
    · rw [upd_other _ _ hne] at e; exact h _ _ _ _ _ e
  cases hg : σ.goroutine g with
  | idle p =>
    cases p with
    | done => simp only [Sys.step, hg]; exact h
    | call s op k => simp only [Sys.step, hg]; exact keep _ _ (fun _ _ _ _ e => by cases e)
  | waits s op c k =>
    cases hl : σ.lock s with
    | some x => simp [Sys.step, hg, hy, hl]; exact h
    | none =>
      simp only [Sys.step, hg, hl]
      intro g' s' op' c' k' e
      simp at e ⊢
      by_cases hne : g' = g
      · subst hne; rw [upd_self] at e; cases e; rw [upd_self]
      · rw [upd_other _ _ hne] at e
        have h1 := h _ _ _ _ _ e
        have hs : s' ≠ s := fun x => by rw [x, hl] at h1; cases h1
        rw [upd_other _ _ hs]; exact h1
  | inside s op c k =>
    have hl := h _ _ _ _ _ hg
    cases c with
    | act f c =>
      simp only [Sys.step, hg]
      intro g' s' op' c' k' e
      dsimp only at e ⊢
      by_cases hne : g' = g
      · subst hne; rw [upd_self] at e; cases e; exact hl
      · rw [upd_other _ _ hne] at e; exact h _ _ _ _ _ e
    | trap c =>
      simp only [Sys.step, hg]
      split
      · exact h
      · intro g' s' op' c' k' e
        dsimp only at e ⊢
        by_cases hne : g' = g
        · subst hne; rw [upd_self] at e; cases e; exact hl
        · rw [upd_other _ _ hne] at e; exact h _ _ _ _ _ e
    | ret r =>
      simp only [Sys.step, hg]
      intro g' s' op' c' k' e
      dsimp only at e ⊢
      by_cases hne : g' = g
      · subst hne; rw [upd_self] at e; cases e
      · rw [upd_other _ _ hne] at e
        have h1 := h _ _ _ _ _ e
        have hs : s' ≠ s := fun x => by rw [x, hl] at h1; exact hne (Option.some.inj h1).symm
        rw [upd_other _ _ hs]; exact h1

theorem excl_exec (y : Sys) (hy : y.locks = true) (prog m0 sched) : Excl (y.exec (start prog m0) sched) := by
  suffices ∀ σ, Excl σ → Excl (y.exec σ sched) from this _ (fun g s op c k e => by cases e)
  induction sched with
  | nil => exact fun σ h => h
  | cons g sched ih => exact fun σ h => ih _ (excl_step y hy h g)

/-- The calls on stack `s` that have returned. -/
def done (s : Nat) (log : List Ev) : List Ev := log.filter fun e => e.s = s && e.ret.isSome

/-- Goroutine `g` waits for the mutex of stack `s`, which it holds. -/
structure Stuck (σ : St) (g s : Nat) (a : At) (d : List Ev) : Prop where
  excl : Excl σ
  isAt : σ.goroutine g = a
  log : done s σ.log = d

theorem stuck_step (y : Sys) (hy : y.locks = true) {σ g s op c k d} (ho : y.own g = s) (h : Stuck σ g s (.inside s op (.trap c) k) d) (x : Nat) :
    Stuck (y.step σ x) g s (.inside s op (.trap c) k) d := by
  have hl : σ.lock s = some g := h.excl _ _ _ _ _ h.isAt
  refine ⟨excl_step y hy h.excl x, ?_, ?_⟩
  · by_cases e : x = g
    · subst e
      rw [Sys.step, h.isAt]
      simp only [ho, hl, Option.isSome_some, if_true]
      exact h.isAt
    · have e' : g ≠ x := fun q => e q.symm
      have ha := h.isAt
      unfold Sys.step
      split <;> (try split) <;> first | exact ha | (dsimp only; rw [upd_other _ _ e']; exact ha)
  · have hd := h.log
    by_cases e : x = g
    · subst e
      rw [Sys.step, h.isAt]
      simp only [ho, hl, Option.isSome_some, if_true]
      exact hd
    · unfold Sys.step
      split
      case h_2 s' op' k' hx => simp only [done, List.filter_append]; rw [← done, hd]; simp
      case h_6 s' op' r k' hx =>
        have hs : s' ≠ s := fun q => by
          have := h.excl _ _ _ _ _ hx
          rw [q, hl] at this
          exact e (Option.some.inj this).symm
        simp only [done, List.filter_append]; rw [← done, hd]; simp [hs]
      all_goals first | exact hd | (split <;> exact hd)

/-! ## Calls return -/

/-- A goroutine that holds the mutex returns if it is let go on. -/
theorem finishes (own) {s op c k} (hc : Steady c) : ∀ σ g, σ.goroutine g = .inside s op c k → ∃ n r,
    let σ' := (xgo own).exec σ (List.replicate n g)
    σ'.log = σ.log ++ [⟨g, s, op, some r⟩] ∧ σ'.lock s = none ∧ ∀ x, x ≠ g → σ'.goroutine x = σ.goroutine x := by
  induction hc with
  | @ret r =>
    intro σ g hg
    refine ⟨1, r, ?_⟩
    show ((xgo own).step σ g).log = _ ∧ ((xgo own).step σ g).lock s = none ∧ ∀ x, x ≠ g → ((xgo own).step σ g).goroutine x = σ.goroutine x
    rw [step_ret hg]
    exact ⟨rfl, upd_self .., fun x hx => upd_other _ _ hx⟩
  | @act f c hf hc ih =>
    intro σ g hg
    have he := step_act (own := own) hg
    obtain ⟨n, r, h1, h2, h3⟩ := ih (σ.mem s) ((xgo own).step σ g) g (by rw [he]; exact upd_self ..)
    refine ⟨n + 1, r, ?_⟩
    show ((xgo own).exec ((xgo own).step σ g) (List.replicate n g)).log = _ ∧ _ ∧ _
    refine ⟨?_, h2, ?_⟩
    · rw [h1, he]
    · intro x hx
      refine (h3 x hx).trans ?_
      rw [he]; exact upd_other _ _ hx

/-! ## The theorems -/

/-- The stacks at the beginning. -/
def empty (b : Nat → Int) (d : Nat → Option Nat) : Nat → Mem := fun s => fresh (b s) (d s)

theorem good_empty (b d) (s : Nat) : Good (empty b d s) := good_fresh _ _

/-- However the goroutines are interleaved: what all calls that have returned have returned is what they would have returned if they had been made one after another, in
    the order in which they did return, none at the same time as another; the stacks nobody works on hold what these calls leave behind; and each goroutine has made the
    calls of its program, in that order. -/
theorem C100_linearizable (own : Nat → Nat) (prog : Nat → Prog) (hp : ∀ g, Sane [] (prog g)) (b : Nat → Int) (d : Nat → Option Nat) (sched : List Nat) :
    let σ := (xgo own).exec (start prog (empty b d)) sched
    ∃ w, Serial (empty b d) (returned σ.log) w ∧ (∀ s, σ.lock s = none → σ.mem s = w s) ∧ ∀ g, Follows g (prog g) (σ.log.filter fun e => e.g = g) := by
  obtain ⟨w, h⟩ := inv_exec own (good_empty b d) hp sched
  refine ⟨w, h.serial, h.free, fun g => ?_⟩
  obtain ⟨l, h1, h2⟩ := h.follows g
  show Follows g (prog g) (eventsOf g _)
  rw [h2]
  cases hat : ((xgo own).exec (start prog (empty b d)) sched).goroutine g with
  | idle p => rw [hat] at h1; simp only [At.busy, List.append_nil]; exact h1.follows
  | waits s op c k => rw [hat] at h1; exact h1.begun
  | inside s op c k => rw [hat] at h1; exact h1.begun

/-- Whatever the methods do, no two goroutines work on the same stack at the same time. -/
theorem C100_exclusive (y : Sys) (hy : y.locks = true) (prog : Nat → Prog) (m0 : Nat → Mem) (sched : List Nat) {g g' s op op' c c' k k'}
    (h : (y.exec (start prog m0) sched).goroutine g = .inside s op c k) (h' : (y.exec (start prog m0) sched).goroutine g' = .inside s op' c' k') : g = g' := by
  have e := excl_exec y hy prog m0 sched
  have := (e _ _ _ _ _ h).symm.trans (e _ _ _ _ _ h')
  exact Option.some.inj this

/-- No snapshot shows an entry that is half built or half finished: every entry in it was pushed, with all that was recorded at the time, by a call that had returned, and
    either nothing or everything that `Finish` records is there. -/
theorem C100_whole (own : Nat → Nat) (prog : Nat → Prog) (hp : ∀ g, Sane [] (prog g)) (b : Nat → Int) (d : Nat → Option Nat) (sched : List Nat) {l1 l2 g s b' e f}
    (h : returned ((xgo own).exec (start prog (empty b d)) sched).log = l1 ++ ⟨g, s, .snapshot, .tree b' e f⟩ :: l2) :
    b' = b s ∧ ∀ n ∈ nodes f, Complete l1 s (b s) n := by
  obtain ⟨w, hs, -⟩ := C100_linearizable own prog hp b d sched
  obtain ⟨w1, m, h1, h2⟩ := serial_split hs _ _ _ h
  have k := known_serial h1 (good_empty b d) (fun _ => rfl)
  have hb : (w1 s).stk.begin = b s := k.begins s
  dsimp only at h2
  cases h2 with
  | snapshot hc =>
    refine ⟨hb, fun n hn => ?_⟩
    obtain ⟨i, hi⟩ := copies_from hc n hn
    rcases k.origin s i n hi with h | ⟨h1, g', t, c, old, h3, h4, h5, h6⟩
    · exact .inl h
    · exact .inr ⟨h1, g', t, c, i, old, h3, h4, h5, h6⟩

/-- A snapshot shows every call whose `PushNew` had returned, and as finished if its `Finish` had. -/
theorem C100_complete (own : Nat → Nat) (prog : Nat → Prog) (hp : ∀ g, Sane [] (prog g)) (b : Nat → Int) (d : Nat → Option Nat) (sched : List Nat) {l1 l2 g s b' e f}
    (h : returned ((xgo own).exec (start prog (empty b d)) sched).log = l1 ++ ⟨g, s, .snapshot, .tree b' e f⟩ :: l2)
    {g' t c cur old} (hc : ⟨g', s, .push t c, .entry cur old⟩ ∈ l1) :
    ∃ n ∈ nodes f, n.isGo = false ∧ n.call = c ∧ n.beginNs = t - b s ∧
      ∀ g'' old' t' e' p, ⟨g'', s, .finish cur old' t' e' p, .unit⟩ ∈ l1 → n.finished = true := by
  obtain ⟨w, hs, -⟩ := C100_linearizable own prog hp b d sched
  obtain ⟨w1, m, h1, h2⟩ := serial_split hs _ _ _ h
  have k := known_serial h1 (good_empty b d) (fun _ => rfl)
  obtain ⟨n, n1, n2, n3, n4⟩ := k.there _ _ _ _ _ _ hc
  dsimp only at h2
  cases h2 with
  | snapshot hc =>
    exact ⟨n, copies_has hc cur n (from_all (k.good s) cur (lt_of_get n1)) n1, n2, n3, n4, fun g'' o' t' e' p hm => k.over _ _ _ _ _ _ _ hm n n1⟩

/-- No deadlock: whatever has happened, every call that has begun can still return. -/
theorem C100_returns (own : Nat → Nat) (prog : Nat → Prog) (hp : ∀ g, Sane [] (prog g)) (b : Nat → Int) (d : Nat → Option Nat) (sched : List Nat) (g s : Nat) (op : Op)
    (h : (((xgo own).exec (start prog (empty b d)) sched).goroutine g).busy = some (s, op)) :
    ∃ more r, ((xgo own).exec (start prog (empty b d)) (sched ++ more)).log.getLast? = some ⟨g, s, op, some r⟩ := by
  have split : ∀ more, (xgo own).exec (start prog (empty b d)) (sched ++ more) = (xgo own).exec ((xgo own).exec (start prog (empty b d)) sched) more :=
    fun more => List.foldl_append
  obtain ⟨w, inv⟩ := inv_exec own (good_empty b d) hp sched
  simp only [split]
  generalize (xgo own).exec (start prog (empty b d)) sched = σ at h inv
  have enter : ∀ σ : St, σ.lock s = none → (∃ k b, σ.goroutine g = .waits s op (code op b) k) →
      ∃ more r, ((xgo own).exec σ more).log.getLast? = some ⟨g, s, op, some r⟩ := by
    intro σ hl ⟨k, b, hg⟩
    have he := step_enter (own := own) hg hl
    obtain ⟨n, r, h1, -⟩ := finishes own (steady_code op b) ((xgo own).step σ g) g (by rw [he]; exact upd_self ..)
    refine ⟨g :: List.replicate n g, r, ?_⟩
    show ((xgo own).exec ((xgo own).step σ g) (List.replicate n g)).log.getLast? = _
    rw [h1]; simp
  cases hat : σ.goroutine g with
  | idle p => rw [hat] at h; cases h
  | waits s' op' c k =>
    rw [hat] at h; cases h
    have hc := inv.waits _ _ _ _ _ hat
    subst hc
    cases hl : σ.lock s with
    | none => exact enter σ hl ⟨k, _, hat⟩
    | some x =>
      obtain ⟨op', c', k', hx⟩ := inv.held s x hl
      obtain ⟨n, r, h1, h2, h3⟩ := finishes own (inv.inside _ _ _ _ _ hx).2.2 σ x hx
      have hne : g ≠ x := fun e => by rw [e, hx] at hat; cases hat
      obtain ⟨more, r', h⟩ := enter _ h2 ⟨k, _, (h3 g hne).trans hat⟩
      refine ⟨List.replicate n x ++ more, r', ?_⟩
      have : (xgo own).exec σ (List.replicate n x ++ more) = (xgo own).exec ((xgo own).exec σ (List.replicate n x)) more := List.foldl_append
      rw [this]; exact h
  | inside s' op' c k =>
    rw [hat] at h; cases h
    obtain ⟨n, r, h1, -⟩ := finishes own (inv.inside _ _ _ _ _ hat).2.2 σ g hat
    exact ⟨_, r, by rw [h1]; simp⟩

/-- Why no method may call an instrumented function while it holds the mutex: the call that did would never return, and no other call on the stack would return any more. -/
theorem C100_reenter (y : Sys) (hy : y.locks = true) (prog : Nat → Prog) (m0 : Nat → Mem) (sched : List Nat) {g s op c k} (ho : y.own g = s)
    (h : (y.exec (start prog m0) sched).goroutine g = .inside s op (.trap c) k) (more : List Nat) :
    (y.exec (start prog m0) (sched ++ more)).goroutine g = .inside s op (.trap c) k ∧
    ((y.exec (start prog m0) (sched ++ more)).log.filter fun e => e.s = s && e.ret.isSome) =
      ((y.exec (start prog m0) sched).log.filter fun e => e.s = s && e.ret.isSome) := by
  have st : Stuck (y.exec (start prog m0) sched) g s (.inside s op (.trap c) k) (done s (y.exec (start prog m0) sched).log) :=
    ⟨excl_exec y hy prog m0 sched, h, rfl⟩
  have split : y.exec (start prog m0) (sched ++ more) = y.exec (y.exec (start prog m0) sched) more := List.foldl_append
  rw [split]
  show _ ∧ done s _ = done s _
  generalize done s (y.exec (start prog m0) sched).log = D at st
  generalize y.exec (start prog m0) sched = σ at st
  have : Stuck (y.exec σ more) g s (.inside s op (.trap c) k) D := by
    clear split h
    induction more generalizing σ with
    | nil => exact st
    | cons x more ih => exact ih _ (stuck_step y hy ho st x)
  exact ⟨this.isAt, this.log⟩

end Verif.Runtime.Mutex
