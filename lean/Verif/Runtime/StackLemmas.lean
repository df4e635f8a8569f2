/- The heap built from a forest log represents the forest. -/
import Verif.Runtime.StackForest

namespace Verif.Runtime.Stack
open Exec (Ev)

theorem replay_append (clock i R a b) :
    Rec.replay clock i R (a ++ b) = Rec.replay clock (i + a.length) (Rec.replay clock i R a) b := by
  induction a generalizing i R with
  | nil => simp [Rec.replay]
  | cons e a ih => simp only [List.cons_append, Rec.replay, ih, List.length_cons]; congr 1; omega

mutual
/-- the entry at `r`, and everything below it, lies in `[lo, hi)` of the heap and represents the tree -/
def Rep (clock : Nat → Int) (begin : Int) (heap : List Node) (hi : Nat) : Nat → Nat → Tree → Prop
  | lo, r, .node c e p ch => lo ≤ r ∧ r < hi ∧ ∃ n, heap[r]? = some n ∧ n.call = c ∧ n.beginNs = clock c - begin ∧
      n.endNs = clock e - begin ∧ n.finished = true ∧ n.panic = p ∧ Reps clock begin heap hi (r + 1) n.children ch
def Reps (clock : Nat → Int) (begin : Int) (heap : List Node) (hi : Nat) : Nat → List Nat → List Tree → Prop
  | _, [], [] => True
  | lo, r :: rs, t :: ts => Rep clock begin heap hi lo r t ∧ Reps clock begin heap hi lo rs ts
  | _, _, _ => False
end

mutual
theorem Rep.frame {clock begin heap heap' hi hi'} (hh : hi ≤ hi') : ∀ {lo lo' r t}, lo' ≤ lo →
    (∀ i, lo ≤ i → i < hi → heap'[i]? = heap[i]?) → Rep clock begin heap hi lo r t → Rep clock begin heap' hi' lo' r t
  | lo, lo', r, .node c e p ch, hl, hf, h => by
    simp only [Rep] at h ⊢
    obtain ⟨h1, h2, n, hn, a, b, c, d, e, hc⟩ := h
    refine ⟨by omega, by omega, n, by rw [hf r h1 h2, hn], a, b, c, d, e, ?_⟩
    exact Reps.frame hh (Nat.le_refl _) (fun i h3 h4 => hf i (by omega) h4) hc
theorem Reps.frame {clock begin heap heap' hi hi'} (hh : hi ≤ hi') : ∀ {lo lo' rs ts}, lo' ≤ lo →
    (∀ i, lo ≤ i → i < hi → heap'[i]? = heap[i]?) → Reps clock begin heap hi lo rs ts → Reps clock begin heap' hi' lo' rs ts
  | lo, lo', [], [], hl, hf, h => trivial
  | lo, lo', [], _ :: _, hl, hf, h => h.elim
  | lo, lo', _ :: _, [], hl, hf, h => h.elim
  | lo, lo', r :: rs, t :: ts, hl, hf, h => by
    simp only [Reps] at h ⊢
    exact ⟨Rep.frame hh hl hf h.1, Reps.frame hh hl hf h.2⟩
end

theorem Reps.append {clock begin heap hi lo} : ∀ {rs ts rs' ts'}, Reps clock begin heap hi lo rs ts → Reps clock begin heap hi lo rs' ts' →
    Reps clock begin heap hi lo (rs ++ rs') (ts ++ ts')
  | [], [], _, _, _, h => by simpa
  | [], _ :: _, _, _, h, _ => by simp [Reps] at h
  | _ :: _, [], _, _, h, _ => by simp [Reps] at h
  | r :: rs, t :: ts, _, _, h, h' => by
    simp only [Reps, List.cons_append] at h ⊢
    exact ⟨h.1, Reps.append h.2 h'⟩

/-- `s'` arises from `s` by appending the new entries `refs` to the children of the top (or to the roots) -/
structure Ext (s s' : Stk) (refs : List Nat) : Prop where
  begin : s'.begin = s.begin
  top : s'.top = s.top
  depth : s'.depth = s.depth
  len : s.heap.length ≤ s'.heap.length
  roots : s'.roots = if s.top = none then s.roots ++ refs else s.roots
  heap : ∀ j, j < s.heap.length →
    s'.heap[j]? = (s.heap[j]?).map fun n => if s.top = some j then { n with children := n.children ++ refs } else n

theorem Ext.refl (s : Stk) : Ext s s [] := by
  refine ⟨rfl, rfl, rfl, Nat.le_refl _, by simp, fun j _ => ?_⟩
  simp

theorem Ext.trans {s s1 s2 a b} (h1 : Ext s s1 a) (h2 : Ext s1 s2 b) : Ext s s2 (a ++ b) := by
  refine ⟨by rw [h2.begin, h1.begin], by rw [h2.top, h1.top], by rw [h2.depth, h1.depth], Nat.le_trans h1.len h2.len, ?_, ?_⟩
  · rw [h2.roots, h1.top, h1.roots]; split <;> simp
  · intro j hj
    rw [h2.heap j (Nat.lt_of_lt_of_le hj h1.len), h1.heap j hj, h1.top]
    cases s.heap[j]? with
    | none => rfl
    | some n => simp only [Option.map_some]; split <;> simp

/-- new entries are not affected by later extensions -/
theorem Ext.keep {clock s s1 s2 a b rs ts} (h1 : Ext s s1 a) (h2 : Ext s1 s2 b) (ht : ∀ t, s.top = some t → t < s.heap.length)
    (h : Reps clock s.begin s1.heap s1.heap.length s.heap.length rs ts) :
    Reps clock s.begin s2.heap s2.heap.length s.heap.length rs ts := by
  refine h.frame h2.len (Nat.le_refl _) fun i hi1 hi2 => ?_
  rw [h2.heap i hi2, h1.top]
  have : s.top ≠ some i := fun hx => by have := ht i hx; omega
  simp [this]

theorem getElem?_modify_ne {α} (l : List α) (f : α → α) {i j : Nat} (h : i ≠ j) : (l.modify i f)[j]? = l[j]? := by
  rw [List.getElem?_modify]; cases l[j]? <;> simp [h]

theorem pushNew_top (s b c) : (Stk.pushNew s b c).1.top = some s.heap.length := by
  unfold Stk.pushNew; split <;> simp_all
theorem pushNew_cur (s b c) : (Stk.pushNew s b c).2.1 = s.heap.length := by
  unfold Stk.pushNew; split <;> simp_all
theorem pushNew_old (s b c) : (Stk.pushNew s b c).2.2 = s.top := by
  unfold Stk.pushNew; split <;> simp_all
theorem pushNew_begin (s b c) : (Stk.pushNew s b c).1.begin = s.begin := by
  unfold Stk.pushNew; split <;> simp_all
theorem pushNew_depth (s b c) : (Stk.pushNew s b c).1.depth = s.depth + 1 := by
  unfold Stk.pushNew; split <;> simp_all
theorem pushNew_len (s b c) : (Stk.pushNew s b c).1.heap.length = s.heap.length + 1 := by
  unfold Stk.pushNew; split <;> simp_all
theorem pushNew_roots (s b c) : (Stk.pushNew s b c).1.roots = if s.top = none then s.roots ++ [s.heap.length] else s.roots := by
  unfold Stk.pushNew; split <;> simp_all
theorem pushNew_heap (s b c) (j) (hj : j < s.heap.length) : (Stk.pushNew s b c).1.heap[j]? =
    (s.heap[j]?).map fun n => if s.top = some j then { n with children := n.children ++ [s.heap.length] } else n := by
  unfold Stk.pushNew
  split
  · rename_i h; simp [h, List.getElem?_append_left hj]
  · rename_i t h
    simp only [h]
    rw [List.getElem?_append_left (by simpa using hj), List.getElem?_modify]
    cases s.heap[j]? with
    | none => rfl
    | some n => by_cases htj : t = j <;> simp [htj]
theorem pushNew_new (s b c) : ∃ n, (Stk.pushNew s b c).1.heap[s.heap.length]? = some n ∧ n.call = c ∧ n.beginNs = b - s.begin ∧
    n.children = [] ∧ n.id = s.maxId + 1 ∧ n.isGo = false := by
  unfold Stk.pushNew
  split
  · simp
  · refine ⟨_, List.getElem?_append_right (by simp) |>.trans (by simp; rfl), rfl, rfl, rfl, rfl, rfl⟩

theorem step_finish_closures (clock i R c p) : (Rec.step clock i R (.finish c p)).closures = R.closures := by
  simp only [Rec.step]; split <;> rfl

/-- one traced call, seen from outside -/
theorem block_ext {clock} {i q : Nat} {p : Bool} {R1 R3 : Rec} {refs : List Nat} {f2 : List Tree} {e2 par}
    (ht : ∀ t, R1.stk.top = some t → t < R1.stk.heap.length)
    (h : R3 = Rec.replay clock (q + 1) (R1.step clock q (.entry i par)) e2)
    (hx : Ext (R1.step clock q (.entry i par)).stk R3.stk refs)
    (hr : Reps clock R1.stk.begin R3.stk.heap R3.stk.heap.length (R1.stk.heap.length + 1) refs f2)
    (hc : R3.closures i = (R1.step clock q (.entry i par)).closures i) (q' : Nat) :
    Ext R1.stk (R3.step clock q' (.finish i p)).stk [R1.stk.heap.length] ∧
    Rep clock R1.stk.begin (R3.step clock q' (.finish i p)).stk.heap (R3.step clock q' (.finish i p)).stk.heap.length
      R1.stk.heap.length R1.stk.heap.length (.node i q' p f2) := by
  have hc1 : R3.closures i = some (R1.stk.heap.length, R1.stk.top) := by
    rw [hc]; simp [Rec.step, pushNew_cur, pushNew_old]
  have e2 : (R1.step clock q (.entry i par)).stk = (R1.stk.pushNew (clock i) i).1 := rfl
  rw [e2] at hx
  have e4 : (R3.step clock q' (.finish i p)).stk = R3.stk.finish R1.stk.heap.length R1.stk.top (clock q') p := by
    simp [Rec.step, hc1]
  rw [e4]
  obtain ⟨n, hn, n1, n2, n3, n4, n5⟩ := pushNew_new R1.stk (clock i) i
  have hlen := hx.len
  rw [pushNew_len] at hlen
  have hb : R3.stk.begin = R1.stk.begin := by rw [hx.begin, pushNew_begin]
  refine ⟨⟨hb, rfl, ?_, ?_, ?_, ?_⟩, ?_⟩
  · show R3.stk.depth - 1 = _
    rw [hx.depth, pushNew_depth]; omega
  · simp [Stk.finish]; omega
  · show R3.stk.roots = _
    rw [hx.roots, pushNew_top, pushNew_roots]; simp
  · intro j hj
    simp only [Stk.finish]
    rw [getElem?_modify_ne _ _ (by omega), hx.heap j (by rw [pushNew_len]; omega), pushNew_top, pushNew_heap _ _ _ j hj]
    have : ¬ R1.stk.heap.length = j := by omega
    cases R1.stk.heap[j]? <;> simp [this]
  · simp only [Rep]
    refine ⟨Nat.le_refl _, by simp [Stk.finish]; omega, ?_⟩
    have h3 := hx.heap R1.stk.heap.length (by rw [pushNew_len]; omega)
    rw [hn, pushNew_top] at h3
    simp only [Option.map_some, if_true, n3, List.nil_append] at h3
    refine ⟨{ n with children := refs, endNs := clock q' - R1.stk.begin, finished := true, panic := p }, ?_, n1, n2, rfl, rfl, rfl, ?_⟩
    · simp [Stk.finish, List.getElem?_modify, h3, hb]
    · refine hr.frame (by simp [Stk.finish]) (Nat.le_refl _) fun j h1 _ => ?_
      simp only [Stk.finish]
      rw [getElem?_modify_ne _ _ (by omega)]

theorem replay_forest {clock i l f} (h : Forest i l f) : ∀ R : Rec, (∀ t, R.stk.top = some t → t < R.stk.heap.length) →
    ∃ refs, Ext R.stk (Rec.replay clock i R l).stk refs ∧
      Reps clock R.stk.begin (Rec.replay clock i R l).stk.heap (Rec.replay clock i R l).stk.heap.length R.stk.heap.length refs f ∧
      ∀ c, c < i → (Rec.replay clock i R l).closures c = R.closures c := by
  induction h with
  | nil i => exact fun R _ => ⟨[], Ext.refl _, by simp [Reps], fun _ _ => rfl⟩
  | @plain i e l f h1 h2 h3 h4 _ ih =>
    intro R ht
    have : R.step clock i e = R := by
      cases e <;> first | rfl | exact absurd rfl (h2 _ _) | exact absurd rfl (h3 _ _)
    simp only [Rec.replay, this]
    obtain ⟨refs, a, b, c⟩ := ih R ht
    exact ⟨refs, a, b, fun x hx => c x (by omega)⟩
  | @untraced i fn r p body l f g _ _ ih1 ih2 =>
    intro R ht
    obtain ⟨r1, a1, b1, c1⟩ := ih1 R ht
    obtain ⟨r2, a2, b2, c2⟩ := ih2 (Rec.replay clock (i + 1) R body) (by rw [a1.top]; intro t h; have := ht t h; have := a1.len; omega)
    have e : Rec.replay clock i R (.call i fn r :: (body ++ .callEnd i p :: l)) =
        Rec.replay clock (i + body.length + 2) (Rec.replay clock (i + 1) R body) l := by
      simp only [Rec.replay, replay_append]
      have : i + 1 + body.length + 1 = i + body.length + 2 := by omega
      rw [this]; rfl
    rw [e]
    refine ⟨r1 ++ r2, a1.trans a2, (Ext.keep a1 a2 ht b1).append ?_, fun x hx => by rw [c2 x (by omega), c1 x (by omega)]⟩
    rw [a1.begin] at b2
    exact b2.frame (Nat.le_refl _) a1.len (fun _ _ _ => rfl)
  | @traced i fn r par p e1 e2 l f1 f2 g _ _ _ ih1 ih2 ih3 =>
    intro R ht
    obtain ⟨r1, a1, b1, c1⟩ := ih1 R ht
    have ht1 : ∀ t, (Rec.replay clock (i + 1) R e1).stk.top = some t → t < (Rec.replay clock (i + 1) R e1).stk.heap.length := by
      rw [a1.top]; intro t h; have := ht t h; have := a1.len; omega
    generalize hR1 : Rec.replay clock (i + 1) R e1 = R1 at *
    obtain ⟨r2, a2, b2, c2⟩ := ih2 (R1.step clock (i + e1.length + 1) (.entry i par)) (by
      intro t h
      simp only [Rec.step, pushNew_top, pushNew_len, Option.some.injEq] at h ⊢
      omega)
    have hc := c2 i (by omega)
    have hb2 : (R1.step clock (i + e1.length + 1) (.entry i par)).stk.begin = R1.stk.begin := pushNew_begin ..
    have hl2 : (R1.step clock (i + e1.length + 1) (.entry i par)).stk.heap.length = R1.stk.heap.length + 1 := pushNew_len ..
    rw [hb2, hl2] at b2
    obtain ⟨x1, x2⟩ := block_ext (p := p) ht1 rfl a2 b2 hc (i + e1.length + e2.length + 2)
    have hcl : ∀ x, x < i → ((Rec.replay clock (i + e1.length + 2) (R1.step clock (i + e1.length + 1) (.entry i par)) e2).step clock
        (i + e1.length + e2.length + 2) (.finish i p)).closures x = R1.closures x := by
      intro x hx
      rw [step_finish_closures]
      rw [c2 x (by omega)]
      simp [Rec.step]; omega
    generalize hR4 : (Rec.replay clock (i + e1.length + 2) (R1.step clock (i + e1.length + 1) (.entry i par)) e2).step clock
        (i + e1.length + e2.length + 2) (.finish i p) = R4 at *
    have ht4 : ∀ t, R4.stk.top = some t → t < R4.stk.heap.length := by
      rw [x1.top]; intro t h; have := ht1 t h; have := x1.len; omega
    obtain ⟨r3, a3, b3, c3⟩ := ih3 R4 ht4
    have e : Rec.replay clock i R (.call i fn r :: (e1 ++ .entry i par :: (e2 ++ .finish i p :: .callEnd i p :: l))) =
        Rec.replay clock (i + e1.length + e2.length + 4) R4 l := by
      rw [← hR4, ← hR1]
      have q1 : i + 1 + e1.length = i + e1.length + 1 := by omega
      have q2 : i + e1.length + 1 + 1 + e2.length = i + e1.length + e2.length + 2 := by omega
      simp only [Rec.replay, replay_append, q1, q2]
      rfl
    rw [e]
    refine ⟨r1 ++ ([R1.stk.heap.length] ++ r3), a1.trans (x1.trans a3), ?_, fun x hx => ?_⟩
    · have hb4 : R4.stk.begin = R.stk.begin := by rw [x1.begin, a1.begin]
      have k1 := Ext.keep a1 (x1.trans a3) ht b1
      have k2 : Reps clock R1.stk.begin R4.stk.heap R4.stk.heap.length R1.stk.heap.length [R1.stk.heap.length]
          [.node i (i + e1.length + e2.length + 2) p f2] := ⟨x2, trivial⟩
      have k3 := Ext.keep x1 a3 ht1 k2
      rw [a1.begin] at k3
      have k4 := k3.frame (lo' := R.stk.heap.length) (Nat.le_refl _) a1.len (fun _ _ _ => rfl)
      rw [hb4] at b3
      have k5 := b3.frame (lo' := R.stk.heap.length) (Nat.le_refl _) (Nat.le_trans a1.len x1.len) (fun _ _ _ => rfl)
      exact k1.append (k4.append k5)
    · rw [c3 x (by omega), hcl x hx, c1 x (by omega)]

mutual
theorem Rep.export {clock begin heap now} : ∀ {lo r t fuel}, heap.length - lo ≤ fuel → Rep clock begin heap heap.length lo r t →
    exportEntry begin now heap fuel r = t.expected clock begin
  | lo, r, .node c e p ch, fuel, hf, h => by
    simp only [Rep] at h
    obtain ⟨h1, h2, n, hn, rfl, hb, he, hfi, rfl, hc⟩ := h
    cases fuel with
    | zero => omega
    | succ fuel =>
      have := Reps.export (now := now) (fuel := fuel) (by omega) hc
      simp only [exportEntry, hn, Tree.expected, hb, he, hfi, this, if_true]
      rfl
theorem Reps.export {clock begin heap now} : ∀ {lo rs ts fuel}, heap.length - lo ≤ fuel → Reps clock begin heap heap.length lo rs ts →
    rs.map (exportEntry begin now heap fuel) = Tree.expecteds clock begin ts
  | _, [], [], _, _, _ => rfl
  | _, [], _ :: _, _, _, h => by simp [Reps] at h
  | _, _ :: _, [], _, _, h => by simp [Reps] at h
  | _, r :: rs, t :: ts, fuel, hf, h => by
    simp only [Reps] at h
    simp only [List.map_cons, Tree.expecteds, Rep.export hf h.1, Reps.export hf h.2]
end

end Verif.Runtime.Stack
