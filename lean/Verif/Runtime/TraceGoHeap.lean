/-
C76: the stack of a goroutine holds what the goroutine has done.
-/
import Verif.Runtime.TraceGoSpec

namespace Verif.Runtime.TraceGo
open Stack (Stk Node)
open Spec (Act Whole Ongoing)

/-- What a goroutine has done, as a list of finished roots and the calls in progress, innermost first. -/
structure Path where
  roots : List Act
  opened : List (Nat × Int × List Act)

def Path.add (A : Path) (f : List Act) : Path :=
  match A.opened with
  | [] => { A with roots := A.roots ++ f }
  | (c, b, ks) :: fs => { A with opened := (c, b, ks ++ f) :: fs }

def Path.step (A : Path) : Ev → Path
  | .enter c t => { A with opened := (c, t, []) :: A.opened }
  | .exit t p =>
    match A.opened with
    | [] => A
    | (c, b, ks) :: fs => Path.add { A with opened := fs } [.call c b (some (t, p)) ks]
  | .spawn k t => if A.opened.isEmpty then A else A.add [.go k t]
  | .done _ => A
  | .other => A

def fill : List (Nat × Int × List Act) → List Act → List Act
  | [], inner => inner
  | (c, b, ks) :: fs, inner => fill fs [.call c b none (ks ++ inner)]

def Path.total (A : Path) (inner : List Act) : List Act := A.roots ++ fill A.opened inner

theorem add_add (A : Path) (f g : List Act) : (A.add f).add g = A.add (f ++ g) := by
  obtain ⟨r, o⟩ := A
  cases o <;> simp [Path.add]

theorem add_nil (A : Path) : A.add [] = A := by
  obtain ⟨r, o⟩ := A
  cases o <;> simp [Path.add]

theorem add_opened (A : Path) (f) : (A.add f).opened.isEmpty = A.opened.isEmpty := by
  obtain ⟨r, o⟩ := A
  cases o <;> simp [Path.add]

theorem total_add (A : Path) (f inner) : (A.add f).total inner = A.total (f ++ inner) := by
  obtain ⟨r, o⟩ := A
  cases o <;> simp [Path.add, Path.total, fill]

theorem whole_run {b l f} (h : Whole b l f) : ∀ A : Path, A.opened.isEmpty = !b → l.foldl Path.step A = A.add f := by
  induction h with
  | nil b => intro A _; simp [add_nil]
  | @call b c t t' p body rest f g h1 h2 ih1 ih2 =>
    intro A hA
    rw [List.foldl_cons, List.foldl_append, ih1 _ (by simp [Path.step])]
    rw [List.foldl_cons]
    have : Path.step (Path.add (A.step (.enter c t)) f) (.exit t' p) = A.add [.call c t (some (t', p)) f] := by
      simp [Path.step, Path.add]
    rw [this, ih2 _ (by rw [add_opened]; exact hA), add_add]
    rfl
  | @go k t rest g h ih =>
    intro A hA
    rw [List.foldl_cons]
    have : A.step (.spawn k t) = A.add [.go k t] := by simp [Path.step, hA]
    rw [this, ih _ (by rw [add_opened]; exact hA), add_add]
    rfl
  | @goOutside k t rest g h ih =>
    intro A hA
    rw [List.foldl_cons]
    have : A.step (.spawn k t) = A := by simp [Path.step, hA]
    rw [this, ih _ hA]
  | done h ih => intro A hA; exact ih A hA
  | other h ih => intro A hA; exact ih A hA

theorem ongoing_run {b l f} (h : Ongoing b l f) : ∀ A : Path, A.opened.isEmpty = !b → (l.foldl Path.step A).total [] = A.total f := by
  induction h with
  | whole h => intro A hA; rw [whole_run h A hA, total_add, List.append_nil]
  | @running b c t l f l' g h h' ih =>
    intro A hA
    rw [List.foldl_append, whole_run h A hA, List.foldl_cons, ih _ (by simp [Path.step])]
    have : (Path.step (A.add f) (.enter c t)).total g = (A.add f).total [.call c t none g] := by
      simp [Path.step, Path.total, fill]
    rw [this, total_add]

/-! The heap. -/

mutual
inductive Rep (begin : Int) (heap : List Node) (kids : List (Nat × Nat)) : Nat → Act → Prop where
  | call {r n c b e p g} : heap[r]? = some n → n.isGo = false → n.call = c → n.beginNs = b - begin → n.finished = true →
      n.endNs = e - begin → n.panic = p → Reps begin heap kids (r + 1) n.children g → Rep begin heap kids r (.call c b (some (e, p)) g)
  | go {r n k t} : heap[r]? = some n → n.isGo = true → n.beginNs = t - begin → n.panic = false → n.children = [] →
      kids.lookup r = some k → Rep begin heap kids r (.go k t)
inductive Reps (begin : Int) (heap : List Node) (kids : List (Nat × Nat)) : Nat → List Nat → List Act → Prop where
  | nil (lo) : Reps begin heap kids lo [] []
  | cons {lo r a rs as} : lo ≤ r → Rep begin heap kids r a → Reps begin heap kids lo rs as → Reps begin heap kids lo (r :: rs) (a :: as)
end

/-- The later heap still has every finished and every `go` entry of the earlier one. -/
structure Keeps (heap heap' : List Node) (kids kids' : List (Nat × Nat)) : Prop where
  closed : ∀ (r : Nat) (n : Node), heap[r]? = some n → (n.finished = true ∨ n.isGo = true) → heap'[r]? = some n
  kid : ∀ r, r < heap.length → kids'.lookup r = kids.lookup r

theorem lt_of_get {α} {l : List α} {r : Nat} {n : α} (h : l[r]? = some n) : r < l.length := by
  obtain ⟨h, -⟩ := List.getElem?_eq_some_iff.1 h
  exact h

mutual
theorem Rep.frame {begin heap heap' kids kids'} (k : Keeps heap heap' kids kids') : ∀ {r a}, Rep begin heap kids r a → Rep begin heap' kids' r a
  | _, _, .call h1 h2 h3 h4 h5 h6 h7 h8 => .call (k.closed _ _ h1 (.inl h5)) h2 h3 h4 h5 h6 h7 (Reps.frame k h8)
  | _, _, .go h1 h2 h3 h4 h5 h6 => .go (k.closed _ _ h1 (.inr h2)) h2 h3 h4 h5 (by rw [k.kid _ (lt_of_get h1), h6])
theorem Reps.frame {begin heap heap' kids kids'} (k : Keeps heap heap' kids kids') : ∀ {lo rs as}, Reps begin heap kids lo rs as →
    Reps begin heap' kids' lo rs as
  | _, _, _, .nil lo => .nil lo
  | _, _, _, .cons h1 h2 h3 => .cons h1 (Rep.frame k h2) (Reps.frame k h3)
end

theorem Reps.append {begin heap kids lo} : ∀ {rs as rs' as'}, Reps begin heap kids lo rs as → Reps begin heap kids lo rs' as' →
    Reps begin heap kids lo (rs ++ rs') (as ++ as')
  | _, _, _, _, .nil _, h => h
  | _, _, _, _, .cons h1 h2 h3, h => .cons h1 h2 (Reps.append h3 h)

/-- The calls in progress: `frames` are the captured variables, `extra` the children of the innermost call (or roots) after those of `opened`. -/
inductive Opens (begin : Int) (heap : List Node) (kids : List (Nat × Nat)) (roots : List Nat) (done : List Act) :
    List (Nat × Option Nat) → List (Nat × Int × List Act) → List Nat → Prop where
  | nil {rs extra} : roots = rs ++ extra → Reps begin heap kids 0 rs done → Opens begin heap kids roots done [] [] extra
  | cons {cur n rs c b ks fr op extra} : heap[cur]? = some n → n.isGo = false → n.finished = false → n.call = c → n.beginNs = b - begin →
      n.endNs = 0 → n.panic = false → n.children = rs ++ extra → Reps begin heap kids (cur + 1) rs ks → (∀ x ∈ extra, cur < x) →
      Opens begin heap kids roots done fr op [cur] →
      Opens begin heap kids roots done ((cur, fr.head?.map Prod.fst) :: fr) ((c, b, ks) :: op) extra

theorem Opens.frame {begin heap heap' kids kids' roots done} (k : Keeps heap heap' kids kids') {hi : Nat}
    (lower : ∀ r, r < hi → heap'[r]? = heap[r]?) : ∀ {fr op extra}, Opens begin heap kids roots done fr op extra →
    (∀ p, fr.head? = some p → p.1 < hi) → Opens begin heap' kids' roots done fr op extra := by
  intro fr op extra h
  induction h with
  | nil h1 h2 => intro _; exact .nil h1 (h2.frame k)
  | @cons cur n rs c b ks fr op extra h1 h2 h3 h4 h5 h6 h7 h8 h9 h10 h11 ih =>
    intro hl
    have hc : cur < hi := hl _ rfl
    refine .cons (by rw [lower _ hc]; exact h1) h2 h3 h4 h5 h6 h7 h8 (h9.frame k) h10 (ih ?_)
    intro p hp
    cases h11 with
    | nil => cases hp
    | cons g1 g2 g3 g4 g5 g6 g7 g8 g9 g10 g11 =>
      cases hp
      have := g10 cur (by simp)
      exact Nat.lt_trans this hc

/-- A finished entry that is the last child is one more act. -/
theorem Opens.attach {begin heap kids roots done fr op r a} (h : Opens begin heap kids roots done fr op [r]) (hr : Rep begin heap kids r a) :
    Opens begin heap kids (roots) (Path.add ⟨done, op⟩ [a]).roots fr (Path.add ⟨done, op⟩ [a]).opened [] := by
  cases h with
  | nil h1 h2 => exact .nil (rs := _ ++ [r]) (by rw [h1, List.append_nil]) (h2.append (.cons (Nat.zero_le _) hr (.nil _)))
  | cons h1 h2 h3 h4 h5 h6 h7 h8 h9 h10 h11 =>
    exact .cons h1 h2 h3 h4 h5 h6 h7 (rs := _ ++ [r]) (by rw [h8, List.append_nil])
      (h9.append (.cons (h10 r (by simp)) hr (.nil _))) (by simp) h11

/-- The heap of a goroutine holds what the goroutine has done. -/
structure Holds (s : GStk) (A : Path) : Prop where
  opens : Opens s.stk.begin s.stk.heap s.kids s.stk.roots A.roots s.frames A.opened []
  top : s.stk.top = s.frames.head?.map Prod.fst
  kids : ∀ r k, (r, k) ∈ s.kids → r < s.stk.heap.length

theorem holds_new (b : Int) : Holds (GStk.new b) ⟨[], []⟩ :=
  ⟨.nil (rs := []) rfl (.nil _), rfl, by intro r k h; cases h⟩

theorem opens_lt {begin heap kids roots done fr op extra} (h : Opens begin heap kids roots done fr op extra) :
    ∀ p, fr.head? = some p → p.1 < heap.length := by
  intro p hp
  cases h with
  | nil => cases hp
  | cons h1 => cases hp; exact lt_of_get h1

theorem opens_iff {begin heap kids roots done fr op extra} (h : Opens begin heap kids roots done fr op extra) : op.isEmpty = fr.isEmpty := by
  cases h <;> rfl

theorem get_append_lt {α} (l l' : List α) {r : Nat} (h : r < l.length) : (l ++ l')[r]? = l[r]? := List.getElem?_append_left h

theorem modify_ne {α} (l : List α) (f : α → α) {i j : Nat} (h : i ≠ j) : (l.modify i f)[j]? = l[j]? := by
  simp [h]

theorem modify_eq {α} (l : List α) (f : α → α) {i : Nat} {n : α} (h : l[i]? = some n) : (l.modify i f)[i]? = some (f n) := by
  simp [h]

/-- Giving the innermost call one more child, at the end of the heap. -/
theorem grow {begin heap kids kids' roots done cur old fr op} (x : Node) (h : Opens begin heap kids roots done ((cur, old) :: fr) op [])
    (hk : ∀ r, r < heap.length → kids'.lookup r = kids.lookup r) :
    Keeps heap ((heap.modify cur fun n => { n with children := n.children ++ [heap.length] }) ++ [x]) kids kids' ∧
    Opens begin ((heap.modify cur fun n => { n with children := n.children ++ [heap.length] }) ++ [x]) kids' roots done
      ((cur, old) :: fr) op [heap.length] := by
  cases h with
  | @cons _ n rs c b ks _ op _ h1 h2 h3 h4 h5 h6 h7 h8 h9 h10 h11 =>
    have hc := lt_of_get h1
    have keep : Keeps heap ((heap.modify cur fun n => { n with children := n.children ++ [heap.length] }) ++ [x]) kids kids' := by
      refine ⟨?_, hk⟩
      intro r m hr hm
      rw [get_append_lt _ _ (by rw [List.length_modify]; exact lt_of_get hr), modify_ne]
      · exact hr
      · intro he
        subst he
        rw [h1] at hr
        cases hr
        rw [h2, h3] at hm
        simp at hm
    refine ⟨keep, .cons (n := { n with children := n.children ++ [heap.length] }) (rs := rs) ?_ h2 h3 h4 h5 h6 h7 ?_ (h9.frame keep) ?_ ?_⟩
    · rw [get_append_lt _ _ (by rw [List.length_modify]; exact hc)]
      exact modify_eq _ _ h1
    · simp [h8]
    · intro y hy
      simp at hy
      omega
    · refine h11.frame keep (hi := cur) ?_ ?_
      · intro r hr
        rw [get_append_lt _ _ (by rw [List.length_modify]; omega), modify_ne _ _ (by omega)]
      · intro p hp
        cases h11 with
        | nil => cases hp
        | cons g1 g2 g3 g4 g5 g6 g7 g8 g9 g10 g11 => cases hp; exact g10 cur (by simp)

theorem holds_enter {s A} (h : Holds s A) (c : Nat) (t : Int) : Holds (s.enter c t) (A.step (.enter c t)) := by
  obtain ⟨h1, h2, h3⟩ := h
  obtain ⟨stk, ended, kids, frames⟩ := s
  obtain ⟨roots, opened⟩ := A
  simp only at h1 h2 h3
  cases frames with
  | nil =>
    simp only [List.head?_nil, Option.map_none] at h2
    simp only [GStk.enter, Stk.pushNew, h2, Path.step]
    have hk : Keeps stk.heap (stk.heap ++ [⟨stk.maxId + 1, 0, c, t - stk.begin, 0, false, false, [], false⟩]) kids kids :=
      ⟨fun r n hr _ => by rw [get_append_lt _ _ (lt_of_get hr)]; exact hr, fun _ _ => rfl⟩
    refine ⟨?_, rfl, fun r k hr => by have := h3 r k hr; simp; omega⟩
    refine .cons (fr := []) (rs := []) (n := ⟨stk.maxId + 1, 0, c, t - stk.begin, 0, false, false, [], false⟩) (by simp) rfl rfl rfl rfl rfl rfl rfl
      (.nil _) (by simp) ?_
    cases h1 with
    | nil g1 g2 => exact .nil (rs := stk.roots) rfl (by rw [List.append_nil] at g1; rw [g1]; exact g2.frame hk)
  | cons p fr =>
    obtain ⟨cur, old⟩ := p
    simp only [List.head?_cons, Option.map_some] at h2
    have ho : old = fr.head?.map Prod.fst := by cases h1; rfl
    subst ho
    simp only [GStk.enter, Stk.pushNew, h2, Path.step]
    have hl : (stk.heap.modify cur fun n => { n with children := n.children ++ [stk.heap.length] }).length = stk.heap.length := List.length_modify ..
    refine ⟨?_, rfl, fun r k hr => by have := h3 r k hr; simp; omega⟩
    refine .cons (fr := (cur, fr.head?.map Prod.fst) :: fr) (rs := [])
      (n := ⟨stk.maxId + 1, match stk.heap[cur]? with | some n => n.id | none => 0, c, t - stk.begin, 0, false, false, [], false⟩) ?_ rfl rfl rfl rfl rfl rfl rfl
      (.nil _) (by simp) ?_
    · simp only
      rw [List.getElem?_append_right (by rw [hl]; exact Nat.le_refl _), hl, Nat.sub_self]
      rfl
    · exact (grow _ h1 (fun _ _ => rfl)).2

theorem holds_exit {s A} (h : Holds s A) (t : Int) (p : Bool) : Holds (s.exit t p) (A.step (.exit t p)) := by
  obtain ⟨h1, h2, h3⟩ := h
  obtain ⟨stk, ended, kids, frames⟩ := s
  obtain ⟨roots, opened⟩ := A
  simp only at h1 h2 h3
  cases h1 with
  | nil g1 g2 => exact ⟨.nil g1 g2, h2, h3⟩
  | @cons cur n rs c b ks fr op _ g1 g2 g3 g4 g5 g6 g7 g8 g9 g10 g11 =>
    simp only [GStk.exit, Stk.finish, Path.step]
    have hc := lt_of_get g1
    have keep : Keeps stk.heap (stk.heap.modify cur fun n => { n with endNs := t - stk.begin, finished := true, panic := p }) kids kids := by
      refine ⟨?_, fun _ _ => rfl⟩
      intro r m hr hm
      rw [modify_ne]
      · exact hr
      · intro he
        subst he
        rw [g1] at hr
        cases hr
        rw [g2, g3] at hm
        simp at hm
    have hrep : Rep stk.begin (stk.heap.modify cur fun n => { n with endNs := t - stk.begin, finished := true, panic := p }) kids cur
        (.call c b (some (t, p)) ks) := by
      refine .call (n := { n with endNs := t - stk.begin, finished := true, panic := p }) (modify_eq _ _ g1) g2 g4 g5 rfl rfl rfl ?_
      simp only
      rw [g8, List.append_nil]
      exact g9.frame keep
    have hop := (g11.frame keep (hi := cur) (fun r hr => modify_ne _ _ (by omega)) (by
      intro q hq
      cases g11 with
      | nil => cases hq
      | cons e1 e2 e3 e4 e5 e6 e7 e8 e9 e10 e11 => cases hq; exact e10 cur (by simp))).attach hrep
    exact ⟨hop, rfl, fun r k hr => by simpa using h3 r k hr⟩

theorem holds_go {s A} (h : Holds s A) (k : Nat) (t : Int) : Holds (s.go k t) (A.step (.spawn k t)) := by
  obtain ⟨h1, h2, h3⟩ := h
  obtain ⟨stk, ended, kids, frames⟩ := s
  obtain ⟨roots, opened⟩ := A
  simp only at h1 h2 h3
  have he := opens_iff h1
  cases frames with
  | nil =>
    simp only [List.head?_nil, Option.map_none] at h2
    simp only [GStk.go, h2, Path.step, he, List.isEmpty_nil, if_true]
    exact ⟨h1, h2, h3⟩
  | cons q fr =>
    obtain ⟨cur, old⟩ := q
    simp only [List.head?_cons, Option.map_some] at h2
    have ho : old = fr.head?.map Prod.fst := by cases h1; rfl
    subst ho
    have hl : (stk.heap.modify cur fun n => { n with children := n.children ++ [stk.heap.length] }).length = stk.heap.length := List.length_modify ..
    have hk : ∀ r, r < stk.heap.length → ((stk.heap.length, k) :: kids).lookup r = kids.lookup r := by
      intro r hr
      have : (r == stk.heap.length) = false := by simp; omega
      simp [List.lookup_cons, this]
    obtain ⟨keep, hop⟩ := grow (⟨0, 0, 0, t - stk.begin, 0, false, false, [], true⟩ : Node) h1 hk
    simp only [GStk.go, h2, Path.step, he, List.isEmpty_cons, Stk.appendGo]
    refine ⟨?_, by simp, ?_⟩
    · refine hop.attach (.go (n := ⟨0, 0, 0, t - stk.begin, 0, false, false, [], true⟩) ?_ rfl rfl rfl rfl (by simp))
      rw [List.getElem?_append_right (by rw [hl]; exact Nat.le_refl _), hl]
      simp
    · intro r k' hr
      simp only [List.length_append, List.length_modify, List.length_singleton]
      rcases List.mem_cons.1 hr with h | h
      · cases h; omega
      · have := h3 r k' h; omega

theorem holds_step {s A} (h : Holds s A) (e : Ev) : Holds (s.step e) (A.step e) := by
  cases e with
  | enter c t => exact holds_enter h c t
  | exit t p => exact holds_exit h t p
  | spawn k t => exact holds_go h k t
  | done t => exact ⟨h.opens, h.top, h.kids⟩
  | other => exact h

theorem holds_run (l : List Ev) : ∀ {s A}, Holds s A → Holds (l.foldl GStk.step s) (l.foldl Path.step A) := by
  induction l with
  | nil => intro s A h; exact h
  | cons e l ih => intro s A h; exact ih (holds_step h e)

theorem step_begin (s : GStk) (e : Ev) : (s.step e).stk.begin = s.stk.begin := by
  cases e with
  | enter c t => simp only [GStk.step, GStk.enter, Stk.pushNew]; cases s.stk.top <;> rfl
  | exit t p => simp only [GStk.step, GStk.exit]; cases s.frames <;> rfl
  | spawn k t => simp only [GStk.step, GStk.go, Stk.appendGo]; cases s.stk.top <;> rfl
  | done t => rfl
  | other => rfl

theorem run_begin (l : List Ev) : ∀ s : GStk, (l.foldl GStk.step s).stk.begin = s.stk.begin := by
  induction l with
  | nil => intro s; rfl
  | cons e l ih => intro s; rw [List.foldl_cons, ih, step_begin]

theorem step_ended (s : GStk) (e : Ev) (h : ∀ t, e ≠ .done t) : (s.step e).ended = s.ended := by
  cases e with
  | enter c t => rfl
  | exit t p => simp only [GStk.step, GStk.exit]; cases s.frames <;> rfl
  | spawn k t => simp only [GStk.step, GStk.go]; cases s.stk.top <;> rfl
  | done t => exact absurd rfl (h t)
  | other => rfl

theorem run_ended_some (l : List Ev) : ∀ (s : GStk) (e : Int), s.ended = some e → (l.foldl GStk.step s).ended = some e := by
  induction l with
  | nil => intro s e h; exact h
  | cons x l ih =>
    intro s e h
    rw [List.foldl_cons]
    apply ih
    by_cases hx : ∃ t, x = .done t
    · obtain ⟨t, rfl⟩ := hx; simp [GStk.step, GStk.done, h]
    · rw [step_ended _ _ (fun t ht => hx ⟨t, ht⟩), h]

theorem run_ended (l : List Ev) : ∀ (s : GStk), s.ended = none → (l.foldl GStk.step s).ended = Spec.endOf l := by
  induction l with
  | nil => intro s h; exact h
  | cons x l ih =>
    intro s h
    rw [List.foldl_cons]
    by_cases hx : ∃ t, x = .done t
    · obtain ⟨t, rfl⟩ := hx
      rw [run_ended_some l _ t (by simp [GStk.step, GStk.done, h])]
      rfl
    · rw [ih _ (by rw [step_ended _ _ (fun t ht => hx ⟨t, ht⟩), h])]
      cases x with
      | done t => exact absurd ⟨t, rfl⟩ hx
      | _ => rfl

/-! The copies. -/

mutual
/-- A copied entry shows an act. -/
inductive Copy (begin : Int) : Ent → Act → Prop where
  | ended {n sid ents c b e p g} : n.isGo = false → n.call = c → n.beginNs = b - begin → n.finished = true → n.endNs = e - begin → n.panic = p →
      Copies begin ents g → Copy begin (.mk n sid ents) (.call c b (some (e, p)) g)
  | running {n sid ents c b g} : n.isGo = false → n.call = c → n.beginNs = b - begin → n.finished = false → n.endNs = 0 → n.panic = false →
      Copies begin ents g → Copy begin (.mk n sid ents) (.call c b none g)
  | go {n k t} : n.isGo = true → n.beginNs = t - begin → n.panic = false → Copy begin (.mk n (some k) []) (.go k t)
inductive Copies (begin : Int) : List Ent → List Act → Prop where
  | nil : Copies begin [] []
  | cons {x a xs as} : Copy begin x a → Copies begin xs as → Copies begin (x :: xs) (a :: as)
end

theorem Copies.append {begin} : ∀ {xs as xs' as'}, Copies begin xs as → Copies begin xs' as' → Copies begin (xs ++ xs') (as ++ as')
  | _, _, _, _, .nil, h => h
  | _, _, _, _, .cons h1 h2, h => .cons h1 (Copies.append h2 h)

mutual
theorem Rep.copy {begin heap kids} : ∀ {r a fuel}, heap.length - r ≤ fuel → Rep begin heap kids r a → Copy begin (clone heap kids fuel r) a
  | r, a, 0, hf, h => by
    have : r < heap.length := by cases h with | call h => exact lt_of_get h | go h => exact lt_of_get h
    omega
  | r, _, fuel + 1, hf, .call h1 h2 h3 h4 h5 h6 h7 h8 => by
    have := lt_of_get h1
    simp only [clone, h1]
    exact .ended h2 h3 h4 h5 h6 h7 (Reps.copies (lo := r + 1) (by omega) h8)
  | r, _, fuel + 1, hf, .go h1 h2 h3 h4 h5 h6 => by
    simp only [clone, h1, h5, h6, List.map_nil]
    exact .go h2 h3 h4
theorem Reps.copies {begin heap kids} : ∀ {lo rs as fuel}, heap.length - lo ≤ fuel → Reps begin heap kids lo rs as →
    Copies begin (rs.map (clone heap kids fuel)) as
  | _, _, _, _, _, .nil _ => .nil
  | _, _, _, _, hf, .cons h1 h2 h3 => .cons (Rep.copy (by omega) h2) (Reps.copies hf h3)
end

theorem clone_mono_copy {begin heap kids roots done} {fr op extra inner} (h : Opens begin heap kids roots done fr op extra)
    (hx : ∀ fuel, (∀ x ∈ extra, heap.length - x ≤ fuel) → Copies begin (extra.map (clone heap kids fuel)) inner) :
    Copies begin (roots.map (clone heap kids heap.length)) (done ++ fill op inner) := by
  induction h generalizing inner with
  | nil h1 h2 =>
    rw [h1, List.map_append]
    exact (h2.copies (Nat.sub_le _ _)).append (hx _ (fun _ _ => Nat.sub_le _ _))
  | @cons cur n rs c b ks fr op extra h1 h2 h3 h4 h5 h6 h7 h8 h9 h10 h11 ih =>
    rw [fill]
    apply ih
    intro fuel hf
    have hc := hf cur (by simp)
    have hl := lt_of_get h1
    cases fuel with
    | zero => omega
    | succ fuel =>
      simp only [List.map_cons, List.map_nil, clone, h1]
      refine .cons (.running h2 h4 h5 h3 h6 h7 ?_) .nil
      rw [h8, List.map_append]
      refine (h9.copies (by omega)).append (hx _ ?_)
      intro x hx'
      have := h10 x hx'
      omega

theorem holds_copies {s A} (h : Holds s A) : Copies s.stk.begin s.roots (A.total []) :=
  clone_mono_copy h.opens (fun _ _ => .nil)

/-- A snapshot of a goroutine's stack shows what the goroutine has done. -/
theorem snapshot_copies (t : Int) (l : List Ev) {f} (h : Ongoing false l f) : Copies t (l.foldl GStk.step (GStk.new t)).roots f := by
  have h1 := holds_copies (holds_run l (holds_new t))
  rw [run_begin, ongoing_run h _ rfl] at h1
  simp only [Path.total, fill, List.nil_append] at h1
  exact h1

end Verif.Runtime.TraceGo
