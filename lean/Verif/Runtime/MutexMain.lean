/-
C100: concurrent calls on recorded stacks behave as if made one after another.
-/
import Verif.Runtime.MutexSpec

namespace Verif.Runtime.Mutex
open Spec
open Stack (Stk Node)

theorem lt_of_get {α} {l : List α} {r : Nat} {n : α} (h : l[r]? = some n) : r < l.length := (List.getElem?_eq_some_iff.1 h).1

/-- What holds of a stack whose mutex is free. -/
structure Good (m : Mem) : Prop where
  top : ∀ t, m.stk.top = some t → IsCall m t
  roots : ∀ r, r ∈ m.stk.roots → r < m.stk.heap.length
  below : ∀ (r : Nat) (n : Node), m.stk.heap[r]? = some n → ∀ c, c ∈ n.children → r < c ∧ c < m.stk.heap.length
  linked : ∀ r, r < m.stk.heap.length → r ∈ m.stk.roots ∨ ∃ (p : Nat) (n : Node), m.stk.heap[p]? = some n ∧ r ∈ n.children

theorem IsCall.lt {m r} (h : IsCall m r) : r < m.stk.heap.length := by
  obtain ⟨n, h, -⟩ := h
  exact lt_of_get h

theorem good_fresh (b d) : Good (fresh b d) :=
  { top := fun t h => (by cases h)
    roots := fun r h => (by cases h)
    below := fun r n h => (by simp [fresh, Stk.new] at h)
    linked := fun r h => (by simp [fresh, Stk.new] at h) }

/-- Adding an entry under entry `t`. -/
def grown (heap : List Node) (t : Nat) (x : Node) : List Node :=
  (heap.modify t fun n => { n with children := n.children ++ [heap.length] }) ++ [x]

theorem grown_len (heap t x) : (grown heap t x).length = heap.length + 1 := by simp [grown]

theorem grown_get (heap : List Node) (t : Nat) (x : Node) (r : Nat) :
    (grown heap t x)[r]? = if r = heap.length then some x else
      (heap[r]?).map fun n => if r = t then { n with children := n.children ++ [heap.length] } else n := by
  unfold grown
  by_cases h : r = heap.length
  · rw [if_pos h, h, List.getElem?_append_right (by simp)]; simp
  · rw [if_neg h]
    by_cases h' : r < heap.length
    · rw [List.getElem?_append_left (by simpa using h'), List.getElem?_modify]
      by_cases e : t = r
      · simp [e]
      · simp [e, Ne.symm e]
    · rw [List.getElem?_eq_none (by simp; omega), List.getElem?_eq_none (by omega)]; rfl

theorem grown_good {m : Mem} (h : Good m) {t : Nat} (ht : m.stk.top = some t) (x : Node) (hx : x.children = []) (m' : Mem)
    (h1 : m'.stk.heap = grown m.stk.heap t x) (h2 : m'.stk.roots = m.stk.roots)
    (h3 : ∀ u, m'.stk.top = some u → IsCall m' u) : Good m' := by
  refine ⟨h3, ?_, ?_, ?_⟩
  · intro r hr
    rw [h2] at hr
    rw [h1, grown_len]
    have := h.roots r hr
    omega
  · intro r n hn c hc
    rw [h1, grown_get] at hn
    rw [h1, grown_len]
    split at hn
    · cases hn; rw [hx] at hc; cases hc
    · obtain ⟨n', hn', rfl⟩ := Option.map_eq_some_iff.1 hn
      have hlt := lt_of_get hn'
      by_cases e : r = t
      · rw [if_pos e] at hc
        rcases List.mem_append.1 hc with hc | hc
        · have := h.below r n' hn' c hc; omega
        · rw [List.mem_singleton] at hc; omega
      · rw [if_neg e] at hc
        have := h.below r n' hn' c hc; omega
  · intro r hr
    rw [h1, grown_len] at hr
    rw [h1, h2]
    by_cases e : r = m.stk.heap.length
    · right
      obtain ⟨n, hn, -⟩ := h.top t ht
      have hlt := lt_of_get hn
      refine ⟨t, { n with children := n.children ++ [m.stk.heap.length] }, ?_, by simp [e]⟩
      rw [grown_get, if_neg (by omega), hn]; simp
    · rcases h.linked r (by omega) with hh | ⟨p, n, hn, hc⟩
      · exact .inl hh
      · right
        have hlt := lt_of_get hn
        refine ⟨p, if p = t then { n with children := n.children ++ [m.stk.heap.length] } else n, ?_, ?_⟩
        · rw [grown_get, if_neg (by omega), hn]; rfl
        · by_cases e : p = t
          · rw [if_pos e]; exact List.mem_append_left _ hc
          · rw [if_neg e]; exact hc

/-- The entries stay, and stay what they are. -/
def Grows (m m' : Mem) : Prop := ∀ r, IsCall m r → IsCall m' r

/-- The new entry of a call. -/
def newNode (m : Mem) (t : Int) (c : Nat) (pid : Nat) : Node := ⟨m.stk.maxId + 1, pid, c, t - m.stk.begin, 0, false, false, [], false⟩

theorem push_none (m : Mem) (t c) (h : m.stk.top = none) : (m.stk.pushNew t c) =
    ({ m.stk with heap := m.stk.heap ++ [newNode m t c 0], roots := m.stk.roots ++ [m.stk.heap.length], maxId := m.stk.maxId + 2, top := some m.stk.heap.length, depth := m.stk.depth + 1 }, m.stk.heap.length, none) := by
  unfold Stk.pushNew
  rw [h]
  rfl

theorem push_some (m : Mem) (t c u n) (h : m.stk.top = some u) (hn : m.stk.heap[u]? = some n) : (m.stk.pushNew t c) =
    ({ m.stk with heap := grown m.stk.heap u (newNode m t c n.id), maxId := m.stk.maxId + 2, top := some m.stk.heap.length, depth := m.stk.depth + 1 }, m.stk.heap.length, some u) := by
  unfold Stk.pushNew
  rw [h]
  simp only [hn]
  rfl

theorem modify_last (l : List Node) (x : Node) (f : Node → Node) : (l ++ [x]).modify l.length f = l ++ [f x] := by
  apply List.ext_getElem?
  intro i
  rw [List.getElem?_modify]
  by_cases h : i < l.length
  · have hne : l.length ≠ i := by omega
    rw [List.getElem?_append_left h, List.getElem?_append_left h]; simp [hne]
  · by_cases e : i = l.length
    · subst e; simp
    · rw [List.getElem?_eq_none (by simp; omega), List.getElem?_eq_none (by simp; omega)]; rfl

theorem modify_at_end (l : List Node) (x : Node) (f : Node → Node) {k : Nat} (e : k = l.length) : (l ++ [x]).modify k f = l ++ [f x] := by
  rw [e, modify_last]

theorem modify_before (l : List Node) (x : Node) (f : Node → Node) {t : Nat} (h : t < l.length) : (l ++ [x]).modify t f = l.modify t f ++ [x] := by
  apply List.ext_getElem?
  intro i
  rw [List.getElem?_modify]
  by_cases h' : i < l.length
  · rw [List.getElem?_append_left h', List.getElem?_append_left (by simpa using h'), List.getElem?_modify]
  · have hne : t ≠ i := by omega
    rw [List.getElem?_append_right (by omega), List.getElem?_append_right (by simp; omega)]; simp [hne]

theorem modify_modify (l : List Node) (r : Nat) (f g : Node → Node) : (l.modify r f).modify r g = l.modify r fun n => g (f n) := by
  apply List.ext_getElem?
  intro i
  simp only [List.getElem?_modify]
  cases l[i]? with
  | none => rfl
  | some n => by_cases h : r = i <;> simp [h]

theorem modify_congr (l : List Node) (r : Nat) (n : Node) (f g : Node → Node) (h : l[r]? = some n) (hf : f n = g n) : l.modify r f = l.modify r g := by
  apply List.ext_getElem?
  intro i
  simp only [List.getElem?_modify]
  by_cases e : r = i
  · subst e; simp [h, hf]
  · simp [e]

/-! ## Each method alone -/

theorem run_push {m : Mem} (h : Good m) (t : Int) (c : Nat) :
    (code (.push t c) m.stk.begin).run m = ({ m with stk := (m.stk.pushNew t c).1 }, .entry (m.stk.pushNew t c).2.1 (m.stk.pushNew t c).2.2) := by
  cases ht : m.stk.top with
  | none =>
    rw [push_none m t c ht]
    simp [code, pushCode, bump, Code.run, Code.read, Code.write, Mem.maxId, Mem.alloc, ht, link, Mem.top, Mem.node, Mem.depth, Mem.roots,
      modify_last, newNode]
  | some u =>
    obtain ⟨n, hn, hg⟩ := h.top u ht
    have hlt := lt_of_get hn
    rw [push_some m t c u n ht hn]
    have hn1 : ∀ x : Node, (m.stk.heap ++ [x])[u]? = some n := fun x => by rw [List.getElem?_append_left hlt]; exact hn
    simp only [code, pushCode, bump, Code.run, Code.read, Code.write, Mem.maxId, Mem.alloc, ht, link, Mem.top, Mem.node, Mem.depth, id,
      modify_last, hn1]
    rw [modify_before _ _ _ hlt]
    rw [modify_at_end _ _ _ (by simp)]
    rw [modify_congr m.stk.heap u n _ (fun n' => { n' with children := n'.children ++ [m.stk.heap.length] }) hn rfl]
    rfl

theorem run_finish {m : Mem} (cur : Nat) (old : Option Nat) (t : Int) (e p : Bool) :
    (code (.finish cur old t e p) m.stk.begin).run m =
      ({ m with stk := m.stk.finish cur old t p, ended := if e then some t else m.ended }, .unit) := by
  cases e <;> simp [code, finishCode, Code.run, Code.read, Code.write, Mem.end, Mem.node, Mem.top, Mem.depth, modify_modify, Stk.finish]

theorem run_noGo {m : Mem} (ns : Int) (k : Nat) (h : m.stk.top = none) : (code (.appendGo ns k) m.stk.begin).run m = (m, .unit) := by
  simp [code, appendGoCode, Code.run, Code.read, h]

theorem run_go {m : Mem} (g : Good m) (ns : Int) (k t : Nat) (h : m.stk.top = some t) :
    (code (.appendGo ns k) m.stk.begin).run m =
      ({ m with stk := m.stk.appendGo ns, kids := (m.stk.heap.length, k) :: m.kids }, .unit) := by
  obtain ⟨n, hn, hg⟩ := g.top t h
  have hlt := lt_of_get hn
  have hn1 : ∀ x : Node, (m.stk.heap ++ [x])[t]? = some n := fun x => by rw [List.getElem?_append_left hlt]; exact hn
  simp only [code, appendGoCode, Code.run, Code.read, Code.write, id, h, Mem.alloc, Mem.kid, Mem.node, hn1, Stk.appendGo]
  rw [modify_before _ _ _ hlt]
  rw [modify_congr m.stk.heap t n _ (fun n' => { n' with children := n'.children ++ [m.stk.heap.length] }) hn rfl]

theorem run_setEnd {m : Mem} (t : Int) : (code (.setEnd t) m.stk.begin).run m =
    ({ m with ended := match m.ended with | none => some t | some e => some e }, .unit) := by
  cases h : m.ended with
  | none => simp [code, setEndCode, Code.run, Code.read, Code.write, h, Mem.end]
  | some e =>
    simp only [code, setEndCode, Code.run, Code.read, h, id]
    rw [← h]

/-- The copy as a function. -/
def copyList (heap : List Node) (kids : List (Nat × Nat)) (below : List Nat → Forest) : List Nat → Forest
  | [] => .nil
  | r :: rs => match heap[r]? with
    | none => copyList heap kids below rs
    | some n => .node n (kids.lookup r) (below n.children) (copyList heap kids below rs)

def copyAll (heap : List Node) (kids : List (Nat × Nat)) : Nat → List Nat → Forest
  | 0 => fun _ => .nil
  | d + 1 => copyList heap kids (copyAll heap kids d)

theorem run_walk (m : Mem) (below : List Nat → (Forest → Code) → Code) (bp : List Nat → Forest)
    (hb : ∀ rs k, (below rs k).run m = (k (bp rs)).run m) : ∀ rs k, (walk below rs k).run m = (k (copyList m.stk.heap m.kids bp rs)).run m
  | [], k => rfl
  | r :: rs, k => by
    rw [walk, Code.read, Code.run, copyList]
    cases m.stk.heap[r]? with
    | none => exact run_walk m below bp hb rs k
    | some n =>
      show (below n.children _).run m = _
      rw [hb, run_walk m below bp hb rs]

theorem run_clone (m : Mem) : ∀ d rs k, (cloneCode d rs k).run m = (k (copyAll m.stk.heap m.kids d rs)).run m
  | 0, _, _ => rfl
  | d + 1, rs, k => run_walk m (cloneCode d) _ (run_clone m d) rs k

theorem run_snapshot (m : Mem) : (code .snapshot m.stk.begin).run m =
    (m, .tree m.stk.begin m.ended (copyAll m.stk.heap m.kids m.stk.heap.length m.stk.roots)) := by
  simp only [code, snapshotCode, Code.read, Code.run, id]
  rw [run_clone]
  rfl

theorem copies_list {heap kids} {bp : List Nat → Forest} : ∀ rs, (∀ r, r ∈ rs → ∃ n, heap[r]? = some n ∧ Copies heap kids n.children (bp n.children)) →
    Copies heap kids rs (copyList heap kids bp rs)
  | [], _ => .nil
  | r :: rs, h => by
    obtain ⟨n, hn, hc⟩ := h r List.mem_cons_self
    rw [copyList, hn]
    exact .cons hn hc (copies_list rs fun x hx => h x (List.mem_cons_of_mem _ hx))

theorem copies_all {m : Mem} (g : Good m) : ∀ d rs, (∀ r, r ∈ rs → r < m.stk.heap.length ∧ m.stk.heap.length ≤ r + d) →
    Copies m.stk.heap m.kids rs (copyAll m.stk.heap m.kids d rs)
  | 0, rs, h => by
    cases rs with
    | nil => exact .nil
    | cons r rs => have := h r List.mem_cons_self; omega
  | d + 1, rs, h => by
    refine copies_list rs fun r hr => ?_
    obtain ⟨h1, h2⟩ := h r hr
    refine ⟨m.stk.heap[r], List.getElem?_eq_getElem h1, copies_all g d _ fun c hc => ?_⟩
    have := g.below r _ (List.getElem?_eq_getElem h1) c hc
    omega

end Verif.Runtime.Mutex
