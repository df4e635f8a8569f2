/-
C43: handlers registered when a call starts each run once for that call, even if hooks register or cancel
handlers meanwhile. False of the code; what holds is proved.
-/
import Verif.Runtime.Slice

namespace Verif.Runtime.Slice

/-- Slices point to allocated arrays that are long enough. -/
def Ok (m : Mem) (s : Slice) : Prop := s.arr < m.next ∧ s.len ≤ (m.arrays s.arr).length

/-- **C43** is false: handlers 1, 2, 3 are registered; the hook of 1 cancels its own registration (a usual
    "once" idiom). For the running call 2 is skipped and 3 runs twice. -/
theorem C43_counterexample :
    ∃ (m : Mem) (loc : Slice) (beh : Nat → List Act), Ok m loc ∧ m.read loc = [1, 2, 3] ∧
      visited beh m loc ⟨1, 0⟩ = [1, 3, 3] := by
  refine ⟨⟨fun a => if a = 0 then [1, 2, 3, 0] else [], 2⟩, ⟨0, 3⟩, fun h => if h = 1 then [.cancel 1] else [],
    ⟨by decide, by decide⟩, by decide, by decide⟩

/-- A second failure: a hook cancels the last handler 3 and registers 4: the new handler is run for the current
    call, in the place of the cancelled one. -/
theorem C43_counterexample_push :
    ∃ (m : Mem) (loc : Slice) (beh : Nat → List Act), Ok m loc ∧ m.read loc = [1, 2, 3] ∧
      visited beh m loc ⟨1, 0⟩ = [1, 2, 4] := by
  refine ⟨⟨fun a => if a = 0 then [1, 2, 3, 0] else [], 2⟩, ⟨0, 3⟩,
    fun h => if h = 1 then [.cancel 3, .push 4 0] else [], ⟨by decide, by decide⟩, by decide, by decide⟩

/-- A step that keeps the iterated prefix lets the loop visit exactly the original handlers. `P` is an
    invariant on memory and registry. -/
theorem loop_eq (beh : Nat → List Act) (s : Slice) (orig : List Nat) (hl : orig.length = s.len)
    (P : Mem → Slice → Prop)
    (hP : ∀ m reg, P m reg → (m.arrays s.arr).take s.len = orig)
    (hstep : ∀ m reg h, P m reg → P (acts m reg (beh h)).1 (acts m reg (beh h)).2) :
    ∀ (fuel i : Nat) (m : Mem) (reg : Slice), i + fuel = s.len → P m reg →
      loop beh s i fuel m reg = orig.drop i := by
  intro fuel
  induction fuel with
  | zero =>
    intro i m reg hi _
    rw [List.drop_eq_nil_of_le (by omega)]; rfl
  | succ fuel ih =>
    intro i m reg hi hp
    have ho := hP m reg hp
    have hi' : i < orig.length := by omega
    have hget : (m.arrays s.arr)[i]? = some orig[i] := by
      have h1 : ((m.arrays s.arr).take s.len)[i]? = some orig[i] := by
        rw [ho, List.getElem?_eq_getElem hi']
      rw [List.getElem?_take] at h1
      split at h1
      · exact h1
      · cases h1
    unfold loop
    rw [hget, List.drop_eq_getElem_cons hi']
    simp only
    rw [ih (i + 1) _ _ (by omega) (hstep m reg orig[i] hp)]

/-- Invariants preserved by each action are preserved by all of them. -/
theorem acts_inv (P : Mem → Slice → Prop) (as : List Act)
    (h : ∀ a ∈ as, ∀ m reg, P m reg → P (act m reg a).1 (act m reg a).2) :
    ∀ m reg, P m reg → P (acts m reg as).1 (acts m reg as).2 := by
  induction as with
  | nil => intro m reg hp; exact hp
  | cons a as ih =>
    intro m reg hp
    have := ih (fun x hx => h x (by simp [hx])) _ _ (h a (by simp) m reg hp)
    exact this

/-- An action leaves arrays other than the registry's own alone. -/
theorem act_other (m : Mem) (reg : Slice) (a : Act) (b : Nat) (hb : b ≠ reg.arr) (hlt : b < m.next)
    (hreg : reg.arr < m.next) :
    (act m reg a).1.arrays b = m.arrays b ∧ b ≠ (act m reg a).2.arr ∧ b < (act m reg a).1.next ∧
      (act m reg a).2.arr < (act m reg a).1.next := by
  have hne : b ≠ m.next := by omega
  cases a with
  | push h spare =>
    simp only [act, append]
    split
    · refine ⟨?_, hb, hlt, hreg⟩
      simp [Mem.write, hb]
    · refine ⟨?_, hne, ?_, ?_⟩
      · simp [Mem.write, hne]
      · simp [Mem.write]; omega
      · simp [Mem.write]
  | cancel h =>
    simp only [act]
    split
    · exact ⟨rfl, hb, hlt, hreg⟩
    · split
      · refine ⟨?_, hb, hlt, hreg⟩
        simp [removeAt, Mem.write, hb]
      · exact ⟨rfl, hb, hlt, hreg⟩

/-- **C43**, case proved (1): when init-time handlers exist as well, any registrations and cancellations made by
    hooks leave the running call alone: every handler in force at its start is visited once, in order. -/
theorem C43_copied_partial (beh : Nat → List Act) (m : Mem) (loc glob : Slice) (hl : Ok m loc) (hg : Ok m glob)
    (h1 : loc.len > 0) (h2 : glob.len > 0) :
    visited beh m loc glob = m.read loc ++ m.read glob := by
  unfold visited getHandlers
  have : (decide (glob.len > 0) && decide (loc.len > 0)) = true := by simp [h1, h2]
  rw [if_pos this]
  simp only
  have hlen : (m.read loc ++ m.read glob).length = loc.len + glob.len := by
    simp [Mem.read]
    have := hl.2; have := hg.2
    omega
  refine loop_eq beh ⟨m.next, loc.len + glob.len⟩ (m.read loc ++ m.read glob) hlen
    (fun m' reg => m'.arrays m.next = m.read loc ++ m.read glob ∧ m.next ≠ reg.arr ∧ m.next < m'.next ∧
      reg.arr < m'.next) ?_ ?_ _ 0 _ loc (by simp) ?_
  · intro m' reg hp
    simp only [hp.1]
    rw [← hlen, List.take_length]
  · intro m' reg h hp
    refine acts_inv (fun m' reg => m'.arrays m.next = m.read loc ++ m.read glob ∧ m.next ≠ reg.arr ∧
      m.next < m'.next ∧ reg.arr < m'.next) (beh h) ?_ m' reg hp
    intro a _ m1 reg1 hp1
    obtain ⟨e1, e2, e3, e4⟩ := act_other m1 reg1 a m.next hp1.2.1 hp1.2.2.1 hp1.2.2.2
    exact ⟨by rw [e1]; exact hp1.1, e2, e3, e4⟩
  · refine ⟨by simp [Mem.write], ?_, by simp [Mem.write], ?_⟩
    · have := hl.1; omega
    · simp [Mem.write]; have := hl.1; omega

/-- **C43**, case proved (2): hooks that only register new handlers leave the running call alone. -/
theorem C43_push_only_partial (beh : Nat → List Act) (hpush : ∀ h, ∀ a ∈ beh h, ∃ x sp, a = .push x sp)
    (m : Mem) (loc glob : Slice) (hl : Ok m loc) (h1 : loc.len > 0) (h2 : glob.len = 0) :
    visited beh m loc glob = m.read loc := by
  unfold visited getHandlers
  have : (decide (glob.len > 0) && decide (loc.len > 0)) = false := by simp [h2]
  rw [if_neg (by simp [this]), if_pos h1]
  simp only
  have hlen : (m.read loc).length = loc.len := by
    simp [Mem.read]; have := hl.2; omega
  refine loop_eq beh loc (m.read loc) hlen
    (fun m' reg => (m'.arrays loc.arr).take loc.len = m.read loc ∧ loc.arr < m'.next ∧
      (reg.arr = loc.arr → loc.len ≤ reg.len)) ?_ ?_ _ 0 _ loc (by simp) ⟨rfl, hl.1, fun _ => Nat.le_refl _⟩
  · intro m' reg hp; exact hp.1
  · intro m' reg h hp
    refine acts_inv (fun m' reg => (m'.arrays loc.arr).take loc.len = m.read loc ∧ loc.arr < m'.next ∧
      (reg.arr = loc.arr → loc.len ≤ reg.len)) (beh h) ?_ m' reg hp
    intro a ha m1 reg1 hp1
    obtain ⟨x, sp, rfl⟩ := hpush h a ha
    simp only [act, append]
    split
    · refine ⟨?_, hp1.2.1, ?_⟩
      · by_cases he : loc.arr = reg1.arr
        · have hle := hp1.2.2 he.symm
          simp only [Mem.write, he, ↓reduceIte]
          rw [List.take_set_of_le hle, ← he]
          exact hp1.1
        · simp only [Mem.write, he, ↓reduceIte]
          exact hp1.1
      · intro he
        have := hp1.2.2 he
        simp only
        omega
    · have hne : loc.arr ≠ m1.next := by have := hp1.2.1; omega
      refine ⟨?_, ?_, ?_⟩
      · simp [Mem.write, hne]; exact hp1.1
      · have := hp1.2.1; simp [Mem.write]; omega
      · intro he; exact absurd he.symm hne

/-- Every cancel of the list of actions hits the handler registered last at that time. -/
def LifoCancels (m : Mem) (reg : Slice) : List Act → Prop
  | [] => True
  | a :: as => (∃ h, a = .cancel h ∧ (m.read reg).getLast? = some h) ∧
      LifoCancels (act m reg a).1 (act m reg a).2 as

theorem lifo_mem (m : Mem) (reg : Slice) (as : List Act) (h : LifoCancels m reg as) :
    (acts m reg as).1 = m ∧ (acts m reg as).2.arr = reg.arr := by
  induction as generalizing m reg with
  | nil => exact ⟨rfl, rfl⟩
  | cons a as ih =>
    obtain ⟨⟨x, rfl, hx⟩, h2⟩ := h
    have hact : act m reg (.cancel x) = (m, { reg with len := reg.len - 1 }) := by
      simp [act, hx]
    have := ih _ _ h2
    simp only [acts, List.foldl_cons]
    rw [hact] at this ⊢
    exact this

/-- During the loop, each hook only cancels, and always the handler registered last at that time. -/
def LifoRun (beh : Nat → List Act) : List Nat → Mem → Slice → Prop
  | [], _, _ => True
  | h :: hs, m, reg => LifoCancels m reg (beh h) ∧
      LifoRun beh hs (acts m reg (beh h)).1 (acts m reg (beh h)).2

/-- **C43**, case proved (3): cancelling in the reverse order of registration leaves the running call alone. Hooks
    may cancel any number of handlers as long as each cancelled one is the last one registered. -/
theorem C43_lifo_partial (beh : Nat → List Act) (m : Mem) (loc glob : Slice) (hl : Ok m loc)
    (h1 : loc.len > 0) (h2 : glob.len = 0) (hlifo : LifoRun beh (m.read loc) m loc) :
    visited beh m loc glob = m.read loc := by
  unfold visited getHandlers
  have : (decide (glob.len > 0) && decide (loc.len > 0)) = false := by simp [h2]
  rw [if_neg (by simp [this]), if_pos h1]
  simp only
  have hlen : (m.read loc).length = loc.len := by
    simp [Mem.read]; have := hl.2; omega
  have key : ∀ (fuel i : Nat) (reg : Slice), i + fuel = loc.len →
      LifoRun beh ((m.read loc).drop i) m reg → loop beh loc i fuel m reg = (m.read loc).drop i := by
    intro fuel
    induction fuel with
    | zero => intro i reg hi _; rw [List.drop_eq_nil_of_le (by omega)]; rfl
    | succ fuel ih =>
      intro i reg hi hr
      have hi' : i < (m.read loc).length := by omega
      rw [List.drop_eq_getElem_cons hi'] at hr
      obtain ⟨hr1, hr2⟩ := hr
      have hmem := (lifo_mem _ _ _ hr1).1
      have hget : (m.arrays loc.arr)[i]? = some (m.read loc)[i] := by
        have h1 : (m.read loc)[i]? = some (m.read loc)[i] := List.getElem?_eq_getElem hi'
        unfold Mem.read at h1 ⊢
        rw [List.getElem?_take] at h1
        split at h1
        · exact h1
        · cases h1
      unfold loop
      rw [hget, List.drop_eq_getElem_cons hi']
      simp only
      rw [hmem] at hr2 ⊢
      rw [ih (i + 1) _ (by omega) hr2]
  exact key loc.len 0 loc (by omega) (by simpa using hlifo)

/-- Examples: pushes during the loop; cancel with init-time handlers present; self-cancel of the last one. -/
def exMem : Mem := ⟨fun a => if a = 0 then [1, 2, 3, 0] else if a = 1 then [9] else [], 2⟩

example : visited (fun h => if h = 2 then [.push 5 1, .push 6 1] else []) exMem ⟨0, 3⟩ ⟨1, 0⟩ = [1, 2, 3] := by
  decide
example : visited (fun h => if h = 1 then [.cancel 1] else []) exMem ⟨0, 3⟩ ⟨1, 1⟩ = [1, 2, 3, 9] := by decide
example : visited (fun h => if h = 1 then [.cancel 3, .cancel 2] else []) exMem ⟨0, 3⟩ ⟨1, 0⟩ = [1, 2, 3] := by
  decide
example : LifoRun (fun h => if h = 1 then [.cancel 3, .cancel 2] else []) [1, 2, 3] exMem ⟨0, 3⟩ :=
  ⟨⟨⟨3, rfl, by decide⟩, ⟨2, rfl, by decide⟩, trivial⟩, trivial, trivial, trivial⟩

end Verif.Runtime.Slice
