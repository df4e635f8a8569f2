/-
C01-C06, C09: properties of the mock / recorder / interceptor registries.
-/
import Verif.Runtime.RegistryLemmas

namespace Verif.Runtime
open RegSpec

/-! A concrete non-trivial history used by the examples: one init-time mock of function 7; after init
goroutine 1 mocks function 7 twice, cancels the first of the two, starts goroutine 2, which mocks
function 7 itself, and goroutine 1 then mocks function 8. -/

def exSlot : Slot := ⟨.mock, 7⟩

def exHist : Hist :=
  [.push 1 ⟨.mock, 8⟩ none 104, .push 2 exSlot none 103, .spawn 1 2, .cancel 1,
   .push 1 exSlot (some 5) 102, .push 1 exSlot none 101, .finishInit, .push 1 exSlot none 100]

example : WF exHist := by simp [exHist, WF, mentioned]

/-- **C01** After any history, the mock consulted for function (or variable) `key` on goroutine `g` is the
    latest registration of `g` still in force, else the latest init-time one, else none. -/
theorem C01_latest_uncancelled_mock (rs : Bool) (h : Hist) (hwf : WF h) (g : Gid) (s : Slot) :
    ((World.after rs h).lastMock g s).map Entry.toReg =
      ((localRegs rs h g s).getLast?).or ((globalRegs h s).getLast?) := by
  have I := inv_after rs h hwf
  generalize World.after rs h = w at *
  rw [← I.loc, ← I.glob]
  simp only [World.lastMock, List.getLast?_map]
  generalize w.localList g s = l
  generalize w.global s = gl
  cases l with
  | nil =>
    cases gl with
    | nil => rfl
    | cons a gl => simp [List.getLast?_eq_getElem?]
  | cons a l => simp [List.getLast?_eq_getElem?]

example : ((World.after false exHist).lastMock 1 exSlot) = some ⟨some 2, some 5, 102⟩ := by decide
example : ((World.after false exHist).lastMock 2 exSlot) = some ⟨some 3, none, 103⟩ := by decide
example : ((World.after false exHist).lastMock 3 exSlot) = some ⟨some 0, none, 100⟩ := by decide

/-- **C01/C11** (order part): the recorders / interceptors consulted are the goroutine's own ones in
    registration order, followed by the init-time ones in registration order. -/
theorem C11_handler_order (rs : Bool) (h : Hist) (hwf : WF h) (g : Gid) (s : Slot) :
    ((World.after rs h).handlers g s).map Entry.toReg = localRegs rs h g s ++ globalRegs h s := by
  have I := inv_after rs h hwf
  generalize World.after rs h = w at *
  rw [← I.loc, ← I.glob, ← List.map_append]
  congr 1
  unfold World.handlers
  generalize w.localList g s = l
  generalize w.global s = gl
  cases l <;> cases gl <;> simp

example : (World.after false exHist).handlers 1 exSlot = [⟨some 2, some 5, 102⟩, ⟨some 0, none, 100⟩] := by
  decide

/-- **C02** A cancel that does not panic removes exactly the cancelled registration `n` from every list of
    every goroutine and from the init-time lists; everything else, and the order, stays. -/
theorem C02_cancel_removes_exactly_own (rs : Bool) (h : Hist) (hwf : WF h) (n : Nat)
    (hok : ((World.after rs h).step rs (.cancel n)).2 = false) :
    let w := World.after rs h
    let w' := (w.step rs (.cancel n)).1
    (∀ g s, w'.localList g s = (w.localList g s).filter (fun e => e.id ≠ some n)) ∧
    (∀ s, w'.global s = (w.global s).filter (fun e => e.id ≠ some n)) := by
  have I := inv_after rs h hwf
  generalize World.after rs h = w at *
  simp only
  have key : ∀ r s, (w.step rs (.cancel n)).1.get r s = (w.get r s).filter (fun e => e.id ≠ some n) := by
    intro r s
    simp only [World.step] at hok ⊢
    cases hc : w.cancels[n]? with
    | none => simp [hc] at hok
    | some c =>
      simp only [hc] at hok ⊢
      cases hcc : w.cancel c with
      | none => simp [hcc] at hok
      | some w' =>
        simp only
        unfold World.cancel at hcc
        have hid := I.cid n c hc
        split at hcc
        · cases hcc
        · rw [removeEntry_spec (I.nodup _ _), hid] at hcc
          split at hcc
          · cases hcc
          · rename_i l hl
            cases hcc
            split at hl
            · cases hl
              rw [get_put]
              by_cases hr : r = c.holder
              · subst hr
                simp only [if_true, Holders.set]
                by_cases hs : s = c.slot
                · subst hs; simp
                · rw [if_neg hs]
                  symm; rw [List.filter_eq_self]
                  intro a ha
                  simp only [decide_not, Bool.not_eq_eq_eq_not, Bool.not_true, decide_eq_false_iff_not]
                  intro hh
                  obtain ⟨c', hc', _, h2⟩ := I.own _ _ n (mem_ids.2 ⟨a, ha, hh⟩)
                  rw [hc] at hc'; cases hc'
                  exact hs h2.symm
              · rw [if_neg hr]
                symm; rw [List.filter_eq_self]
                intro a ha
                simp only [decide_not, Bool.not_eq_eq_eq_not, Bool.not_true, decide_eq_false_iff_not]
                intro hh
                obtain ⟨c', hc', h1, _⟩ := I.own _ _ n (mem_ids.2 ⟨a, ha, hh⟩)
                rw [hc] at hc'; cases hc'
                exact hr h1.symm
            · cases hl
  refine ⟨?_, fun s => key .global s⟩
  intro g s
  rw [localList_eq, localList_eq, (step_cancel_attached rs w n).1]
  cases w.attached g with
  | none => rfl
  | some sid => exact key (.stack sid) s

example : ((World.after false exHist).step false (.cancel 2)).2 = false ∧
    ((World.after false exHist).step false (.cancel 2)).1.localList 1 exSlot = [] ∧
    (World.after false exHist).localList 1 exSlot = [⟨some 2, some 5, 102⟩] := by decide

/-- **C02** (when): a cancel panics iff the registration was already cancelled, or it was made during init and
    init is over (or there is no such registration). -/
theorem C02_cancel_panics_iff (rs : Bool) (h : Hist) (hwf : WF h) (n : Nat) :
    ((World.after rs h).step rs (.cancel n)).2 = true ↔
      (regCount h ≤ n ∨ (madeInInit h n = true ∧ inited h = true) ∨ cancelled h n = true) :=
  (step_cancel (inv_after rs h hwf).toCore n).1

/-- **C03** If a cancel succeeded at some point, then calling the same cancel function again later, whatever
    happened in between, panics and changes nothing. -/
theorem C03_double_cancel_panics (rs : Bool) (h h' : Hist) (n : Nat) (hwf : WF (h' ++ .cancel n :: h))
    (hok : ((World.after rs h).step rs (.cancel n)).2 = false) :
    let w := World.after rs (h' ++ .cancel n :: h)
    (w.step rs (.cancel n)).2 = true ∧ (w.step rs (.cancel n)).1 = w := by
  have hwf0 : WF (.cancel n :: h) := by
    clear hok
    induction h' with
    | nil => exact hwf
    | cons op t ih => exact ih (wf_tail hwf)
  have hnp := mt (step_cancel (inv_after rs h (wf_tail hwf0)).toCore n).1.2 (by rw [hok]; simp)
  have hc : cancelled (.cancel n :: h) n = true := by
    have h1 : n < regCount h := Nat.lt_of_not_le fun hh => hnp (Or.inl hh)
    have h2 : (madeInInit h n && inited h) = false := by
      rw [Bool.eq_false_iff]; intro hh
      simp only [Bool.and_eq_true] at hh
      exact hnp (Or.inr (Or.inl hh))
    simp [cancelled, h1, h2]
  have hc' : ∀ t, cancelled (t ++ .cancel n :: h) n = true := by
    intro t
    induction t with
    | nil => exact hc
    | cons op t ih => cases op <;> simp [cancelled, ih]
  have S := step_cancel (inv_after rs _ hwf).toCore n
  have hp := S.1.2 (Or.inr (Or.inr (hc' h')))
  exact ⟨hp, S.2.1 hp⟩

example : ((World.after false [Op.push 1 exSlot none 101, .finishInit]).step false (.cancel 0)).2 = false := by
  decide

/-- **C04** After init, an operation that is not about goroutine `g`'s own registrations changes neither its
    list for any slot, nor the mock, nor the recorders / interceptors it uses. -/
theorem C04_goroutine_isolation (rs : Bool) (h : Hist) (op : Op) (g : Gid) (s : Slot)
    (hwf : WF (op :: h)) (hi : inited h = true) (ht : ¬ touches h op g) :
    let w := World.after rs h
    let w' := (w.step rs op).1
    w'.localList g s = w.localList g s ∧ w'.lastMock g s = w.lastMock g s ∧
      w'.handlers g s = w.handlers g s := by
  have I := inv_after rs h (wf_tail hwf)
  have I' := inv_step I op hwf
  generalize World.after rs h = w at *
  have hw : w.initDone = true := by rw [I.init]; exact hi
  suffices hsuf : (w.step rs op).1.localList g s = w.localList g s ∧
      (w.step rs op).1.global s = w.global s by
    simp only [World.lastMock, World.handlers, hsuf.1, hsuf.2]
    exact ⟨trivial, trivial, trivial⟩
  cases op with
  | push g' s' want fn =>
    simp only [touches] at ht
    have ht' : ¬ g = g' := fun h => ht h.symm
    obtain ⟨C1, hat, hoth, hin, hcs, _, hgl, hlo, _⟩ := core_getOrAttach I.toCore g'
    simp only [World.step, World.push, hw, if_true]
    constructor
    · rw [← hlo g s, localList_eq, localList_eq]
      simp only [put_attached]
      cases ha : (w.getOrAttach g').1.attached g with
      | none => rfl
      | some sid =>
        have : sid ≠ (w.getOrAttach g').2 := by
          rintro rfl; exact ht' (C1.ainj _ _ _ ha hat)
        simp only [World.put, World.get]
        rw [if_neg this]
    · simp only [World.put]; rw [hgl]
  | cancel n =>
    simp only [touches] at ht
    have S := step_cancel (rs := rs) I.toCore n
    by_cases hp : (w.step rs (.cancel n)).2 = true
    · rw [S.2.1 hp]; exact ⟨rfl, rfl⟩
    · simp only [World.step] at hp ⊢
      cases hc : w.cancels[n]? with
      | none => simp [hc] at hp
      | some c =>
        simp only [hc] at hp ⊢
        cases hcc : w.cancel c with
        | none => simp [hcc] at hp
        | some w' =>
          simp only
          unfold World.cancel at hcc
          split at hcc
          · cases hcc
          · rename_i hcond
            split at hcc
            · cases hcc
            · cases hcc
              have hng : c.holder ≠ .global := by
                intro hh; exact hcond (by simp [hh, hw])
              cases hhold : c.holder with
              | global => exact absurd hhold hng
              | stack sid =>
                constructor
                · rw [localList_eq, localList_eq, put_attached]
                  cases ha : w.attached g with
                  | none => rfl
                  | some sid' =>
                    simp only
                    rw [get_put, if_neg]
                    intro hh; cases hh
                    exact ht (I.ownerG n c g _ hc hhold ha)
                · rfl
  | spawn p c =>
    simp only [touches] at ht
    have ht' : ¬ g = c := fun h => ht h.symm
    obtain ⟨C1, hat, hoth, hin, hcs, _, hgl, hlo, _⟩ := core_getOrAttach I.toCore c
    simp only [World.step, World.spawn]
    split
    · exact ⟨rfl, rfl⟩
    · simp only [hw, Bool.not_true, Bool.false_eq_true, if_false]
      split
      · exact ⟨rfl, rfl⟩
      · constructor
        · rw [← hlo g s, localList_eq, localList_eq]
          simp only [put_attached]
          cases ha : (w.getOrAttach c).1.attached g with
          | none => rfl
          | some sid =>
            simp only
            rw [get_put, if_neg]
            intro hh; cases hh; exact ht' (C1.ainj _ _ _ ha hat)
        · simp only [World.put]; rw [hgl]
  | finishInit => exact ⟨rfl, rfl⟩
  | detach g' =>
    simp only [touches] at ht
    have ht' : ¬ g = g' := fun h => ht h.symm
    refine ⟨?_, rfl⟩
    simp [World.step, World.detach, World.localList, ht']

example : WF (.push 2 exSlot none 200 :: exHist) ∧ inited exHist = true ∧
    ¬ touches exHist (.push 2 exSlot none 200) 1 := by
  simp [exHist, WF, mentioned, inited, touches]

/-- **C05** A goroutine created after init starts with a copy of its creator's function mocks (with the same
    bound instances) and variable mocks, in the same order. -/
theorem C05_inherits_snapshot (h : Hist) (p c : Gid) (hwf : WF (.spawn p c :: h)) (hi : inited h = true)
    (s : Slot) :
    let w := World.after false h
    let w' := (w.step false (.spawn p c)).1
    (w'.localList c s).map Entry.fn = (w.localList p s).map Entry.fn ∧
    (s.kind = .mock → (w'.localList c s).map Entry.want = (w.localList p s).map Entry.want) ∧
    w'.localList p s = w.localList p s := by
  have I := inv_after false h (wf_tail hwf)
  have I' := inv_step I _ hwf
  have hreg := I'.loc c s
  simp only [localRegs, hi, if_true, ← I.loc p s] at hreg
  have h1 : ∀ l : List Entry, l.map Entry.fn = (l.map Entry.toReg).map Reg.fn := by
    intro l; simp [List.map_map, Function.comp_def, Entry.toReg]
  have h2 : ∀ l : List Entry, l.map Entry.want = (l.map Entry.toReg).map Reg.want := by
    intro l; simp [List.map_map, Function.comp_def, Entry.toReg]
  refine ⟨?_, ?_, ?_⟩
  · rw [h1, h1, hreg]; simp [List.map_map, Function.comp_def, inherit]
  · intro hk; rw [h2, h2, hreg]; simp [List.map_map, Function.comp_def, inherit, hk]
  · exact (C04_goroutine_isolation false h _ p s hwf hi (by simpa [touches] using hwf.1)).1

/-- **C05** (later independence): after its creation, the child's view is not changed by any sequence of
    operations that are not about the child itself. -/
theorem C05_later_independent (rs : Bool) (h' h : Hist) (g : Gid) (s : Slot) (hwf : WF (h' ++ h))
    (hi : inited h = true)
    (ht : ∀ t op t', h' = t ++ op :: t' → ¬ touches (t' ++ h) op g) :
    (World.after rs (h' ++ h)).localList g s = (World.after rs h).localList g s ∧
    (World.after rs (h' ++ h)).lastMock g s = (World.after rs h).lastMock g s ∧
    (World.after rs (h' ++ h)).handlers g s = (World.after rs h).handlers g s := by
  induction h' with
  | nil => exact ⟨rfl, rfl, rfl⟩
  | cons op t ih =>
    obtain ⟨i1, i2, i3⟩ := ih (wf_tail hwf) (fun a o b hh => ht (op :: a) o b (by simp [hh]))
    have hi' : inited (t ++ h) = true := by
      simp only [inited, List.contains_iff_mem, List.mem_append] at hi ⊢
      exact Or.inr hi
    obtain ⟨j1, j2, j3⟩ := C04_goroutine_isolation rs (t ++ h) op g s hwf hi' (ht [] op t rfl)
    simp only [List.cons_append, after_cons]
    exact ⟨j1.trans i1, j2.trans i2, j3.trans i3⟩

example : (World.after false exHist).localList 2 exSlot =
    [⟨none, some 5, 102⟩, ⟨some 3, none, 103⟩] := by decide

/-- **C06** After init, no operation changes an init-time registration, and cancelling one panics. -/
theorem C06_global_permanent (rs : Bool) (h : Hist) (op : Op) (hwf : WF (op :: h)) (hi : inited h = true) :
    let w := World.after rs h
    (∀ s, (w.step rs op).1.global s = w.global s) ∧
    (∀ n, op = .cancel n → madeInInit h n = true → (w.step rs op).2 = true ∧ (w.step rs op).1 = w) := by
  have I := inv_after rs h (wf_tail hwf)
  generalize World.after rs h = w at *
  have hw : w.initDone = true := by rw [I.init]; exact hi
  refine ⟨?_, ?_⟩
  · intro s
    cases op with
    | push g' s' want fn =>
      obtain ⟨_, _, _, _, _, _, hgl, _⟩ := core_getOrAttach I.toCore g'
      simp only [World.step, World.push, hw, if_true, World.put]; rw [hgl]
    | cancel n =>
      simp only [World.step]
      cases hc : w.cancels[n]? with
      | none => rfl
      | some c =>
        simp only
        cases hcc : w.cancel c with
        | none => rfl
        | some w' =>
          simp only
          unfold World.cancel at hcc
          split at hcc
          · cases hcc
          · rename_i hcond
            split at hcc
            · cases hcc
            · cases hcc
              cases hhold : c.holder with
              | global => exact absurd (by simp [hhold, hw]) hcond
              | stack sid => rfl
    | spawn p c =>
      obtain ⟨_, _, _, _, _, _, hgl, _⟩ := core_getOrAttach I.toCore c
      simp only [World.step, World.spawn]
      split
      · rfl
      · simp only [hw, Bool.not_true, Bool.false_eq_true, if_false]
        split
        · rfl
        · simp only [World.put]; rw [hgl]
    | finishInit => rfl
    | detach g' => rfl
  · rintro n rfl hm
    have S := step_cancel (rs := rs) I.toCore n
    have hp := S.1.2 (Or.inr (Or.inl ⟨hm, hi⟩))
    exact ⟨hp, S.2.1 hp⟩

example : madeInInit exHist 0 = true ∧ inited exHist = true := by decide

/-- **C09 is false of the code**: a recorder bound to instance 5 on goroutine 1 is inherited by goroutine 2 as
    a recorder for every instance (trap/init.go:115-118 does not copy `wantRecvPtr`). -/
theorem C09_counterexample :
    ∃ (h : Hist) (p c : Gid) (s : Slot), WF (.spawn p c :: h) ∧ inited h = true ∧
      ((World.after false h).localList p s).map Entry.want = [some 5] ∧
      ((World.after false (.spawn p c :: h)).localList c s).map Entry.want = [none] :=
  ⟨[.push 1 ⟨.recorder, 7⟩ (some 5) 100, .finishInit], 1, 2, ⟨.recorder, 7⟩,
    by simp [WF, mentioned], by decide, by decide, by decide⟩

/-- **C09** (true part): recorders that are not bound to an instance are inherited unchanged. Missing: instance
    bound ones (false, see `C09_counterexample`). -/
theorem C09_unbound_recorders_partial (h : Hist) (p c : Gid) (hwf : WF (.spawn p c :: h))
    (hi : inited h = true) (s : Slot)
    (hun : ∀ e ∈ (World.after false h).localList p s, e.want = none) :
    let w := World.after false h
    let w' := (w.step false (.spawn p c)).1
    (w'.localList c s).map (fun e => (e.want, e.fn)) = (w.localList p s).map (fun e => (e.want, e.fn)) := by
  have I := inv_after false h (wf_tail hwf)
  have I' := inv_step I _ hwf
  have hreg := I'.loc c s
  simp only [localRegs, hi, ← I.loc p s] at hreg
  rw [if_pos trivial, if_pos (by simp)] at hreg
  have h1 : ∀ l : List Entry, l.map (fun e => (e.want, e.fn)) =
      (l.map Entry.toReg).map (fun r => (r.want, r.fn)) := by
    intro l; simp [List.map_map, Function.comp_def, Entry.toReg]
  simp only
  rw [h1, hreg, List.map_map, List.map_map]
  apply List.map_congr_left
  intro e he
  have := hun e he
  simp [inherit, Entry.toReg, this]

example : let h : Hist := [.push 1 ⟨.recorder, 7⟩ none 100, .finishInit]
    WF (.spawn 1 2 :: h) ∧ inited h = true ∧
    ∀ e ∈ (World.after false h).localList 1 ⟨.recorder, 7⟩, e.want = none := by
  refine ⟨by simp [WF, mentioned], by decide, by decide⟩

end Verif.Runtime
