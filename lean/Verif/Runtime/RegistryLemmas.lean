import Verif.Runtime.RegistrySpec

namespace Verif.Runtime
open RegSpec

@[simp] theorem after_nil (rs) : World.after rs [] = World.init := rfl
@[simp] theorem after_cons (rs) (op : Op) (h : Hist) :
    World.after rs (op :: h) = ((World.after rs h).step rs op).1 := by
  simp [World.after, World.run, List.foldl_append]

def ids (l : List Entry) : List Nat := l.filterMap (·.id)

theorem mem_ids {l : List Entry} {n : Nat} : n ∈ ids l ↔ ∃ e ∈ l, e.id = some n := by
  simp [ids, List.mem_filterMap]

theorem filter_eq_take_of_last {l : List Entry} {e : Entry} {n : Nat}
    (hl : l.getLast? = some e) (he : e.id = some n) (hnd : (ids l).Nodup) :
    l.filter (·.id ≠ some n) = l.take (l.length - 1) := by
  obtain ⟨ys, rfl⟩ := List.getLast?_eq_some_iff.1 hl
  simp [ids, List.filterMap_append, he, List.nodup_append] at hnd
  simp [List.filter_append, he]
  intro a ha hc
  exact hnd.2 n a ha hc rfl

theorem removeEntry_spec {l : List Entry} {n : Nat} (hnd : (ids l).Nodup) :
    removeEntry l n = if n ∈ ids l then some (l.filter (·.id ≠ some n)) else none := by
  unfold removeEntry
  cases hl : l.getLast? with
  | none =>
    have : l = [] := by simpa using hl
    subst this; simp [ids]
  | some e =>
    simp only
    by_cases he : e.id = some n
    · have hm : n ∈ ids l := mem_ids.2 ⟨e, List.mem_of_getLast? hl, he⟩
      rw [if_pos he, if_pos hm, filter_eq_take_of_last hl he hnd]
    · rw [if_neg he]
      cases hf : l.findIdx? (fun m => m.id = some n) with
      | none =>
        have : n ∉ ids l := by
          rw [mem_ids]; rintro ⟨x, hx, hxe⟩
          have := List.findIdx?_eq_none_iff.1 hf x hx
          simp [hxe] at this
        simp [this]
      | some i =>
        obtain ⟨hi, hp, hlt⟩ := List.findIdx?_eq_some_iff_getElem.1 hf
        have hp : l[i].id = some n := by simpa using hp
        have hm : n ∈ ids l := mem_ids.2 ⟨l[i], List.getElem_mem hi, hp⟩
        simp only [if_pos hm]
        congr 1
        have hsplit : l = l.take i ++ l[i] :: l.drop (i + 1) := by
          simp
        have hnd' := hnd
        rw [hsplit] at hnd'
        simp only [ids, List.filterMap_append, List.filterMap_cons, hp, List.nodup_append,
          List.nodup_cons, List.mem_filterMap] at hnd'
        conv => rhs; rw [hsplit]
        rw [List.filter_append, List.filter_cons]
        simp only [hp, ne_eq, not_true_eq_false, decide_false, Bool.false_eq_true, ↓reduceIte]
        congr 1
        · symm; rw [List.filter_eq_self]
          intro a ha
          simp only [decide_not, Bool.not_eq_eq_eq_not, Bool.not_true, decide_eq_false_iff_not]
          intro hc
          exact hnd'.2.2 n ⟨a, ha, hc⟩ n (by simp) rfl
        · symm; rw [List.filter_eq_self]
          intro a ha
          simp only [decide_not, Bool.not_eq_eq_eq_not, Bool.not_true, decide_eq_false_iff_not]
          intro hc
          exact hnd'.2.1.1 ⟨a, ha, hc⟩

/-- The refinement invariant, without the facts about goroutines that have not done anything. -/
structure Core (rs : Bool) (h : Hist) (w : World) : Prop where
  init : w.initDone = inited h
  count : w.cancels.length = regCount h
  cid : ∀ (n : Nat) (c : Cancel), w.cancels[n]? = some c → c.id = n
  cglob : ∀ (n : Nat) (c : Cancel), w.cancels[n]? = some c → (c.holder = .global ↔ madeInInit h n = true)
  csid : ∀ (n : Nat) (c : Cancel) (sid : Nat), w.cancels[n]? = some c → c.holder = .stack sid → sid < w.next
  asid : ∀ g sid, w.attached g = some sid → sid < w.next
  ainj : ∀ g g' sid, w.attached g = some sid → w.attached g' = some sid → g = g'
  nodup : ∀ r s, (ids (w.get r s)).Nodup
  own : ∀ r s n, n ∈ ids (w.get r s) → ∃ c, w.cancels[n]? = some c ∧ c.holder = r ∧ c.slot = s
  live : ∀ (n : Nat) (c : Cancel), w.cancels[n]? = some c → (n ∈ ids (w.get c.holder c.slot) ↔ cancelled h n = false)
  loc : ∀ g s, (w.localList g s).map Entry.toReg = localRegs rs h g s
  glob : ∀ s, (w.global s).map Entry.toReg = globalRegs h s
  ownerG : ∀ (n : Nat) (c : Cancel) (g : Gid) (sid : Nat), w.cancels[n]? = some c → c.holder = .stack sid → w.attached g = some sid →
    owner h n = some g

/-- The refinement invariant. -/
structure Inv (rs : Bool) (h : Hist) (w : World) : Prop extends Core rs h w where
  fresh : ∀ g, ¬ mentioned h g → w.attached g = none
  preinit : w.initDone = false → ∀ g, w.attached g = none

theorem inv_init (rs) : Inv rs [] World.init := by
  constructor
  · constructor <;> simp [World.init, inited, regCount, localRegs, globalRegs,
      World.localList, World.get, ids] <;>
    · intro r s
      cases r <;> simp
  · simp [World.init]
  · simp [World.init]

@[simp] theorem get_put (w : World) (r r' : HolderRef) (h : Holders) :
    (w.put r h).get r' = if r' = r then h else w.get r' := by
  cases r <;> cases r' <;> simp [World.put, World.get]

@[simp] theorem put_cancels (w : World) (r h) : (w.put r h).cancels = w.cancels := by
  cases r <;> rfl
@[simp] theorem put_attached (w : World) (r h) : (w.put r h).attached = w.attached := by
  cases r <;> rfl
@[simp] theorem put_next (w : World) (r h) : (w.put r h).next = w.next := by
  cases r <;> rfl
@[simp] theorem put_initDone (w : World) (r h) : (w.put r h).initDone = w.initDone := by
  cases r <;> rfl

theorem localList_eq (w : World) (g s) :
    w.localList g s = match w.attached g with | none => [] | some sid => w.get (.stack sid) s := by
  unfold World.localList; cases w.attached g <;> rfl

theorem global_eq (w : World) (s) : w.global s = w.get .global s := rfl

theorem regCount_getElem?_none {rs h w} (I : Core rs h w) {n : Nat} :
    w.cancels[n]? = none ↔ regCount h ≤ n := by
  rw [← I.count]; simp

theorem madeInInit_lt {h : Hist} {n : Nat} (hm : madeInInit h n = true) : n < regCount h := by
  induction h with
  | nil => simp [madeInInit] at hm
  | cons op h ih =>
    cases op <;> simp only [madeInInit, regCount, Bool.or_eq_true, Bool.and_eq_true, beq_iff_eq] at hm ⊢
    case push => rcases hm with ⟨h1, _⟩ | h1
                 · omega
                 · have := ih h1; omega
    all_goals exact ih hm

theorem cancelled_lt {h : Hist} {n : Nat} (hm : cancelled h n = true) : n < regCount h := by
  induction h with
  | nil => simp [cancelled] at hm
  | cons op h ih =>
    cases op <;> simp only [cancelled, regCount, Bool.or_eq_true, Bool.and_eq_true, beq_iff_eq,
      decide_eq_true_eq] at hm ⊢
    case push => have := ih hm; omega
    case cancel => rcases hm with ⟨⟨_, h1⟩, _⟩ | h1
                   · exact h1
                   · exact ih h1
    all_goals exact ih hm

/-- Attaching an empty StackData to a goroutine without one is invisible. -/
theorem core_getOrAttach {rs h w} (I : Core rs h w) (g : Gid) :
    Core rs h (w.getOrAttach g).1 ∧ (w.getOrAttach g).1.attached g = some (w.getOrAttach g).2 ∧
    (∀ g', g' ≠ g → (w.getOrAttach g).1.attached g' = w.attached g') ∧
    (w.getOrAttach g).1.initDone = w.initDone ∧
    (w.getOrAttach g).1.cancels = w.cancels ∧
    (w.attached g = none → (w.getOrAttach g).2 = w.next) ∧
    (w.getOrAttach g).1.global = w.global ∧
    (∀ g' s, (w.getOrAttach g).1.localList g' s = w.localList g' s) ∧
    (∀ sid, w.attached g = none → sid < w.next → (w.getOrAttach g).1.stacks sid = w.stacks sid) := by
  unfold World.getOrAttach
  cases hat : w.attached g with
  | some sid => simp [I, hat]
  | none =>
    simp only
    have hget : ∀ r, (∀ s, r = .stack s → s < w.next) → World.get { w with
        attached := fun g' => if g' = g then some w.next else w.attached g'
        stacks := fun i => if i = w.next then (fun _ => []) else w.stacks i
        next := w.next + 1 } r = w.get r := by
      intro r hr
      cases r with
      | global => rfl
      | stack sid =>
        have := hr sid rfl
        simp only [World.get]
        rw [if_neg (by omega)]
    have hloc : ∀ g' s, World.localList { w with
        attached := fun g' => if g' = g then some w.next else w.attached g'
        stacks := fun i => if i = w.next then (fun _ => []) else w.stacks i
        next := w.next + 1 } g' s = w.localList g' s := by
      intro g' s
      by_cases hg : g' = g
      · subst hg; simp [World.localList, hat]
      · simp only [World.localList, if_neg hg]
        cases ha : w.attached g' with
        | none => rfl
        | some sid =>
          have := I.asid _ _ ha
          simp only
          rw [if_neg (by omega)]
    refine ⟨?_, by simp, by intro g' hg'; simp [hg'], by simp, by simp, by simp, by simp, hloc, ?_⟩
    · constructor
      · exact I.init
      · exact I.count
      · exact I.cid
      · exact I.cglob
      · intro n c sid h1 h2; have := I.csid n c sid h1 h2; simp; omega
      · intro g' sid hh
        simp only at hh
        show sid < w.next + 1
        split at hh
        · simp at hh; omega
        · have := I.asid _ _ hh; omega
      · intro g1 g2 sid h1 h2
        simp only at h1 h2
        split at h1 <;> split at h2
        · simp_all
        · simp at h1; have := I.asid _ _ h2; omega
        · simp at h2; have := I.asid _ _ h1; omega
        · exact I.ainj _ _ _ h1 h2
      · intro r s
        cases r with
        | global => exact I.nodup .global s
        | stack sid =>
          simp only [World.get]
          split
          · simp [ids]
          · exact I.nodup (.stack sid) s
      · intro r s n hn
        cases r with
        | global => exact I.own .global s n hn
        | stack sid =>
          simp only [World.get] at hn
          split at hn
          · simp [ids] at hn
          · exact I.own (.stack sid) s n hn
      · intro n c hc
        rw [hget]
        · exact I.live n c hc
        · intro s hs; exact I.csid n c s hc hs
      · intro g' s; rw [hloc]; exact I.loc g' s
      · exact I.glob
      · intro n c g' sid hc hh ha
        simp only at ha
        split at ha
        · have := I.csid n c sid hc hh; simp at ha; omega
        · exact I.ownerG n c g' sid hc hh ha
    · intro sid _ hlt
      rw [if_neg (by omega)]

theorem ids_append (l l' : List Entry) : ids (l ++ l') = ids l ++ ids l' := by simp [ids]

/-- Appending a fresh entry to an attached (or global) holder. -/
theorem core_push {rs h w} (I : Core rs h w) (g : Gid) (s : Slot) (want : Option Nat) (fn : Nat)
    (r : HolderRef) (w' : World)
    (e1 : w'.initDone = w.initDone) (e2 : w'.attached = w.attached) (e3 : w'.next = w.next)
    (e4 : w'.cancels = w.cancels ++ [⟨r, s, w.cancels.length⟩])
    (hget' : ∀ r' s', w'.get r' s' = w.get r' s' ++
      (if r' = r ∧ s' = s then [⟨some w.cancels.length, want, fn⟩] else []))
    (hr : (w.initDone = true ∧ ∃ sid, r = .stack sid ∧ w.attached g = some sid) ∨
          (w.initDone = false ∧ r = .global)) :
    Core rs (.push g s want fn :: h) w' := by
  have hcl : ∀ r s, w.cancels.length ∉ ids (w.get r s) := by
    intro r s hm
    obtain ⟨c, hc, _⟩ := I.own _ _ _ hm
    simp at hc
  have hgetE : ∀ (n : Nat) (c : Cancel),
      w'.cancels[n]? = some c ↔
      (w.cancels[n]? = some c ∨ (n = w.cancels.length ∧ c = ⟨r, s, w.cancels.length⟩)) := by
    intro n c
    rw [e4, List.getElem?_append]
    split
    · constructor
      · exact Or.inl
      · rintro (h | ⟨h, _⟩)
        · exact h
        · omega
    · constructor
      · intro hh
        have : n - w.cancels.length = 0 := by
          false_or_by_contra
          rename_i hne
          rw [List.getElem?_eq_none (by simp; omega)] at hh
          cases hh
        rw [this] at hh
        simp at hh
        exact Or.inr ⟨by omega, hh.symm⟩
      · rintro (hh | ⟨hh, rfl⟩)
        · rw [List.getElem?_eq_none (by omega)] at hh; cases hh
        · subst hh; simp
  have hin : inited (.push g s want fn :: h) = inited h := by simp [inited]
  constructor
  · simp [hin, I.init, e1]
  · simp [regCount, I.count, e4]
  · intro n c hc
    rcases (hgetE n c).1 hc with hc | ⟨hn, rfl⟩
    · exact I.cid n c hc
    · simp [hn]
  · intro n c hc
    rcases (hgetE n c).1 hc with hc | ⟨hn, rfl⟩
    · have hlt : n < regCount h := by
        rw [← I.count]; exact (List.getElem?_eq_some_iff.1 hc).1
      have := I.cglob n c hc
      simp only [madeInInit, this, Bool.or_eq_true, Bool.and_eq_true, beq_iff_eq]
      constructor
      · exact Or.inr
      · rintro (⟨h1, _⟩ | h1)
        · omega
        · exact h1
    · subst hn
      have hnm : madeInInit h w.cancels.length = false := by
        rw [Bool.eq_false_iff]; intro hm
        have := madeInInit_lt hm
        rw [I.count] at this; omega
      rcases hr with ⟨h1, sid, rfl, _⟩ | ⟨h1, rfl⟩
      · simp only [madeInInit, hnm, ← I.init, h1]; simp
      · simp [madeInInit, ← I.init, h1, I.count]
  · intro n c sid hc hh
    rcases (hgetE n c).1 hc with hc | ⟨hn, rfl⟩
    · rw [e3]; exact I.csid n c sid hc hh
    · rw [e3]; rcases hr with ⟨_, sid', h2, h3⟩ | ⟨_, h2⟩
      · simp_all
        exact I.asid _ _ h3
      · simp_all
  · intro g' sid hh; rw [e3]; rw [e2] at hh; exact I.asid g' sid hh
  · intro g1 g2 sid h1 h2; rw [e2] at h1 h2; exact I.ainj g1 g2 sid h1 h2
  · intro r' s'
    rw [hget', ids_append]
    split
    · rw [List.nodup_append]
      refine ⟨I.nodup _ _, by simp [ids], ?_⟩
      intro a ha b hb hab
      simp [ids] at hb
      subst hb; subst hab
      exact hcl _ _ ha
    · simpa [ids] using I.nodup r' s'
  · intro r' s' n hn
    rw [hget', ids_append, List.mem_append] at hn
    rcases hn with hn | hn
    · obtain ⟨c, hc, h1, h2⟩ := I.own _ _ _ hn
      exact ⟨c, (hgetE n c).2 (Or.inl hc), h1, h2⟩
    · split at hn
      · rename_i hrs
        simp [ids] at hn
        exact ⟨⟨r, s, w.cancels.length⟩, (hgetE n _).2 (Or.inr ⟨hn, rfl⟩), hrs.1.symm, hrs.2.symm⟩
      · simp [ids] at hn
  · intro n c hc
    rw [hget', ids_append, List.mem_append]
    simp only [cancelled]
    rcases (hgetE n c).1 hc with hc | ⟨hn, rfl⟩
    · rw [← I.live n c hc]
      constructor
      · rintro (hh | hh)
        · exact hh
        · split at hh
          · simp [ids] at hh; subst hh
            have := (List.getElem?_eq_some_iff.1 hc).1
            omega
          · simp [ids] at hh
      · exact Or.inl
    · have hnc : cancelled h n = false := by
        rw [Bool.eq_false_iff]; intro hm
        have := cancelled_lt hm
        rw [← I.count] at this; omega
      subst hn
      simp [hnc, ids]
  · intro g' s'
    rw [localList_eq, e2]
    simp only [localRegs, ← I.init, ← I.count]
    rw [← I.loc g' s', localList_eq]
    cases ha : w.attached g' with
    | none =>
      simp only
      split
      · rename_i hh
        rcases hr with ⟨_, sid', h2, h3⟩ | ⟨h1, _⟩
        · rw [hh.2.1] at h3; simp_all
        · simp_all
      · simp
    | some sid =>
      simp only
      rw [hget', List.map_append]
      congr 1
      rcases hr with ⟨h1, sid', h2, h3⟩ | ⟨h1, h2⟩
      · subst h2
        by_cases hss : s' = s
        · subst hss
          by_cases hgg : g = g'
          · subst hgg; simp_all [Entry.toReg]
          · have : sid ≠ sid' := by
              intro hc; subst hc; exact hgg (I.ainj _ _ _ h3 ha)
            simp [this, hgg]
        · have : s ≠ s' := fun h => hss h.symm
          simp [hss, this]
      · subst h2; simp [h1]
  · intro s'
    rw [global_eq, hget', List.map_append]
    simp only [globalRegs, ← I.init, ← I.count]
    rw [← I.glob s', global_eq]
    congr 1
    rcases hr with ⟨h1, sid', h2, h3⟩ | ⟨h1, h2⟩
    · subst h2; simp [h1]
    · subst h2
      by_cases hss : s' = s
      · subst hss; simp [h1, Entry.toReg]
      · have : s ≠ s' := fun h => hss h.symm
        simp [hss, this]
  · intro n c g' sid hc hh ha
    simp only [owner]
    rcases (hgetE n c).1 hc with hc | ⟨hn, rfl⟩
    · have hlt := (List.getElem?_eq_some_iff.1 hc).1
      rw [← I.count, if_neg (by omega)]
      rw [e2] at ha; exact I.ownerG n c g' sid hc hh ha
    · rw [← I.count, if_pos hn]
      rcases hr with ⟨h1, sid', h2, h3⟩ | ⟨h1, h2⟩
      · simp_all
        exact I.ainj _ _ _ h3 ha
      · simp_all

/-- Cancelling. -/
theorem core_cancel_ok {rs h w} (I : Core rs h w) {n : Nat} {c : Cancel} (hc : w.cancels[n]? = some c)
    (hg : ¬ (c.holder = .global ∧ w.initDone = true)) (hn : n ∈ ids (w.get c.holder c.slot))
    (w' : World)
    (e1 : w'.initDone = w.initDone) (e2 : w'.attached = w.attached) (e3 : w'.next = w.next)
    (e4 : w'.cancels = w.cancels)
    (hget' : ∀ r s, w'.get r s = if r = c.holder ∧ s = c.slot then (w.get r s).filter (·.id ≠ some n)
      else w.get r s) :
    Core rs (.cancel n :: h) w' := by
  have hlt : n < regCount h := by
    rw [← I.count]; exact (List.getElem?_eq_some_iff.1 hc).1
  have hfil : ∀ r s, w'.get r s = (w.get r s).filter (·.id ≠ some n) := by
    intro r s
    rw [hget']
    split
    · rfl
    · rename_i hne
      symm; rw [List.filter_eq_self]
      intro a ha
      simp only [decide_not, Bool.not_eq_eq_eq_not, Bool.not_true, decide_eq_false_iff_not]
      intro hid
      obtain ⟨c', hc', h1, h2⟩ := I.own r s n (mem_ids.2 ⟨a, ha, hid⟩)
      rw [hc] at hc'
      cases hc'
      exact hne ⟨h1.symm, h2.symm⟩
  have hids : ∀ r s m, m ∈ ids (w'.get r s) ↔ m ∈ ids (w.get r s) ∧ m ≠ n := by
    intro r s m
    rw [hfil]
    simp only [mem_ids, List.mem_filter]
    constructor
    · rintro ⟨e, ⟨he, h1⟩, h2⟩
      refine ⟨⟨e, he, h2⟩, ?_⟩
      rintro rfl
      simp [h2] at h1
    · rintro ⟨⟨e, he, h2⟩, h1⟩
      refine ⟨e, ⟨he, ?_⟩, h2⟩
      simp [h2, h1]
  have hmap : ∀ l : List Entry, (l.filter (·.id ≠ some n)).map Entry.toReg =
      (l.map Entry.toReg).filter (·.no ≠ some n) := by
    intro l; rw [List.filter_map]; rfl
  have hmg : (madeInInit h n && inited h) = false := by
    rw [Bool.eq_false_iff]; intro hm
    simp only [Bool.and_eq_true] at hm
    exact hg ⟨(I.cglob n c hc).2 hm.1, by rw [I.init]; exact hm.2⟩
  constructor
  · rw [e1, I.init]; simp [inited]
  · rw [e4, I.count]; rfl
  · intro m d hd; rw [e4] at hd; exact I.cid m d hd
  · intro m d hd; rw [e4] at hd; exact I.cglob m d hd
  · intro m d sid hd; rw [e4] at hd; rw [e3]; exact I.csid m d sid hd
  · rw [e2, e3]; exact I.asid
  · rw [e2]; exact I.ainj
  · intro r s
    rw [hfil]
    exact List.Sublist.nodup (List.Sublist.filterMap _ List.filter_sublist) (I.nodup r s)
  · intro r s m hm
    rw [e4]
    exact I.own r s m ((hids r s m).1 hm).1
  · intro m d hd
    rw [e4] at hd
    rw [hids, I.live m d hd]
    simp only [cancelled]
    by_cases hmn : n = m
    · subst hmn; simp [hmg, hlt]
    · have : m ≠ n := fun h => hmn h.symm
      simp [hmn, this]
  · intro g s
    rw [localList_eq, e2]
    simp only [localRegs]
    rw [← I.loc g s, localList_eq]
    cases w.attached g with
    | none => simp
    | some sid => simp only; rw [hfil, hmap]
  · intro s
    rw [global_eq, hfil]
    simp only [globalRegs]
    rw [hmap, ← global_eq, I.glob s, ← I.init]
    split
    · rename_i hid
      rw [List.filter_eq_self]
      intro a ha
      simp only [decide_not, Bool.not_eq_eq_eq_not, Bool.not_true, decide_eq_false_iff_not]
      intro hno
      rw [← I.glob s] at ha
      obtain ⟨e, he, rfl⟩ := List.mem_map.1 ha
      obtain ⟨c', hc', h1, _⟩ := I.own .global s n (mem_ids.2 ⟨e, he, hno⟩)
      rw [hc] at hc'; cases hc'
      exact hg ⟨h1, hid⟩
    · rfl
  · intro m d g sid hd hh ha
    rw [e4] at hd; rw [e2] at ha
    exact I.ownerG m d g sid hd hh ha

/-- A cancel that panics: the specification agrees that nothing happens. -/
theorem core_cancel_panic {rs h w} (I : Core rs h w) {n : Nat}
    (hp : regCount h ≤ n ∨ (madeInInit h n = true ∧ inited h = true) ∨ cancelled h n = true) :
    Core rs (.cancel n :: h) w := by
  have hcn : ∀ m, m < regCount h → cancelled (.cancel n :: h) m = cancelled h m := by
    intro m hm
    simp only [cancelled]
    by_cases hmn : n = m
    · subst hmn
      rcases hp with hp | ⟨h1, h2⟩ | h1
      · omega
      · simp [h1, h2]
      · simp [h1]
    · simp [hmn]
  -- registration n is in no attached list, unless it is an init-time one
  have hloc : ∀ g s, (localRegs rs h g s).filter (·.no ≠ some n) = localRegs rs h g s := by
    intro g s
    rw [List.filter_eq_self]
    intro a ha
    simp only [decide_not, Bool.not_eq_eq_eq_not, Bool.not_true, decide_eq_false_iff_not]
    intro hno
    rw [← I.loc g s] at ha
    obtain ⟨e, he, rfl⟩ := List.mem_map.1 ha
    rw [localList_eq] at he
    cases hat : w.attached g with
    | none => simp [hat] at he
    | some sid =>
      simp only [hat] at he
      obtain ⟨c, hc, h1, h2⟩ := I.own (.stack sid) s n (mem_ids.2 ⟨e, he, hno⟩)
      have hlt : n < regCount h := by rw [← I.count]; exact (List.getElem?_eq_some_iff.1 hc).1
      rcases hp with hp | ⟨hp, _⟩ | hp
      · omega
      · rw [(I.cglob n c hc).2 hp] at h1; cases h1
      · have := (I.live n c hc).1 (by rw [h1, h2]; exact mem_ids.2 ⟨e, he, hno⟩)
        simp [hp] at this
  have hglob : ∀ s, inited h = false → (globalRegs h s).filter (·.no ≠ some n) = globalRegs h s := by
    intro s hi
    rw [List.filter_eq_self]
    intro a ha
    simp only [decide_not, Bool.not_eq_eq_eq_not, Bool.not_true, decide_eq_false_iff_not]
    intro hno
    rw [← I.glob s] at ha
    obtain ⟨e, he, rfl⟩ := List.mem_map.1 ha
    obtain ⟨c, hc, h1, h2⟩ := I.own .global s n (mem_ids.2 ⟨e, he, hno⟩)
    have hlt : n < regCount h := by rw [← I.count]; exact (List.getElem?_eq_some_iff.1 hc).1
    rcases hp with hp | ⟨_, hp⟩ | hp
    · omega
    · rw [hi] at hp; cases hp
    · have := (I.live n c hc).1 (by rw [h1, h2]; exact mem_ids.2 ⟨e, he, hno⟩)
      simp [hp] at this
  constructor
  · rw [I.init]; simp [inited]
  · exact I.count
  · exact I.cid
  · exact I.cglob
  · exact I.csid
  · exact I.asid
  · exact I.ainj
  · exact I.nodup
  · exact I.own
  · intro m d hd
    rw [I.live m d hd, hcn]
    rw [← I.count]; exact (List.getElem?_eq_some_iff.1 hd).1
  · intro g s; rw [I.loc]; simp only [localRegs]; rw [hloc]
  · intro s; rw [I.glob]; simp only [globalRegs]
    split
    · rfl
    · rename_i hi; rw [hglob s (by simpa using hi)]
  · exact I.ownerG

theorem step_cancel {rs h w} (I : Core rs h w) (n : Nat) :
    ((w.step rs (.cancel n)).2 = true ↔ cancelPanics h n) ∧
    ((w.step rs (.cancel n)).2 = true → (w.step rs (.cancel n)).1 = w) ∧
    Core rs (.cancel n :: h) (w.step rs (.cancel n)).1 := by
  simp only [World.step]
  cases hc : w.cancels[n]? with
  | none =>
    have hp : cancelPanics h n := Or.inl ((regCount_getElem?_none I).1 hc)
    exact ⟨by simp [hp], by simp, core_cancel_panic I hp⟩
  | some c =>
    have hlt : n < regCount h := by rw [← I.count]; exact (List.getElem?_eq_some_iff.1 hc).1
    have hid := I.cid n c hc
    simp only [World.cancel]
    by_cases hg : c.holder = .global ∧ w.initDone = true
    · have hp : cancelPanics h n := Or.inr (Or.inl ⟨(I.cglob n c hc).1 hg.1, by rw [← I.init]; exact hg.2⟩)
      have hcond : (decide (c.holder = HolderRef.global) && w.initDone) = true := by simp [hg.1, hg.2]
      simp only [hcond, if_true]
      exact ⟨by simp [hp], by simp, core_cancel_panic I hp⟩
    · have hcond : (decide (c.holder = HolderRef.global) && w.initDone) = false := by
        rw [Bool.eq_false_iff]; intro h'; simp at h'; exact hg h'
      simp only [hcond, Bool.false_eq_true, if_false]
      rw [removeEntry_spec (I.nodup _ _), hid]
      by_cases hm : n ∈ ids (w.get c.holder c.slot)
      · simp only [if_pos hm]
        have hnc := (I.live n c hc).1 hm
        refine ⟨?_, by simp, ?_⟩
        · simp only [Bool.false_eq_true, false_iff]
          rintro (h1 | ⟨h1, h2⟩ | h1)
          · omega
          · exact hg ⟨(I.cglob n c hc).2 h1, by rw [I.init]; exact h2⟩
          · rw [hnc] at h1; cases h1
        · refine core_cancel_ok I hc hg hm _ (by simp) (by simp) (by simp) (by simp) ?_
          intro r s
          rw [get_put]
          by_cases hr : r = c.holder
          · subst hr
            simp only [if_true, Holders.set, true_and]
            split
            · rename_i hs; subst hs; rfl
            · rfl
          · simp [hr]
      · simp only [if_neg hm]
        have hp : cancelPanics h n := by
          refine Or.inr (Or.inr ?_)
          have := (not_congr (I.live n c hc)).1 hm
          simpa using this
        exact ⟨by simp [hp], by simp, core_cancel_panic I hp⟩

theorem inv_push {rs h w} (I : Inv rs h w) (g : Gid) (s : Slot) (want : Option Nat) (fn : Nat) :
    Inv rs (.push g s want fn :: h) (w.push g s want fn) := by
  have hcan : ∀ (w : World) (c) (r' : HolderRef), World.get { w with cancels := c } r' = w.get r' := by
    intro w c r'; cases r' <;> rfl
  have hget : ∀ (w : World) (r : HolderRef) (e : Entry) (cs) (r' : HolderRef) (s' : Slot),
      World.get { w.put r ((w.get r).set s (w.get r s ++ [e])) with cancels := cs } r' s' =
        w.get r' s' ++ (if r' = r ∧ s' = s then [e] else []) := by
    intro w r e cs r' s'
    rw [hcan, get_put]
    split
    · rename_i hh; subst hh
      simp only [Holders.set, true_and]
      split
      · rename_i h2; subst h2; rfl
      · simp
    · rename_i hh; simp [hh]
  unfold World.push
  cases hi : w.initDone with
  | false =>
    simp only [Bool.false_eq_true, if_false]
    have C := core_push I.toCore g s want fn .global
      { w.put .global ((w.get .global).set s (w.get .global s ++ [⟨some w.cancels.length, want, fn⟩])) with
        cancels := w.cancels ++ [⟨.global, s, w.cancels.length⟩] }
      (by simp) (by simp) (by simp) (by simp) (hget w .global _ _) (Or.inr ⟨hi, rfl⟩)
    refine ⟨C, ?_, ?_⟩
    · intro g' hg'
      simp only [mentioned, not_or] at hg'
      simpa using I.fresh g' hg'.2
    · intro _ g'
      simpa using I.preinit hi g'
  | true =>
    simp only [if_true]
    obtain ⟨C1, hat, hoth, hin, hcs, _⟩ := core_getOrAttach I.toCore g
    generalize hw1 : (w.getOrAttach g).1 = w1 at *
    generalize hsid : (w.getOrAttach g).2 = sid at *
    have C := core_push C1 g s want fn (.stack sid)
      { w1.put (.stack sid) ((w1.get (.stack sid)).set s (w1.get (.stack sid) s ++ [⟨some w1.cancels.length, want, fn⟩])) with
        cancels := w1.cancels ++ [⟨.stack sid, s, w1.cancels.length⟩] }
      (by simp) (by simp) (by simp) (by simp) (hget w1 (.stack sid) _ _)
      (Or.inl ⟨by rw [hin]; exact hi, sid, rfl, hat⟩)
    refine ⟨C, ?_, ?_⟩
    · intro g' hg'
      simp only [mentioned, not_or] at hg'
      have := hoth g' (fun hh => hg'.1 hh.symm)
      simp only [put_attached]
      rw [this]
      exact I.fresh g' hg'.2
    · intro hf
      simp only [put_initDone] at hf
      rw [hin, hi] at hf; cases hf

theorem clone_ids (k : Bool) (l : List Entry) : ids (cloneList k l) = [] := by
  simp [ids, cloneList, List.filterMap_map]

theorem clone_toReg (k : Kind) (l : List Entry) :
    (cloneList (keepsWant k) l).map Entry.toReg = (l.map Entry.toReg).map (inherit k) := by
  simp only [cloneList, List.map_map]
  apply List.map_congr_left
  intro e _
  cases k <;> simp [Entry.toReg, inherit, keepsWant]

theorem localRegs_preinit {rs h w} (I : Inv rs h w) (hi : inited h = false) (g s) :
    localRegs rs h g s = [] := by
  rw [← I.loc, localList_eq, I.preinit (by rw [I.init]; exact hi)]; rfl

theorem localRegs_fresh {rs h w} (I : Inv rs h w) {g} (hg : ¬ mentioned h g) (s) :
    localRegs rs h g s = [] := by
  rw [← I.loc, localList_eq, I.fresh g hg]; rfl

theorem inv_spawn {rs h w} (I : Inv rs h w) (p c : Gid) (hpc : c ≠ p) (hf : ¬ mentioned h c) :
    Inv rs (.spawn p c :: h) (w.spawn rs p c) := by
  have hinit : inited (.spawn p c :: h) = inited h := by simp [inited]
  -- a step that changes nothing, when the specification says the child gets nothing
  have hnop : (∀ s, localRegs rs (.spawn p c :: h) c s = []) → Inv rs (.spawn p c :: h) w := by
    intro hs
    refine ⟨⟨by rw [hinit]; exact I.init, I.count, I.cid, I.cglob, I.csid, I.asid, I.ainj, I.nodup,
      I.own, I.live, ?_, I.glob, I.ownerG⟩, ?_, I.preinit⟩
    · intro g s
      by_cases hg : c = g
      · subst hg; rw [hs, localList_eq, I.fresh c hf]; rfl
      · rw [I.loc]; simp [localRegs, hg]
    · intro g hg
      simp only [mentioned, not_or] at hg
      exact I.fresh g hg.2.2
  unfold World.spawn
  cases rs with
  | true => simp only [if_true]; exact hnop (by simp [localRegs])
  | false =>
    simp only [Bool.false_eq_true, if_false]
    cases hi : w.initDone with
    | false =>
      simp only [Bool.not_false, if_true]
      exact hnop (by intro s; simp [localRegs, ← I.init, hi])
    | true =>
      simp only [Bool.not_true, Bool.false_eq_true, if_false]
      cases hat : w.attached p with
      | none =>
        simp only
        refine hnop ?_
        intro s
        have : localRegs false h p s = [] := by rw [← I.loc, localList_eq, hat]; rfl
        simp [localRegs, this]
      | some sid =>
        simp only
        have hcn := I.fresh c hf
        obtain ⟨C1, hatc, hoth, hin, hcs, hnx, hgl, hlo, hstk⟩ := core_getOrAttach I.toCore c
        have hnsid := hnx hcn
        have hsl := I.asid _ _ hat
        have hsrc : (w.getOrAttach c).1.stacks sid = w.stacks sid := hstk sid hcn hsl
        have hne : ∀ (n : Nat) (d : Cancel), w.cancels[n]? = some d → d.holder ≠ .stack w.next := by
          intro n d hd hh; have := I.csid n d _ hd hh; omega
        rw [hnsid] at hatc ⊢
        rw [hsrc]
        generalize hw1 : (w.getOrAttach c).1 = w1 at *
        have hap : w1.attached p = some sid := by rw [hoth p (fun hh => hpc hh.symm)]; exact hat
        have hidc : ∀ s, w1.get (.stack w.next) s = [] := by
          intro s
          have := hlo c s
          rw [localList_eq, hatc, localList_eq, hcn] at this
          exact this
        refine ⟨?_, ?_, ?_⟩
        · constructor
          · simp [hin, hi, hinit, ← I.init]
          · simpa [regCount] using C1.count
          · simpa using C1.cid
          · simpa [madeInInit] using C1.cglob
          · simpa using C1.csid
          · simpa using C1.asid
          · simpa using C1.ainj
          · intro r s
            rw [get_put]
            split
            · rw [clone_ids]; exact List.nodup_nil
            · exact C1.nodup r s
          · intro r s n hn
            rw [get_put] at hn
            split at hn
            · rw [clone_ids] at hn; cases hn
            · simpa using C1.own r s n hn
          · intro n d hd
            rw [put_cancels] at hd
            have := hne n d (by rw [← hcs]; exact hd)
            rw [get_put, if_neg this]
            exact C1.live n d hd
          · intro g s
            rw [localList_eq, put_attached]
            simp only [localRegs]
            by_cases hg : c = g
            · subst hg
              rw [hatc]
              simp only [get_put, if_true, ← I.init, hi]
              rw [clone_toReg, ← I.loc p s, localList_eq, hat]
              simp [World.get]
            · rw [if_neg hg, ← C1.loc g s, localList_eq]
              cases ha : w1.attached g with
              | none => rfl
              | some sid' =>
                simp only
                rw [get_put, if_neg]
                intro hh
                cases hh
                exact hg (C1.ainj _ _ _ hatc ha)
          · intro s
            rw [global_eq, get_put, if_neg (by intro hh; cases hh)]
            exact C1.glob s
          · intro n d g sid' hd hh ha
            exact C1.ownerG n d g sid' (by simpa using hd) hh (by simpa using ha)
        · intro g hg
          simp only [mentioned, not_or] at hg
          rw [put_attached, hoth g (fun hh => hg.2.1 hh.symm)]
          exact I.fresh g hg.2.2
        · intro hfalse
          rw [put_initDone, hin, hi] at hfalse
          cases hfalse

theorem inv_finishInit {rs h w} (I : Inv rs h w) :
    Inv rs (.finishInit :: h) { w with initDone := true } := by
  refine ⟨⟨by simp [inited], I.count, I.cid, I.cglob, I.csid, I.asid, I.ainj, ?_, ?_, ?_, I.loc, I.glob,
    I.ownerG⟩, I.fresh, by simp⟩
  · intro r s; cases r
    · exact I.nodup .global s
    · exact I.nodup (.stack _) s
  · intro r s; cases r
    · exact I.own .global s
    · exact I.own (.stack _) s
  · intro n c hc
    have := I.live n c hc
    have hg : World.get { w with initDone := true } c.holder = w.get c.holder := by
      cases c.holder <;> rfl
    rw [hg, this]; rfl

theorem inv_detach {rs h w} (I : Inv rs h w) (g : Gid) :
    Inv rs (.detach g :: h) (w.detach g) := by
  have hg : ∀ r, (w.detach g).get r = w.get r := by intro r; cases r <;> rfl
  have hat : ∀ g' sid, (w.detach g).attached g' = some sid → w.attached g' = some sid := by
    intro g' sid hh
    simp only [World.detach] at hh
    split at hh
    · cases hh
    · exact hh
  refine ⟨⟨?_, I.count, I.cid, I.cglob, I.csid, ?_, ?_, ?_, ?_, ?_, ?_, I.glob, ?_⟩, ?_, ?_⟩
  · simp [World.detach, I.init, inited]
  · intro g' sid hh; exact I.asid g' sid (hat _ _ hh)
  · intro g1 g2 sid h1 h2; exact I.ainj g1 g2 sid (hat _ _ h1) (hat _ _ h2)
  · intro r; rw [hg]; exact I.nodup r
  · intro r; rw [hg]; exact I.own r
  · intro n c hc; rw [hg]; exact I.live n c hc
  · intro g' s
    rw [localList_eq]
    simp only [localRegs, World.detach]
    by_cases hgg : g' = g
    · simp [hgg]
    · have : ¬ g = g' := fun hh => hgg hh.symm
      simp only [if_neg hgg, if_neg this]
      rw [← I.loc g' s, localList_eq]
      rfl
  · intro n c g' sid hc hh ha; exact I.ownerG n c g' sid hc hh (hat _ _ ha)
  · intro g' hg'
    simp only [mentioned, not_or] at hg'
    have := I.fresh g' hg'.2
    simp [World.detach, this]
  · intro hi g'
    have := I.preinit hi g'
    simp [World.detach, this]

theorem step_cancel_attached (rs) (w : World) (n : Nat) :
    (w.step rs (.cancel n)).1.attached = w.attached ∧ (w.step rs (.cancel n)).1.initDone = w.initDone := by
  simp only [World.step]
  cases w.cancels[n]? with
  | none => simp
  | some c =>
    simp only [World.cancel]
    split <;> simp
    rename_i heq
    split at heq
    · cases heq
    · split at heq
      · cases heq
      · cases heq; simp

theorem inv_step {rs h w} (I : Inv rs h w) (op : Op) (hwf : WF (op :: h)) :
    Inv rs (op :: h) (w.step rs op).1 := by
  cases op with
  | push g s want fn => exact inv_push I g s want fn
  | cancel n =>
    obtain ⟨h1, h2⟩ := step_cancel_attached rs w n
    refine ⟨(step_cancel I.toCore n).2.2, ?_, ?_⟩
    · rw [h1]; exact I.fresh
    · rw [h1, h2]; exact I.preinit
  | spawn p c => exact inv_spawn I p c hwf.1 hwf.2.1
  | finishInit => exact inv_finishInit I
  | detach g => exact inv_detach I g

theorem wf_tail {op : Op} {h : Hist} (hwf : WF (op :: h)) : WF h := by
  cases op <;> simp only [WF] at hwf
  case spawn => exact hwf.2.2
  all_goals exact hwf

theorem inv_after (rs) (h : Hist) (hwf : WF h) : Inv rs h (World.after rs h) := by
  induction h with
  | nil => exact inv_init rs
  | cons op h ih => rw [after_cons]; exact inv_step (ih (wf_tail hwf)) op hwf

end Verif.Runtime
