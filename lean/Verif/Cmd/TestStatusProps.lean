/-
C65: what the test explorer shows of a run.
-/
import Verif.Cmd.TestStatusSpec

namespace Verif.Cmd.Status
open Verif.Support (Str)
open Verif.Cmd.Explorer (joinSlash)

/-! ### The record -/

theorem find_put (k k' : Str) (u : Trie) : ∀ s : Subs, (s.put k u).find k' = if k = k' then some u else s.find k'
  | .nil => by simp [Subs.put, Subs.find]
  | .cons k1 t rest => by
    simp only [Subs.put]
    split
    · subst k1
      simp only [Subs.find]
      by_cases h : k = k' <;> simp [h]
    · simp only [Subs.find, find_put k k' u rest]
      by_cases h : k1 = k'
      · subst k1
        rename_i h1
        simp [Ne.symm h1]
      · simp [h]

theorem get_empty (p : Path) : Trie.empty.get p = none := by
  cases p <;> simp [Trie.empty, Trie.get, Trie.record, Trie.subs, Subs.find]

theorem get_set (p q : Path) (s : Status) (t : Trie) : (t.set s p).get q = if p = q then some s else t.get q := by
  induction p generalizing t q with
  | nil => cases q <;> simp [Trie.set, Trie.get, Trie.record, Trie.subs]
  | cons k p ih =>
    cases q with
    | nil => simp [Trie.set, Trie.get, Trie.record]
    | cons k' q =>
      simp only [Trie.set, Trie.get]
      rw [show (Trie.node t.record (t.subs.put k (((t.subs.find k).getD .empty).set s p))).subs =
        t.subs.put k (((t.subs.find k).getD .empty).set s p) from rfl, find_put]
      by_cases h : k = k'
      · subst k'
        simp only [if_true]
        rw [ih]
        by_cases h2 : p = q
        · simp [h2]
        · simp only [h2, if_false, List.cons.injEq, and_false]
          cases hf : t.subs.find k with
          | none => simp [get_empty]
          | some u => simp
      · simp [h]

mutual
def Trie.Ok : Trie → Prop
  | .node _ subs => subs.Ok
def Subs.Ok : Subs → Prop
  | .nil => True
  | .cons k t rest => t.Ok ∧ rest.Ok ∧ rest.find k = none
end

theorem ok_find {k : Str} {t : Trie} : ∀ s : Subs, s.Ok → s.find k = some t → t.Ok
  | .nil, _, h => by simp [Subs.find] at h
  | .cons k1 t1 rest, o, h => by
    simp only [Subs.find] at h
    split at h
    · cases h; exact o.1
    · exact ok_find rest o.2.1 h

theorem ok_put {k : Str} {u : Trie} (hu : u.Ok) : ∀ s : Subs, s.Ok → (s.put k u).Ok
  | .nil, _ => ⟨hu, trivial, rfl⟩
  | .cons k1 t1 rest, o => by
    simp only [Subs.put]
    split
    · exact ⟨hu, o.2⟩
    · rename_i h
      exact ⟨o.1, ok_put hu rest o.2.1, by rw [find_put, if_neg (Ne.symm h)]; exact o.2.2⟩

theorem ok_set (p : Path) (s : Status) (t : Trie) (h : t.Ok) : (t.set s p).Ok := by
  induction p generalizing t with
  | nil => cases t; exact h
  | cons k p ih =>
    have hs : t.subs.Ok := by cases t; exact h
    refine ok_put (ih _ ?_) _ hs
    cases hf : t.subs.find k with
    | none => exact trivial
    | some u => exact ok_find _ hs hf

mutual
theorem mem_range : ∀ (t : Trie) (pre : Path) (x : Path × Status), t.Ok →
    (x ∈ t.range pre ↔ ∃ q, x.1 = pre ++ q ∧ t.get q = some x.2)
  | .node r subs => by
    intro pre x o
    simp only [Trie.range, List.mem_append]
    rw [mem_rangeS subs pre x o]
    constructor
    · rintro (h | ⟨k, q, t, h1, h2, h3⟩)
      · cases r with
        | none => simp at h
        | some s => simp only [List.mem_singleton] at h; subst h; exact ⟨[], by simp, rfl⟩
      · exact ⟨k :: q, h1, by simp only [Trie.get, Trie.subs, h2, h3]⟩
    · rintro ⟨q, h1, h2⟩
      cases q with
      | nil =>
        simp only [Trie.get, Trie.record] at h2
        subst h2
        left; simp only [List.mem_singleton]; exact Prod.ext (by simpa using h1) rfl
      | cons k q =>
        right
        simp only [Trie.get, Trie.subs] at h2
        cases hf : subs.find k with
        | none => simp [hf] at h2
        | some t => exact ⟨k, q, t, h1, hf, by simpa [hf] using h2⟩
theorem mem_rangeS : ∀ (s : Subs) (pre : Path) (x : Path × Status), s.Ok →
    (x ∈ s.range pre ↔ ∃ k q t, x.1 = pre ++ k :: q ∧ s.find k = some t ∧ t.get q = some x.2)
  | .nil => by intro pre x _; simp [Subs.range, Subs.find]
  | .cons k1 t1 rest => by
    intro pre x o
    simp only [Subs.range, List.mem_append, Subs.find]
    rw [mem_range t1 _ x o.1, mem_rangeS rest pre x o.2.1]
    constructor
    · rintro (⟨q, h1, h2⟩ | ⟨k, q, t, h1, h2, h3⟩)
      · exact ⟨k1, q, t1, by simpa using h1, by simp, h2⟩
      · refine ⟨k, q, t, h1, ?_, h3⟩
        rw [if_neg, h2]
        rintro rfl
        rw [o.2.2] at h2; cases h2
    · rintro ⟨k, q, t, h1, h2, h3⟩
      split at h2
      · cases h2; subst k1; exact .inl ⟨q, by simpa using h1, h3⟩
      · exact .inr ⟨k, q, t, h1, h2, h3⟩
end

/-! ### Record and events -/

def showStep (p : Path) (st : Option Status) (e : Event) : Option Status :=
  match e with
  | .item q (some s) _ => if q = p then some s else st
  | _ => st

theorem shown_eq (evs : List Event) (p : Path) : shown evs p = evs.foldl (showStep p) none := rfl

theorem shown_append (a b : List Event) (p : Path) : shown (a ++ b) p = b.foldl (showStep p) (shown a p) := by
  simp [shown_eq]

theorem get_send (t : Trie) (e : Event) (p : Path) : (send t e).get p = showStep p (t.get p) e := by
  unfold send showStep
  split
  · exact get_set _ _ _ _
  · rename_i h
    split
    · rename_i q s m; exact absurd rfl (h q s m)
    · rfl

theorem get_sends (evs : List Event) (t : Trie) (p : Path) : (evs.foldl send t).get p = evs.foldl (showStep p) (t.get p) := by
  induction evs generalizing t with
  | nil => rfl
  | cons e evs ih => simp only [List.foldl_cons]; rw [ih, get_send]

theorem ok_send (t : Trie) (e : Event) (h : t.Ok) : (send t e).Ok := by
  unfold send
  split
  · exact ok_set _ _ _ h
  · exact h

theorem ok_sends (evs : List Event) (t : Trie) (h : t.Ok) : (evs.foldl send t).Ok := by
  induction evs generalizing t with
  | nil => exact h
  | cons e evs ih => exact ih _ (ok_send _ _ h)

theorem showStep_or (p : Path) (evs : List Event) (a b : Option Status) :
    evs.foldl (showStep p) (a.or b) = (evs.foldl (showStep p) a).or b := by
  induction evs generalizing a with
  | nil => rfl
  | cons e evs ih =>
    simp only [List.foldl_cons]
    rw [← ih]
    congr 1
    unfold showStep
    split
    · split <;> simp
    · rfl

/-- The record is what is shown, or that the item is running. -/
structure Inv (items : List Path) (s : State) : Prop where
  ok : s.pm.Ok
  eq : ∀ p, s.pm.get p = (shown s.sent p).or (if p ∈ items then some .running else none)

theorem inv_emit {items : List Path} {s : State} (i : Inv items s) (evs : List Event) : Inv items (s.emit evs) where
  ok := ok_sends _ _ i.ok
  eq p := by
    show (evs.foldl send s.pm).get p = _
    rw [get_sends, i.eq, showStep_or]
    show _ = (shown (s.sent ++ evs) p).or _
    rw [shown_append]

theorem inv_begin (items : List Path) : Inv items (begin items) := by
  have : ∀ (l : List Path) (t : Trie), t.Ok → (l.foldl (fun t p => t.set .running p) t).Ok ∧
      ∀ p, (l.foldl (fun t p => t.set .running p) t).get p = if p ∈ l then some .running else t.get p := by
    intro l
    induction l with
    | nil => intro t h; exact ⟨h, by simp⟩
    | cons a l ih =>
      intro t h
      obtain ⟨h1, h2⟩ := ih (t.set .running a) (ok_set _ _ _ h)
      refine ⟨h1, fun p => ?_⟩
      rw [List.foldl_cons, h2, get_set]
      by_cases h3 : p ∈ l
      · simp [h3]
      · simp only [h3, if_false, List.mem_cons, or_false]
        by_cases h4 : a = p
        · simp [h4]
        · simp [h4, Ne.symm h4]
  obtain ⟨h1, h2⟩ := this items .empty trivial
  exact ⟨h1, fun p => by
    show (begin items).pm.get p = _
    unfold begin
    simp only [h2, get_empty]
    rfl⟩

/-! ### The end -/

/-- Without result means success. -/
def settle : Status → Status
  | .running => .success
  | .notRun => .success
  | s => s

theorem shown_dones (l : List (Path × Status)) (p : Path) (st : Option Status) :
    (l.map fun x => Event.item x.1 (some .success) []).foldl (showStep p) st =
      if p ∈ l.map Prod.fst then some .success else st := by
  induction l generalizing st with
  | nil => rfl
  | cons x l ih =>
    simp only [List.map_cons, List.foldl_cons]
    rw [ih]
    simp only [showStep, List.mem_cons]
    by_cases h : p ∈ l.map Prod.fst
    · simp [h]
    · simp only [h, if_false, or_false]
      by_cases h2 : x.1 = p
      · simp [h2]
      · simp [h2, Ne.symm h2]

theorem shown_finish {items : List Path} {s : State} (i : Inv items s) (root : Path) (err : Option Str)
    (order : List (Path × Status) → List (Path × Status)) (ho : ∀ l, (order l).Perm l) (p : Path) :
    shown (finish s root err order) p =
      (if err.isSome ∧ p = root then some .fail else (s.pm.get p).map settle) := by
  have key : ∀ s : State, Inv items s →
      shown (s.sent ++ ((order (s.pm.range [])).filter fun x => x.2 = .running ∨ x.2 = .notRun).map
        (fun x => Event.item x.1 (some .success) []) ++ [.testEnd]) p = (s.pm.get p).map settle := by
    intro s i
    rw [shown_append]
    show shown (s.sent ++ _) p = _
    rw [shown_append, shown_dones]
    have hm : p ∈ ((order (s.pm.range [])).filter fun x => x.2 = .running ∨ x.2 = .notRun).map Prod.fst ↔
        s.pm.get p = some .running ∨ s.pm.get p = some .notRun := by
      simp only [List.mem_map, List.mem_filter, (ho _).mem_iff, decide_eq_true_eq]
      constructor
      · rintro ⟨⟨q, st⟩, ⟨h1, h2⟩, rfl⟩
        obtain ⟨q', h3, h4⟩ := (mem_range _ _ _ i.ok).mp h1
        simp only [List.nil_append] at h3
        subst h3
        simp only at h4 h2 ⊢
        rw [h4]
        rcases h2 with rfl | rfl <;> simp
      · rintro (h | h)
        · exact ⟨(p, .running), ⟨(mem_range _ _ _ i.ok).mpr ⟨p, rfl, h⟩, by simp⟩, rfl⟩
        · exact ⟨(p, .notRun), ⟨(mem_range _ _ _ i.ok).mpr ⟨p, rfl, h⟩, by simp⟩, rfl⟩
    by_cases h : s.pm.get p = some .running ∨ s.pm.get p = some .notRun
    · rw [if_pos (hm.mpr h)]
      rcases h with h | h <;> rw [h] <;> rfl
    · rw [if_neg (fun x => h (hm.mp x))]
      have e := i.eq p
      cases hs : shown s.sent p with
      | none =>
        rw [hs] at e
        by_cases hp : p ∈ items
        · exact absurd (.inl (by rw [e]; simp [hp])) h
        · rw [e]; simp [hp]
      | some st =>
        rw [hs] at e
        simp only [Option.some_or] at e
        rw [e] at h ⊢
        cases st <;> simp_all [settle]
  unfold finish
  cases err with
  | none => simpa using key s i
  | some m =>
    have := key (s.emit [.item root (some .fail) m]) (inv_emit i _)
    refine this.trans ?_
    show ((send s.pm (.item root (some .fail) m)).get p).map settle = _
    rw [get_send]
    simp only [showStep]
    by_cases h : root = p
    · simp [h, settle]
    · simp [h, Ne.symm h]

/-! ### Reading to the end -/

/-- The state after these events. -/
def run (c : Config) (s : State) (evs : List TestEvent) : State :=
  evs.foldl (fun s e => s.emit (buildEvent c s.pm e)) s

theorem fold_reading (c : Config) (root : Path) (lines : List Line) (evs : List TestEvent) (s : State)
    (h : lines.map Line.event = evs.map some) :
    lines.foldl (fun o l => step c o root l) (.reading s) = .reading (run c s evs) := by
  induction lines generalizing s evs with
  | nil =>
    cases evs with
    | nil => rfl
    | cons => simp at h
  | cons l lines ih =>
    cases evs with
    | nil => simp at h
    | cons e evs =>
      simp only [List.map_cons, List.cons.injEq] at h
      simp only [List.foldl_cons]
      show List.foldl _ (step c (.reading s) root l) lines = .reading (run c (s.emit (buildEvent c s.pm e)) evs)
      rw [← ih evs _ h.2]
      congr 1
      cases l with
      | json e' => simp only [Line.event, Option.some.injEq] at h; rw [← h.1]; rfl
      | failed pkg text => simp only [Line.event, Option.some.injEq] at h; rw [← h.1]; rfl
      | text t => simp [Line.event] at h
      | bad m => simp [Line.event] at h

theorem session_eq (c : Config) (items : List Path) (root : Path) (lines : List Line) (err : Option Str)
    (order : List (Path × Status) → List (Path × Status)) (evs : List TestEvent) (h : lines.map Line.event = evs.map some) :
    session c items root lines err order = finish (run c (begin items) evs) root err order := by
  unfold session
  rw [fold_reading c root lines evs _ h]

theorem inv_run {items : List Path} (c : Config) (evs : List TestEvent) {s : State} (i : Inv items s) : Inv items (run c s evs) := by
  induction evs generalizing s with
  | nil => exact i
  | cons e evs ih => exact ih (inv_emit i _)

theorem run_append (c : Config) (s : State) (a b : List TestEvent) : run c s (a ++ b) = run c (run c s a) b := by
  simp [run]

/-! ### Events of a line -/

theorem eventPath_base (c : Config) (e : TestEvent) (h : (eventPath c e).2 ≠ []) :
    ∃ suffix, suffix ≠ [] ∧ (eventPath c e).1 = (eventPath c e).2 ++ suffix := by
  unfold eventPath at h ⊢
  split
  · simp_all
  · split
    · simp_all
    · split
      · simp_all
      · split
        · simp_all
        · split
          · simp_all
          · exact ⟨_, fun h => by simp_all, rfl⟩

theorem showStep_none (p : Path) (evs : List Event) (st : Option Status)
    (h : ∀ e ∈ evs, ∀ s m, e ≠ .item p (some s) m) : evs.foldl (showStep p) st = st := by
  induction evs generalizing st with
  | nil => rfl
  | cons e evs ih =>
    simp only [List.foldl_cons]
    rw [ih _ (fun e' h' => h e' (by simp [h']))]
    have := h e (by simp)
    unfold showStep
    split
    · rename_i q s m
      rw [if_neg]
      rintro rfl
      exact this s m rfl
    · rfl

/-- What a line does to the record at the path of its item. -/
theorem get_build_self (c : Config) (e : TestEvent) (s : State) (st : Status) (h : e.action.status = some st) :
    (s.emit (buildEvent c s.pm e)).pm.get (eventPath c e).1 = some st := by
  show ((buildEvent c s.pm e).foldl send s.pm).get _ = _
  rw [get_sends]
  unfold buildEvent
  rw [List.foldl_append, List.foldl_cons, h]
  refine (showStep_none _ _ _ ?_).trans (by simp [showStep])
  intro e' he'
  split at he'
  · simp only [List.mem_singleton] at he'; subst he'; simp
  · simp at he'

/-- Lines about other items leave a result as it is. -/
theorem get_build_other (c : Config) (e : TestEvent) (s : State) (p : Path) (st : Status) (h : s.pm.get p = some st)
    (ho : ¬ Overwrites c p e) : (s.emit (buildEvent c s.pm e)).pm.get p = some st := by
  show ((buildEvent c s.pm e).foldl send s.pm).get _ = _
  rw [get_sends, h]
  refine showStep_none _ _ _ ?_
  intro ev hev st' m heq
  subst heq
  unfold buildEvent at hev
  simp only [List.mem_append, List.mem_cons] at hev
  rcases hev with hev | hev | hev
  · split at hev
    · rename_i hb
      simp only [Bool.and_eq_true, decide_eq_true_eq] at hb
      obtain ⟨hb1, hb2⟩ := hb
      simp only [newSubtest, List.mem_cons, reduceCtorEq, List.mem_map, List.mem_range, Event.item.injEq, false_or] at hev
      obtain ⟨i, hi, hp, _, _⟩ := hev
      obtain ⟨suffix, hs1, hs2⟩ := eventPath_base c e hb1
      apply ho
      right
      rw [hs2] at hi hp
      simp only [List.drop_left, List.length_append] at hi hp
      refine ⟨hb1, ⟨_, hp⟩, ?_, ?_, ?_⟩
      · rw [← hp]
        intro hh
        have := List.append_cancel_left (hh.trans (List.append_nil _).symm)
        simp only [List.take_eq_nil_iff] at this
        rcases this with h' | h'
        · omega
        · exact hs1 h'
      · rw [← hp, hs2]; exact (List.prefix_append_right_inj _).mpr (List.take_prefix _ _)
      · rintro rfl; rw [hb2] at h; cases h
    · simp at hev
  · simp only [Event.item.injEq] at hev
    exact ho (.inl ⟨hev.1.symm, by rintro h; rw [h] at hev; simp [Action.status] at hev⟩)
  · split at hev <;> simp at hev

/-- **C65.** If `go test` reports a result of a test, a subtest or a package, and says nothing else about it later, then after
    the run its item shows this result, whatever the other lines are and in whatever order the record is gone through. (If
    the command fails, the item that was run is shown as failed.) -/
theorem C65_final (c : Config) (items : List Path) (root : Path) (lines : List Line) (err : Option Str)
    (order : List (Path × Status) → List (Path × Status)) (ho : ∀ l, (order l).Perm l)
    (pre post : List TestEvent) (e : TestEvent) (h : lines.map Line.event = (pre ++ e :: post).map some)
    (st : Status) (hm : Means e.action st) (later : ∀ e' ∈ post, ¬ Overwrites c (eventPath c e).1 e') :
    shown (session c items root lines err order) (eventPath c e).1 =
      (if err.isSome ∧ (eventPath c e).1 = root then some .fail else some st) := by
  have hst : e.action.status = some st ∧ st ≠ .running := by
    rcases hm with ⟨h1, rfl⟩ | ⟨h1, rfl⟩ | ⟨h1, rfl⟩ <;> rw [h1] <;> decide
  obtain ⟨hst, hres⟩ := hst
  rw [session_eq c items root lines err order _ h, shown_finish (inv_run c _ (inv_begin items)) root err order ho]
  have : (run c (begin items) (pre ++ e :: post)).pm.get (eventPath c e).1 = some st := by
    rw [run_append]
    show (run c ((run c (begin items) pre).emit (buildEvent c (run c (begin items) pre).pm e)) post).pm.get _ = _
    have h1 := get_build_self c e (run c (begin items) pre) st hst
    revert h1
    generalize (run c (begin items) pre).emit (buildEvent c (run c (begin items) pre).pm e) = s
    clear h
    induction post generalizing s with
    | nil => exact id
    | cons e' post ih =>
      intro h1
      exact ih (fun e'' h'' => later e'' (by simp [h''])) _ (get_build_other c e' s _ st h1 (later e' (by simp)))
  rw [this]
  have hst' : settle st = st := by
    revert hst hres
    cases e.action <;> simp [Action.status] <;> rintro rfl <;> simp [settle]
  simp [hst']

/-- **C65.** After a run that comes to its end nothing is shown as running or not run; all items that were to be run have a
    result. -/
theorem C65_end (c : Config) (items : List Path) (root : Path) (lines : List Line) (err : Option Str)
    (order : List (Path × Status) → List (Path × Status)) (ho : ∀ l, (order l).Perm l) (evs : List TestEvent)
    (h : lines.map Line.event = evs.map some) :
    (∀ p, shown (session c items root lines err order) p ≠ some .running ∧
      shown (session c items root lines err order) p ≠ some .notRun) ∧
    (∀ p ∈ items, shown (session c items root lines err order) p ≠ none) ∧
    ∃ l, session c items root lines err order = l ++ [.testEnd] := by
  have i := inv_run c evs (inv_begin items)
  rw [session_eq c items root lines err order _ h]
  refine ⟨fun p => ?_, fun p hp => ?_, _, rfl⟩
  · rw [shown_finish i root err order ho]
    split
    · simp
    · cases (run c (begin items) evs).pm.get p with
      | none => simp
      | some st => cases st <;> simp [settle]
  · rw [shown_finish i root err order ho]
    split
    · simp
    · have := i.eq p
      rw [if_pos hp] at this
      rw [this]
      cases shown (run c (begin items) evs).sent p <;> simp

theorem get_sends_source (evs : List Event) (t : Trie) (p : Path) (st : Status) (h : (evs.foldl send t).get p = some st) :
    t.get p = some st ∨ ∃ m, .item p (some st) m ∈ evs := by
  rw [get_sends] at h
  induction evs generalizing t with
  | nil => exact .inl h
  | cons e evs ih =>
    simp only [List.foldl_cons] at h
    rw [← get_send] at h
    rcases ih _ h with h1 | ⟨m, h1⟩
    · rw [get_send] at h1
      unfold showStep at h1
      split at h1
      · split at h1
        · rename_i q s m hq
          cases h1; subst hq
          exact .inr ⟨m, by simp⟩
        · exact .inl h1
      · exact .inl h1
    · exact .inr ⟨m, by simp [h1]⟩

/-- **C65.** An item is shown as failed or skipped only if `go test` has said so, or if it is the item that was run and the
    command failed. -/
theorem C65_sound (c : Config) (items : List Path) (root : Path) (lines : List Line) (err : Option Str)
    (order : List (Path × Status) → List (Path × Status)) (ho : ∀ l, (order l).Perm l) (evs : List TestEvent)
    (h : lines.map Line.event = evs.map some) (p : Path) (st : Status)
    (hs : shown (session c items root lines err order) p = some st) (hne : st ≠ .success) :
    (∃ e ∈ evs, (eventPath c e).1 = p ∧ e.action.status = some st) ∨ (err ≠ none ∧ p = root ∧ st = .fail) := by
  rw [session_eq c items root lines err order _ h, shown_finish (inv_run c _ (inv_begin items)) root err order ho] at hs
  split at hs
  · rename_i hr
    cases hs
    exact .inr ⟨by intro hh; simp [hh] at hr, hr.2, rfl⟩
  · left
    have hg : (run c (begin items) evs).pm.get p = some st ∧ st ≠ .running := by
      cases hx : (run c (begin items) evs).pm.get p with
      | none => simp [hx] at hs
      | some x =>
        rw [hx] at hs
        cases x <;> simp [settle] at hs <;> subst hs <;> simp at hne ⊢
    obtain ⟨hg, hn⟩ := hg
    have : ∀ (evs : List TestEvent) (s : State), (run c s evs).pm.get p = some st →
        s.pm.get p = some st ∨ ∃ e ∈ evs, (eventPath c e).1 = p ∧ e.action.status = some st := by
      intro evs
      induction evs with
      | nil => intro s hh; exact .inl hh
      | cons e evs ih =>
        intro s hh
        rcases ih _ hh with h1 | ⟨e', h1, h2⟩
        · rcases get_sends_source _ _ _ _ h1 with h1 | ⟨m, h1⟩
          · exact .inl h1
          · unfold buildEvent at h1
            simp only [List.mem_append, List.mem_cons] at h1
            rcases h1 with h1 | h1 | h1
            · split at h1
              · simp only [newSubtest, List.mem_cons, reduceCtorEq, List.mem_map, Event.item.injEq, false_or] at h1
                obtain ⟨_, _, _, h1, _⟩ := h1
                cases h1
                exact absurd rfl hn
              · simp at h1
            · simp only [Event.item.injEq] at h1
              exact .inr ⟨e, by simp, h1.1.symm, h1.2.1.symm⟩
            · split at h1 <;> simp at h1
        · exact .inr ⟨e', by simp [h1], h2⟩
    rcases this evs _ hg with h1 | h1
    · have := (inv_begin items).eq p
      rw [this] at h1
      simp only [begin, shown, List.foldl_cons, List.foldl_nil, Option.none_or] at h1
      split at h1
      · cases h1; exact absurd rfl hn
      · cases h1
    · exact h1

/-! ### Output -/

theorem output_append (a b : List Event) (p : Path) : output (a ++ b) p = output a p ++ output b p := by
  simp [output]

theorem output_quiet (evs : List Event) (p : Path) (h : ∀ e ∈ evs, ∀ q st m, e = .item q st m → m = []) : output evs p = [] := by
  unfold output
  simp only [List.flatten_eq_nil_iff, List.mem_map]
  rintro _ ⟨e, he, rfl⟩
  split
  · rename_i q st m
    split
    · exact h _ he q st m rfl
    · rfl
  · rfl

theorem output_build (c : Config) (pm : Trie) (e : TestEvent) (p : Path) :
    output (buildEvent c pm e) p = (if (eventPath c e).1 = p then e.output else []) ++
      (if (eventPath c e).2 ≠ [] ∧ (eventPath c e).2 = p then e.output else []) := by
  unfold buildEvent
  rw [output_append, output_quiet]
  · rw [List.nil_append]
    show output ([Event.item (eventPath c e).1 e.action.status e.output] ++
      (if (eventPath c e).2 ≠ [] then [.item (eventPath c e).2 none e.output] else [])) p = _
    rw [output_append]
    congr 1
    · simp [output]
    · by_cases h : (eventPath c e).2 = [] <;> simp [output, h]
  · intro ev hev q st m heq
    subst heq
    split at hev
    · simp only [newSubtest, List.mem_cons, reduceCtorEq, List.mem_map, Event.item.injEq, false_or] at hev
      obtain ⟨_, _, _, _, h⟩ := hev
      exact h.symm
    · simp at hev

/-- **C65.** With each item its own output is shown, and with a test function also that of its subtests, complete and in
    order; with the item that was run also why the command failed. -/
theorem C65_output (c : Config) (items : List Path) (root : Path) (lines : List Line) (err : Option Str)
    (order : List (Path × Status) → List (Path × Status)) (evs : List TestEvent)
    (h : lines.map Line.event = evs.map some) (p : Path) (hp : p ≠ []) :
    output (session c items root lines err order) p =
      (((evs.filter fun e => (eventPath c e).1 = p ∨ (eventPath c e).2 = p).map TestEvent.output)).flatten ++
      (if p = root then err.getD [] else []) := by
  rw [session_eq c items root lines err order _ h]
  have h1 : ∀ (evs : List TestEvent) (s : State), output (run c s evs).sent p = output s.sent p ++
      (((evs.filter fun e => (eventPath c e).1 = p ∨ (eventPath c e).2 = p).map TestEvent.output)).flatten := by
    intro evs
    induction evs with
    | nil => intro s; simp [run]
    | cons e evs ih =>
      intro s
      show output (run c (s.emit (buildEvent c s.pm e)) evs).sent p = _
      rw [ih]
      show output (s.sent ++ buildEvent c s.pm e) p ++ _ = _
      rw [output_append, output_build, List.append_assoc]
      congr 1
      by_cases h1 : (eventPath c e).1 = p
      · have h2 : (eventPath c e).2 ≠ p := by
          intro h2
          obtain ⟨suffix, hs, h3⟩ := eventPath_base c e (by rw [h2]; exact hp)
          rw [h1, h2] at h3
          exact hs (List.append_cancel_left (h3.symm.trans (List.append_nil _).symm))
        simp [h1, h2]
      · by_cases h2 : (eventPath c e).2 = p
        · simp [h1, h2, hp]
        · simp [h1, h2]
  have h2 : ∀ s : State, output (s.sent ++ ((order (s.pm.range [])).filter fun x => x.2 = .running ∨ x.2 = .notRun).map
        (fun x => Event.item x.1 (some .success) []) ++ [.testEnd]) p = output s.sent p := by
    intro s
    rw [output_append, output_append, output_quiet (List.map _ _), output_quiet [_]]
    · simp
    · simp
    · intro e he q st m heq
      subst heq
      simp only [List.mem_map, Event.item.injEq] at he
      obtain ⟨_, _, _, _, h⟩ := he
      exact h.symm
  have h0 : output (begin items).sent p = [] := rfl
  unfold finish
  cases err with
  | none =>
    refine (h2 _).trans ?_
    rw [h1, h0]; simp
  | some m =>
    refine (h2 _).trans ?_
    show output ((run c (begin items) evs).sent ++ [.item root (some .fail) m]) p = _
    rw [output_append, h1, h0]
    simp only [List.nil_append]
    congr 1
    by_cases hr : p = root
    · simp [output, hr]
    · simp [output, hr, Ne.symm hr]

/-! ### Paths -/

theorem splitSlash_ne (s : Str) : splitSlash s ≠ [] := by
  cases s with
  | nil => simp [splitSlash]
  | cons c s => unfold splitSlash; split; simp; split <;> simp

theorem splitSlash_free (s : Str) (h : '/' ∉ s) : splitSlash s = [s] := by
  induction s with
  | nil => rfl
  | cons c s ih =>
    simp only [List.mem_cons, not_or] at h
    unfold splitSlash
    rw [if_neg (Ne.symm h.1), ih h.2]

theorem splitSlash_append (a s : Str) (h : '/' ∉ a) : splitSlash (a ++ '/' :: s) = a :: splitSlash s := by
  induction a with
  | nil => simp [splitSlash]
  | cons c a ih =>
    simp only [List.mem_cons, not_or] at h
    simp only [List.cons_append]
    rw [splitSlash.eq_def]
    simp only
    rw [if_neg (Ne.symm h.1), ih h.2]

theorem splitSlash_join (a : Str) (l : List Str) (h : ∀ x ∈ a :: l, '/' ∉ x) : splitSlash (joinSlash (a :: l)) = a :: l := by
  induction l generalizing a with
  | nil => exact splitSlash_free a (h a (by simp))
  | cons b l ih =>
    show splitSlash (a ++ '/' :: joinSlash (b :: l)) = _
    rw [splitSlash_append a _ (h a (by simp)), ih b (fun x hx => h x (by simp [List.mem_cons.mp hx]))]

/-- **C65.** A line about a test or a subtest goes to the item of the test function in its file, or to the item below it with
    the names of the subtest, and then also to that of the function. -/
theorem C65_path (c : Config) (e : TestEvent) (base : Str) (subs : List Str) (file : Path) (hpkg : e.pkg ≠ [])
    (hfree : ∀ x ∈ base :: subs, '/' ∉ x) (hb : base ≠ []) (hs : subs ≠ [[]]) (ht : e.test = joinSlash (base :: subs))
    (hr : c.resolve e.pkg base = some file) :
    eventPath c e = (c.pathPrefix ++ file ++ base :: subs, if subs = [] then [] else c.pathPrefix ++ file ++ [base]) := by
  have hne : joinSlash (base :: subs) ≠ [] := by
    cases subs with
    | nil => exact hb
    | cons x l => simp [joinSlash]
  unfold eventPath
  rw [if_neg hpkg, ht, if_neg hne, splitSlash_join _ _ hfree]
  simp only [hr, hs, or_false]
  by_cases h : subs = []
  · simp [h]
  · simp [h]

/-- **C65.** A line about a package goes to the item of its directory. -/
theorem C65_path_pkg (c : Config) (e : TestEvent) (dirs : List Str) (hm : c.modPath ≠ []) (ht : e.test = [])
    (hfree : ∀ x ∈ dirs, '/' ∉ x) (hd : dirs ≠ [[]]) (hp : e.pkg = joinSlash (c.modPath :: dirs)) :
    eventPath c e = (c.pathPrefix ++ dirs, []) := by
  unfold eventPath
  have hne : e.pkg ≠ [] := by
    rw [hp]
    cases dirs with
    | nil => exact hm
    | cons x l => simp [joinSlash]
  rw [if_neg hne, if_pos ht]
  congr 2
  cases dirs with
  | nil =>
    have : e.pkg = c.modPath := hp
    simp [pkgSubPath, this]
  | cons x l =>
    have hp : e.pkg = c.modPath ++ '/' :: joinSlash (x :: l) := hp
    have h1 : pkgSubPath c.modPath e.pkg = joinSlash (x :: l) := by
      unfold pkgSubPath
      rw [hp, if_pos (by simp), List.drop_left]
      rfl
    have h2 : joinSlash (x :: l) ≠ [] := by
      cases l with
      | nil => intro h; exact hd (by simp only [joinSlash] at h; rw [h])
      | cons => simp [joinSlash]
    rw [h1, if_neg h2, splitSlash_join _ _ hfree]

/-! ### New subtests -/

theorem chain_eq (last : Str) (full pre : Str) (l : List Str) (hf : full = joinSlash (pre :: (l ++ [last]))) :
    mergeChain (last, full) pre l =
      (List.range (l.length + 1)).map fun i => (((l ++ [last])[i]?).getD [], joinSlash (pre :: (l ++ [last]).take (i + 1))) := by
  induction l generalizing pre with
  | nil => simp [mergeChain, joinSlash, hf, List.range_succ]
  | cons k l ih =>
    have hj : ∀ (a b : Str) (m : List Str), joinSlash (a :: b :: m) = joinSlash ((a ++ '/' :: b) :: m) := by
      intro a b m
      cases m <;> simp [joinSlash]
    have := ih (pre ++ '/' :: k) (by rw [hf]; exact hj _ _ _)
    simp only [mergeChain, this, List.length_cons]
    rw [List.range_succ_eq_map (n := l.length + 1)]
    simp only [List.map_cons, List.map_map, List.cons_append, List.getElem?_cons_zero, Option.getD_some, Nat.zero_add,
      List.take_succ_cons, List.take_zero]
    congr 1
    apply List.map_congr_left
    intro i _
    simp only [Function.comp, Nat.succ_eq_add_one, List.getElem?_cons_succ, List.take_succ_cons]
    rw [hj]

/-- **C65.** The items added for a subtest have the names of the subtest as keys, and each the name under which `go test` runs
    it. -/
theorem C65_chain (base : Str) (subs : List Str) (hs : subs ≠ []) (file : Path) (e : TestEvent) (ht : e.test = joinSlash (base :: subs)) :
    ∃ chain rest, newSubtest e (file ++ base :: subs) (file ++ [base]) = .merge (file ++ [base]) chain :: rest ∧
      chain = (List.range subs.length).map fun i => ((subs[i]?).getD [], joinSlash (base :: subs.take (i + 1))) := by
  refine ⟨_, _, rfl, ?_⟩
  have hd : (file ++ base :: subs).drop (file ++ [base]).length = subs := by
    rw [show file ++ base :: subs = (file ++ [base]) ++ subs by simp, List.drop_left]
  rw [hd]
  simp only [List.getLast?_append, List.getLast?_singleton, Option.some_or, Option.getD_some]
  have hl := List.dropLast_concat_getLast hs
  have hg : subs.getLast?.getD [] = subs.getLast hs := by rw [List.getLast?_eq_some_getLast hs]; rfl
  rw [hg, chain_eq _ _ _ _ (by rw [hl]; exact ht), hl]
  congr 2
  simp only [List.length_dropLast]
  have := List.length_pos_iff.mpr hs
  omega

theorem chain_keys (item : Str × Str) (pre : Str) (l : List Str) : (mergeChain item pre l).map Prod.fst = l ++ [item.1] := by
  induction l generalizing pre with
  | nil => rfl
  | cons k l ih => simp [mergeChain, ih]

/-- Every event with a status is for an item that the page can find. -/
def AllFound (c : Config) (items : List Path) (evs : List Event) : Prop :=
  ∀ a b p st m, evs = a ++ .item p (some st) m :: b → Found c items a p

theorem found_mono {c : Config} {items : List Path} {a : List Event} {p : Path} (h : Found c items a p) (b : List Event) :
    Found c items (a ++ b) p := by
  rcases h with h | h | ⟨x, y, q, h1, h2⟩
  · exact .inl h
  · exact .inr (.inl h)
  · exact .inr (.inr ⟨x, y, q, by simp [h1], h2⟩)

theorem allFound_append {c : Config} {items : List Path} {a b : List Event} (ha : AllFound c items a)
    (hb : ∀ x y p st m, b = x ++ .item p (some st) m :: y → Found c items (a ++ x) p) : AllFound c items (a ++ b) := by
  intro x y p st m h
  rcases List.append_eq_append_iff.mp h with ⟨z, h1, h2⟩ | ⟨z, h1, h2⟩
  · rw [h1]; exact hb z y p st m h2
  · cases z with
    | nil =>
      simp only [List.append_nil] at h1
      simp only [List.nil_append] at h2
      have := hb [] y p st m (by simpa using h2.symm)
      simpa [h1] using this
    | cons w z =>
      simp only [List.cons_append, List.cons.injEq] at h2
      exact ha x z p st m (by rw [h1, h2.1])

structure FInv (c : Config) (items : List Path) (s : State) : Prop where
  all : AllFound c items s.sent
  known : ∀ p st, s.pm.get p = some st → Found c items s.sent p

theorem finv_begin (c : Config) (items : List Path) : FInv c items (begin items) where
  all := by
    intro a b p st m h
    cases a with
    | nil => simp [begin] at h
    | cons x a =>
      have : (begin items).sent = [.testStart] := rfl
      rw [this] at h
      simp at h
  known := by
    intro p st h
    rw [(inv_begin items).eq] at h
    simp only [begin, shown, List.foldl_cons, List.foldl_nil, Option.none_or] at h
    split at h
    · rename_i hp; exact .inl hp
    · cases h

theorem finv_emit {c : Config} {items : List Path} {s : State} (i : FInv c items s) (evs : List Event)
    (h : ∀ x y p st m, evs = x ++ .item p (some st) m :: y → Found c items (s.sent ++ x) p) : FInv c items (s.emit evs) where
  all := allFound_append i.all h
  known := by
    intro p st hg
    rcases get_sends_source evs s.pm p st hg with h1 | ⟨m, h1⟩
    · exact found_mono (i.known p st h1) evs
    · obtain ⟨x, y, e⟩ := List.append_of_mem h1
      have := found_mono (h x y p st m e) (.item p (some st) m :: y)
      rw [List.append_assoc, ← e] at this
      exact this

theorem finv_line {c : Config} {items : List Path} {s : State} (i : FInv c items s) (e : TestEvent) :
    FInv c items (s.emit (buildEvent c s.pm e)) := by
  apply finv_emit i
  intro x y p st m h
  have hm : Event.item p (some st) m ∈ buildEvent c s.pm e := by rw [h]; simp
  -- the item of the line is found, or this line adds it
  by_cases hb : (eventPath c e).2 = []
  · unfold buildEvent at hm
    simp only [hb, ne_eq, not_true, decide_false, Bool.false_and, Bool.false_eq_true, if_false, List.nil_append,
      List.mem_cons, Event.item.injEq, List.not_mem_nil, or_false] at hm
    refine .inr (.inl ⟨e, ?_⟩)
    rw [hm.1, ← hb]
  · obtain ⟨suffix, hs1, hs2⟩ := eventPath_base c e hb
    cases hg : s.pm.get (eventPath c e).1 with
    | some st' =>
      have hp : p = (eventPath c e).1 := by
        unfold buildEvent at hm
        simp only [hg, reduceCtorEq, decide_false, Bool.and_false, Bool.false_eq_true, if_false, List.nil_append,
          List.mem_cons, Event.item.injEq] at hm
        rcases hm with hm | hm
        · exact hm.1
        · simp [hb] at hm
      rw [hp]
      exact found_mono (i.known _ _ hg) x
    | none =>
      have hbuild : ∃ rest, buildEvent c s.pm e = .merge (eventPath c e).2
          (mergeChain (suffix.getLast?.getD [], e.test) ((eventPath c e).2.getLast?.getD []) suffix.dropLast) :: rest := by
        unfold buildEvent
        simp only [hb, hg, ne_eq, not_false_eq_true, decide_true, Bool.and_self, if_true, newSubtest]
        rw [hs2, List.drop_left]
        exact ⟨_, rfl⟩
      obtain ⟨rest, hbuild⟩ := hbuild
      have hx : Event.merge (eventPath c e).2
          (mergeChain (suffix.getLast?.getD [], e.test) ((eventPath c e).2.getLast?.getD []) suffix.dropLast) ∈ s.sent ++ x := by
        cases x with
        | nil => rw [hbuild] at h; simp at h
        | cons w x =>
          rw [hbuild] at h
          simp only [List.cons_append, List.cons.injEq] at h
          simp [h.1]
      have hk : (mergeChain (suffix.getLast?.getD [], e.test) ((eventPath c e).2.getLast?.getD []) suffix.dropLast).map Prod.fst =
          suffix := by
        rw [chain_keys, List.getLast?_eq_some_getLast hs1]
        exact List.dropLast_concat_getLast hs1
      have hp : ∃ q, q ≠ [] ∧ p = (eventPath c e).2 ++ q ∧ q <+: suffix := by
        unfold buildEvent at hm
        simp only [hb, hg, ne_eq, not_false_eq_true, decide_true, Bool.and_self, if_true, newSubtest, List.cons_append,
          List.mem_cons, reduceCtorEq, false_or, List.mem_append, List.mem_map, List.mem_range, Event.item.injEq,
          List.not_mem_nil, or_false, false_and, and_false] at hm
        rw [hs2] at hm
        simp only [List.drop_left] at hm
        rcases hm with ⟨j, hj, rfl, _⟩ | hm
        · refine ⟨_, ?_, rfl, List.take_prefix _ _⟩
          simp only [ne_eq, List.take_eq_nil_iff, not_or]
          exact ⟨by omega, hs1⟩
        · exact ⟨suffix, hs1, hm.1, List.prefix_refl _⟩
      obtain ⟨q, h1, h2, h3⟩ := hp
      exact .inr (.inr ⟨_, _, q, hx, h1, h2, by rw [hk]; exact h3⟩)

/-- **C65.** Every status that is sent is for an item the page can find: subtests are added to the tree before there is a
    status for them. This holds for whatever output. -/
theorem C65_found (c : Config) (items : List Path) (root : Path) (lines : List Line) (err : Option Str)
    (order : List (Path × Status) → List (Path × Status)) (ho : ∀ l, (order l).Perm l) (before after : List Event) (p : Path)
    (st : Status) (m : Str) (h : session c items root lines err order = before ++ .item p (some st) m :: after) :
    p = root ∨ Found c items before p := by
  have fin : ∀ s : State, FInv c items s → Inv items s → ∀ a b p st m,
      finish s root err order = a ++ .item p (some st) m :: b → p = root ∨ Found c items a p := by
    intro s i j a b p st m h
    have tail : ∀ s : State, (∀ p st, s.pm.get p = some st → p = root ∨ Found c items s.sent p) → s.pm.Ok →
        (∀ a b p st m, s.sent = a ++ .item p (some st) m :: b → p = root ∨ Found c items a p) →
        s.sent ++ ((order (s.pm.range [])).filter fun x => x.2 = .running ∨ x.2 = .notRun).map
        (fun x => Event.item x.1 (some .success) []) ++ [.testEnd] = a ++ .item p (some st) m :: b →
        p = root ∨ Found c items a p := by
      intro s known ok all h
      rw [List.append_assoc] at h
      rcases List.append_eq_append_iff.mp h with ⟨z, h1, h2⟩ | ⟨z, h1, h2⟩
      · have hm : Event.item p (some st) m ∈ ((order (s.pm.range [])).filter fun x => x.2 = .running ∨ x.2 = .notRun).map
            (fun x => Event.item x.1 (some .success) []) ++ [.testEnd] := by rw [h2]; simp
        simp only [List.mem_append, List.mem_map, List.mem_filter, (ho _).mem_iff, Event.item.injEq, List.mem_singleton,
          reduceCtorEq, or_false] at hm
        obtain ⟨⟨q, s'⟩, ⟨h3, _⟩, h4, _⟩ := hm
        obtain ⟨q', h5, h6⟩ := (mem_range _ _ _ ok).mp h3
        simp only [List.nil_append] at h5 h4
        subst h4 h5
        rcases known _ _ h6 with hk | hk
        · exact .inl hk
        · right; rw [h1]; exact found_mono hk z
      · cases z with
        | nil =>
          simp only [List.append_nil] at h1
          simp only [List.nil_append] at h2
          have hm : Event.item p (some st) m ∈ ((order (s.pm.range [])).filter fun x => x.2 = .running ∨ x.2 = .notRun).map
              (fun x => Event.item x.1 (some .success) []) ++ [.testEnd] := by rw [← h2]; simp
          simp only [List.mem_append, List.mem_map, List.mem_filter, (ho _).mem_iff, Event.item.injEq, List.mem_singleton,
            reduceCtorEq, or_false] at hm
          obtain ⟨⟨q, s'⟩, ⟨h3, _⟩, h4, _⟩ := hm
          obtain ⟨q', h5, h6⟩ := (mem_range _ _ _ ok).mp h3
          simp only [List.nil_append] at h5 h4
          subst h4 h5
          rcases known _ _ h6 with hk | hk
          · exact .inl hk
          · right; rw [← h1]; exact hk
        | cons w z =>
          simp only [List.cons_append, List.cons.injEq] at h2
          exact all a z p st m (by rw [h1, h2.1])
    unfold finish at h
    cases err with
    | none => exact tail s (fun p st hg => .inr (i.known p st hg)) j.ok (fun a b p st m h => .inr (i.all a b p st m h)) h
    | some msg =>
      refine tail (s.emit [.item root (some .fail) msg]) ?_ (inv_emit j _).ok ?_ h
      · intro p st hg
        rcases get_sends_source _ _ _ _ hg with h1 | ⟨m, h1⟩
        · exact .inr (found_mono (i.known p st h1) _)
        · simp only [List.mem_singleton, Event.item.injEq] at h1; exact .inl h1.1
      · intro a b p st m h
        change s.sent ++ [.item root (some .fail) msg] = _ at h
        rcases List.append_eq_append_iff.mp h with ⟨z, h1, h2⟩ | ⟨z, h1, h2⟩
        · cases z with
          | nil => simp only [List.nil_append, List.cons.injEq, Event.item.injEq] at h2; exact .inl h2.1.1.symm
          | cons w z => simp at h2
        · cases z with
          | nil => simp only [List.nil_append, List.cons.injEq, Event.item.injEq] at h2; exact .inl h2.1.1
          | cons w z =>
            simp only [List.cons_append, List.cons.injEq] at h2
            exact .inr (i.all a z p st m (by rw [h1, h2.1]))
  have main : ∀ (lines : List Line) (o : Outcome),
      (match o with
        | .reading s => FInv c items s ∧ Inv items s
        | .crashed s => FInv c items s ∧ Inv items s
        | .stopped s => FInv c items s ∧ Inv items s
        | .blocked s => FInv c items s ∧ Inv items s) →
      (match lines.foldl (fun o l => step c o root l) o with
        | .reading s => FInv c items s ∧ Inv items s
        | .crashed s => FInv c items s ∧ Inv items s
        | .stopped s => FInv c items s ∧ Inv items s
        | .blocked s => FInv c items s ∧ Inv items s) := by
    intro lines
    induction lines with
    | nil => exact fun _ h => h
    | cons l lines ih =>
      intro o ho
      apply ih
      cases o with
      | reading s =>
        cases l with
        | json e => exact ⟨finv_line ho.1 e, inv_emit ho.2 _⟩
        | failed pkg text => exact ⟨finv_line ho.1 _, inv_emit ho.2 _⟩
        | text t => exact ho
        | bad msg =>
          refine ⟨finv_emit ho.1 _ ?_, inv_emit ho.2 _⟩
          intro x y p st m h
          cases x with
          | nil => simp at h
          | cons => simp at h
      | crashed s => exact ho
      | stopped s => exact ho
      | blocked s => exact ho
  have := main lines (.reading (begin items)) ⟨finv_begin c items, inv_begin items⟩
  unfold session at h
  revert this h
  generalize lines.foldl (fun o l => step c o root l) (.reading (begin items)) = o
  intro h i
  cases o with
  | reading s => exact fin _ i.1 i.2 before after p st m h
  | crashed s => exact .inr (i.1.all before after p st m h)
  | stopped s => exact fin _ i.1 i.2 before after p st m h
  | blocked s => exact .inr (i.1.all before after p st m h)

/-- **C65.** Running a single test: it is shown as failed exactly if the command fails, else as successful, and with its whole
    output. -/
theorem C65_single (root : Path) (lines : List Str) (err : Option Str)
    (order : List (Path × Status) → List (Path × Status)) (ho : ∀ l, (order l).Perm l) :
    shown (singleSession [root] root lines err order) root = some (if err = none then .success else .fail) ∧
    output (singleSession [root] root lines err order) root = lines.flatten ++ err.getD [] := by
  have i := inv_emit (inv_begin [root]) (lines.map fun l => .item root none l)
  constructor
  · unfold singleSession
    rw [shown_finish i root err order ho, i.eq]
    have hs : shown ((begin [root]).emit (lines.map fun l => .item root none l)).sent root = none := by
      show shown ([.testStart] ++ lines.map fun l => .item root none l) root = none
      rw [shown_append, showStep_none]
      · rfl
      · intro e he s m h
        subst h
        simp at he
    rw [hs]
    cases err <;> simp [settle]
  · unfold singleSession finish
    have h2 : ∀ s : State, output (s.sent ++ ((order (s.pm.range [])).filter fun x => x.2 = .running ∨ x.2 = .notRun).map
          (fun x => Event.item x.1 (some .success) []) ++ [.testEnd]) root = output s.sent root := by
      intro s
      rw [output_append, output_append, output_quiet (List.map _ _), output_quiet [_]]
      · simp
      · simp
      · intro e he q st m heq
        subst heq
        simp only [List.mem_map, Event.item.injEq] at he
        obtain ⟨_, _, _, _, h⟩ := he
        exact h.symm
    have h3 : output ((begin [root]).emit (lines.map fun l => .item root none l)).sent root = lines.flatten := by
      show output ([.testStart] ++ lines.map fun l => .item root none l) root = _
      rw [output_append]
      simp [output, Function.comp_def]
    cases err with
    | none => refine (h2 _).trans ?_; rw [h3]; simp
    | some m =>
      refine (h2 _).trans ?_
      show output (((begin [root]).emit (lines.map fun l => .item root none l)).sent ++ [.item root (some .fail) m]) root = _
      rw [output_append, h3]
      simp [output]

/-! ### A run -/

/-- A module `m` with a package `m/p`, with two test files. -/
def exPkgs : Str → PkgFiles := fun pkg =>
  if pkg = "m/p".toList then
    [(["p".toList, "a_test.go".toList], some ["TestA".toList]), (["p".toList, "b_test.go".toList], some ["TestB".toList])]
  else []

def exConfig : Config := { pathPrefix := ["r".toList], modPath := "m".toList, resolve := resolveIn exPkgs }

def exItem (l : List String) : Path := ("r" :: l).map String.toList

/-- The items of the tree. -/
def exItems : List Path :=
  [exItem [], exItem ["p"], exItem ["p", "a_test.go"], exItem ["p", "a_test.go", "TestA"], exItem ["p", "b_test.go"],
    exItem ["p", "b_test.go", "TestB"]]

def exEvent (a : Action) (test : String) (out : String := "") : TestEvent :=
  { action := a, pkg := "m/p".toList, test := test.toList, output := out.toList }

def exEvents : List TestEvent :=
  [exEvent .run "TestA", exEvent .run "TestA/x", exEvent .run "TestA/x/y", exEvent .other "TestA/x/y" "bad",
    exEvent .fail "TestA/x/y", exEvent .fail "TestA/x", exEvent .fail "TestA", exEvent .run "TestB", exEvent .skip "TestB",
    exEvent .fail ""]

/-- The hypotheses of `C65_final` hold for a subtest of a subtest. -/
example : (exEvents.map Line.json).map Line.event = (exEvents.take 4 ++ exEvent .fail "TestA/x/y" :: exEvents.drop 5).map some ∧
    eventPath exConfig (exEvent .fail "TestA/x/y") =
      (exItem ["p", "a_test.go", "TestA", "x", "y"], exItem ["p", "a_test.go", "TestA"]) ∧
    (∀ e ∈ exEvents.drop 5, (eventPath exConfig e).1 ≠ exItem ["p", "a_test.go", "TestA", "x", "y"] ∧
      ¬ exItem ["p", "a_test.go", "TestA", "x", "y"] <+: (eventPath exConfig e).1) := by
  decide +kernel

/-- What is shown in the end. -/
example : let evs := session exConfig exItems (exItem []) (exEvents.map .json) (some "exit status 1".toList) id
    shown evs (exItem ["p", "a_test.go", "TestA", "x", "y"]) = some .fail ∧
    shown evs (exItem ["p", "a_test.go", "TestA"]) = some .fail ∧
    shown evs (exItem ["p", "b_test.go", "TestB"]) = some .skip ∧
    shown evs (exItem ["p"]) = some .fail ∧ shown evs (exItem []) = some .fail ∧
    output evs (exItem ["p", "a_test.go", "TestA"]) = "bad".toList ∧
    output evs (exItem ["p", "a_test.go", "TestA", "x", "y"]) = "bad".toList ∧
    output evs (exItem []) = "exit status 1".toList ∧
    .merge (exItem ["p", "a_test.go", "TestA"]) [("x".toList, "TestA/x".toList), ("y".toList, "TestA/x/y".toList)] ∈ evs := by
  decide +kernel

/-- Files of failed tests are shown as successful: only the package and the tests get a result. -/
theorem C65_counterexample_file :
    let evs := session exConfig exItems (exItem []) (exEvents.map .json) (some "exit status 1".toList) id
    shown evs (exItem ["p", "a_test.go", "TestA"]) = some .fail ∧ shown evs (exItem ["p", "a_test.go"]) = some .success := by
  decide +kernel

/-- The package cannot be built, no test is run: all its tests are shown as successful. -/
theorem C65_counterexample_build :
    let lines := [Line.failed "m/p".toList "FAIL m/p [build failed]".toList]
    let evs := session exConfig exItems (exItem []) lines (some "exit status 1".toList) id
    shown evs (exItem ["p", "a_test.go", "TestA"]) = some .success ∧ shown evs (exItem ["p", "b_test.go", "TestB"]) = some .success := by
  decide +kernel

/-- A test panics, and the tests after it are not run: they are shown as successful. -/
theorem C65_counterexample_panic :
    let lines := [exEvent .run "TestA", exEvent .other "TestA" "panic: x", exEvent .fail "TestA", exEvent .fail ""].map Line.json
    let evs := session exConfig exItems (exItem []) lines (some "exit status 1".toList) id
    shown evs (exItem ["p", "b_test.go", "TestB"]) = some .success := by
  decide +kernel

/-- A method named like a test in an earlier file: the result is shown there, and the test that failed is shown as
    successful. -/
theorem C65_counterexample_method :
    let c := { exConfig with resolve := resolveIn fun _ =>
      [(["p".toList, "a_test.go".toList], some ["TestA".toList, "TestB".toList]),
        (["p".toList, "b_test.go".toList], some ["TestB".toList])] }
    let lines := [exEvent .run "TestB", exEvent .fail "TestB", exEvent .fail ""].map Line.json
    let evs := session c exItems (exItem []) lines (some "exit status 1".toList) id
    shown evs (exItem ["p", "b_test.go", "TestB"]) = some .success := by
  decide +kernel

/-- A file of the package that is not built cannot be parsed: no result of the package's tests gets to its item, and a test
    that failed is shown as successful. -/
theorem C65_counterexample_unparsed :
    let c := { exConfig with resolve := resolveIn fun _ =>
      [(["p".toList, "a_test.go".toList], some ["TestA".toList]), (["p".toList, "z_test.go".toList], none)] }
    let lines := [exEvent .run "TestA", exEvent .fail "TestA", exEvent .fail ""].map Line.json
    let evs := session c exItems (exItem []) lines (some "exit status 1".toList) id
    shown evs (exItem ["p", "a_test.go", "TestA"]) = some .success := by
  decide +kernel

/-- A line that is neither JSON nor begins with `FAIL`: the test explorer crashes, and the run has no end. -/
theorem C65_counterexample_crash (c : Config) (items : List Path) (root : Path) (t : Str) (lines : List Line) (err : Option Str)
    (order : List (Path × Status) → List (Path × Status)) : session c items root (.text t :: lines) err order = [.testStart] := by
  unfold session
  have : ∀ (lines : List Line) (s : State), lines.foldl (fun o l => step c o root l) (.crashed s) = .crashed s := by
    intro lines
    induction lines with
    | nil => exact fun _ => rfl
    | cons l lines ih => exact fun s => ih s
  show (match lines.foldl (fun o l => step c o root l) (.crashed (begin items)) with | .reading s => _ | .crashed s => _ | .stopped s => _ | .blocked s => _) = _
  rw [this]
  rfl

/-- A line that begins with `{` and is no JSON, and more output: the run has no end. -/
theorem C65_counterexample_json :
    let evs := session exConfig exItems (exItem []) [.bad "m".toList, .json (exEvent .fail "TestA")] (some "e".toList) id
    .testEnd ∉ evs ∧ shown evs (exItem ["p", "a_test.go", "TestA"]) = none := by
  decide +kernel

end Verif.Cmd.Status
