/-
C95: lemmas.
-/
import Verif.Runtime.TestTraceSpec
import Verif.Support.GetGoZip

namespace Verif.Runtime.TestTrace
open Spec
open Verif.Cmd.GoMod (Path isAbs clean cleanStep abs dir abs_clean abs_dir fold_ordinary fold_true)
open Verif.Cmd.GoMod.Spec (Ordinary)
open Verif.Cmd.Vendor (split)
open Verif.Support.GetGo (FS Node mkdirAll mkdir_root isAbs_append)

theorem upd_same {α : Type} (f : Nat → α) (k : Nat) (v : α) : upd f k v k = v := if_pos rfl
theorem upd_other {α : Type} (f : Nat → α) {k x : Nat} (v : α) (h : x ≠ k) : upd f k v x = f x := if_neg h

theorem run_append (cf : Conf) (s : State) (a b : List Event) : s.run cf (a ++ b) = (s.run cf a).run cf b := List.foldl_append
theorem run_cons (cf : Conf) (s : State) (e : Event) (b : List Event) : s.run cf (e :: b) = (s.step cf e).run cf b := rfl
theorem run_snoc (cf : Conf) (s : State) (e : Event) (b : List Event) : s.run cf (b ++ [e]) = (s.run cf b).step cf e := by
  rw [run_append]; rfl

/-! ### What saving does not change -/

theorem saveTest_frame (cf : Conf) (s : State) (n : Str) (tr : List (Bool × Nat)) :
    ∃ fs errs, s.saveTest cf n tr = { s with fs := fs, errs := errs } := by
  unfold State.saveTest
  dsimp only
  split
  · exact ⟨_, _, rfl⟩
  · exact ⟨_, _, rfl⟩

theorem saveTrace_frame (cf : Conf) (s : State) (k : Cfg) (tr : List (Bool × Nat)) :
    ∃ fs errs fin, s.saveTrace cf k tr = { s with fs := fs, errs := errs, finished := fin } := by
  unfold State.saveTrace
  dsimp only
  by_cases h : k.onFinish = true
  · rw [if_pos h]
    split
    · exact ⟨_, _, _, rfl⟩
    · split
      · exact ⟨_, _, _, rfl⟩
      · exact ⟨_, _, _, rfl⟩
  · rw [if_neg h]
    split
    · exact ⟨_, _, _, rfl⟩
    · split
      · exact ⟨_, _, _, rfl⟩
      · exact ⟨_, _, _, rfl⟩

/-- The end of a call, except for the files. -/
theorem exit_cases (cf : Conf) (s : State) (g : Gid) :
    (s.frames g = [] ∧ s.exit cf g = s) ∨
    ∃ f rest, s.frames g = f :: rest ∧ ∃ att log fs errs fin,
      s.exit cf g = { s with frames := upd s.frames g rest, att := att, log := log, fs := fs, errs := errs, finished := fin } ∧
      (att = s.att ∨ (att = upd s.att g none ∧ f.starts ≠ none)) ∧
      (match f.sid with | none => log = s.log | some i => log = upd s.log i (s.log i ++ [(false, f.fn)])) ∧
      (f.starts = none ∨ f.sid = none → att = s.att ∧ fs = s.fs) := by
  cases hf : s.frames g with
  | nil => left; refine ⟨rfl, ?_⟩; unfold State.exit; rw [hf]
  | cons f rest =>
    right
    refine ⟨f, rest, rfl, ?_⟩
    unfold State.exit
    rw [hf]
    dsimp only
    cases hs : f.sid with
    | none => exact ⟨s.att, s.log, s.fs, s.errs, s.finished, rfl, .inl rfl, rfl, fun _ => ⟨rfl, rfl⟩⟩
    | some i =>
      cases hst : f.starts with
      | none => exact ⟨s.att, _, s.fs, s.errs, s.finished, rfl, .inl rfl, rfl, fun _ => ⟨rfl, rfl⟩⟩
      | some st =>
        have hno : ∀ {P : Prop}, (some st = none ∨ some i = none → P) := by rintro _ (h | h) <;> cases h
        cases st with
        | test n =>
          dsimp only
          obtain ⟨fs, errs, he⟩ := saveTest_frame cf { s with frames := upd s.frames g rest, log := upd s.log i (s.log i ++ [(false, f.fn)]) } n
            (upd s.log i (s.log i ++ [(false, f.fn)]) i)
          rw [he]
          exact ⟨upd s.att g none, _, fs, errs, s.finished, rfl, .inr ⟨rfl, by simp⟩, rfl, hno⟩
        | trace =>
          dsimp only
          obtain ⟨fs, errs, fin, he⟩ := saveTrace_frame cf { s with frames := upd s.frames g rest, log := upd s.log i (s.log i ++ [(false, f.fn)]) } (s.cfg i)
            (upd s.log i (s.log i ++ [(false, f.fn)]) i)
          rw [he]
          exact ⟨upd s.att g none, _, fs, errs, fin, rfl, .inr ⟨rfl, by simp⟩, rfl, hno⟩

/-! ### Who may touch what -/

/-- The goroutine that acts. -/
def actor : Event → Option Gid
  | .spawn p _ => some p
  | .register g => some g
  | .enter g _ => some g
  | .exit g => some g
  | _ => none

def child : Event → Option Gid
  | .spawn _ c => some c
  | _ => none

/-- A call changes the state of its own goroutine only. -/
theorem enter_other (cf : Conf) (s : State) {g g' : Gid} (c : Call) (h : g ≠ g') :
    (s.enter cf g' c).att g = s.att g ∧ (s.enter cf g' c).frames g = s.frames g := by
  have hp : ∀ (s : State) (f : Frame), (s.push g' f).att g = s.att g ∧ (s.push g' f).frames g = s.frames g := fun s f => ⟨rfl, upd_other _ _ h⟩
  have hb : ∀ (s : State) (i : Nat) (b : Bool) (st : Start), (s.begin g' i b c st).att g = s.att g ∧ (s.begin g' i b c st).frames g = s.frames g := by
    intro s i b st
    unfold State.begin
    cases st with
    | test n =>
      dsimp only
      split
      · exact hp _ _
      · exact hp _ _
    | trace =>
      dsimp only
      split
      · cases c.trace with
        | none => exact ⟨rfl, rfl⟩
        | some k =>
          dsimp only
          split
          · cases b
            · exact hp _ _
            · refine ⟨?_, (hp _ _).2⟩
              exact upd_other _ _ h
          · exact hp _ _
      · exact hp _ _
  unfold State.enter
  cases ha : s.att g' with
  | none =>
    dsimp only
    cases begins cf c true with
    | none => exact hp _ _
    | some st =>
      dsimp only
      rw [(hb _ _ _ _).1, (hb _ _ _ _).2]
      exact ⟨upd_other _ _ h, rfl⟩
  | some i =>
    dsimp only
    split
    · split
      · exact hp _ _
      · exact hp _ _
    · cases begins cf c false with
      | none => exact hp _ _
      | some st => dsimp only; rw [(hb _ _ _ _).1, (hb _ _ _ _).2]; exact ⟨rfl, rfl⟩

theorem step_other (cf : Conf) (s : State) {g : Gid} (e : Event) (h1 : actor e ≠ some g) (h2 : child e ≠ some g) :
    (s.step cf e).att g = s.att g ∧ (s.step cf e).frames g = s.frames g := by
  cases e with
  | spawn p c =>
    have hc : g ≠ c := fun e => h2 (by rw [e]; rfl)
    show (s.spawn cf p c).att g = _ ∧ (s.spawn cf p c).frames g = _
    unfold State.spawn
    split
    · exact ⟨rfl, rfl⟩
    · split
      · exact ⟨rfl, rfl⟩
      · exact ⟨upd_other _ _ hc, rfl⟩
  | register g' =>
    have hc : g ≠ g' := fun e => h1 (by rw [e]; rfl)
    show (s.register g').att g = _ ∧ (s.register g').frames g = _
    unfold State.register
    split
    · exact ⟨rfl, rfl⟩
    · exact ⟨upd_other _ _ hc, rfl⟩
  | enter g' c => exact enter_other cf s c fun e => h1 (by rw [e]; rfl)
  | exit g' =>
    have hc : g ≠ g' := fun e => h1 (by rw [e]; rfl)
    show (s.exit cf g').att g = _ ∧ (s.exit cf g').frames g = _
    rcases exit_cases cf s g' with ⟨_, he⟩ | ⟨f, rest, _, att, log, fs, errs, fin, he, ha, _, _⟩
    · rw [he]; exact ⟨rfl, rfl⟩
    · rw [he]
      refine ⟨?_, upd_other _ _ hc⟩
      rcases ha with rfl | ⟨rfl, _⟩
      · rfl
      · exact upd_other _ _ hc
  | chdir d => exact ⟨rfl, rfl⟩
  | disk fs => exact ⟨rfl, rfl⟩

/-- Starting another goroutine changes nothing for the one that does. -/
theorem spawn_self (cf : Conf) (s : State) {g c : Gid} (h : g ≠ c) : (s.spawn cf g c).att g = s.att g ∧ (s.spawn cf g c).frames g = s.frames g := by
  unfold State.spawn
  split
  · exact ⟨rfl, rfl⟩
  · split
    · exact ⟨rfl, rfl⟩
    · exact ⟨upd_other _ _ h, rfl⟩

/-- A goroutine that has done nothing has no stack. -/
theorem idle_none (cf : Conf) (cwd : List Str) (fs : FS) (g : Gid) : ∀ (h : List Event), Idle g h →
    ((State.init cwd fs).run cf h).att g = none ∧ ((State.init cwd fs).run cf h).frames g = [] := by
  intro h
  generalize hs : State.init cwd fs = s
  have h0 : s.att g = none ∧ s.frames g = [] := by rw [← hs]; exact ⟨rfl, rfl⟩
  clear hs
  induction h generalizing s with
  | nil => intro _; exact h0
  | cons e h ih =>
    intro hi
    have he := hi e (by simp)
    rw [run_cons]
    apply ih
    · have := step_other cf s (g := g) e
      rw [(this ?_ ?_).1, (this ?_ ?_).2]
      · exact h0
      all_goals cases e <;> simp_all [actor, child]
    · exact fun x hx => hi x (by simp [hx])

theorem begins_none {cf : Conf} {c : Call} {b : Bool} (h1 : c.trace = none) (h2 : ∀ n, ¬ IsTest c n) : begins cf c b = none := by
  unfold begins
  rw [h1]
  simp only [Option.isSome_none, Bool.false_eq_true, if_false]
  split
  · rename_i h
    simp at h
    split
    · rename_i n ha
      split
      · rename_i hr
        exact absurd ⟨h1, h.1.2, ha, h.2, hr⟩ (h2 n)
      · rfl
    · rfl
  · rfl

theorem begins_test {cf : Conf} {c : Call} {n : Str} (hc : cf.collect = true) (h : IsTest c n) : begins cf c true = some (.test n) := by
  obtain ⟨h1, h2, h3, h4, h5⟩ := h
  unfold begins
  rw [h1, h2, h3, h4, h5, hc]
  rfl

/-- A goroutine that is untouched has no stack. -/
theorem untouched_none (cf : Conf) (cwd : List Str) (fs : FS) : ∀ (r : List Event) (g : Gid), Born r.reverse → Untouched cf.raceSafe r g →
    ((State.init cwd fs).run cf r.reverse).att g = none := by
  intro r
  induction r with
  | nil => intro g _ _; rfl
  | cons e r ih =>
    intro g hb hu
    rw [List.reverse_cons] at hb ⊢
    have hb' : Born r.reverse := fun a p c b he => hb a p c (b ++ [e]) (by rw [he]; simp)
    rw [run_snoc]
    generalize hs : (State.init cwd fs).run cf r.reverse = s at ih ⊢
    cases e with
    | spawn p c =>
      rw [Untouched] at hu
      have hi := hb r.reverse p c [] rfl
      show (s.spawn cf p c).att g = none
      by_cases hc : c = g
      · rw [if_pos hc] at hu
        subst hc
        have hn := (idle_none cf cwd fs c _ hi.2).1
        rw [hs] at hn
        unfold State.spawn
        rcases hu with hu | hu
        · rw [if_pos hu]; exact hn
        · have := ih p hb' hu
          rw [this]
          split <;> exact hn
      · rw [if_neg hc] at hu
        have := ih g hb' hu
        unfold State.spawn
        split
        · exact this
        · split
          · exact this
          · show upd _ _ _ _ = _
            rw [upd_other _ _ (Ne.symm hc)]; exact this
    | register g' =>
      rw [Untouched] at hu
      rw [(step_other cf s (.register g') (g := g) (by simp [actor, hu.1]) (by simp [child])).1]
      exact ih g hb' hu.2
    | enter g' c =>
      rw [Untouched] at hu
      have h0 := ih g hb' hu.2
      by_cases hg : g' = g
      · subst hg
        obtain ⟨h1, h2⟩ := hu.1 rfl
        show (s.enter cf g' c).att g' = none
        unfold State.enter
        rw [h0]
        dsimp only
        rw [begins_none h1 h2]
        exact h0
      · rw [(step_other cf s (.enter g' c) (g := g) (by simp [actor, hg]) (by simp [child])).1]
        exact h0
    | exit g' =>
      have h0 := ih g hb' hu
      show (s.exit cf g').att g = none
      rcases exit_cases cf s g' with ⟨_, he⟩ | ⟨f, rest, _, att, log, fs, errs, fin, he, ha, _, _⟩
      · rw [he]; exact h0
      · rw [he]
        rcases ha with rfl | ⟨rfl, _⟩
        · exact h0
        · show upd _ _ _ _ = _
          by_cases hg : g = g'
          · rw [hg]; exact upd_same _ _ _
          · rw [upd_other _ _ hg]; exact h0
    | chdir d => exact ih g hb' hu
    | disk fs => exact ih g hb' hu

/-! ### A stack of its own -/

/-- Only goroutine `g` has to do with stack `i`. -/
def Own (s : State) (i : Nat) (g : Gid) : Prop := i < s.next ∧ ∀ g', g' ≠ g → s.att g' ≠ some i ∧ ∀ f ∈ s.frames g', f.sid ≠ some i

/-- All stacks have numbers below `next`. -/
def Below (s : State) : Prop := ∀ g, (∀ i, s.att g = some i → i < s.next) ∧ ∀ f ∈ s.frames g, ∀ i, f.sid = some i → i < s.next

/-- What is known of stack `i`. -/
def Same (s s' : State) (i : Nat) : Prop := s'.started i = s.started i ∧ s'.filter i = s.filter i ∧ s'.cfg i = s.cfg i ∧ s'.log i = s.log i

theorem Same.rfl' {s : State} {i : Nat} : Same s s i := ⟨rfl, rfl, rfl, rfl⟩

theorem push_frames (s : State) (g : Gid) (f : Frame) : (s.push g f).frames g = f :: s.frames g := upd_same _ _ _

/-- The three ways a call ends up: not recorded, recorded, and the fields of other stacks. -/
theorem begin_spec (s : State) (g : Gid) (j : Nat) (b : Bool) (c : Call) (st : Start) :
    (s.begin g j b c st).next = s.next ∧ (∀ i, i ≠ j → Same s (s.begin g j b c st) i) ∧
    ((s.begin g j b c st).att g = s.att g ∨ (s.begin g j b c st).att g = none) ∧
    ∀ f ∈ (s.begin g j b c st).frames g, f ∈ s.frames g ∨ f.sid = none ∨ f.sid = some j := by
  have hp : ∀ (s : State) (f : Frame), (f.sid = none ∨ f.sid = some j) → ∀ f' ∈ (s.push g f).frames g, f' ∈ s.frames g ∨ f'.sid = none ∨ f'.sid = some j := by
    intro s f h f' hf
    rw [push_frames] at hf
    rcases List.mem_cons.1 hf with rfl | hf
    · exact .inr h
    · exact .inl hf
  unfold State.begin
  cases st with
  | test n =>
    dsimp only
    split
    · refine ⟨rfl, ?_, .inl rfl, hp _ _ (.inr rfl)⟩
      intro i hi
      exact ⟨rfl, rfl, rfl, upd_other _ _ hi⟩
    · exact ⟨rfl, fun _ _ => Same.rfl', .inl rfl, hp _ _ (.inl rfl)⟩
  | trace =>
    dsimp only
    split
    · cases c.trace with
      | none => exact ⟨rfl, fun _ _ => Same.rfl', .inl rfl, fun f hf => .inl hf⟩
      | some k =>
        dsimp only
        split
        · cases b
          · exact ⟨rfl, fun i hi => ⟨rfl, upd_other _ _ hi, rfl, rfl⟩, .inl rfl, hp _ _ (.inl rfl)⟩
          · exact ⟨rfl, fun i hi => ⟨rfl, upd_other _ _ hi, rfl, rfl⟩, .inr (upd_same _ _ _), hp _ _ (.inl rfl)⟩
        · exact ⟨rfl, fun i hi => ⟨rfl, upd_other _ _ hi, upd_other _ _ hi, upd_other _ _ hi⟩, .inl rfl, hp _ _ (.inr rfl)⟩
    · exact ⟨rfl, fun _ _ => Same.rfl', .inl rfl, hp _ _ (.inl rfl)⟩

/-- A call: which stacks it may touch. -/
theorem enter_spec (cf : Conf) (s : State) (g : Gid) (c : Call) :
    s.next ≤ (s.enter cf g c).next ∧ (∀ i, i < s.next → s.att g ≠ some i → Same s (s.enter cf g c) i) ∧
    (∀ i, (s.enter cf g c).att g = some i → s.att g = some i ∨ i = s.next ∧ (s.enter cf g c).next = s.next + 1) ∧
    ∀ f ∈ (s.enter cf g c).frames g, f ∈ s.frames g ∨ f.sid = none ∨ (∃ j, f.sid = some j ∧ (s.att g = some j ∨ j = s.next ∧ (s.enter cf g c).next = s.next + 1)) := by
  have hp : ∀ (f : Frame), f.sid = none → ∀ f' ∈ (s.push g f).frames g, f' ∈ s.frames g ∨ f'.sid = none := by
    intro f h f' hf
    rw [push_frames] at hf
    rcases List.mem_cons.1 hf with rfl | hf
    · exact .inr h
    · exact .inl hf
  have hn : ∀ (f : Frame), f.sid = none → ∀ f' ∈ (s.push g f).frames g, f' ∈ s.frames g ∨ f'.sid = none ∨
      (∃ j, f'.sid = some j ∧ (s.att g = some j ∨ j = s.next ∧ (s.push g f).next = s.next + 1)) := by
    intro f h f' hf
    rcases hp f h f' hf with h | h
    · exact .inl h
    · exact .inr (.inl h)
  unfold State.enter
  cases ha : s.att g with
  | none =>
    dsimp only
    cases begins cf c true with
    | none =>
      refine ⟨Nat.le_refl _, fun _ _ _ => Same.rfl', fun i hi => ?_, ?_⟩
      · have : s.att g = some i := hi
        rw [ha] at this; cases this
      · have := hn ⟨c.fn, none, none⟩ rfl
        rw [ha] at this; exact this
    | some st =>
      dsimp only
      generalize hs1 : State.mk _ _ _ _ _ _ _ _ _ _ _ = s1
      have hnx : s1.next = s.next + 1 := by rw [← hs1]
      have hatt : s1.att g = some s.next := by rw [← hs1]; exact upd_same _ _ _
      obtain ⟨b1, b2, b3, b4⟩ := begin_spec s1 g s.next true c st
      refine ⟨by rw [b1, hnx]; exact Nat.le_succ _, ?_, ?_, ?_⟩
      · intro i hi _
        have hne : i ≠ s.next := Nat.ne_of_lt hi
        obtain ⟨c1, c2, c3, c4⟩ := b2 i hne
        refine ⟨c1.trans ?_, c2.trans ?_, c3.trans ?_, c4.trans ?_⟩ <;> rw [← hs1]
        · exact upd_other _ _ hne
        · exact upd_other _ _ hne
        · exact upd_other _ _ hne
      · intro i hi
        rcases b3 with h | h
        · rw [h, hatt] at hi
          exact .inr ⟨(Option.some.inj hi).symm, by rw [b1, hnx]⟩
        · rw [h] at hi; cases hi
      · intro f hf
        rcases b4 f hf with h | h | h
        · rw [← hs1] at h; exact .inl h
        · exact .inr (.inl h)
        · exact .inr (.inr ⟨_, h, .inr ⟨rfl, by rw [b1, hnx]⟩⟩)
  | some j =>
    dsimp only
    split
    · split
      · refine ⟨Nat.le_refl _, ?_, fun i hi => .inl ?_, ?_⟩
        · intro i _ hi
          exact ⟨rfl, rfl, rfl, upd_other _ _ fun e => hi (by rw [e])⟩
        · rw [← ha]; exact hi
        · intro f hf
          rw [State.record, push_frames] at hf
          rcases List.mem_cons.1 hf with rfl | hf
          · exact .inr (.inr ⟨j, rfl, .inl rfl⟩)
          · exact .inl hf
      · refine ⟨Nat.le_refl _, fun _ _ _ => Same.rfl', fun i hi => .inl ?_, ?_⟩
        · rw [← ha]; exact hi
        · have := hn ⟨c.fn, none, none⟩ rfl
          rw [ha] at this; exact this
    · cases begins cf c false with
      | none =>
        refine ⟨Nat.le_refl _, fun _ _ _ => Same.rfl', fun i hi => .inl ?_, ?_⟩
        · rw [← ha]; exact hi
        · have := hn ⟨c.fn, none, none⟩ rfl
          rw [ha] at this; exact this
      | some st =>
        dsimp only
        generalize hs1 : State.mk _ _ _ _ _ _ _ _ _ _ _ = s1
        have hnx : s1.next = s.next := by rw [← hs1]
        have hatt : s1.att g = some j := by rw [← hs1]; exact ha
        obtain ⟨b1, b2, b3, b4⟩ := begin_spec s1 g j false c st
        refine ⟨by rw [b1, hnx]; exact Nat.le_refl _, ?_, ?_, ?_⟩
        · intro i _ hi
          have hne : i ≠ j := fun e => hi (by rw [e])
          obtain ⟨c1, c2, c3, c4⟩ := b2 i hne
          refine ⟨c1.trans ?_, c2.trans ?_, c3.trans ?_, c4.trans ?_⟩ <;> rw [← hs1]
          exact upd_other _ _ hne
        · intro i hi
          rcases b3 with h | h
          · rw [h, hatt] at hi; exact .inl hi
          · rw [h] at hi; cases hi
        · intro f hf
          rcases b4 f hf with h | h | h
          · rw [← hs1] at h; exact .inl h
          · exact .inr (.inl h)
          · exact .inr (.inr ⟨_, h, .inl rfl⟩)

theorem register_cases (s : State) (g : Gid) : (s.att g ≠ none ∧ s.register g = s) ∨
    (s.att g = none ∧ s.register g = { s with att := upd s.att g (some s.next), next := s.next + 1, started := upd s.started s.next false, filter := upd s.filter s.next none, log := upd s.log s.next [] }) := by
  unfold State.register
  cases h : s.att g with
  | none => exact .inr ⟨rfl, rfl⟩
  | some i => exact .inl ⟨by simp, rfl⟩

theorem spawn_cases (cf : Conf) (s : State) (p c : Gid) : s.spawn cf p c = s ∨
    ∃ i, s.att p = some i ∧ s.spawn cf p c = { s with att := upd s.att c (some s.next), next := s.next + 1, started := upd s.started s.next (s.started i), filter := upd s.filter s.next (if s.started i then s.filter i else none), log := upd s.log s.next [] } := by
  unfold State.spawn
  split
  · exact .inl rfl
  · split
    · exact .inl rfl
    · rename_i i h; exact .inr ⟨i, h, rfl⟩

theorem exit_att (cf : Conf) (s : State) (g : Gid) {i : Nat} (h : (s.exit cf g).att g = some i) : s.att g = some i := by
  rcases exit_cases cf s g with ⟨_, he⟩ | ⟨f, rest, _, att, log, fs, errs, fin, he, ha, _, _⟩
  · rw [he] at h; exact h
  · rw [he] at h
    rcases ha with rfl | ⟨rfl, _⟩
    · exact h
    · exact absurd ((upd_same s.att g none).symm.trans h) (by simp)

theorem exit_frames (cf : Conf) (s : State) (g : Gid) {f : Frame} (h : f ∈ (s.exit cf g).frames g) : f ∈ s.frames g := by
  rcases exit_cases cf s g with ⟨_, he⟩ | ⟨f', rest, hf, att, log, fs, errs, fin, he, _, _, _⟩
  · rw [he] at h; exact h
  · rw [he] at h
    have h' : f ∈ upd s.frames g rest g := h
    rw [upd_same] at h'
    rw [hf]; exact List.mem_cons_of_mem _ h'

theorem next_step (cf : Conf) (s : State) (e : Event) : s.next ≤ (s.step cf e).next := by
  cases e with
  | spawn p c =>
    show _ ≤ (s.spawn cf p c).next
    rcases spawn_cases cf s p c with h | ⟨i, _, h⟩ <;> rw [h]
    · exact Nat.le_refl _
    · exact Nat.le_succ _
  | register g =>
    show _ ≤ (s.register g).next
    rcases register_cases s g with ⟨_, h⟩ | ⟨_, h⟩ <;> rw [h]
    · exact Nat.le_refl _
    · exact Nat.le_succ _
  | enter g c => exact (enter_spec cf s g c).1
  | exit g =>
    show _ ≤ (s.exit cf g).next
    rcases exit_cases cf s g with ⟨_, he⟩ | ⟨f, rest, _, att, log, fs, errs, fin, he, _, _, _⟩ <;> rw [he]
    · exact Nat.le_refl _
    · exact Nat.le_refl _
  | chdir d => exact Nat.le_refl _
  | disk fs => exact Nat.le_refl _

/-- What is new for a goroutine after a step. -/
theorem refs_step (cf : Conf) (s : State) (e : Event) (g : Gid) :
    (∀ i, (s.step cf e).att g = some i → s.att g = some i ∨ i = s.next ∧ s.next < (s.step cf e).next) ∧
    ∀ f ∈ (s.step cf e).frames g, ∀ i, f.sid = some i → f ∈ s.frames g ∨ s.att g = some i ∨ i = s.next ∧ s.next < (s.step cf e).next := by
  cases e with
  | spawn p c =>
    show (∀ i, (s.spawn cf p c).att g = some i → s.att g = some i ∨ i = s.next ∧ s.next < (s.spawn cf p c).next) ∧
      ∀ f ∈ (s.spawn cf p c).frames g, ∀ i, f.sid = some i → f ∈ s.frames g ∨ s.att g = some i ∨ i = s.next ∧ s.next < (s.spawn cf p c).next
    rcases spawn_cases cf s p c with h | ⟨j, _, h⟩ <;> rw [h]
    · exact ⟨fun i hi => .inl hi, fun f hf i _ => .inl hf⟩
    · refine ⟨fun i hi => ?_, fun f hf i _ => .inl hf⟩
      by_cases hg : g = c
      · subst hg
        exact .inr ⟨(Option.some.inj ((upd_same s.att g _).symm.trans hi)).symm, Nat.lt_succ_self _⟩
      · exact .inl ((upd_other s.att _ hg).symm.trans hi)
  | register g' =>
    show (∀ i, (s.register g').att g = some i → s.att g = some i ∨ i = s.next ∧ s.next < (s.register g').next) ∧
      ∀ f ∈ (s.register g').frames g, ∀ i, f.sid = some i → f ∈ s.frames g ∨ s.att g = some i ∨ i = s.next ∧ s.next < (s.register g').next
    rcases register_cases s g' with ⟨_, h⟩ | ⟨_, h⟩ <;> rw [h]
    · exact ⟨fun i hi => .inl hi, fun f hf i _ => .inl hf⟩
    · refine ⟨fun i hi => ?_, fun f hf i _ => .inl hf⟩
      by_cases hg : g = g'
      · subst hg
        exact .inr ⟨(Option.some.inj ((upd_same s.att g _).symm.trans hi)).symm, Nat.lt_succ_self _⟩
      · exact .inl ((upd_other s.att _ hg).symm.trans hi)
  | enter g' c =>
    by_cases hg : g = g'
    · subst hg
      obtain ⟨_, _, h3, h4⟩ := enter_spec cf s g c
      refine ⟨fun i hi => ?_, fun f hf i hi => ?_⟩
      · rcases h3 i hi with h | ⟨h, h'⟩
        · exact .inl h
        · exact .inr ⟨h, h' ▸ Nat.lt_succ_self _⟩
      · rcases h4 f hf with h | h | ⟨j, h, h'⟩
        · exact .inl h
        · rw [h] at hi; cases hi
        · rw [h] at hi; cases hi
          rcases h' with h' | ⟨h', h''⟩
          · exact .inr (.inl h')
          · exact .inr (.inr ⟨h', h'' ▸ Nat.lt_succ_self _⟩)
    · have := enter_other cf s c hg
      exact ⟨fun i hi => .inl (this.1 ▸ hi), fun f hf i _ => .inl (this.2 ▸ hf)⟩
  | exit g' =>
    by_cases hg : g = g'
    · subst hg
      exact ⟨fun i hi => .inl (exit_att cf s g hi), fun f hf i _ => .inl (exit_frames cf s g hf)⟩
    · have := step_other cf s (.exit g') (g := g) (by simp [actor, Ne.symm hg]) (by simp [child])
      exact ⟨fun i hi => .inl (this.1 ▸ hi), fun f hf i _ => .inl (this.2 ▸ hf)⟩
  | chdir d => exact ⟨fun i hi => .inl hi, fun f hf i _ => .inl hf⟩
  | disk fs => exact ⟨fun i hi => .inl hi, fun f hf i _ => .inl hf⟩

theorem below_step {cf : Conf} {s : State} (h : Below s) (e : Event) : Below (s.step cf e) := by
  intro g
  have hn := next_step cf s e
  obtain ⟨h1, h2⟩ := refs_step cf s e g
  constructor
  · intro i hi
    rcases h1 i hi with h' | ⟨rfl, h'⟩
    · exact Nat.lt_of_lt_of_le ((h g).1 i h') hn
    · exact h'
  · intro f hf i hi
    rcases h2 f hf i hi with h' | h' | ⟨rfl, h'⟩
    · exact Nat.lt_of_lt_of_le ((h g).2 f h' i hi) hn
    · exact Nat.lt_of_lt_of_le ((h g).1 i h') hn
    · exact h'

theorem below_run {cf : Conf} (h : List Event) : ∀ {s : State}, Below s → Below (s.run cf h) := by
  induction h with
  | nil => intro s hs; exact hs
  | cons e h ih => intro s hs; exact ih (below_step hs e)

theorem below_init (cwd : List Str) (fs : FS) : Below (State.init cwd fs) := fun g => ⟨fun i h => (by cases h), fun f h => (by cases h)⟩

theorem own_step {cf : Conf} {s : State} {i : Nat} {g : Gid} (h : Own s i g) (e : Event) : Own (s.step cf e) i g := by
  refine ⟨Nat.lt_of_lt_of_le h.1 (next_step cf s e), fun g' hg => ?_⟩
  obtain ⟨h1, h2⟩ := refs_step cf s e g'
  obtain ⟨a, b⟩ := h.2 g' hg
  constructor
  · intro hi
    rcases h1 i hi with h' | ⟨h', _⟩
    · exact a h'
    · exact absurd h' (Nat.ne_of_lt h.1)
  · intro f hf hi
    rcases h2 f hf i hi with h' | h' | ⟨h', _⟩
    · exact b f h' hi
    · exact a h'
    · exact absurd h' (Nat.ne_of_lt h.1)

/-- Other goroutines do not touch the stack. -/
theorem keep_step {cf : Conf} {s : State} {i : Nat} {g : Gid} (h : Own s i g) (e : Event) (h1 : ∀ g' c, e = .enter g' c → g' ≠ g) (h2 : ∀ g', e = .exit g' → g' ≠ g) :
    Same s (s.step cf e) i := by
  have hne : i ≠ s.next := Nat.ne_of_lt h.1
  cases e with
  | spawn p c =>
    show Same s (s.spawn cf p c) i
    rcases spawn_cases cf s p c with h | ⟨j, _, h⟩ <;> rw [h]
    · exact Same.rfl'
    · exact ⟨upd_other _ _ hne, upd_other _ _ hne, rfl, upd_other _ _ hne⟩
  | register g' =>
    show Same s (s.register g') i
    rcases register_cases s g' with ⟨_, h⟩ | ⟨_, h⟩ <;> rw [h]
    · exact Same.rfl'
    · exact ⟨upd_other _ _ hne, upd_other _ _ hne, rfl, upd_other _ _ hne⟩
  | enter g' c => exact (enter_spec cf s g' c).2.1 i h.1 (h.2 g' (h1 g' c rfl)).1
  | exit g' =>
    show Same s (s.exit cf g') i
    rcases exit_cases cf s g' with ⟨_, he⟩ | ⟨f, rest, hf, att, log, fs, errs, fin, he, _, hl, _⟩
    · rw [he]; exact Same.rfl'
    · rw [he]
      refine ⟨rfl, rfl, rfl, ?_⟩
      show log i = s.log i
      have hsid : f.sid ≠ some i := (h.2 g' (h2 g' rfl)).2 f (by rw [hf]; exact List.mem_cons_self)
      cases hs : f.sid with
      | none => rw [hs] at hl; rw [hl]
      | some j =>
        rw [hs] at hl
        have hj : i ≠ j := fun e => hsid (by rw [hs, e])
        rw [hl]; exact upd_other _ _ hj
  | chdir d => exact Same.rfl'
  | disk fs => exact Same.rfl'

/-! ### From the beginning of a trace to its end -/

/-- The frame of a call under a trace. -/
def frameOf (F : Option (Nat → Bool)) (i : Nat) (fn : Nat) : Frame := if allowed F fn then ⟨fn, some i, none⟩ else ⟨fn, none, none⟩

/-- Goroutine `g` is being traced by stack `i`, with the calls `o` open. -/
structure Win (s : State) (g : Gid) (i : Nat) (F : Option (Nat → Bool)) (K : Cfg) (o : List Nat) (L : List (Bool × Nat)) (old : List Frame) : Prop where
  att : s.att g = some i
  started : s.started i = true
  filter : s.filter i = F
  cfg : s.cfg i = K
  frames : s.frames g = o.map (frameOf F i) ++ old
  log : s.log i = L
  own : Own s i g

def keptBy (F : Option (Nat → Bool)) (r : List (Bool × Nat)) : List (Bool × Nat) := r.filter fun x => allowed F x.2

theorem win_run {cf : Conf} {g : Gid} {i : Nat} {F : Option (Nat → Bool)} {K : Cfg} {old : List Frame} :
    ∀ (h : List Event) {s : State} {o : List Nat} {L r : List (Bool × Nat)} {o' : List Nat}, Win s g i F K o L old → calls g h o = some (r, o') →
      (∀ e ∈ h, child e ≠ some g) → Win (s.run cf h) g i F K o' (L ++ keptBy F r) old := by
  intro h
  induction h with
  | nil =>
    intro s o L r o' w hc _
    rw [calls] at hc
    cases hc
    rw [keptBy, List.filter_nil, List.append_nil]
    exact w
  | cons e h ih =>
    intro s o L r o' w hc hch
    have hch' : ∀ e ∈ h, child e ≠ some g := fun x hx => hch x (by simp [hx])
    have other : actor e ≠ some g → child e ≠ some g → Win (s.step cf e) g i F K o L old := by
      intro h1 h2
      obtain ⟨a, b⟩ := step_other cf s e h1 h2
      obtain ⟨c1, c2, c3, c4⟩ := keep_step (cf := cf) w.own e (fun g' c he hg => h1 (by rw [he, hg]; rfl)) (fun g' he hg => h1 (by rw [he, hg]; rfl))
      exact ⟨a.trans w.att, c1.trans w.started, c2.trans w.filter, c3.trans w.cfg, b.trans w.frames, c4.trans w.log, own_step w.own e⟩
    rw [run_cons]
    cases e with
    | spawn p c =>
      rw [calls.eq_def] at hc
      dsimp only at hc
      have hcg : g ≠ c := fun e => hch _ List.mem_cons_self (by rw [e]; rfl)
      refine ih ?_ hc hch'
      by_cases hp : p = g
      · subst hp
        obtain ⟨c1, c2, c3, c4⟩ := keep_step (cf := cf) w.own (.spawn p c) (fun _ _ h => by cases h) (fun _ h => by cases h)
        obtain ⟨a, b⟩ := spawn_self cf s hcg
        exact ⟨a.trans w.att, c1.trans w.started, c2.trans w.filter, c3.trans w.cfg, b.trans w.frames, c4.trans w.log, own_step w.own _⟩
      · exact other (by simp [actor, hp]) (by simp [child, Ne.symm hcg])
    | register g' =>
      rw [calls.eq_def] at hc
      dsimp only at hc
      refine ih ?_ hc hch'
      by_cases hp : g' = g
      · subst hp
        show Win (s.register g') g' i F K o L old
        rcases register_cases s g' with ⟨_, h⟩ | ⟨h, _⟩
        · rw [h]; exact w
        · rw [w.att] at h; cases h
      · exact other (by simp [actor, hp]) (by simp [child])
    | enter g' c =>
      rw [calls] at hc
      by_cases hp : g' = g
      · subst hp
        rw [if_pos rfl] at hc
        obtain ⟨x, hx, he⟩ := Option.map_eq_some_iff.1 hc
        obtain ⟨r1, o1⟩ := x
        cases he
        have hw : Win (s.step cf (.enter g' c)) g' i F K (c.fn :: o) (L ++ keptBy F [(true, c.fn)]) old := by
          have hown : Own (s.step cf (.enter g' c)) i g' := own_step w.own _
          have hst : s.step cf (.enter g' c) = if allowed F c.fn then s.record g' i c.fn none else s.push g' ⟨c.fn, none, none⟩ := by
            show s.enter cf g' c = _
            unfold State.enter
            rw [w.att]
            dsimp only
            rw [if_pos w.started, w.filter]
          rw [hst] at hown ⊢
          by_cases ha : allowed F c.fn = true
          · rw [if_pos ha] at hown ⊢
            refine ⟨w.att, w.started, w.filter, w.cfg, ?_, ?_, hown⟩
            · rw [State.record, push_frames, List.map_cons, frameOf, if_pos ha]
              show _ :: s.frames g' = _
              rw [w.frames]; rfl
            · show upd _ _ _ _ = _
              rw [upd_same, w.log, keptBy, List.filter_cons, if_pos ha]; rfl
          · rw [if_neg ha] at hown ⊢
            refine ⟨w.att, w.started, w.filter, w.cfg, ?_, ?_, hown⟩
            · rw [push_frames, List.map_cons, frameOf, if_neg ha, w.frames]; rfl
            · show s.log i = _
              rw [w.log, keptBy, List.filter_cons, if_neg ha]; simp
        have := ih hw hx hch'
        rw [List.append_assoc] at this
        have he : keptBy F [(true, c.fn)] ++ keptBy F r1 = keptBy F ((true, c.fn) :: r1) := by rw [keptBy, keptBy, ← List.filter_append]; rfl
        rw [he] at this
        exact this
      · rw [if_neg hp] at hc
        exact ih (other (by simp [actor, hp]) (by simp [child])) hc hch'
    | exit g' =>
      rw [calls.eq_def] at hc
      dsimp only at hc
      by_cases hp : g' = g
      · subst hp
        rw [if_pos rfl] at hc
        cases o with
        | nil => cases hc
        | cons f o =>
          dsimp only at hc
          obtain ⟨x, hx, he⟩ := Option.map_eq_some_iff.1 hc
          obtain ⟨r1, o1⟩ := x
          cases he
          have hw : Win (s.step cf (.exit g')) g' i F K o (L ++ keptBy F [(false, f)]) old := by
            have hown : Own (s.step cf (.exit g')) i g' := own_step w.own _
            have hfr : s.frames g' = frameOf F i f :: (o.map (frameOf F i) ++ old) := w.frames
            have hst : s.step cf (.exit g') = if allowed F f then { s with frames := upd s.frames g' (o.map (frameOf F i) ++ old), log := upd s.log i (s.log i ++ [(false, f)]) }
                else { s with frames := upd s.frames g' (o.map (frameOf F i) ++ old) } := by
              show s.exit cf g' = _
              unfold State.exit
              rw [hfr]
              dsimp only
              unfold frameOf
              by_cases ha : allowed F f = true
              · rw [if_pos ha, if_pos ha]
              · rw [if_neg ha, if_neg ha]
            rw [hst] at hown ⊢
            by_cases ha : allowed F f = true
            · rw [if_pos ha] at hown ⊢
              refine ⟨w.att, w.started, w.filter, w.cfg, upd_same _ _ _, ?_, hown⟩
              show upd _ _ _ _ = _
              rw [upd_same, w.log, keptBy, List.filter_cons, if_pos ha]; rfl
            · rw [if_neg ha] at hown ⊢
              refine ⟨w.att, w.started, w.filter, w.cfg, upd_same _ _ _, ?_, hown⟩
              show s.log i = _
              rw [w.log, keptBy, List.filter_cons, if_neg ha]; simp
          have := ih hw hx hch'
          rw [List.append_assoc] at this
          have he : keptBy F [(false, f)] ++ keptBy F r1 = keptBy F ((false, f) :: r1) := by rw [keptBy, keptBy, ← List.filter_append]; rfl
          rw [he] at this
          exact this
      · rw [if_neg hp] at hc
        exact ih (other (by simp [actor, hp]) (by simp [child])) hc hch'
    | chdir d => rw [calls.eq_def] at hc; dsimp only at hc; exact ih (other (by simp [actor]) (by simp [child])) hc hch'
    | disk fs => rw [calls.eq_def] at hc; dsimp only at hc; exact ih (other (by simp [actor]) (by simp [child])) hc hch'

/-! ### Where it goes -/

theorem cwd_run (cf : Conf) : ∀ (h : List Event) (s : State), (s.run cf h).cwd = cwdAfter s.cwd h := by
  intro h
  induction h with
  | nil => intro s; rfl
  | cons e h ih =>
    intro s
    rw [run_cons, ih]
    have hp : ∀ e', (∀ d, e' ≠ Event.chdir d) → (s.step cf e').cwd = s.cwd := by
      intro e' hd
      cases e' with
      | spawn p c =>
        show (s.spawn cf p c).cwd = _
        rcases spawn_cases cf s p c with h | ⟨j, _, h⟩ <;> rw [h]
      | register g' =>
        show (s.register g').cwd = _
        rcases register_cases s g' with ⟨_, h⟩ | ⟨_, h⟩ <;> rw [h]
      | enter g' c =>
        have hb : ∀ (s : State) (j : Nat) (b : Bool) (st : Start), (s.begin g' j b c st).cwd = s.cwd := by
          intro s j b st
          unfold State.begin
          cases st with
          | test n => dsimp only; split <;> rfl
          | trace =>
            dsimp only
            split
            · cases c.trace with
              | none => rfl
              | some k =>
                dsimp only
                split
                · cases b <;> rfl
                · rfl
            · rfl
        show (s.enter cf g' c).cwd = _
        unfold State.enter
        cases s.att g' with
        | none =>
          dsimp only
          cases begins cf c true with
          | none => rfl
          | some st => dsimp only; rw [hb]
        | some j =>
          dsimp only
          split
          · split <;> rfl
          · cases begins cf c false with
            | none => rfl
            | some st => dsimp only; rw [hb]
      | exit g' =>
        show (s.exit cf g').cwd = _
        rcases exit_cases cf s g' with ⟨_, he⟩ | ⟨f, rest, _, att, log, fs, errs, fin, he, _, _, _⟩ <;> rw [he]
      | chdir d => exact absurd rfl (hd d)
      | disk fs => rfl
    cases e with
    | chdir d => rfl
    | _ => rw [hp _ (by intro d h; cases h)]; rfl

theorem cwdAfter_good {cwd : List Str} {h : List Event} (hg : GoodCwd cwd h) : ∀ x ∈ cwdAfter cwd h, Ordinary x := by
  induction h generalizing cwd with
  | nil => exact hg.1
  | cons e h ih =>
    have h2 : ∀ e ∈ h, match e with | .chdir d => ∀ x ∈ d, Ordinary x | _ => True := fun x hx => hg.2 x (by simp [hx])
    cases e with
    | chdir d => exact ih ⟨hg.2 (.chdir d) List.mem_cons_self, h2⟩
    | _ => exact ih ⟨hg.1, h2⟩

end Verif.Runtime.TestTrace
