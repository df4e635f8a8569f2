/-
C95: nothing else is written, what is written stays, and which tests are written.
-/
import Verif.Runtime.TestTraceMain

namespace Verif.Runtime.TestTrace
open Spec
open Verif.Cmd.GoMod (Path isAbs clean cleanStep abs dir abs_clean abs_dir fold_ordinary fold_true)
open Verif.Cmd.GoMod.Spec (Ordinary)
open Verif.Cmd.Vendor (split splitFrom)
open Verif.Support.GetGo (FS Node mkdirAll)

theorem begins_some_test {cf : Conf} {c : Call} {b : Bool} {n : Str} (h : begins cf c b = some (.test n)) : cf.collect = true ∧ IsTest c n := by
  unfold begins at h
  split at h
  · cases h
  · rename_i h1
    split at h
    · rename_i h2
      simp at h1 h2
      split at h
      · rename_i m ha
        split at h
        · rename_i hr
          cases h
          exact ⟨h2.1.1.2, h1, h2.1.2, ha, h2.2, hr⟩
        · cases h
      · cases h
    · cases h

/-- Where the frames and configs come from: calls in `E`. -/
structure From (cf : Conf) (E : List (Gid × Call)) (s : State) : Prop where
  frames : ∀ g, ∀ f ∈ s.frames g, ∀ n, f.starts = some (.test n) → cf.collect = true ∧ ∃ c, (g, c) ∈ E ∧ IsTest c n
  cfg : ∀ i, (s.cfg i).out = [[]] ∨ ∃ g c, (g, c) ∈ E ∧ c.trace = some (s.cfg i)

/-- The calls of a history. -/
def entered : List Event → List (Gid × Call)
  | [] => []
  | .enter g c :: h => (g, c) :: entered h
  | _ :: h => entered h

theorem mem_entered {g : Gid} {c : Call} : ∀ {h : List Event}, (g, c) ∈ entered h ↔ .enter g c ∈ h := by
  intro h
  induction h with
  | nil => simp [entered]
  | cons e h ih => cases e <;> simp [entered, ih]

theorem From.mono {cf : Conf} {E E' : List (Gid × Call)} {s : State} (h : From cf E s) (hs : ∀ x ∈ E, x ∈ E') : From cf E' s := by
  refine ⟨fun g f hf n hn => ?_, fun i => ?_⟩
  · obtain ⟨h1, c, h2, h3⟩ := h.frames g f hf n hn
    exact ⟨h1, c, hs _ h2, h3⟩
  · rcases h.cfg i with h | ⟨g, c, h1, h2⟩
    · exact .inl h
    · exact .inr ⟨g, c, hs _ h1, h2⟩

theorem from_push {cf : Conf} {E : List (Gid × Call)} {s : State} (h : From cf E s) (g : Gid) (f : Frame)
    (hf : ∀ n, f.starts = some (.test n) → cf.collect = true ∧ ∃ c, (g, c) ∈ E ∧ IsTest c n) : From cf E (s.push g f) := by
  refine ⟨fun g' f' hf' n hn => ?_, h.cfg⟩
  by_cases hg : g' = g
  · subst hg
    rw [push_frames] at hf'
    rcases List.mem_cons.1 hf' with rfl | hf'
    · exact hf n hn
    · exact h.frames g' f' hf' n hn
  · have : (s.push g f).frames g' = s.frames g' := upd_other _ _ hg
    rw [this] at hf'
    exact h.frames g' f' hf' n hn

theorem from_congr {cf : Conf} {E : List (Gid × Call)} {s s' : State} (h : From cf E s) (h1 : s'.frames = s.frames) (h2 : s'.cfg = s.cfg) : From cf E s' :=
  ⟨fun g f hf => h.frames g f (by rw [h1] at hf; exact hf), fun i => by rw [h2]; exact h.cfg i⟩

theorem from_enter {cf : Conf} {E : List (Gid × Call)} {s : State} (h : From cf E s) (g : Gid) (c : Call) (hc : (g, c) ∈ E) : From cf E (s.enter cf g c) := by
  have hb : ∀ (s : State) (j : Nat) (b fr : Bool) (st : Start), From cf E s → begins cf c fr = some st → From cf E (s.begin g j b c st) := by
    intro s j b fr st h hst
    unfold State.begin
    cases st with
    | test n =>
      obtain ⟨h1, h2⟩ := begins_some_test hst
      dsimp only
      split
      · apply from_push
        · exact from_congr h rfl rfl
        · intro m hm; cases hm; exact ⟨h1, c, hc, h2⟩
      · exact from_push h _ _ (by intro m hm; cases hm)
    | trace =>
      dsimp only
      split
      · cases hk : c.trace with
        | none => exact h
        | some k =>
          dsimp only
          split
          · apply from_push
            · cases b
              · exact from_congr h rfl rfl
              · exact from_congr h rfl rfl
            · intro m hm; cases hm
          · apply from_push
            · refine ⟨h.frames, fun i => ?_⟩
              show (upd s.cfg j k i).out = [[]] ∨ ∃ g c, (g, c) ∈ E ∧ c.trace = some (upd s.cfg j k i)
              by_cases hi : i = j
              · rw [hi, upd_same]; exact .inr ⟨g, c, hc, hk⟩
              · rw [upd_other _ _ hi]; exact h.cfg i
            · intro m hm; cases hm
      · exact from_push h _ _ (by intro m hm; cases hm)
  unfold State.enter
  cases s.att g with
  | none =>
    dsimp only
    cases hst : begins cf c true with
    | none => exact from_push h _ _ (by intro m hm; cases hm)
    | some st => exact hb _ _ _ _ _ (from_congr h rfl rfl) hst
  | some j =>
    dsimp only
    split
    · split
      · apply from_push
        · exact from_congr h rfl rfl
        · intro m hm; cases hm
      · exact from_push h _ _ (by intro m hm; cases hm)
    · cases hst : begins cf c false with
      | none => exact from_push h _ _ (by intro m hm; cases hm)
      | some st => exact hb _ _ _ _ _ (from_congr h rfl rfl) hst

theorem from_step {cf : Conf} {E : List (Gid × Call)} {s : State} (h : From cf E s) (e : Event) (he : ∀ x ∈ entered [e], x ∈ E) : From cf E (s.step cf e) := by
  cases e with
  | spawn p c =>
    show From cf E (s.spawn cf p c)
    rcases spawn_cases cf s p c with e | ⟨j, _, e⟩ <;> rw [e]
    · exact h
    · exact from_congr h rfl rfl
  | register g' =>
    show From cf E (s.register g')
    rcases register_cases s g' with ⟨_, e⟩ | ⟨_, e⟩ <;> rw [e]
    · exact h
    · exact from_congr h rfl rfl
  | enter g c => exact from_enter h g c (he _ (by simp [entered]))
  | exit g =>
    show From cf E (s.exit cf g)
    rcases exit_cases cf s g with ⟨_, e⟩ | ⟨f, rest, hf, att, log, fs, errs, fin, e, _, _, _⟩ <;> rw [e]
    · exact h
    · refine ⟨fun g' f' hf' n hn => ?_, h.cfg⟩
      have hf' : f' ∈ upd s.frames g rest g' := hf'
      by_cases hg : g' = g
      · subst hg
        rw [upd_same] at hf'
        exact h.frames g' f' (by rw [hf]; exact List.mem_cons_of_mem _ hf') n hn
      · rw [upd_other _ _ hg] at hf'
        exact h.frames g' f' hf' n hn
  | chdir d => exact from_congr h rfl rfl
  | disk fs => exact from_congr h rfl rfl

theorem entered_append (a b : List Event) : entered (a ++ b) = entered a ++ entered b := by
  induction a with
  | nil => rfl
  | cons e a ih => cases e <;> simp [entered, ih]

theorem from_run {cf : Conf} : ∀ (h : List Event) {E : List (Gid × Call)} {s : State}, From cf E s → From cf (E ++ entered h) (s.run cf h) := by
  intro h
  induction h with
  | nil => intro E s hs; rw [entered, List.append_nil]; exact hs
  | cons e h ih =>
    intro E s hs
    rw [run_cons]
    have h1 : From cf (E ++ entered [e]) (s.step cf e) := from_step (hs.mono (fun x hx => List.mem_append_left _ hx)) e (fun x hx => List.mem_append_right _ hx)
    have := ih h1
    rw [List.append_assoc, ← entered_append] at this
    exact this

theorem from_init (cf : Conf) (cwd : List Str) (fs : FS) : From cf [] (State.init cwd fs) :=
  ⟨fun g f hf => (by cases hf), fun i => .inl rfl⟩

/-- A file or directory that a call in `E` accounts for, in the working directory `d`. -/
def Writes (cf : Conf) (E : List (Gid × Call)) (d : List Str) (p : List Str) : Prop :=
  (cf.collect = true ∧ ∃ g c n, (g, c) ∈ E ∧ IsTest c n ∧ p <+: abs d (outPath cf.dir n)) ∨
  ∃ g c k, (g, c) ∈ E ∧ c.trace = some k ∧ k.out ≠ [[]] ∧ p = abs d k.out

/-- The same for files. -/
def WritesFile (cf : Conf) (E : List (Gid × Call)) (d : List Str) (p : List Str) : Prop :=
  (cf.collect = true ∧ ∃ g c n, (g, c) ∈ E ∧ IsTest c n ∧ p = abs d (outPath cf.dir n)) ∨
  ∃ g c k, (g, c) ∈ E ∧ c.trace = some k ∧ k.out ≠ [[]] ∧ p = abs d k.out

theorem enter_fs (cf : Conf) (s : State) (g : Gid) (c : Call) : (s.enter cf g c).fs = s.fs := by
  have hb : ∀ (s : State) (j : Nat) (b : Bool) (st : Start), (s.begin g j b c st).fs = s.fs := by
    intro s j b st
    unfold State.begin
    cases st with
    | test n => dsimp only; split <;> rfl
    | trace =>
      dsimp only
      split
      · cases c.trace with
        | none => rfl
        | some k =>
          dsimp only
          split
          · cases b <;> rfl
          · rfl
      · rfl
  unfold State.enter
  cases s.att g with
  | none =>
    dsimp only
    cases begins cf c true with
    | none => rfl
    | some st => dsimp only; rw [hb]
  | some j =>
    dsimp only
    split
    · split <;> rfl
    · cases begins cf c false with
      | none => rfl
      | some st => dsimp only; rw [hb]

theorem step_changes {cf : Conf} {E : List (Gid × Call)} {s : State} (h : From cf E s) (hc : ∀ x ∈ s.cwd, Ordinary x) (e : Event)
    (he : match e with | .disk _ => False | _ => True) (p : List Str) :
    ((s.step cf e).fs p ≠ s.fs p → Writes cf E s.cwd p) ∧ (∀ x, s.fs p = some (.file x) → (s.step cf e).fs p ≠ s.fs p → WritesFile cf E s.cwd p) := by
  have same : (s.step cf e).fs = s.fs → ((s.step cf e).fs p ≠ s.fs p → Writes cf E s.cwd p) ∧
      (∀ x, s.fs p = some (.file x) → (s.step cf e).fs p ≠ s.fs p → WritesFile cf E s.cwd p) := by
    intro h
    rw [h]
    exact ⟨fun h => absurd rfl h, fun _ _ h => absurd rfl h⟩
  cases e with
  | spawn p c =>
    apply same
    show (s.spawn cf p c).fs = _
    rcases spawn_cases cf s p c with e | ⟨j, _, e⟩ <;> rw [e]
  | register g' =>
    apply same
    show (s.register g').fs = _
    rcases register_cases s g' with ⟨_, e⟩ | ⟨_, e⟩ <;> rw [e]
  | enter g c => exact same (enter_fs cf s g c)
  | chdir d => exact same rfl
  | disk fs => exact absurd he id
  | exit g =>
    show ((s.exit cf g).fs p ≠ s.fs p → Writes cf E s.cwd p) ∧ (∀ x, s.fs p = some (.file x) → (s.exit cf g).fs p ≠ s.fs p → WritesFile cf E s.cwd p)
    cases hf : s.frames g with
    | nil =>
      apply same
      show (s.exit cf g).fs = _
      unfold State.exit
      rw [hf]
    | cons f rest =>
      have hfr : ∀ n, f.starts = some (.test n) → cf.collect = true ∧ ∃ c, (g, c) ∈ E ∧ IsTest c n := h.frames g f (by rw [hf]; exact List.mem_cons_self)
      unfold State.exit
      rw [hf]
      dsimp only
      cases hs : f.sid with
      | none => exact ⟨fun h => absurd rfl h, fun _ _ h => absurd rfl h⟩
      | some i =>
        cases hst : f.starts with
        | none => exact ⟨fun h => absurd rfl h, fun _ _ h => absurd rfl h⟩
        | some st =>
          cases st with
          | test n =>
            dsimp only
            obtain ⟨hcol, c, hc1, hc2⟩ := hfr n hst
            obtain ⟨t1, t2, _, _⟩ := saveTest_spec (cf := cf) (s := { s with frames := upd s.frames g rest, log := upd s.log i (s.log i ++ [(false, f.fn)]) }) hc n (upd s.log i (s.log i ++ [(false, f.fn)]) i)
            constructor
            · intro hne
              left
              refine ⟨hcol, g, c, n, hc1, hc2, ?_⟩
              exact Classical.byContradiction fun hp => hne (t1 p hp)
            · intro x hx hne
              left
              refine ⟨hcol, g, c, n, hc1, hc2, ?_⟩
              exact Classical.byContradiction fun hp => hne ((t2 p x hp hx).trans hx.symm)
          | trace =>
            dsimp only
            obtain ⟨t1, _, _⟩ := saveTrace_spec (cf := cf) (s := { s with frames := upd s.frames g rest, log := upd s.log i (s.log i ++ [(false, f.fn)]) }) (s.cfg i) (upd s.log i (s.log i ++ [(false, f.fn)]) i)
            have key : ({ s with frames := upd s.frames g rest, log := upd s.log i (s.log i ++ [(false, f.fn)]) }.saveTrace cf (s.cfg i) (upd s.log i (s.log i ++ [(false, f.fn)]) i)).fs p ≠ s.fs p →
                ∃ g c k, (g, c) ∈ E ∧ c.trace = some k ∧ k.out ≠ [[]] ∧ p = abs s.cwd k.out := by
              intro hne
              have ho : (s.cfg i).out ≠ [[]] := fun e => hne (t1 p (.inl e))
              have hp : p = abs s.cwd (s.cfg i).out := Classical.byContradiction fun hp => hne (t1 p (.inr hp))
              rcases h.cfg i with e | ⟨g', c, h1, h2⟩
              · exact absurd e ho
              · exact ⟨g', c, _, h1, h2, ho, hp⟩
            exact ⟨fun hne => .inr (key hne), fun x _ hne => .inr (key hne)⟩

/-- Changes over a history. -/
theorem run_changes {cf : Conf} : ∀ (h : List Event) {E : List (Gid × Call)} {s : State}, From cf E s → GoodCwd s.cwd h → NoDisk h → ∀ p,
    ((s.run cf h).fs p ≠ s.fs p → ∃ a b, h = a ++ b ∧ Writes cf (E ++ entered h) (cwdAfter s.cwd a) p) ∧
    (∀ x, s.fs p = some (.file x) → (s.run cf h).fs p ≠ s.fs p → ∃ a b, h = a ++ b ∧ WritesFile cf (E ++ entered h) (cwdAfter s.cwd a) p) := by
  intro h
  induction h with
  | nil => intro E s _ _ _ p; exact ⟨fun h => absurd rfl h, fun _ _ h => absurd rfl h⟩
  | cons e h ih =>
    intro E s hs hg hd p
    have hgood : GoodCwd (s.step cf e).cwd h := by
      have : (s.step cf e).cwd = cwdAfter s.cwd [e] := by have := cwd_run cf [e] s; exact this
      rw [this]
      refine ⟨cwdAfter_good ⟨hg.1, ?_⟩, fun x hx => hg.2 x (by simp [hx])⟩
      intro x hx
      rw [List.mem_singleton.1 hx]
      exact hg.2 e (by simp)
    have hE : From cf (E ++ entered [e]) (s.step cf e) := from_step (hs.mono (fun x hx => List.mem_append_left _ hx)) e (fun x hx => List.mem_append_right _ hx)
    have hcwd : (s.step cf e).cwd = cwdAfter s.cwd [e] := by have := cwd_run cf [e] s; exact this
    have hap : ∀ a : List Event, cwdAfter (cwdAfter s.cwd [e]) a = cwdAfter s.cwd (e :: a) := by intro a; cases e <;> rfl
    have hlist : E ++ entered [e] ++ entered h = E ++ entered (e :: h) := by rw [List.append_assoc, ← entered_append]; rfl
    obtain ⟨i1, i2⟩ := ih hE hgood (fun x hx => hd x (by simp [hx])) p
    obtain ⟨k1, k2⟩ := step_changes hs hg.1 e (hd e (by simp)) p
    have mono : ∀ d, (Writes cf E d p → Writes cf (E ++ entered (e :: h)) d p) ∧ (WritesFile cf E d p → WritesFile cf (E ++ entered (e :: h)) d p) := by
      intro d
      constructor
      · rintro (⟨h0, g, c, n, h1, h2⟩ | ⟨g, c, k, h1, h2⟩)
        · exact .inl ⟨h0, g, c, n, List.mem_append_left _ h1, h2⟩
        · exact .inr ⟨g, c, k, List.mem_append_left _ h1, h2⟩
      · rintro (⟨h0, g, c, n, h1, h2⟩ | ⟨g, c, k, h1, h2⟩)
        · exact .inl ⟨h0, g, c, n, List.mem_append_left _ h1, h2⟩
        · exact .inr ⟨g, c, k, List.mem_append_left _ h1, h2⟩
    rw [run_cons]
    constructor
    · intro hne
      by_cases hst : (s.step cf e).fs p = s.fs p
      · rw [← hst] at hne
        obtain ⟨a, b, e1, hw⟩ := i1 hne
        rw [hcwd, hap, hlist] at hw
        exact ⟨e :: a, b, by rw [e1]; rfl, hw⟩
      · exact ⟨[], e :: h, rfl, (mono _).1 (k1 hst)⟩
    · intro x hx hne
      by_cases hst : (s.step cf e).fs p = s.fs p
      · rw [← hst] at hne
        obtain ⟨a, b, e1, hw⟩ := i2 x (by rw [hst]; exact hx) hne
        rw [hcwd, hap, hlist] at hw
        exact ⟨e :: a, b, by rw [e1]; rfl, hw⟩
      · exact ⟨[], e :: h, rfl, (mono _).2 (k2 x hx hst)⟩

/-- xgo writes nothing but the traces of tests, under `--strace`, with the directories for them, and the files that `trace.Trace` was given. -/
theorem C95_only (cf : Conf) (cwd : List Str) (fs : FS) (h : List Event) (hg : GoodCwd cwd h) (hd : NoDisk h) (p : List Str)
    (hne : ((State.init cwd fs).run cf h).fs p ≠ fs p) :
    ∃ a b, h = a ++ b ∧
      ((cf.collect = true ∧ ∃ g c n, .enter g c ∈ h ∧ IsTest c n ∧ p <+: abs (cwdAfter cwd a) (outPath cf.dir n)) ∨
       ∃ g c k, .enter g c ∈ h ∧ c.trace = some k ∧ k.out ≠ [[]] ∧ p = abs (cwdAfter cwd a) k.out) := by
  obtain ⟨a, b, e, hw⟩ := (run_changes h (from_init cf cwd fs) hg hd p).1 hne
  refine ⟨a, b, e, ?_⟩
  rw [List.nil_append] at hw
  rcases hw with ⟨h0, g, c, n, h1, h2, h3⟩ | ⟨g, c, k, h1, h2⟩
  · exact .inl ⟨h0, g, c, n, mem_entered.1 h1, h2, h3⟩
  · exact .inr ⟨g, c, k, mem_entered.1 h1, h2⟩

/-- The trace of a test stays as it is for the rest of the run, if no other test and no `trace.Trace` writes the same file. -/
theorem C95_kept (cf : Conf) (hcol : cf.collect = true) (cwd : List Str) (fs : FS) (pre mid post : List Event) (g : Gid) (c : Call) (n : Str)
    (r : List (Bool × Nat)) (hb : Born (pre ++ .enter g c :: mid)) (hg : GoodCwd cwd (pre ++ .enter g c :: mid ++ .exit g :: post)) (ht : IsTest c n)
    (hu : Untouched cf.raceSafe pre.reverse g) (hc : calls g mid [] = some (r, [])) (hd : NoDisk post) (q : List Str) (x : Str)
    (hx : ((State.init cwd fs).run cf (pre ++ .enter g c :: mid ++ [.exit g])).fs q = some (.file x))
    (htests : ∀ g' c' m a b, .enter g' c' ∈ pre ++ mid ++ post → IsTest c' m → post = a ++ b →
      abs (cwdAfter cwd (pre ++ .enter g c :: mid ++ .exit g :: a)) (outPath cf.dir m) ≠ q)
    (htraces : ∀ g' c' k a b, .enter g' c' ∈ pre ++ mid ++ post → c'.trace = some k → k.out ≠ [[]] → post = a ++ b →
      abs (cwdAfter cwd (pre ++ .enter g c :: mid ++ .exit g :: a)) k.out ≠ q) :
    ((State.init cwd fs).run cf (pre ++ .enter g c :: mid ++ .exit g :: post)).fs q = some (.file x) := by
  have hcw : ∀ (a b : List Event) (w : List Str), cwdAfter w (a ++ b) = cwdAfter (cwdAfter w a) b := by
    intro a
    induction a with
    | nil => intro b w; rfl
    | cons e a ih => intro b w; cases e <;> exact ih b _
  have hsplit : ∀ a : List Event, pre ++ .enter g c :: mid ++ .exit g :: a = (pre ++ .enter g c :: mid ++ [.exit g]) ++ a := by intro a; simp
  rw [hsplit, run_append]
  generalize hs : (State.init cwd fs).run cf (pre ++ .enter g c :: mid ++ [.exit g]) = s at hx
  have hcwd : s.cwd = cwdAfter cwd (pre ++ .enter g c :: mid ++ [.exit g]) := by rw [← hs]; exact cwd_run cf _ _
  have hw := test_window hcol cwd fs hb ht hu hc
  have hfrom : From cf (entered (pre ++ mid)) s := by
    have hall : From cf ([] ++ entered (pre ++ .enter g c :: mid ++ [.exit g])) s := by rw [← hs]; exact from_run _ (from_init cf cwd fs)
    rw [List.nil_append] at hall
    have hpre : From cf ([] ++ entered pre) ((State.init cwd fs).run cf pre) := from_run _ (from_init cf cwd fs)
    rw [List.nil_append] at hpre
    constructor
    · intro g' f hf m hm
      by_cases hgg : g' = g
      · subst hgg
        have hfr : s.frames g' = ((State.init cwd fs).run cf pre).frames g' := by
          rw [← hs, run_snoc]
          show (State.exit cf _ g').frames g' = _
          rw [exit_test hw.frames]
          have : ∀ (t : State) (m : Str) (tr : List (Bool × Nat)), (t.saveTest cf m tr).frames = t.frames := by
            intro t m tr
            obtain ⟨fs', errs', e⟩ := saveTest_frame cf t m tr
            rw [e]
          show (State.saveTest cf _ _ _).frames g' = _
          rw [this]
          exact upd_same _ _ _
        rw [hfr] at hf
        obtain ⟨h1, c', h2, h3⟩ := hpre.frames g' f hf m hm
        exact ⟨h1, c', by rw [entered_append]; exact List.mem_append_left _ h2, h3⟩
      · obtain ⟨h1, c', h2, h3⟩ := hall.frames g' f hf m hm
        refine ⟨h1, c', ?_, h3⟩
        rw [mem_entered] at h2 ⊢
        simp only [List.mem_append, List.mem_cons] at h2 ⊢
        rcases h2 with (h | h | h) | h | h
        · exact .inl h
        · exact absurd (Event.enter.inj h).1 hgg
        · exact .inr h
        · cases h
        · cases h
    · intro i
      rcases hall.cfg i with h | ⟨g', c', h2, h3⟩
      · exact .inl h
      · refine .inr ⟨g', c', ?_, h3⟩
        rw [mem_entered] at h2 ⊢
        simp only [List.mem_append, List.mem_cons] at h2 ⊢
        rcases h2 with (h | h | h) | h | h
        · exact .inl h
        · have hcc := (Event.enter.inj h).2
          rw [hcc, ht.1] at h3
          cases h3
        · exact .inr h
        · cases h
        · cases h
  have hgood : GoodCwd s.cwd post := by
    rw [hcwd]
    refine ⟨cwdAfter_good ⟨hg.1, ?_⟩, fun e he => hg.2 e (by simp [he])⟩
    intro e he
    apply hg.2 e
    rw [hsplit]
    exact List.mem_append_left _ he
  refine Classical.byContradiction fun hne => ?_
  rw [← hx] at hne
  obtain ⟨a, b, e, hwf⟩ := (run_changes post hfrom hgood hd q).2 x hx hne
  rw [← entered_append] at hwf
  rw [hcwd, ← hcw, ← hsplit] at hwf
  rcases hwf with ⟨_, g', c', m, h1, h2, h3⟩ | ⟨g', c', k, h1, h2, h3, h4⟩
  · exact htests g' c' m a b (mem_entered.1 h1) h2 e h3.symm
  · exact htraces g' c' k a b (mem_entered.1 h1) h2 h3 e h4.symm

/-! ### Subtests -/

/-- Goroutine `g` is part of somebody else's trace. -/
def Sub (s : State) (g : Gid) : Prop := ∃ j, s.att g = some j ∧ s.started j = true ∧ Own s j g ∧ ∀ f ∈ s.frames g, f.starts = none

theorem sub_step {cf : Conf} {s : State} {g : Gid} (h : Sub s g) (e : Event) (hch : child e ≠ some g) : Sub (s.step cf e) g := by
  obtain ⟨j, h1, h2, h3, h4⟩ := h
  have hown := own_step (cf := cf) h3 e
  by_cases hact : actor e = some g
  · cases e with
    | spawn p c =>
      have hp : p = g := Option.some.inj hact
      subst hp
      have hc : p ≠ c := fun e => hch (by rw [e]; rfl)
      obtain ⟨a, b⟩ := spawn_self cf s hc
      obtain ⟨k1, _⟩ := keep_step (cf := cf) h3 (.spawn p c) (fun _ _ h => by cases h) (fun _ h => by cases h)
      refine ⟨j, a.trans h1, k1.trans h2, hown, fun f hf => h4 f ?_⟩
      have : f ∈ (s.spawn cf p c).frames p := hf
      rw [b] at this; exact this
    | register g' =>
      have hp : g' = g := Option.some.inj hact
      subst hp
      have : s.step cf (.register g') = s := by
        show s.register g' = s
        rcases register_cases s g' with ⟨_, h⟩ | ⟨h, _⟩
        · exact h
        · rw [h1] at h; cases h
      rw [this] at hown ⊢
      exact ⟨j, h1, h2, hown, h4⟩
    | enter g' c =>
      have hp : g' = g := Option.some.inj hact
      subst hp
      have hst : s.step cf (.enter g' c) = if allowed (s.filter j) c.fn then s.record g' j c.fn none else s.push g' ⟨c.fn, none, none⟩ := by
        show s.enter cf g' c = _
        unfold State.enter
        rw [h1]
        dsimp only
        rw [if_pos h2]
      rw [hst] at hown ⊢
      split at hown
      · rw [if_pos (by assumption)]
        refine ⟨j, h1, h2, hown, fun f hf => ?_⟩
        rw [State.record, push_frames] at hf
        rcases List.mem_cons.1 hf with rfl | hf
        · rfl
        · exact h4 f hf
      · rw [if_neg (by assumption)]
        refine ⟨j, h1, h2, hown, fun f hf => ?_⟩
        rw [push_frames] at hf
        rcases List.mem_cons.1 hf with rfl | hf
        · rfl
        · exact h4 f hf
    | exit g' =>
      have hp : g' = g := Option.some.inj hact
      subst hp
      have hx : s.step cf (.exit g') = s.exit cf g' := rfl
      rw [hx] at hown ⊢
      rcases exit_cases cf s g' with ⟨_, he⟩ | ⟨f, rest, hf, att, log, fs, errs, fin, he, _, _, hno⟩
      · rw [he] at hown ⊢
        exact ⟨j, h1, h2, hown, h4⟩
      · obtain ⟨ha, _⟩ := hno (.inl (h4 f (by rw [hf]; exact List.mem_cons_self)))
        rw [he] at hown ⊢
        subst ha
        refine ⟨j, h1, h2, hown, fun f' hf' => h4 f' ?_⟩
        have hf' : f' ∈ upd s.frames g' rest g' := hf'
        rw [upd_same] at hf'
        rw [hf]; exact List.mem_cons_of_mem _ hf'
    | chdir d => cases hact
    | disk fs => cases hact
  · obtain ⟨a, b⟩ := step_other cf s e hact hch
    obtain ⟨k1, _⟩ := keep_step (cf := cf) h3 e (fun g' c he hg => hact (by rw [he, hg]; rfl)) (fun g' he hg => hact (by rw [he, hg]; rfl))
    exact ⟨j, a.trans h1, k1.trans h2, hown, by rw [b]; exact h4⟩

theorem sub_run {cf : Conf} {g : Gid} : ∀ (h : List Event) {s : State}, Sub s g → (∀ e ∈ h, child e ≠ some g) → Sub (s.run cf h) g := by
  intro h
  induction h with
  | nil => intro s hs _; exact hs
  | cons e h ih => intro s hs hc; exact ih (sub_step hs e (hc e (by simp))) fun x hx => hc x (by simp [hx])

/-- A goroutine started by one that is traced is part of that trace. -/
theorem sub_spawn {cf : Conf} (hr : cf.raceSafe = false) {s : State} (hb : Below s) {p c : Gid} {i : Nat} (ha : s.att p = some i) (hs : s.started i = true)
    (hc : s.frames c = []) : Sub (s.step cf (.spawn p c)) c := by
  show Sub (s.spawn cf p c) c
  have he : s.spawn cf p c = { s with att := upd s.att c (some s.next), next := s.next + 1, started := upd s.started s.next (s.started i), filter := upd s.filter s.next (if s.started i then s.filter i else none), log := upd s.log s.next [] } := by
    unfold State.spawn
    rw [hr, ha]; rfl
  refine ⟨s.next, ?_, ?_, own_new hb c ?_ ?_, ?_⟩
  · rw [he]; exact upd_same _ _ _
  · rw [he]; exact (upd_same _ _ _).trans hs
  · rw [he]; exact Nat.lt_succ_self _
  · intro g' hg
    rw [he]; exact ⟨upd_other _ _ hg, rfl⟩
  · rw [he]
    intro f hf
    have hf : f ∈ s.frames c := hf
    rw [hc] at hf; cases hf

theorem sub_descend {cf : Conf} (hr : cf.raceSafe = false) (cwd : List Str) (fs : FS) {p : Gid} {i : Nat} {K : Cfg} {old : List Frame} :
    ∀ (mid pre : List Event) (D : List Gid) (o : List Nat) (L r : List (Bool × Nat)) (o' : List Nat), Born (pre ++ mid) →
      (∀ e ∈ mid, child e ≠ some p) → Win ((State.init cwd fs).run cf pre) p i none K o L old → calls p mid o = some (r, o') →
      (∀ g ∈ D, Sub ((State.init cwd fs).run cf pre) g ∧ ¬ Idle g pre) →
      ∀ g ∈ descend p mid D, Sub ((State.init cwd fs).run cf (pre ++ mid)) g ∧ ¬ Idle g (pre ++ mid) := by
  intro mid
  induction mid with
  | nil =>
    intro pre D o L r o' _ _ _ _ hD g hg
    rw [List.append_nil]
    exact hD g hg
  | cons e mid ih =>
    intro pre D o L r o' hb hch hw hc hD g hg
    have hlist : pre ++ e :: mid = (pre ++ [e]) ++ mid := by simp
    have hrun : (State.init cwd fs).run cf (pre ++ [e]) = ((State.init cwd fs).run cf pre).step cf e := run_snoc _ _ _ _
    have hnc : ∀ g ∈ D, child e ≠ some g := by
      intro g hg hc
      cases e with
      | spawn a c =>
        have : c = g := Option.some.inj hc
        subst this
        exact (hD c hg).2 (hb pre a c mid rfl).2
      | _ => cases hc
    have hkeep : ∀ g ∈ D, Sub ((State.init cwd fs).run cf (pre ++ [e])) g ∧ ¬ Idle g (pre ++ [e]) := by
      intro g hg
      refine ⟨?_, fun h => (hD g hg).2 fun x hx => h x (by simp [hx])⟩
      rw [hrun]
      exact sub_step (hD g hg).1 e (hnc g hg)
    -- one step of the window
    have hone : ∃ o1 r1 r2, calls p [e] o = some (r1, o1) ∧ calls p mid o1 = some (r2, o') := by
      cases e with
      | enter g' c' =>
        rw [calls] at hc ⊢
        by_cases h : g' = p
        · rw [if_pos h] at hc ⊢
          obtain ⟨x, hx, he⟩ := Option.map_eq_some_iff.1 hc
          cases he
          exact ⟨c'.fn :: o, [(true, c'.fn)], x.1, rfl, hx⟩
        · rw [if_neg h] at hc ⊢
          exact ⟨o, [], r, rfl, hc⟩
      | exit g' =>
        rw [calls.eq_def] at hc ⊢
        dsimp only at hc ⊢
        by_cases h : g' = p
        · rw [if_pos h] at hc ⊢
          cases o with
          | nil => cases hc
          | cons f o =>
            dsimp only at hc ⊢
            obtain ⟨x, hx, he⟩ := Option.map_eq_some_iff.1 hc
            cases he
            exact ⟨o, [(false, f)], x.1, rfl, hx⟩
        · rw [if_neg h] at hc ⊢
          exact ⟨o, [], r, rfl, hc⟩
      | spawn a c => rw [calls.eq_def] at hc; exact ⟨o, [], r, by rw [calls.eq_def]; rfl, hc⟩
      | register a => rw [calls.eq_def] at hc; exact ⟨o, [], r, by rw [calls.eq_def]; rfl, hc⟩
      | chdir a => rw [calls.eq_def] at hc; exact ⟨o, [], r, by rw [calls.eq_def]; rfl, hc⟩
      | disk a => rw [calls.eq_def] at hc; exact ⟨o, [], r, by rw [calls.eq_def]; rfl, hc⟩
    obtain ⟨o1, r1, r2, hc1, hc2⟩ := hone
    have hw1 : Win ((State.init cwd fs).run cf (pre ++ [e])) p i none K o1 (L ++ keptBy none r1) old := by
      rw [run_append]
      exact win_run (cf := cf) [e] hw hc1 (fun x hx => by rw [List.mem_singleton.1 hx]; exact hch e (by simp))
    rw [hlist] at hb ⊢
    have hch' : ∀ e ∈ mid, child e ≠ some p := fun x hx => hch x (by simp [hx])
    cases e with
    | spawn a c =>
      rw [descend] at hg
      refine ih (pre ++ [.spawn a c]) _ o1 _ r2 o' hb hch' hw1 hc2 ?_ g hg
      intro g' hg'
      by_cases hin : a = p ∨ a ∈ D
      · rw [if_pos hin] at hg'
        rcases List.mem_cons.1 hg' with rfl | hg'
        · have hidle : Idle g' pre := (hb pre a g' mid (by simp)).2
          refine ⟨?_, fun h => absurd (h (.spawn a g') (by simp)) (by simp)⟩
          rw [hrun]
          have hfr := (idle_none cf cwd fs g' pre hidle).2
          have hbl := below_run (cf := cf) pre (below_init cwd fs)
          rcases hin with rfl | hin
          · exact sub_spawn hr hbl hw.att hw.started hfr
          · obtain ⟨j, s1, s2, _, _⟩ := (hD a hin).1
            exact sub_spawn hr hbl s1 s2 hfr
        · exact hkeep g' hg'
      · rw [if_neg hin] at hg'
        exact hkeep g' hg'
    | register a => exact ih _ D o1 _ r2 o' hb hch' hw1 hc2 hkeep g hg
    | enter a b => exact ih _ D o1 _ r2 o' hb hch' hw1 hc2 hkeep g hg
    | exit a => exact ih _ D o1 _ r2 o' hb hch' hw1 hc2 hkeep g hg
    | chdir a => exact ih _ D o1 _ r2 o' hb hch' hw1 hc2 hkeep g hg
    | disk a => exact ih _ D o1 _ r2 o' hb hch' hw1 hc2 hkeep g hg

/-- Subtests, and whatever else a test starts, directly or not, are part of the test's trace (C76) and write nothing of their own, then and later. -/
theorem C95_sub (cf : Conf) (hcol : cf.collect = true) (hr : cf.raceSafe = false) (cwd : List Str) (fs : FS) (pre mid post : List Event) (p : Gid) (c : Call) (n : Str)
    (r : List (Bool × Nat)) (o : List Nat) (hb : Born (pre ++ .enter p c :: mid ++ post)) (ht : IsTest c n) (hu : Untouched cf.raceSafe pre.reverse p)
    (hc : calls p mid [] = some (r, o)) (g : Gid) (hg : g ∈ descend p mid []) :
    let s := (State.init cwd fs).run cf (pre ++ .enter p c :: mid ++ post)
    (s.step cf (.exit g)).fs = s.fs ∧ (s.step cf (.exit g)).finished = s.finished := by
  intro s
  have hb1 := born_left hb
  have hb0 : Born (pre ++ [.enter p c]) := born_left (a := pre ++ [.enter p c]) (b := mid) (by rw [List.append_assoc]; exact hb1)
  have hw0 := test_window hcol cwd fs hb0 ht hu (r := []) (o := []) rfl
  have hs := sub_descend hr cwd fs mid (pre ++ [.enter p c]) [] [] _ r o (by rw [List.append_assoc]; exact hb1) (no_child hb1) hw0 hc (by simp) g hg
  rw [List.append_assoc] at hs
  have hs : Sub ((State.init cwd fs).run cf (pre ++ .enter p c :: mid)) g ∧ ¬ Idle g (pre ++ .enter p c :: mid) := hs
  have hchild : ∀ e ∈ post, child e ≠ some g := by
    intro e he hce
    cases e with
    | spawn a x =>
      have : x = g := Option.some.inj hce
      subst this
      obtain ⟨l1, l2, rfl⟩ := List.append_of_mem he
      have := (hb (pre ++ .enter p c :: mid ++ l1) a x l2 (by simp)).2
      exact hs.2 fun y hy => this y (List.mem_append_left _ hy)
    | _ => cases hce
  have hsub := sub_run (cf := cf) post hs.1 hchild
  rw [← run_append] at hsub
  obtain ⟨j, _, _, _, h4⟩ := hsub
  show (s.exit cf g).fs = _ ∧ (s.exit cf g).finished = _
  unfold State.exit
  cases hf : s.frames g with
  | nil => exact ⟨rfl, rfl⟩
  | cons f rest =>
    have hst : f.starts = none := h4 f (by rw [hf]; exact List.mem_cons_self)
    dsimp only
    cases f.sid with
    | none => exact ⟨rfl, rfl⟩
    | some i => rw [hst]; exact ⟨rfl, rfl⟩

/-! ### Examples -/

/-- `Born`, event by event. -/
def BornFrom : List Event → List Event → Prop
  | _, [] => True
  | pre, e :: h => (match e with | .spawn p c => p ≠ c ∧ Idle c pre | _ => True) ∧ BornFrom (pre ++ [e]) h

theorem bornFrom : ∀ (h pre : List Event), BornFrom pre h → ∀ a p c b, h = a ++ .spawn p c :: b → p ≠ c ∧ Idle c (pre ++ a) := by
  intro h
  induction h with
  | nil => intro pre _ a p c b e; cases a <;> cases e
  | cons e h ih =>
    intro pre hb a p c b he
    obtain ⟨h1, h2⟩ := hb
    cases a with
    | nil =>
      cases he
      rw [List.append_nil]; exact h1
    | cons x a =>
      rw [List.cons_append] at he
      injection he with e1 e2
      subst e1
      have := ih (pre ++ [e]) h2 a p c b e2
      rw [List.append_assoc] at this
      exact this

theorem born_of {h : List Event} (hb : BornFrom [] h) : Born h := fun a p c b e => bornFrom h [] hb a p c b e

def show_ (tr : List (Bool × Nat)) : Str := tr.map fun x => if x.1 then Char.ofNat (65 + x.2) else Char.ofNat (97 + x.2)

/-- `--strace`, in the working directory -/
def confHere : Conf := ⟨true, [[]], false, show_⟩
/-- `--strace --strace-dir /t` -/
def confDir : Conf := ⟨true, [[], "t".toList], false, show_⟩

def aTest (fn : Nat) (n : Str) : Call := ⟨fn, none, false, [.t n], 0, true⟩
def plain (fn : Nat) : Call := ⟨fn, none, false, [], 1, false⟩

def disk0 : FS := fun p => if p = [] ∨ p = ["w".toList] then some .dir else none

/-- The runner (0) starts goroutine 1; -/
def pre1 : List Event := [.spawn 0 1]
/-- TestA calls B, starts the subtest `TestA/s` on goroutine 2, and calls C. -/
def mid1 : List Event := [.enter 1 (plain 1), .spawn 1 2, .enter 2 (aTest 5 "TestA/s".toList), .exit 1, .enter 2 (plain 1), .enter 1 (plain 2), .exit 2, .exit 1, .exit 2]

theorem born1 : Born (pre1 ++ .enter 1 (aTest 0 "TestA".toList) :: mid1) := by
  apply born_of
  simp [pre1, mid1, BornFrom, Idle]

/-- The hypotheses of `C95_file_partial` are met by this run. -/
example : Born (pre1 ++ .enter 1 (aTest 0 "TestA".toList) :: mid1) ∧ GoodCwd ["w".toList] (pre1 ++ .enter 1 (aTest 0 "TestA".toList) :: mid1) ∧
    IsTest (aTest 0 "TestA".toList) "TestA".toList ∧ (∀ x ∈ parts "TestA".toList, Ordinary x) ∧ Untouched false pre1.reverse 1 ∧
    calls 1 mid1 [] = some ([(true, 1), (false, 1), (true, 2), (false, 2)], []) ∧
    Free ((State.init ["w".toList] disk0).run confHere (pre1 ++ .enter 1 (aTest 0 "TestA".toList) :: mid1)).fs (place ["w".toList] [[]] "TestA".toList) := by
  refine ⟨born1, ⟨by decide, ?_⟩, ⟨rfl, rfl, rfl, rfl, rfl⟩, by decide, ?_, by decide, ?_, by decide⟩
  · simp [pre1, mid1]
  · show if 1 = 1 then _ else _
    rw [if_pos rfl]
    exact .inr trivial
  · intro a h1 h2
    have hp : (place ["w".toList] [[]] "TestA".toList).dropLast = ["w".toList] := by decide
    rw [hp] at h2
    rcases prefix_cases h2 with rfl | h2
    · exact .inr (by decide)
    · exact absurd (List.prefix_nil.1 h2) h1

/-- The file has the calls of the test; the subtest writes none. -/
theorem C95_example : let s := (State.init ["w".toList] disk0).run confHere (pre1 ++ .enter 1 (aTest 0 "TestA".toList) :: mid1 ++ [.exit 1])
    s.fs ["w".toList, "TestA.json".toList] = some (.file "ABbCca".toList) ∧ s.fs ["w".toList, "TestA".toList, "s.json".toList] = none := by decide

/-- Missing: a mock registered before the tests, in TestMain, and no test leaves a trace. -/
theorem C95_testmain_counterexample : let s := (State.init ["w".toList] disk0).run confHere (.register 0 :: pre1 ++ .enter 1 (aTest 0 "TestA".toList) :: mid1 ++ [.exit 1])
    s.fs ["w".toList, "TestA.json".toList] = none := by decide

/-- Missing: two packages with a test of the same name, whose processes write to one directory; the first trace is lost. -/
theorem C95_packages_counterexample :
    let one := (State.init ["w".toList, "p".toList] disk0).run confDir [.spawn 0 1, .enter 1 (aTest 0 "TestA".toList), .exit 1]
    let two := (State.init ["w".toList, "q".toList] one.fs).run confDir [.spawn 0 1, .enter 1 (aTest 1 "TestA".toList), .exit 1]
    one.fs ["t".toList, "TestA.json".toList] = some (.file "Aa".toList) ∧ two.fs ["t".toList, "TestA.json".toList] = some (.file "Bb".toList) := by decide

/-- Missing: a test that changes the working directory has its trace there. -/
theorem C95_chdir_counterexample : let s := (State.init ["w".toList] disk0).run confHere [.spawn 0 1, .enter 1 (aTest 0 "TestA".toList), .chdir [], .exit 1]
    s.fs ["w".toList, "TestA.json".toList] = none ∧ s.fs ["TestA.json".toList] = some (.file "Aa".toList) := by decide

/-- With `--xgo-race-safe` subtests have files of their own, and their names may lead out of the directory. -/
theorem C95_outside_counterexample :
    let s := (State.init ["w".toList] disk0).run { confDir with raceSafe := true } [.spawn 0 1, .enter 1 (aTest 0 "TestA".toList), .spawn 1 2, .enter 2 (aTest 1 "TestA/../../x".toList), .exit 2, .exit 1]
    s.fs ["x.json".toList] = some (.file "Bb".toList) := by decide

/-- A `trace.Trace` with a filter, and one whose file is in a directory that is not there. -/
example : let k : Cfg := ⟨["o".toList], true, some fun f => f != 1⟩
    let s := (State.init ["w".toList] disk0).run ⟨false, [[]], false, show_⟩ [.enter 0 ⟨0, some k, false, [], 2, false⟩, .enter 0 (plain 1), .enter 0 (plain 2), .exit 0, .exit 0, .exit 0]
    s.fs ["w".toList, "o".toList] = some (.file "ACca".toList) ∧ s.finished = [[(true, 0), (true, 2), (false, 2), (false, 0)]] := by decide

example : 2 ∈ descend 1 mid1 [] := by decide

/-- `C95_failed`: `/t` is a file. -/
example : let s := (State.init ["w".toList] (disk0.put ["t".toList] (.file "x".toList))).run confDir [.spawn 0 1, .enter 1 (aTest 0 "TestA".toList), .exit 1]
    s.errs = 1 ∧ s.fs ["t".toList] = some (.file "x".toList) := by decide

/-- `C95_inner_lost`: a `trace.Trace` with a file, in a test. -/
example : let k : Cfg := ⟨["o".toList], true, none⟩
    let h : List Event := [.enter 1 ⟨7, some k, false, [], 2, false⟩, .enter 1 (plain 1), .exit 1]
    calls 1 h [] = some ([(true, 7), (true, 1), (false, 1)], [7]) ∧
    ((State.init ["w".toList] disk0).run confHere (.spawn 0 1 :: .enter 1 (aTest 0 "TestA".toList) :: h ++ [.exit 1, .exit 1])).fs ["w".toList, "o".toList] = none := by decide

/-- `C95_kept` and `C95_distinct`: other tests have other files. -/
example : place ["w".toList] [[]] "TestA".toList ≠ place ["w".toList] [[]] "TestA/s".toList := by decide

end Verif.Runtime.TestTrace
