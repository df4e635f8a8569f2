/-
C61: the concurrent copy.
-/
import Verif.Support.FileCopyProps

namespace Verif.Support.FileCopy

variable {α : Type}

/-- What workers are copying at the moment. -/
def busies : List (Worker α) → List α
  | [] => []
  | .busy f :: ws => f :: busies ws
  | _ :: ws => busies ws

/-- Number of workers that ended with an error. -/
def faileds : List (Worker α) → Nat
  | [] => 0
  | .failed :: ws => faileds ws + 1
  | _ :: ws => faileds ws

theorem busies_append (l r : List (Worker α)) : busies (l ++ r) = busies l ++ busies r := by
  induction l with
  | nil => rfl
  | cons w l ih => cases w <;> simp [busies, ih]

theorem faileds_append (l r : List (Worker α)) : faileds (l ++ r) = faileds l + faileds r := by
  induction l with
  | nil => simp [faileds]
  | cons w l ih => cases w <;> simp [faileds, ih] <;> omega

theorem faileds_le (l : List (Worker α)) : faileds l ≤ l.length := by
  induction l with
  | nil => simp [faileds]
  | cons w l ih => cases w <;> simp [faileds] <;> omega

theorem busies_replicate (n : Nat) : busies (List.replicate n (Worker.idle : Worker α)) = [] := by
  induction n with
  | zero => rfl
  | succ n ih => simp [List.replicate_succ, busies, ih]

theorem faileds_replicate (n : Nat) : faileds (List.replicate n (Worker.idle : Worker α)) = 0 := by
  induction n with
  | zero => rfl
  | succ n ih => simp [List.replicate_succ, faileds, ih]

/-- What holds in every state of a copy of `files` with `n` workers. -/
structure Inv (files : List α) (n : Nat) (s : State α) : Prop where
  perm : (sends s.todo ++ s.queue ++ busies s.workers ++ s.done ++ s.bad).Perm files
  len : s.workers.length = n
  nfail : s.bad.length = faileds s.workers
  errsWalking : s.main = .walking → s.errs.length = faileds s.workers
  errsLe : s.errs.length ≤ faileds s.workers
  errsBad : ∀ e ∈ s.errs, e ∈ s.bad
  noEnd : s.main = .walking → .ended ∉ s.workers
  ended : .ended ∈ s.workers → s.queue = []
  nilErr : (s.main = .waiting none ∨ s.main = .returned none) → s.todo = [] ∧ s.ownBad = []
  someErr : ∀ e, (s.main = .waiting (some e) ∨ s.main = .returned (some e)) → e ∈ s.bad ∨ e ∈ s.ownBad
  ownBadWalking : s.main = .walking → s.ownBad = []
  returned : ∀ e, s.main = .returned e → ∀ w ∈ s.workers, w = .failed ∨ w = .ended

theorem inv_start (todo : List (Todo α)) (n : Nat) : Inv (sends todo) n (start todo n) where
  perm := by simp [start, busies_replicate]
  len := by simp [start]
  nfail := by simp [start, faileds_replicate]
  errsWalking := by simp [start, faileds_replicate]
  errsLe := by simp [start]
  errsBad := by simp [start]
  noEnd := by simp [start]
  ended := by simp [start]
  nilErr := by simp [start]
  someErr := by simp [start]
  ownBadWalking := by simp [start]
  returned := by simp [start]

theorem inv_step {cap n : Nat} {files : List α} {s t : State α} (i : Inv files n s) (h : Step cap s t) :
    Inv files n t := by
  cases h with
  | own hm ht =>
    exact { i with
      perm := by have := i.perm; rw [ht] at this; simpa [sends] using this
      nilErr := by simp [hm] }
  | ownFail hm ht =>
    exact {
      perm := by have := i.perm; rw [ht] at this; simpa [sends] using this
      len := i.len, nfail := i.nfail, errsWalking := by simp, errsLe := i.errsLe, errsBad := i.errsBad
      noEnd := by simp, ended := i.ended, nilErr := by simp
      someErr := by intro e h; simp at h; simp [h]
      ownBadWalking := by simp, returned := by simp }
  | @send f td hm ht hq =>
    exact { i with
      perm := by
        have := i.perm; rw [ht] at this
        refine List.Perm.trans ?_ this
        simp only [sends, List.append_assoc, List.cons_append, List.nil_append]
        rw [← List.append_assoc (sends _) s.queue]
        refine List.perm_middle.trans ?_
        simp [List.append_assoc]
      nilErr := by simp [hm]
      ended := fun x => absurd x (i.noEnd hm) }
  | @recvErr f td e es hm ht he =>
    have le := i.errsLe
    rw [he] at le
    exact { i with
      errsWalking := by simp
      errsLe := by simp at le; show es.length ≤ faileds s.workers; omega
      errsBad := fun x hx => i.errsBad x (by rw [he]; exact List.mem_cons_of_mem _ hx)
      noEnd := by simp, nilErr := by simp
      someErr := by
        intro x hx; simp at hx; subst hx
        left; exact i.errsBad _ (by simp [he])
      ownBadWalking := by simp, returned := by simp }
  | walked hm ht =>
    exact { i with
      errsWalking := by simp, noEnd := by simp
      nilErr := fun _ => ⟨ht, i.ownBadWalking hm⟩
      someErr := by simp
      ownBadWalking := by simp, returned := by simp }
  | @take f q l r hq hw =>
    have hb : faileds (l ++ .busy f :: r) = faileds s.workers := by
      rw [hw, faileds_append, faileds_append]; rfl
    have he : (.ended ∈ l ++ Worker.busy f :: r) → .ended ∈ s.workers := by
      rw [hw]; simp
    exact { i with
      perm := by
        have := i.perm
        rw [hq, hw] at this
        refine List.Perm.trans ?_ this
        simp only [busies_append, busies, List.append_assoc, List.cons_append]
        refine List.Perm.append_left _ ?_
        rw [← List.append_assoc q]
        refine List.perm_middle.trans ?_
        simp [List.append_assoc]
      len := by have := i.len; rw [hw] at this; simpa using this
      nfail := by rw [hb]; exact i.nfail
      errsWalking := by rw [hb]; exact i.errsWalking
      errsLe := by rw [hb]; exact i.errsLe
      noEnd := fun hm x => i.noEnd hm (he x)
      ended := fun x => by have := i.ended (he x); rw [hq] at this; cases this
      returned := fun e hm w hw' => by
        exfalso
        have := i.returned e hm .idle (by simp [hw]); simp at this }
  | @finish l r hm hq hw =>
    have hb : faileds (l ++ .ended :: r) = faileds s.workers := by
      rw [hw, faileds_append, faileds_append]; rfl
    exact { i with
      perm := by
        have := i.perm
        rw [hw] at this
        simpa only [busies_append, busies] using this
      len := by have := i.len; rw [hw] at this; simpa using this
      nfail := by rw [hb]; exact i.nfail
      errsWalking := by rw [hb]; exact i.errsWalking
      errsLe := by rw [hb]; exact i.errsLe
      noEnd := fun x => absurd x hm
      ended := fun _ => hq
      returned := fun e hm w hw' => by
        exfalso
        have := i.returned e hm .idle (by simp [hw]); simp at this }
  | @copied f l r hw =>
    have hb : faileds (l ++ .idle :: r) = faileds s.workers := by
      rw [hw, faileds_append, faileds_append]; rfl
    have he : (.ended ∈ l ++ Worker.idle :: r) → .ended ∈ s.workers := by
      rw [hw]; simp
    exact { i with
      perm := by
        have := i.perm
        rw [hw] at this
        refine List.Perm.trans ?_ this
        simp only [busies_append, busies, List.append_assoc, List.cons_append]
        refine List.Perm.append_left _ (List.Perm.append_left _ (List.Perm.append_left _ ?_))
        exact List.perm_middle
      len := by have := i.len; rw [hw] at this; simpa using this
      nfail := by rw [hb]; exact i.nfail
      errsWalking := by rw [hb]; exact i.errsWalking
      errsLe := by rw [hb]; exact i.errsLe
      noEnd := fun hm x => i.noEnd hm (he x)
      ended := fun x => i.ended (he x)
      returned := fun e hm w hw' => by
        exfalso
        have := i.returned e hm (.busy f) (by simp [hw]); simp at this }
  | @copyFail f l r hw hl =>
    have hb : faileds (l ++ .failed :: r) = faileds s.workers + 1 := by
      rw [hw, faileds_append, faileds_append]; simp [faileds]; omega
    have he : (.ended ∈ l ++ Worker.failed :: r) → .ended ∈ s.workers := by
      rw [hw]; simp
    exact { i with
      perm := by
        have := i.perm
        rw [hw] at this
        refine List.Perm.trans ?_ this
        simp only [busies_append, busies, List.append_assoc, List.cons_append]
        refine List.Perm.append_left _ (List.Perm.append_left _ (List.Perm.append_left _ ?_))
        rw [← List.append_assoc (busies r)]
        refine List.perm_middle.trans ?_
        simp [List.append_assoc]
      len := by have := i.len; rw [hw] at this; simpa using this
      nfail := by rw [hb]; simp [i.nfail]
      errsWalking := fun hm => by rw [hb]; simp [i.errsWalking hm]
      errsLe := by rw [hb]; have := i.errsLe; simp; exact this
      errsBad := fun x hx => by
        simp only [List.mem_append, List.mem_cons, List.not_mem_nil, or_false] at hx
        cases hx with
        | inl h => exact List.mem_cons_of_mem _ (i.errsBad x h)
        | inr h => simp [h]
      noEnd := fun hm x => i.noEnd hm (he x)
      ended := fun x => i.ended (he x)
      someErr := fun e x => by
        rcases i.someErr e x with y | y
        · exact .inl (List.mem_cons_of_mem _ y)
        · exact .inr y
      returned := fun e hm w hw' => by
        exfalso
        have := i.returned e hm (.busy f) (by simp [hw]); simp at this }
  | @ret e hm hw =>
    exact { i with
      errsWalking := by simp, noEnd := by simp
      nilErr := by
        intro x; simp at x; subst x
        exact i.nilErr (.inl hm)
      someErr := by
        intro e' x; simp at x; subst x
        exact i.someErr e' (.inl hm)
      ownBadWalking := by simp
      returned := fun _ _ => hw }

theorem inv_steps {cap : Nat} {todo : List (Todo α)} {n : Nat} {s : State α} (h : Steps cap (start todo n) s) :
    Inv (sends todo) n s := by
  induction h with
  | refl => exact inv_start todo n
  | step _ h ih => exact inv_step ih h

/-! ### What is copied -/

theorem all_ended {ws : List (Worker α)} (h : ∀ w ∈ ws, w = .failed ∨ w = .ended) (h0 : faileds ws = 0)
    (hn : ws ≠ []) : .ended ∈ ws := by
  cases ws with
  | nil => exact absurd rfl hn
  | cons w ws =>
    rcases h w (by simp) with e | e
    · rw [e] at h0; simp [faileds] at h0
    · simp [e]

theorem no_busies {ws : List (Worker α)} (h : ∀ w ∈ ws, w = .failed ∨ w = .ended) : busies ws = [] := by
  induction ws with
  | nil => rfl
  | cons w ws ih =>
    have := ih (fun x hx => h x (List.mem_cons_of_mem _ hx))
    rcases h w (by simp) with e | e <;> simp [e, busies, this]

/-- **C61 (part).** Whatever the schedule: a concurrent copy that returns without error, and in which no copy of a file
    failed, has copied every file, each exactly once. (That no copy failed does *not* follow from the result,
    `C61_counterexample`.) -/
theorem C61_concurrent_partial {cap n : Nat} (hn : n ≠ 0) {todo : List (Todo α)} {s : State α}
    (h : Steps cap (start todo n) s) (hr : s.main = .returned none) (ok : s.bad = []) :
    s.done.Perm (sends todo) := by
  have i := inv_steps h
  have term := i.returned none hr
  have := i.nfail; rw [ok] at this; simp at this
  have hw : s.workers ≠ [] := by intro e; have := i.len; rw [e] at this; simp at this; exact hn this.symm
  have q := i.ended (all_ended term this.symm hw)
  have p := i.perm
  rw [(i.nilErr (.inr hr)).1, q, no_busies term, ok] at p
  simpa [sends] using p

/-- **C61.** Whatever the schedule: an error that is returned is that of a file or directory that could not be copied or
    made. -/
theorem C61_concurrent_error {cap n : Nat} {todo : List (Todo α)} {s : State α} {e : α}
    (h : Steps cap (start todo n) s) (hr : s.main = .returned (some e)) : e ∈ s.bad ∨ e ∈ s.ownBad :=
  (inv_steps h).someErr e (.inr hr)

/-- **C61.** Whatever the schedule: when the copy has returned, no worker is running any more and no file is copied
    later. -/
theorem C61_concurrent_quiet {cap n : Nat} {todo : List (Todo α)} {s t : State α} {r : Option α}
    (h : Steps cap (start todo n) s) (hr : s.main = .returned r) : ¬ Step cap s t := by
  have i := inv_steps h
  have term := i.returned r hr
  intro st
  cases st with
  | own hm => rw [hr] at hm; cases hm
  | ownFail hm => rw [hr] at hm; cases hm
  | send hm => rw [hr] at hm; cases hm
  | recvErr hm => rw [hr] at hm; cases hm
  | walked hm => rw [hr] at hm; cases hm
  | take _ hw => have := term .idle (by simp [hw]); simp at this
  | finish _ _ hw => have := term .idle (by simp [hw]); simp at this
  | @copied f _ _ hw => have := term (.busy f) (by simp [hw]); simp at this
  | @copyFail f _ _ hw => have := term (.busy f) (by simp [hw]); simp at this
  | ret hm => rw [hr] at hm; cases hm

/-- What the walk hands to the workers and what it does itself (copy.go:206-216, 283-306). -/
def todoOf : List Action → List (Todo Action)
  | [] => []
  | .copy p c :: as => .send (.copy p c) :: todoOf as
  | a :: as => .own a :: todoOf as

theorem sends_todoOf (as : List Action) (p c : Path) : .copy p c ∈ sends (todoOf as) ↔ .copy p c ∈ as := by
  induction as with
  | nil => simp [todoOf, sends]
  | cons a as ih => cases a <;> simp [todoOf, sends, ih]

/-- **C61 (part).** The concurrent copy of a directory: if it returns without error and no copy of a file failed, the files
    copied are exactly the wanted ones. -/
theorem C61_concurrent_files_partial {cap n : Nat} (hn : n ≠ 0) (o : Options) (src : Nodes) (ok : src.Ok)
    {s : State Action} (h : Steps cap (start (todoOf (walk o [] src)) n) s) (hr : s.main = .returned none)
    (hb : s.bad = []) (p c : Path) :
    .copy p c ∈ s.done ↔ ∃ ns, Has src ns (.file c) ∧ Wanted o ns (.file c) ∧ join ns = p := by
  rw [(C61_concurrent_partial hn h hr hb).mem_iff, sends_todoOf, mem_walk o src ok]
  have wu : ∀ ns k, WantedU o [] ns k ↔ Wanted o ns k := by
    intro ns k; simp only [WantedU, Wanted, under_nil]
  constructor
  · rintro ⟨ns, k, h, w, e⟩
    rw [under_nil] at e
    cases k <;> simp [Kind.action] at e
    rw [e.2] at h w
    exact ⟨ns, h, (wu _ _).mp w, e.1⟩
  · rintro ⟨ns, h, w, e⟩
    exact ⟨ns, .file c, h, (wu _ _).mpr w, by rw [under_nil, e]; rfl⟩

/-! ### It ends -/

theorem busy_split : {ws : List (Worker α)} → {f : α} → .busy f ∈ ws → ∃ l r, ws = l ++ .busy f :: r
  | _, _, h => List.append_of_mem h

/-- **C61.** No deadlock: before it has returned, the copy can go on, and a worker can report its error at once. -/
theorem C61_concurrent_progress {cap n : Nat} (hc : cap ≠ 0) (hn : n ≠ 0) {todo : List (Todo α)} {s : State α}
    (h : Steps cap (start todo n) s) :
    ((∃ r, s.main = .returned r) ∨ ∃ t, Step cap s t) ∧
    ∀ f, .busy f ∈ s.workers → ∃ t, Step cap s t ∧ t.bad = f :: s.bad := by
  have i := inv_steps h
  have room : ∀ f, .busy f ∈ s.workers → ∃ t, Step cap s t ∧ t.bad = f :: s.bad := by
    intro f hf
    obtain ⟨l, r, e⟩ := List.append_of_mem hf
    refine ⟨_, .copyFail e ?_, rfl⟩
    have := i.errsLe
    have h2 : faileds s.workers < s.workers.length := by
      rw [e, faileds_append]
      have a := faileds_le l
      have b := faileds_le r
      simp [faileds]; omega
    omega
  refine ⟨?_, room⟩
  rcases Classical.em (∃ f, .busy f ∈ s.workers) with ⟨f, hf⟩ | nb
  · obtain ⟨t, st, _⟩ := room f hf; exact .inr ⟨t, st⟩
  rcases Classical.em (.idle ∈ s.workers) with hi | ni
  · obtain ⟨l, r, e⟩ := List.append_of_mem hi
    cases hq : s.queue with
    | cons f q => exact .inr ⟨_, .take hq e⟩
    | nil =>
      cases hm : s.main with
      | walking =>
        cases ht : s.todo with
        | nil => exact .inr ⟨_, .walked hm ht⟩
        | cons x xs =>
          cases x with
          | own a => exact .inr ⟨_, .own hm ht⟩
          | send f => exact .inr ⟨_, .send hm ht (by simp [hq]; omega)⟩
      | waiting r => exact .inr ⟨_, .finish (by simp [hm]) hq e⟩
      | returned r => exact .inl ⟨r, rfl⟩
  have term : ∀ w ∈ s.workers, w = .failed ∨ w = .ended := by
    intro w hw
    cases w with
    | idle => exact absurd hw ni
    | busy f => exact absurd ⟨f, hw⟩ nb
    | failed => exact .inl rfl
    | ended => exact .inr rfl
  cases hm : s.main with
  | returned r => exact .inl ⟨r, rfl⟩
  | waiting r => exact .inr ⟨_, .ret hm term⟩
  | walking =>
    cases ht : s.todo with
    | nil => exact .inr ⟨_, .walked hm ht⟩
    | cons x xs =>
      cases x with
      | own a => exact .inr ⟨_, .own hm ht⟩
      | send f =>
        cases he : s.errs with
        | cons e es => exact .inr ⟨_, .recvErr hm ht he⟩
        | nil =>
          exfalso
          have h0 := i.errsWalking hm
          rw [he] at h0
          have hw : s.workers ≠ [] := by intro e; have := i.len; rw [e] at this; simp at this; exact hn this.symm
          exact i.noEnd hm (all_ended term h0.symm hw)

/-- Work that is left. -/
def Worker.work : Worker α → Nat
  | .idle => 1
  | .busy _ => 2
  | _ => 0

def Main.work : Main α → Nat
  | .walking => 2
  | .waiting _ => 1
  | .returned _ => 0

def State.work (s : State α) : Nat :=
  3 * s.todo.length + 2 * s.queue.length + (s.workers.map Worker.work).sum + s.main.work

theorem work_step {cap : Nat} {s t : State α} (h : Step cap s t) : t.work < s.work := by
  cases h with
  | own hm ht => simp [State.work, ht]
  | ownFail hm ht => simp [State.work, ht, hm, Main.work]; omega
  | send hm ht hq => simp [State.work, ht]; omega
  | recvErr hm ht he => simp [State.work, hm, Main.work]
  | walked hm ht => simp [State.work, hm, Main.work]
  | take hq hw => simp [State.work, hq, hw, Worker.work]; omega
  | finish hm hq hw => simp [State.work, hw, Worker.work]
  | copied hw => simp [State.work, hw, Worker.work]
  | copyFail hw hl => simp [State.work, hw, Worker.work]
  | ret hm hw => simp [State.work, hm, Main.work]

/-- **C61.** There is no infinite run. -/
theorem C61_concurrent_terminates {cap : Nat} (run : Nat → State α) : ¬ ∀ i, Step cap (run i) (run (i + 1)) := by
  intro h
  have : ∀ i, (run i).work + i ≤ (run 0).work := by
    intro i
    induction i with
    | zero => simp
    | succ i ih => have := work_step (h i); omega
  have := this ((run 0).work + 1)
  omega

/-! ### The result is not reliable -/

/-- Two files, two workers: `1` cannot be copied, the walk does not notice, and nil is returned. -/
theorem C61_counterexample :
    ∃ s : State Nat, Steps 10000 (start [.send 1, .send 2] 2) s ∧ s.main = .returned none ∧ s.bad = [1] ∧ s.done = [2] := by
  have h0 : Steps 10000 (start [.send 1, .send 2] 2) _ := .refl
  have h1 := h0.step (.send (f := 1) rfl rfl (by decide))
  have h2 := h1.step (.send (f := 2) rfl rfl (by decide))
  have h3 := h2.step (.walked rfl rfl)
  have h4 := h3.step (.take (l := []) rfl rfl)
  have h5 := h4.step (.take (l := [.busy 1]) rfl rfl)
  have h6 := h5.step (.copyFail (f := 1) (l := []) rfl (by decide))
  have h7 := h6.step (.copied (f := 2) (l := [.failed]) (r := []) rfl)
  have h8 := h7.step (.finish (l := [.failed]) (r := []) (by decide) rfl rfl)
  have h9 := h8.step (.ret (e := none) rfl (by decide))
  exact ⟨_, h9, rfl, rfl, rfl⟩

/-- Three files, two workers: both workers end with an error, nobody ever looks at file `3`, and nil is returned. -/
theorem C61_counterexample_never_tried :
    ∃ s : State Nat, Steps 10000 (start [.send 1, .send 2, .send 3] 2) s ∧ s.main = .returned none ∧
      s.queue = [3] ∧ s.done = [] := by
  have h0 : Steps 10000 (start [.send 1, .send 2, .send 3] 2) _ := .refl
  have h1 := h0.step (.send (f := 1) rfl rfl (by decide))
  have h2 := h1.step (.send (f := 2) rfl rfl (by decide))
  have h3 := h2.step (.send (f := 3) rfl rfl (by decide))
  have h4 := h3.step (.walked rfl rfl)
  have h5 := h4.step (.take (l := []) rfl rfl)
  have h6 := h5.step (.take (l := [.busy 1]) rfl rfl)
  have h7 := h6.step (.copyFail (f := 1) (l := []) rfl (by decide))
  have h8 := h7.step (.copyFail (f := 2) (l := [.failed]) (r := []) rfl (by decide))
  have h9 := h8.step (.ret (e := none) rfl (by decide))
  exact ⟨_, h9, rfl, rfl, rfl⟩

/-- The hypotheses of `C61_concurrent_partial` are met: a directory is made, two files are copied by two workers. -/
theorem C61_concurrent_example :
    ∃ s : State Nat, Steps 10000 (start [.own 0, .send 1, .send 2] 2) s ∧ s.main = .returned none ∧ s.bad = [] ∧
      s.done = [1, 2] := by
  have h0 : Steps 10000 (start [.own 0, .send 1, .send 2] 2) _ := .refl
  have h1 := h0.step (.own (a := 0) rfl rfl)
  have h2 := h1.step (.send (f := 1) rfl rfl (by decide))
  have h3 := h2.step (.send (f := 2) rfl rfl (by decide))
  have h4 := h3.step (.take (l := []) rfl rfl)
  have h5 := h4.step (.take (l := [.busy 1]) rfl rfl)
  have h6 := h5.step (.copied (f := 2) (l := [.busy 1]) (r := []) rfl)
  have h7 := h6.step (.walked rfl rfl)
  have h8 := h7.step (.copied (f := 1) (l := []) rfl)
  have h9 := h8.step (.finish (l := []) (by decide) rfl rfl)
  have h10 := h9.step (.finish (l := [.ended]) (r := []) (by decide) rfl rfl)
  have h11 := h10.step (.ret (e := none) rfl (by decide))
  exact ⟨_, h11, rfl, rfl, rfl⟩

end Verif.Support.FileCopy
