import Verif.Instrument.LoadProps
/-
Theorems of C68: the parallel loader loads what loading one file after the other would load.
-/
namespace Verif.Instrument.Load

open Spec

variable {σ : Type} {E : Env σ}

/-! ### Every run ends -/

def rW : RPc → Nat
  | .idle => 1
  | .reading _ => 10
  | .failed .. => 3
  | .failed2 .. => 2
  | .push _ => 9
  | .exited => 0

def pW : PPc σ → Nat
  | .idle => 1
  | .parsing _ => 7
  | .parsed .. => 6
  | .parsed2 .. => 5
  | .fin _ => 4
  | .exited => 0

def mW (n : Nat) : MPc → Nat
  | .add k => (n - k) * 12 + n + 4
  | .send k => (n - k) * 12 + n + 3
  | .wait => n + 3
  | .close => n + 2
  | .filter k _ => (n - k) + 1
  | .ret _ => 0

def measure (E : Env σ) (s : State σ) : Nat :=
  mW E.files.length s.main + 10 * s.readQ.length + (s.readers.map rW).sum + 7 * s.parseQ.length + (s.parsers.map pW).sum

theorem sum_set {α : Type} (w : α → Nat) {l : List α} {i : Nat} {y : α} (h : l[i]? = some y) (x : α) :
    ((l.set i x).map w).sum + w y = (l.map w).sum + w x := by
  induction l generalizing i with
  | nil => simp at h
  | cons a l ih =>
    cases i with
    | zero => simp at h; subst h; simp; omega
    | succ i => simp at h; have := ih h; simp only [List.set_cons_succ, List.map_cons, List.sum_cons]; omega

theorem wgDone_same (s : State σ) : (wgDone s).main = s.main ∧ (wgDone s).readQ = s.readQ ∧ (wgDone s).parseQ = s.parseQ ∧
    (wgDone s).readers = s.readers ∧ (wgDone s).parsers = s.parsers := by
  simp only [wgDone]; split <;> simp

theorem measure_step {s s' : State σ} {a : Actor} (hi : Inv E s) (hs : step E s a = some s') : measure E s' < measure E s := by
  cases a with
  | main =>
    simp only [step, stepMain] at hs
    split at hs
    · next k hk =>
      have hb := hi.bound
      simp only [hk, next] at hb
      split at hs
      · next hlt => cases hs; simp only [measure, hk, mW]; omega
      · next hlt => cases hs; simp only [measure, hk, mW]; omega
    · next k hk =>
      have hb := hi.bound
      simp only [hk, next] at hb
      split at hs
      · cases hs; simp only [measure, hk, mW, List.length_append, List.length_cons, List.length_nil]; omega
      · cases hs
    · next hk =>
      split at hs
      · cases hs; simp only [measure, hk, mW]; omega
      · cases hs
    · next hk => cases hs; simp only [measure, hk, mW]; omega
    · next k l hk =>
      split at hs
      · split at hs <;> (cases hs; simp only [measure, hk, mW]; omega)
      · cases hs; simp only [measure, hk, mW]; omega
    · cases hs
  | reader i b =>
    simp only [step, stepReader] at hs
    split at hs
    · next hy =>
      split at hs
      · split at hs
        · cases hs; have := sum_set rW hy .exited; simp only [measure, rW] at this ⊢; omega
        · cases hs
      · split at hs
        · cases hs
        · next f q hq =>
          cases hs; have := sum_set rW hy (.reading f)
          simp only [measure, rW, hq, List.length_cons] at this ⊢; omega
    · next f hy =>
      cases hs
      simp only [stepRead]
      split
      · next e he => have := sum_set rW hy (.failed f e); simp only [measure, rW] at this ⊢; omega
      · have := sum_set rW hy (.push f); simp only [measure, write, rW] at this ⊢; omega
    · next f e hy =>
      cases hs
      obtain ⟨h1, h2, h3, h4, h5⟩ := wgDone_same { s with readers := s.readers.set i (.failed2 f e) }
      simp only [measure, h1, h2, h3, h4, h5]
      have := sum_set rW hy (.failed2 f e); simp only [rW] at this ⊢; omega
    · next f e hy => cases hs; have := sum_set rW hy .idle; simp only [measure, write, rW] at this ⊢; omega
    · next f hy =>
      split at hs
      · cases hs; have := sum_set rW hy .idle
        simp only [measure, rW, List.length_append, List.length_cons, List.length_nil] at this ⊢; omega
      · cases hs
    · cases hs
  | parser i b =>
    simp only [step, stepParser] at hs
    split at hs
    · next hy =>
      split at hs
      · split at hs
        · cases hs; have := sum_set pW hy .exited; simp only [measure, pW] at this ⊢; omega
        · cases hs
      · split at hs
        · cases hs
        · next f q hq =>
          cases hs; have := sum_set pW hy (.parsing f)
          simp only [measure, pW, hq, List.length_cons] at this ⊢; omega
    · next f hy =>
      cases hs
      have := sum_set pW hy (.parsed f (E.parse (path E f) (s.mem f).content).1 (E.parse (path E f) (s.mem f).content).2)
      simp only [measure, pW] at this ⊢; omega
    · next f syn err hy => cases hs; have := sum_set pW hy (.parsed2 f syn); simp only [measure, write, pW] at this ⊢; omega
    · next f syn hy => cases hs; have := sum_set pW hy (.fin f); simp only [measure, write, pW] at this ⊢; omega
    · next f hy =>
      cases hs
      obtain ⟨h1, h2, h3, h4, h5⟩ := wgDone_same { s with parsers := s.parsers.set i .idle }
      simp only [measure, h1, h2, h3, h4, h5]
      have := sum_set pW hy .idle; simp only [pW] at this ⊢; omega
    · cases hs

theorem measure_exec {sched : List Actor} {s s' : State σ} (h : Inv E s) (he : exec E s sched = some s') :
    sched.length + measure E s' ≤ measure E s := by
  induction sched generalizing s with
  | nil => simp only [exec, Option.some.injEq] at he; subst he; simp
  | cons a r ih =>
    simp only [exec, Option.bind_eq_some_iff] at he
    obtain ⟨s1, h1, h2⟩ := he
    have := ih (h.step h1) h2
    have := measure_step h h1
    simp only [List.length_cons]; omega

theorem sum_replicate_one {α : Type} (w : α → Nat) (x : α) (h : w x = 1) (n : Nat) : ((List.replicate n x).map w).sum = n := by
  induction n with
  | zero => rfl
  | succ n ih => simp only [List.replicate_succ, List.map_cons, List.sum_cons, ih, h]; omega

/-- **C68**: every run ends.  No schedule of the goroutines has more than 13 steps per file, one per goroutine and four more. -/
theorem C68_ends {sched : List Actor} {s : State σ} (h : exec E (init E) sched = some s) :
    sched.length ≤ 13 * E.files.length + E.nIO + E.nCPU + 4 := by
  have := measure_exec Inv.init h
  have h0 : measure E (init E) = 13 * E.files.length + E.nIO + E.nCPU + 4 := by
    simp only [measure, init, mW, sum_replicate_one rW .idle rfl, sum_replicate_one (pW (σ := σ)) .idle rfl, List.length_nil]
    omega
  omega

/-! ### No deadlock, no goroutine left behind -/

theorem parser_moves {s : State σ} (hi : Inv E s) (hd : s.done = false) (hq : s.parseQ ≠ []) (hn : 0 < E.nCPU) :
    ∃ a s', step E s a = some s' := by
  have h0 : 0 < s.parsers.length := by rw [hi.lenP]; exact hn
  refine ⟨.parser 0 false, ?_⟩
  simp only [step, stepParser]
  have hg : s.parsers[0]? = some s.parsers[0] := List.getElem?_eq_getElem h0
  rw [hg]
  have hm : s.parsers[0] ∈ s.parsers := List.getElem_mem h0
  generalize s.parsers[0] = p at hm
  cases p with
  | idle =>
    cases hp : s.parseQ with
    | nil => exact absurd hp hq
    | cons f q => exact ⟨_, rfl⟩
  | exited => rw [hi.exitP hm] at hd; cases hd
  | _ => exact ⟨_, rfl⟩

theorem push_moves {s : State σ} (hi : Inv E s) (hd : s.done = false) {i f : Nat} (h : s.readers[i]? = some (.push f)) (hn : 0 < E.nCPU) :
    ∃ a s', step E s a = some s' := by
  by_cases hq : s.parseQ.length < E.nCPU
  · exact ⟨.reader i false, _, by simp only [step, stepReader, h, if_pos hq]; rfl⟩
  · exact parser_moves hi hd (by intro h0; rw [h0] at hq; simp at hq; omega) hn

theorem reader_moves {s : State σ} (hi : Inv E s) (hd : s.done = false) (hq : s.readQ ≠ []) (hio : 0 < E.nIO) (hn : 0 < E.nCPU) :
    ∃ a s', step E s a = some s' := by
  have h0 : 0 < s.readers.length := by rw [hi.lenR]; exact hio
  have hg : s.readers[0]? = some s.readers[0] := List.getElem?_eq_getElem h0
  have hm : s.readers[0] ∈ s.readers := List.getElem_mem h0
  generalize s.readers[0] = p at hm hg
  cases p with
  | idle =>
    refine ⟨.reader 0 false, ?_⟩
    simp only [step, stepReader, hg]
    cases hp : s.readQ with
    | nil => exact absurd hp hq
    | cons f q => exact ⟨_, rfl⟩
  | exited => rw [hi.exitR hm] at hd; cases hd
  | push f => exact push_moves hi hd hg hn
  | _ => exact ⟨.reader 0 false, _, by simp only [step, stepReader, hg]; rfl⟩

theorem mem_getElem? {α : Type} {l : List α} {x : α} (h : x ∈ l) : ∃ i : Nat, l[i]? = some x := List.mem_iff_getElem?.1 h

/-- **C68**: no deadlock and no goroutine left behind.  A run can only stop when LoadPackages has returned and all readers
and parsers have ended. -/
theorem C68_no_deadlock {s : State σ} (h : Reach E s) (hio : 0 < E.nIO) (hcpu : 0 < E.nCPU)
    (hstop : ∀ a, step E s a = none) :
    (∃ kept, s.main = .ret kept) ∧ (∀ r ∈ s.readers, r = .exited) ∧ (∀ p ∈ s.parsers, p = .exited) := by
  have hi := h.inv
  have stuck : ¬ ∃ a s', step E s a = some s' := by
    rintro ⟨a, s', h⟩; rw [hstop a] at h; cases h
  have hmain := hstop .main
  have hret : ∃ kept, s.main = .ret kept := by
    simp only [step, stepMain] at hmain
    have hd := hi.doneOK
    split at hmain
    · split at hmain <;> cases hmain
    · next k hk =>
      rw [hk] at hd
      split at hmain
      · cases hmain
      · next hq => exact absurd (reader_moves hi hd (by intro h0; rw [h0] at hq; simp at hq; omega) hio hcpu) stuck
    · next hk =>
      rw [hk] at hd
      split at hmain
      · cases hmain
      · next hw =>
        exfalso
        apply stuck
        have hl : live s ≠ [] := by intro h0; have := hi.wgEq; rw [h0] at this; exact hw this
        obtain ⟨f, hf⟩ := List.exists_mem_of_ne_nil _ hl
        rw [mem_live, hk] at hf
        rcases hf with hf | hf | hf | hf | hf
        · cases hf
        · exact reader_moves hi hd (List.ne_nil_of_mem hf) hio hcpu
        · obtain ⟨r, hr, hf⟩ := List.mem_flatMap.1 hf
          obtain ⟨i, hr⟩ := mem_getElem? hr
          cases r with
          | push f => exact push_moves hi hd hr hcpu
          | idle => cases hf
          | exited => cases hf
          | _ => exact ⟨.reader i false, _, by simp only [step, stepReader, hr]; rfl⟩
        · exact parser_moves hi hd (List.ne_nil_of_mem hf) hcpu
        · obtain ⟨r, hr, hf⟩ := List.mem_flatMap.1 hf
          obtain ⟨i, hr⟩ := mem_getElem? hr
          cases r with
          | idle => cases hf
          | exited => cases hf
          | _ => exact ⟨.parser i false, _, by simp only [step, stepParser, hr]; rfl⟩
    · cases hmain
    · split at hmain
      · split at hmain <;> cases hmain
      · cases hmain
    · next k hk => exact ⟨k, hk⟩
  refine ⟨hret, ?_, ?_⟩
  · obtain ⟨kept, hk⟩ := hret
    have hd := hi.doneOK
    rw [hk] at hd
    have hl := hi.lateOK (by rw [hk]; rfl)
    intro r hr
    obtain ⟨i, hri⟩ := mem_getElem? hr
    cases r with
    | exited => rfl
    | idle => exact absurd ⟨.reader i true, _, by simp only [step, stepReader, hri, hd, over, if_true]; rfl⟩ stuck
    | push f =>
      have : f ∈ live s := by rw [mem_live]; exact .inr (.inr (.inl (List.mem_flatMap.2 ⟨_, hr, by simp [rtok]⟩)))
      rw [hl] at this; cases this
    | _ => exact absurd ⟨.reader i false, _, by simp only [step, stepReader, hri]; rfl⟩ stuck
  · obtain ⟨kept, hk⟩ := hret
    have hd := hi.doneOK
    rw [hk] at hd
    intro r hr
    obtain ⟨i, hri⟩ := mem_getElem? hr
    cases r with
    | exited => rfl
    | idle => exact absurd ⟨.parser i true, _, by simp only [step, stepParser, hri, hd, over, if_true]; rfl⟩ stuck
    | _ => exact absurd ⟨.parser i false, _, by simp only [step, stepParser, hri]; rfl⟩ stuck

/-- **C68**: the wait group never goes below zero. -/
theorem C68_no_crash {s : State σ} (h : Reach E s) : s.crashed = false := h.inv.nocrash

/-! ### What is returned -/

theorem range_filter_ordered (p : Nat → Bool) (n : Nat) : ((List.range n).filter p).Pairwise (· < ·) :=
  List.Pairwise.filter _ List.pairwise_lt_range

theorem ret_cover {s : State σ} (h : Reach E s) {kept : List Nat} (hr : s.main = .ret kept) {f : Nat} (hf : f < E.files.length) :
    HoldsAt E s.mem f ∨ bad E f := by
  have hi := h.inv
  have hl := hi.lateOK (by rw [hr]; rfl)
  rcases hi.cover f (by rw [hr]; exact hf) with h1 | ⟨e, h1⟩ | h1
  · rw [hl] at h1; cases h1
  · exact .inr ⟨e, hi.rOK _ h1⟩
  · exact .inl h1

/-- **C68**, for every schedule: when LoadPackages returns, the files are in their order and each at most once; every file
that can be read and parsed is there, with the content and syntax tree that loading it alone gives; without filtering all
files are there; with filtering no file is there that could be read but not parsed.
Missing: a file that could not be read may be there as well, and without its error (`Wrong.C68_unreadable_kept`). -/
theorem C68_files_partial {s : State σ} (h : Reach E s) {kept : List Nat} (hr : s.main = .ret kept) :
    kept.Pairwise (· < ·) ∧ (∀ f ∈ kept, f < E.files.length) ∧
    (∀ f < E.files.length, good E.read E.parse (path E f) = true →
      f ∈ kept ∧ Holds E.read E.parse (path E f) (s.mem f)) ∧
    (E.filterErr = false → ∀ f < E.files.length, f ∈ kept) ∧
    (∀ f ∈ kept, (∃ e, E.read (path E f) = .error e) ∨
      (Holds E.read E.parse (path E f) (s.mem f) ∧ (E.filterErr = true → good E.read E.parse (path E f) = true))) := by
  have hi := h.inv
  obtain ⟨p, hp, hq⟩ := hi.kept.2 kept hr
  refine ⟨?_, ?_, ?_, ?_, ?_⟩
  · rw [hp]; exact range_filter_ordered _ _
  · intro f hf; rw [hp] at hf; exact List.mem_range.1 (List.mem_filter.1 hf).1
  · intro f hf hg
    refine ⟨?_, ?_⟩
    · rw [hp]; exact List.mem_filter.2 ⟨List.mem_range.2 hf, (hq f hf).1 hg⟩
    · rcases ret_cover h hr hf with h1 | ⟨e, h1⟩
      · exact h1
      · have := goodAt_error h1; simp only [goodAt] at this; rw [this] at hg; cases hg
  · intro hf f hlt; rw [hp]; exact List.mem_filter.2 ⟨List.mem_range.2 hlt, (hq f hlt).2.2 hf⟩
  · intro f hf
    rw [hp] at hf
    have h1 := List.mem_range.1 (List.mem_filter.1 hf).1
    have h2 := (List.mem_filter.1 hf).2
    rcases ret_cover h hr h1 with h3 | h3
    · by_cases hfe : E.filterErr = true
      · rcases (hq f h1).2.1 hfe h2 with h4 | h4
        · exact .inr ⟨h3, fun _ => h4⟩
        · exact .inl h4
      · exact .inr ⟨h3, fun h => absurd h hfe⟩
    · exact .inl h3

/-! ### Packages -/

theorem filter_filter_range (kept : List Nat) (p : Nat → Bool) (n off len : Nat) (hk : kept = (List.range n).filter p)
    (hn : off + len ≤ n) :
    kept.filter (fun i => decide (off ≤ i ∧ i < off + len)) = (List.range' off len).filter p := by
  subst hk
  rw [List.filter_filter]
  have hsplit : List.range n = List.range' 0 off ++ (List.range' off len ++ List.range' (off + len) (n - off - len)) := by
    rw [List.range_eq_range']
    have e1 : List.range' off len ++ List.range' (off + len) (n - off - len) = List.range' off (n - off) := by
      have := @List.range'_append off len (n - off - len) 1
      rw [Nat.one_mul] at this
      rw [this]
      congr 1; omega
    rw [e1]
    have := @List.range'_append 0 off (n - off) 1
    rw [Nat.one_mul, Nat.zero_add] at this
    rw [this]
    congr 1; omega
  rw [hsplit, List.filter_append, List.filter_append]
  have z1 : (List.range' 0 off).filter (fun a => decide (off ≤ a ∧ a < off + len) && p a) = [] := by
    rw [List.filter_eq_nil_iff]
    intro a ha
    have := (List.mem_range'_1.1 ha)
    simp; omega
  have z3 : (List.range' (off + len) (n - off - len)).filter (fun a => decide (off ≤ a ∧ a < off + len) && p a) = [] := by
    rw [List.filter_eq_nil_iff]
    intro a ha
    have := (List.mem_range'_1.1 ha)
    simp; omega
  rw [z1, z3, List.nil_append, List.append_nil]
  apply List.filter_congr
  intro a ha
  have := (List.mem_range'_1.1 ha)
  have h : (off ≤ a ∧ a < off + len) := this
  simp [h]

theorem map_range'_slice (pre l post : List String) (q : String → Bool) :
    ((List.range' pre.length l.length).filter (fun i => q ((pre ++ (l ++ post)).getD i ""))).map
      (fun i => (pre ++ (l ++ post)).getD i "") = l.filter q := by
  induction l generalizing pre with
  | nil => simp
  | cons a l ih =>
    have hi := ih (pre ++ [a])
    simp only [List.append_assoc, List.length_append, List.length_cons, List.length_nil, List.singleton_append] at hi
    have hg : (pre ++ (a :: l ++ post)).getD pre.length "" = a := by
      simp [List.getD_eq_getElem?_getD]
    simp only [List.length_cons, List.range'_succ, List.filter_cons, List.cons_append] at hi hg ⊢
    rw [hg]
    by_cases hq : q a = true
    · simp only [hq, if_true, List.map_cons]
      rw [hg]
      congr 1
    · simp only [hq]
      exact hi

theorem group_eq (kept : List Nat) (q : String → Bool) (all : List String) (n : Nat) (hn : n = all.length)
    (hk : kept = (List.range n).filter (fun i => q (all.getD i ""))) :
    ∀ (ls : List (List String)) (pre : List String), all = pre ++ ls.flatten →
      (group kept pre.length ls).map (fun l => l.map (fun i => all.getD i "")) = ls.map (fun l => l.filter q) := by
  intro ls
  induction ls with
  | nil => intro pre _; rfl
  | cons l ls ih =>
    intro pre hall
    simp only [group, List.map_cons]
    congr 1
    · rw [filter_filter_range kept _ n pre.length l.length hk (by rw [hn, hall]; simp)]
      rw [hall, List.flatten_cons]
      exact map_range'_slice pre l ls.flatten q
    · have := ih (pre ++ l) (by rw [hall]; simp)
      simpa using this

/-- **C68**: if every file can be read, the packages that are returned are, for every schedule, exactly the listed ones with,
in order, the files that have no error (all files if errors are not filtered), and each of them holds what loading it alone
gives. -/
theorem C68_packages_partial {nIO nCPU : Nat} {includeTest filterErr : Bool} {read : String → Except String (List Char)}
    {parse : String → List Char → Option σ × Option String} {pkgs : List GoPkg} {s : State σ}
    (h : Reach (envOf nIO nCPU includeTest filterErr read parse pkgs) s) {kept : List Nat} (hr : s.main = .ret kept)
    (hread : ∀ p ∈ pkgs, ∀ f ∈ paths includeTest p, ∃ c, read f = .ok c) :
    (group kept 0 (pkgs.map (paths includeTest))).map
        (fun l => l.map (path (envOf nIO nCPU includeTest filterErr read parse pkgs))) =
      pkgs.map (fun p => (paths includeTest p).filter (fun f => !filterErr || good read parse f)) ∧
    ∀ i ∈ kept, Holds read parse (path (envOf nIO nCPU includeTest filterErr read parse pkgs) i) (s.mem i) := by
  have hrd : ∀ i < (pkgs.flatMap (paths includeTest)).length, ∃ c,
      read (path (envOf nIO nCPU includeTest filterErr read parse pkgs) i) = .ok c := by
    intro i hi
    have : path (envOf nIO nCPU includeTest filterErr read parse pkgs) i = (pkgs.flatMap (paths includeTest))[i] := by
      simp only [path, envOf]; simp [List.getD_eq_getElem?_getD, List.getElem?_eq_getElem hi]
    rw [this]
    obtain ⟨p, hp, hf⟩ := List.mem_flatMap.1 (List.getElem_mem hi)
    exact hread p hp _ hf
  obtain ⟨p, hp, hq⟩ := h.inv.kept.2 kept hr
  have hkept : kept = (List.range (pkgs.flatMap (paths includeTest)).length).filter
      (fun i => (fun f => !filterErr || good read parse f) ((pkgs.flatMap (paths includeTest)).getD i "")) := by
    rw [hp]
    show (List.range (pkgs.flatMap (paths includeTest)).length).filter p = _
    apply List.filter_congr
    intro i hi
    have hi := List.mem_range.1 hi
    obtain ⟨c, hc⟩ := hrd i hi
    have hq := hq i hi
    have hnb : ¬ bad (envOf nIO nCPU includeTest filterErr read parse pkgs) i := by
      rintro ⟨e, he⟩
      have he' : read (path (envOf nIO nCPU includeTest filterErr read parse pkgs) i) = .error e := he
      rw [hc] at he'; cases he'
    show p i = (!filterErr || goodAt (envOf nIO nCPU includeTest filterErr read parse pkgs) i)
    cases hfe : filterErr with
    | false => simpa using hq.2.2 hfe
    | true =>
      simp only [Bool.not_true, Bool.false_or]
      subst hfe
      cases hpi : p i with
      | true =>
        rcases hq.2.1 rfl hpi with h1 | h1
        · exact h1.symm
        · exact absurd h1 hnb
      | false =>
        cases hg : goodAt (envOf nIO nCPU includeTest true read parse pkgs) i with
        | false => rfl
        | true => have := hq.1 hg; rw [hpi] at this; cases this
  refine ⟨?_, ?_⟩
  · have := group_eq kept (fun f => !filterErr || good read parse f) (pkgs.flatMap (paths includeTest)) _ rfl hkept
      (pkgs.map (paths includeTest)) [] (by simp [List.flatMap_def])
    rw [List.map_map] at this
    exact this
  · intro i hi
    rw [hkept] at hi
    have hlt := List.mem_range.1 (List.mem_filter.1 hi).1
    obtain ⟨c, hc⟩ := hrd i hlt
    rcases ret_cover h hr hlt with h1 | ⟨e, h1⟩
    · exact h1
    · have h1' : read (path (envOf nIO nCPU includeTest filterErr read parse pkgs) i) = .error e := h1
      rw [hc] at h1'; cases h1'

/-- **C68**: the files of a listed package are its Go files and, if tests are included, then those of its tests and external tests,
in the order listed, as far as their names end in `.go`. -/
theorem C68_which_files (p : GoPkg) :
    paths false p = (p.goFiles.filter (fun f => ".go".toList.isSuffixOf f.toList)).map (fun f => p.dir ++ "/" ++ f) ∧
    paths true p = ((p.goFiles ++ p.testGoFiles ++ p.xtestGoFiles).filter (fun f => ".go".toList.isSuffixOf f.toList)).map
      (fun f => p.dir ++ "/" ++ f) := by
  have e : (fun f : String => ".go".toList.isSuffixOf f.toList) = isGo := rfl
  rw [e]
  constructor
  · simp [paths, wanted]
  · simp [paths, wanted]

/-- **C68**: when everything has come to rest, every file, readable or not, holds what loading it alone gives. -/
theorem C68_at_rest {s : State σ} (h : Reach E s) (hio : 0 < E.nIO) (hcpu : 0 < E.nCPU) (hstop : ∀ a, step E s a = none)
    {f : Nat} (hf : f < E.files.length) : Holds E.read E.parse (path E f) (s.mem f) := by
  obtain ⟨⟨kept, hk⟩, hr, _⟩ := C68_no_deadlock h hio hcpu hstop
  have hi := h.inv
  have hl := hi.lateOK (by rw [hk]; rfl)
  rcases hi.cover f (by rw [hk]; exact hf) with h1 | ⟨e, h1⟩ | h1
  · rw [hl] at h1; cases h1
  · have := hr _ h1; cases this
  · exact h1

/-! ### Line ends -/

theorem splitNL_ne_nil (c : List Char) : splitNL c ≠ [] := by
  cases c with
  | nil => simp [splitNL]
  | cons a c => 
    simp only [splitNL]
    split
    · simp
    · cases splitNL c <;> simp [consHead]

theorem mapInit_cons {α : Type} (f : α → α) (a : α) {l : List α} (h : l ≠ []) : mapInit f (a :: l) = f a :: mapInit f l := by
  cases l with
  | nil => exact absurd rfl h
  | cons b l => rfl

/-- **C68**: the lines of the content that is loaded are those of the file, each without the `\r` before its line end: the
number of lines, and so the line numbers of everything, are those of the file. -/
theorem C68_lines (c : List Char) : splitNL (normCRLF c) = mapInit dropCR (splitNL c) := by
  fun_induction normCRLF c with
  | case1 => rfl
  | case2 c =>
    simp only [splitNL]
    split
    · simp [mapInit, dropCR]
    · rfl
  | case3 c d r h ih =>
    obtain ⟨h1, h2⟩ := h
    subst h1 h2
    have e1 : splitNL ('\n' :: normCRLF r) = [] :: splitNL (normCRLF r) := by simp [splitNL]
    have e2 : splitNL ('\r' :: '\n' :: r) = ['\r'] :: splitNL r := by simp [splitNL, consHead]
    rw [e1, e2, ih, mapInit_cons _ _ (splitNL_ne_nil r)]
    rfl
  | case4 c d r h ih =>
    by_cases hc : c = '\n'
    · subst hc
      have e1 : ∀ x, splitNL ('\n' :: x) = [] :: splitNL x := by intro x; simp [splitNL]
      rw [e1, e1, ih, mapInit_cons _ _ (splitNL_ne_nil _)]
      rfl
    · have e1 : ∀ x, splitNL (c :: x) = consHead c (splitNL x) := by intro x; simp [splitNL, hc]
      rw [e1, e1, ih]
      generalize hs : splitNL (d :: r) = ls
      cases ls with
      | nil => exact absurd hs (splitNL_ne_nil _)
      | cons l ls =>
        cases ls with
        | nil => rfl
        | cons l2 ls =>
          simp only [mapInit, consHead]
          congr 1
          cases l with
          | nil =>
            have hd : d = '\n' := by
              by_cases hd : d = '\n'
              · exact hd
              · have : splitNL (d :: r) = consHead d (splitNL r) := by simp [splitNL, hd]
                rw [this] at hs
                generalize splitNL r = q at hs
                cases q <;> simp [consHead] at hs
            have hcr : c ≠ '\r' := fun h' => h ⟨h', hd⟩
            simp [dropCR, hcr]
          | cons x l =>
            simp only [dropCR]
            have : (c :: x :: l).getLast? = (x :: l).getLast? := by simp [List.getLast?_cons_cons]
            rw [this]
            split <;> rfl

/-! ### Examples -/

namespace Demo

/-- Two packages: the first has a file with a syntax error, the second a test file. -/
def pkgs : List GoPkg := [{ dir := "/m/a", goFiles := ["a.go", "bad.go", "x.s"] }, { dir := "/m/b", goFiles := ["b.go"], testGoFiles := ["b_test.go"] }]

def read (p : String) : Except String (List Char) := .ok p.toList

def parse (p : String) (c : List Char) : Option Nat × Option String :=
  if p = "/m/a/bad.go" then (none, some "syntax error") else (some c.length, none)

def env : Env Nat := envOf 2 1 true true read parse pkgs

/-- A schedule in which two readers and a parser work. -/
def sched : List Actor :=
  [.main, .main, .main, .main, .reader 0 false, .main, .main, .reader 1 false, .reader 1 false, .reader 0 false,
   .reader 1 false, .main, .main, .parser 0 false, .reader 0 false, .parser 0 false, .parser 0 false, .parser 0 false, .parser 0 false,
   .parser 0 false, .parser 0 false, .parser 0 false, .parser 0 false, .parser 0 false,
   .reader 0 false, .reader 0 false, .reader 0 false, .parser 0 false, .parser 0 false, .parser 0 false, .parser 0 false, .parser 0 false,
   .reader 1 false, .reader 1 false, .reader 1 false, .parser 0 false, .parser 0 false, .parser 0 false, .parser 0 false, .parser 0 false,
   .main, .main, .main, .main, .main, .reader 0 true, .main, .main, .main, .reader 1 true, .parser 0 true]

end Demo

theorem exec_reach {sched : List Actor} {s s' : State σ} (h : Reach E s) (he : exec E s sched = some s') : Reach E s' := by
  induction sched generalizing s with
  | nil => simp only [exec, Option.some.injEq] at he; subst he; exact h
  | cons a r ih =>
    simp only [exec, Option.bind_eq_some_iff] at he
    obtain ⟨s1, h1, h2⟩ := he
    exact ih (h.step h1) h2

/-- Non-vacuity: a run that returns, with the packages it returns. -/
example : ∃ s, Reach Demo.env s ∧ s.main = .ret [0, 2, 3] ∧
    group [0, 2, 3] 0 (Demo.pkgs.map (paths true)) = [[0], [2, 3]] ∧
    (s.mem 0).syn = some 9 ∧ (∀ r ∈ s.readers, r = .exited) := by
  have : (exec Demo.env (init Demo.env) Demo.sched).map (fun s => (s.main, (s.mem 0).syn, decide (∀ r ∈ s.readers, r = .exited))) =
      some (.ret [0, 2, 3], some 9, true) := by decide +kernel
  obtain ⟨s, h, h1⟩ := Option.map_eq_some_iff.1 this
  simp only [Prod.mk.injEq, decide_eq_true_eq] at h1
  exact ⟨s, exec_reach .init h, h1.1, by decide +kernel, h1.2.1, h1.2.2⟩

example : ∀ p ∈ Demo.pkgs, ∀ f ∈ paths true p, ∃ c, Demo.read f = .ok c := fun _ _ f _ => ⟨f.toList, rfl⟩

example : normCRLF "package a\r\n\r\nvar x = `a\r`\n".toList = "package a\n\nvar x = `a\r`\n".toList := by decide

/-! ### Counterexample -/

namespace Wrong

/-- One package with a file that is too large to be read (load.go:230-237). -/
def env : Env Nat := envOf 1 1 false true (fun _ => .error "file size 2000000 large than 1048576") (fun _ c => (some c.length, none))
  [{ dir := "/m/a", goFiles := ["bindata.go"] }]

/-- The reader announces that it is done with the file before it sets the error (load.go:111-112), and the filter loop looks
at the file in between. -/
def sched : List Actor :=
  [.main, .main, .reader 0 false, .reader 0 false, .reader 0 false, .main, .main, .main, .main, .main]

/-- **C68** is false of the code for files that cannot be read: a run exists in which LoadPackages returns, although errors
are filtered, a file that could not be read, with no error and no syntax tree. -/
theorem C68_unreadable_kept : ∃ s, Reach env s ∧ s.main = .ret [0] ∧ env.filterErr = true ∧ (s.mem 0).err = none ∧ (s.mem 0).syn = none := by
  have : (exec env (init env) sched).map (fun s => (s.main, (s.mem 0).err, (s.mem 0).syn)) = some (.ret [0], none, none) := by
    decide +kernel
  obtain ⟨s, h, h1⟩ := Option.map_eq_some_iff.1 this
  simp only [Prod.mk.injEq] at h1
  exact ⟨s, exec_reach .init h, h1.1, rfl, h1.2.1, h1.2.2⟩

end Wrong

end Verif.Instrument.Load
