import Verif.Cmd.HandoffProps

/-!
# C96: every run, after any history, links objects with the traps it selected
-/

namespace Verif.Cmd.Handoff

open Verif.Instrument.FuncTrap (TrapFile trapSum)

theorem snoc_induction {A : Type} {P : List A → Prop} (h0 : P []) (hs : ∀ l a, P l → P (l ++ [a])) (l : List A) : P l := by
  have : ∀ r : List A, P r.reverse := by
    intro r
    induction r with
    | nil => exact h0
    | cons a r ih => rw [List.reverse_cons]; exact hs _ _ ih
  have h := this l.reverse
  rwa [List.reverse_reverse] at h

/-! ### Prefixes of a history -/

theorem once_prefix {evs : List Event} {e : Event} (h : Spec.Once (evs ++ [e])) : Spec.Once evs := by
  intro pre mid post r d sel inh d' sel' inh' he
  exact h pre mid (post ++ [e]) r d sel inh d' sel' inh' (by rw [he]; simp)

theorem one_prefix {evs : List Event} {e : Event} (h : Spec.OneAtATime (evs ++ [e])) : Spec.OneAtATime evs := by
  intro pre mid post r r' d sel inh sel' inh' he
  exact h pre mid (post ++ [e]) r r' d sel inh sel' inh' (by rw [he]; simp)

theorem nest_prefix {evs : List Event} {e : Event} (h : Spec.NotNested (evs ++ [e])) : Spec.NotNested evs :=
  fun r d sel inh hm => h r d sel inh (List.mem_append_left _ hm)

theorem tidy_prefix {evs : List Event} {e : Event} (h : Spec.TidyRuns (evs ++ [e])) : Spec.TidyRuns evs :=
  fun r d sel inh hm => h r d sel inh (List.mem_append_left _ hm)

theorem tell_prefix {hash : Str → Str} {evs : List Event} {e : Event} (h : Spec.SumsTell hash (evs ++ [e])) :
    Spec.SumsTell hash evs :=
  ⟨h.1, fun r d sel inh r' d' sel' inh' hm hm' =>
    h.2 r d sel inh r' d' sel' inh' (List.mem_append_left _ hm) (List.mem_append_left _ hm')⟩

/-- A run is begun once, so its selection is known. -/
theorem begin_unique {evs : List Event} (h : Spec.Once evs) {r d d' : Nat} {sel sel' : Selection}
    {inh inh' : Option Nat} (h1 : Event.begin r d sel inh ∈ evs) (h2 : Event.begin r d' sel' inh' ∈ evs) :
    sel = sel' := by
  obtain ⟨pre, post, he⟩ := List.append_of_mem h1
  rw [he] at h2
  rcases List.mem_append.mp h2 with h2 | h2
  · obtain ⟨a, b, hab⟩ := List.append_of_mem h2
    exact absurd (by rw [he, hab]) (h a b post r d' sel' inh' d sel inh)
  · rcases List.mem_cons.mp h2 with h2 | h2
    · cases h2; rfl
    · obtain ⟨a, b, hab⟩ := List.append_of_mem h2
      exact absurd (by rw [he, hab]; simp) (h pre a b r d sel inh d' sel' inh')

/-! ### What a run with a selection tells -/

/-- What the compiler of a run that is alone is told. -/
def toldOf : Selection → Option (List (Str × PkgMapping))
  | [] => none
  | p :: ps => some (buildMapping (p :: ps))

theorem trapped_toldOf {sel : Selection} {t : Target} {src : List CFile} :
    trapped (toldOf sel) t src = trapped (some (buildMapping sel)) t src := by
  cases sel with
  | nil => rfl
  | cons p ps => rfl

theorem lookup_agree {hash : Str → Str} {sel sel' : Selection} (h1 : (sel.map (·.path)).Nodup)
    (h2 : (sel'.map (·.path)).Nodup) (hh : ∀ x, hash x ≠ [])
    (htell : ∀ p ∈ sel, ∀ q ∈ sel', p.path = q.path →
      trapSum hash p.files p.hasVarTrap = trapSum hash q.files q.hasVarTrap → p = q)
    {k : Str} (he : ((buildSums hash sel).lookup k).getD [] = ((buildSums hash sel').lookup k).getD []) :
    (buildMapping sel).lookup k = (buildMapping sel').lookup k := by
  have hnone : ∀ {s : Selection}, (s.map (·.path)).Nodup → (buildSums hash s).lookup k = none →
      (buildMapping s).lookup k = none := by
    intro s hs hn
    cases hl : (buildMapping s).lookup k with
    | none => rfl
    | some v =>
      obtain ⟨p, hp, hk, _⟩ := (lookup_mapping hs _ _).mp hl
      rw [(lookup_sums hs k _).mpr ⟨p, hp, hk, rfl⟩] at hn
      cases hn
  cases hs : (buildSums hash sel).lookup k with
  | none =>
    cases hs' : (buildSums hash sel').lookup k with
    | none => rw [hnone h1 hs, hnone h2 hs']
    | some v' =>
      rw [hs, hs'] at he
      obtain ⟨q, _, _, hv⟩ := (lookup_sums h2 _ _).mp hs'
      exact absurd (hv.trans he.symm) (hh _)
  | some v =>
    obtain ⟨p, hp, hpk, hv⟩ := (lookup_sums h1 _ _).mp hs
    cases hs' : (buildSums hash sel').lookup k with
    | none =>
      rw [hs, hs'] at he
      exact absurd (hv.trans he) (hh _)
    | some v' =>
      obtain ⟨q, hq, hqk, hv'⟩ := (lookup_sums h2 _ _).mp hs'
      rw [hs, hs'] at he
      have hvv : v = v' := he
      have hpq : p = q := htell p hp q hq (hpk.trans hqk.symm) (by rw [hv, hv', hvv])
      rw [(lookup_mapping h1 _ _).mpr ⟨p, hp, hpk, rfl⟩, (lookup_mapping h2 _ _).mpr ⟨q, hq, hqk, rfl⟩, hpq]

theorem trapped_agree {hash : Str → Str} {sel sel' : Selection} (h1 : (sel.map (·.path)).Nodup)
    (h2 : (sel'.map (·.path)).Nodup) (hh : ∀ x, hash x ≠ [])
    (htell : ∀ p ∈ sel, ∀ q ∈ sel', p.path = q.path →
      trapSum hash p.files p.hasVarTrap = trapSum hash q.files q.hasVarTrap → p = q)
    {t : Target} {src : List CFile} (hc : t.command = false)
    (he : ((buildSums hash sel).lookup t.path).getD [] = ((buildSums hash sel').lookup t.path).getD []) :
    trapped (toldOf sel) t src = trapped (toldOf sel') t src := by
  have hseen : t.seen = t.path := by rw [Target.seen, hc]; rfl
  rw [trapped_toldOf, trapped_toldOf, trapped, trapped, hseen, lookup_agree h1 h2 hh htell he]

/-! ### The invariant -/

theorem upd_same {α : Type} (f : Nat → α) (i : Nat) (v : α) : upd f i v i = v := if_pos rfl
theorem upd_other {α : Type} (f : Nat → α) {i j : Nat} (v : α) (h : j ≠ i) : upd f i v j = f j := if_neg h

/-- What the two files of a live run contain. -/
structure Content.Ok (hash : Str → Str) (f : Files) (r : Run) : Prop where
  map : r.sel ≠ [] → r.phase = .mapDone ∨ r.phase = .sumOpen ∨ r.phase = .going → f.map = .whole (buildMapping r.sel)
  sum : r.sel ≠ [] → r.phase = .going → f.sum = .whole (buildSums hash r.sel)

structure RunOk (hash : Str → Str) (evs : List Event) (s : State) (i : Nat) (r : Run) : Prop where
  begun : Event.begin i r.dir r.sel none ∈ evs
  env : r.env = envFor r.dir r.sel none
  live : r.phase ≠ .over → ∃ pre post, evs = pre ++ .begin i r.dir r.sel none :: post ∧ .stop i ∉ post
  sums : r.sums = none ∨ r.sums = some (buildSums hash r.sel)
  content : r.phase ≠ .over → Content.Ok hash (s.files r.dir) r

structure Inv (hash : Str → Str) (evs : List Event) (s : State) : Prop where
  ok : ∀ i r, s.runs i = some r → RunOk hash evs s i r
  alone : ∀ i j r q, s.runs i = some r → s.runs j = some q → r.phase ≠ .over → q.phase ≠ .over → r.dir = q.dir → i = j
  cache : ∀ k a, (k, a) ∈ s.cache → k.target.command = false →
    ∃ i d sel, Event.begin i d sel none ∈ evs ∧ k.sum = ((buildSums hash sel).lookup k.target.path).getD [] ∧
      a = trapped (toldOf sel) k.target k.src
  built : ∀ b ∈ s.built, b.target.command = false →
    ∃ r, s.runs b.run = some r ∧ b.traps = trapped (toldOf r.sel) b.target b.src

theorem RunOk.weaken {hash : Str → Str} {evs : List Event} {s s' : State} {i : Nat} {r : Run} {e : Event}
    (h : RunOk hash evs s i r) (hf : r.phase ≠ .over → s'.files r.dir = s.files r.dir)
    (he : r.phase ≠ .over → e ≠ .stop i) : RunOk hash (evs ++ [e]) s' i r := by
  refine ⟨List.mem_append_left _ h.begun, h.env, fun hl => ?_, h.sums, fun hl => by rw [hf hl]; exact h.content hl⟩
  obtain ⟨pre, post, hev, hns⟩ := h.live hl
  refine ⟨pre, post ++ [e], by rw [hev]; simp, ?_⟩
  intro hm
  rcases List.mem_append.mp hm with hm | hm
  · exact hns hm
  · exact he hl (List.mem_singleton.mp hm).symm

/-- One run changes, with the files of its project. -/
theorem inv_change {hash : Str → Str} {evs : List Event} {s s' : State} {i : Nat} {r r' : Run} {e : Event}
    (hinv : Inv hash evs s) (hr : s.runs i = some r) (hruns : s'.runs = upd s.runs i (some r'))
    (hdir : r'.dir = r.dir) (hsel : r'.sel = r.sel) (henv : r'.env = r.env)
    (hlive : r'.phase ≠ .over → r.phase ≠ .over) (hstop : ∀ j, e = .stop j → j = i ∧ r'.phase = .over)
    (hsums : r'.sums = none ∨ r'.sums = some (buildSums hash r.sel))
    (hfiles : ∀ d, d ≠ r.dir → s'.files d = s.files d) (hover : r.phase = .over → s'.files = s.files)
    (hcont : r'.phase ≠ .over → Content.Ok hash (s'.files r.dir) r')
    (hcache : ∀ x ∈ s'.cache, x ∈ s.cache ∨ (x.1.target.command = false →
      ∃ i d sel, Event.begin i d sel none ∈ evs ∧ x.1.sum = ((buildSums hash sel).lookup x.1.target.path).getD [] ∧
        x.2 = trapped (toldOf sel) x.1.target x.1.src))
    (hbuilt : ∀ b ∈ s'.built, b ∈ s.built ∨ (b.run = i ∧ (b.target.command = false →
      b.traps = trapped (toldOf r.sel) b.target b.src))) :
    Inv hash (evs ++ [e]) s' := by
  have hri := hinv.ok i r hr
  have hrun : ∀ j q, s'.runs j = some q → (j = i ∧ q = r') ∨ (j ≠ i ∧ s.runs j = some q) := by
    intro j q hq
    rw [hruns] at hq
    by_cases hj : j = i
    · rw [hj, upd_same] at hq; exact .inl ⟨hj, (Option.some.inj hq).symm⟩
    · rw [upd_other _ _ hj] at hq; exact .inr ⟨hj, hq⟩
  refine ⟨?_, ?_, ?_, ?_⟩
  · intro j q hq
    rcases hrun j q hq with ⟨rfl, rfl⟩ | ⟨hj, hq⟩
    · refine ⟨?_, by rw [henv, hri.env, hdir, hsel], fun hl => ?_, by rw [hsel]; exact hsums,
        fun hl => by rw [hdir]; exact hcont hl⟩
      · rw [hdir, hsel]; exact List.mem_append_left _ hri.begun
      · obtain ⟨pre, post, hev, hns⟩ := hri.live (hlive hl)
        refine ⟨pre, post ++ [e], by rw [hev, hdir, hsel]; simp, ?_⟩
        intro hm
        rcases List.mem_append.mp hm with hm | hm
        · exact hns hm
        · exact hl (hstop _ (List.mem_singleton.mp hm).symm).2
    · refine (hinv.ok j q hq).weaken (fun hl => ?_) (fun _ he => hj (hstop j he).1)
      by_cases hd : q.dir = r.dir
      · by_cases ho : r.phase = .over
        · rw [hover ho]
        · exact absurd (hinv.alone j i q r hq hr hl ho hd) hj
      · exact hfiles _ hd
  · intro a b qa qb ha hb hla hlb hd
    rcases hrun a qa ha with ⟨rfl, rfl⟩ | ⟨ha1, ha2⟩
    · rcases hrun b qb hb with ⟨rfl, rfl⟩ | ⟨hb1, hb2⟩
      · rfl
      · exact hinv.alone _ _ r qb hr hb2 (hlive hla) hlb (by rw [← hdir]; exact hd)
    · rcases hrun b qb hb with ⟨rfl, rfl⟩ | ⟨hb1, hb2⟩
      · exact hinv.alone _ _ qa r ha2 hr hla (hlive hlb) (by rw [← hdir]; exact hd)
      · exact hinv.alone _ _ qa qb ha2 hb2 hla hlb hd
  · intro k a hka hc
    rcases hcache (k, a) hka with h | h
    · obtain ⟨i, d, sel, hb, h1, h2⟩ := hinv.cache k a h hc
      exact ⟨i, d, sel, List.mem_append_left _ hb, h1, h2⟩
    · obtain ⟨i, d, sel, hb, h1, h2⟩ := h hc
      exact ⟨i, d, sel, List.mem_append_left _ hb, h1, h2⟩
  · intro b hb hc
    rcases hbuilt b hb with h | ⟨h, h'⟩
    · obtain ⟨q, hq, ht⟩ := hinv.built b h hc
      by_cases hbi : b.run = i
      · refine ⟨r', by rw [hruns, hbi, upd_same], ?_⟩
        rw [hbi, hr] at hq
        rw [ht, hsel, Option.some.inj hq]
      · exact ⟨q, by rw [hruns, upd_other _ _ hbi]; exact hq, ht⟩
    · exact ⟨r', by rw [hruns, h, upd_same], by rw [hsel]; exact h' hc⟩

/-- Nothing changes. -/
theorem inv_same {hash : Str → Str} {evs : List Event} {s : State} {e : Event} (hinv : Inv hash evs s)
    (he : ∀ j, e = .stop j → s.runs j = none) : Inv hash (evs ++ [e]) s := by
  refine ⟨fun i r hr => (hinv.ok i r hr).weaken (fun _ => rfl) (fun _ h => ?_), hinv.alone, ?_, hinv.built⟩
  · rw [he i h] at hr; cases hr
  · intro k a hka hc
    obtain ⟨i, d, sel, hb, h⟩ := hinv.cache k a hka hc
    exact ⟨i, d, sel, List.mem_append_left _ hb, h⟩

/-- In a run that has started `go`, the sums read are those of its selection. -/
theorem readSums_eq {hash : Str → Str} {evs : List Event} {s : State} {i : Nat} {r : Run} (h : RunOk hash evs s i r)
    (hg : r.phase = .going) : readSums s.files r = buildSums hash r.sel := by
  rw [readSums]
  rcases h.sums with hs | hs
  · rw [hs]
    dsimp only
    rw [h.env]
    cases hsel : r.sel with
    | nil => rfl
    | cons p ps =>
      rw [envFor]
      dsimp only
      rw [(h.content (by rw [hg]; decide)).sum (by rw [hsel]; exact List.cons_ne_nil _ _) hg, hsel]
  · rw [hs]

theorem told_eq {hash : Str → Str} {evs : List Event} {s : State} {i : Nat} {r : Run} (h : RunOk hash evs s i r)
    (hg : r.phase = .going) : told s.files r = some (toldOf r.sel) := by
  rw [told, h.env]
  cases hsel : r.sel with
  | nil => rfl
  | cons p ps =>
    rw [envFor]
    dsimp only
    rw [(h.content (by rw [hg]; decide)).map (by rw [hsel]; exact List.cons_ne_nil _ _) (.inr (.inr hg)), hsel]
    rfl

theorem mem_of_lookup {α β : Type} [BEq α] [LawfulBEq α] : ∀ {l : List (α × β)} {k : α} {v : β}, l.lookup k = some v → (k, v) ∈ l := by
  intro l
  induction l with
  | nil => intro k v h; cases h
  | cons x l ih =>
    intro k v h
    obtain ⟨a, b⟩ := x
    rw [List.lookup] at h
    by_cases hk : k == a
    · rw [hk] at h
      rw [eq_of_beq hk, Option.some.inj h]
      exact List.mem_cons_self
    · rw [show (k == a) = false by simpa using hk] at h
      exact List.mem_cons_of_mem _ (ih h)

theorem inv_run (hash : Str → Str) (evs : List Event) (honce : Spec.Once evs) (hone : Spec.OneAtATime evs)
    (hnest : Spec.NotNested evs) (htidy : Spec.TidyRuns evs) (htell : Spec.SumsTell hash evs) :
    Inv hash evs (run hash evs) := by
  revert honce hone hnest htidy htell
  induction evs using snoc_induction with
  | h0 =>
    intro _ _ _ _ _
    refine ⟨?_, ?_, ?_, ?_⟩
    · intro i r h; cases h
    · intro i j r q h; cases h
    · intro k a h; cases h
    · intro b h; cases h
  | hs evs e ih =>
    intro honce hone hnest htidy htell
    have hinv := ih (once_prefix honce) (one_prefix hone) (nest_prefix hnest) (tidy_prefix htidy) (tell_prefix htell)
    rw [run, List.foldl_append]
    show Inv hash (evs ++ [e]) (apply hash (run hash evs) e)
    generalize run hash evs = s at hinv
    clear ih
    cases e with
    | begin i d sel inh =>
      rw [apply]
      have hinh : inh = none := hnest i d sel inh (List.mem_append_right _ List.mem_cons_self)
      subst hinh
      cases hr : s.runs i with
      | some r =>
        obtain ⟨a, b, hab⟩ := List.append_of_mem (hinv.ok i r hr).begun
        exact absurd (by rw [hab]) (honce a b [] i r.dir r.sel none d sel none)
      | none =>
        dsimp only
        have hrun : ∀ j q, upd s.runs i (some ⟨d, sel, envFor d sel none, none, .start⟩) j = some q →
            (j = i ∧ q = ⟨d, sel, envFor d sel none, none, .start⟩) ∨ (j ≠ i ∧ s.runs j = some q) := by
          intro j q hq
          by_cases hj : j = i
          · rw [hj, upd_same] at hq; exact .inl ⟨hj, (Option.some.inj hq).symm⟩
          · rw [upd_other _ _ hj] at hq; exact .inr ⟨hj, hq⟩
        have hdirs : ∀ j q, s.runs j = some q → q.phase ≠ .over → q.dir ≠ d := by
          intro j q hq hl hd
          obtain ⟨pre, post, hev, hns⟩ := (hinv.ok j q hq).live hl
          exact hns (hone pre post [] j i q.dir q.sel none sel none (by rw [hev, hd]))
        refine ⟨?_, ?_, ?_, ?_⟩
        · intro j q hq
          rcases hrun j q hq with ⟨rfl, rfl⟩ | ⟨hj, hq⟩
          · refine ⟨List.mem_append_right _ List.mem_cons_self, rfl, fun _ => ⟨evs, [], rfl, by simp⟩, .inl rfl, fun _ => ⟨?_, ?_⟩⟩
            · intro _ h; rcases h with h | h | h <;> cases h
            · intro _ h; cases h
          · exact (hinv.ok j q hq).weaken (fun _ => rfl) (fun _ h => by cases h)
        · intro a b qa qb ha hb hla hlb hd
          rcases hrun a qa ha with ⟨rfl, rfl⟩ | ⟨_, ha2⟩
          · rcases hrun b qb hb with ⟨rfl, rfl⟩ | ⟨_, hb2⟩
            · rfl
            · exact absurd hd.symm (hdirs _ _ hb2 hlb)
          · rcases hrun b qb hb with ⟨rfl, rfl⟩ | ⟨_, hb2⟩
            · exact absurd hd (hdirs _ _ ha2 hla)
            · exact hinv.alone _ _ qa qb ha2 hb2 hla hlb hd
        · intro k a hka hc
          obtain ⟨i', d', sel', hb, h⟩ := hinv.cache k a hka hc
          exact ⟨i', d', sel', List.mem_append_left _ hb, h⟩
        · intro b hb hc
          obtain ⟨q, hq, ht⟩ := hinv.built b hb hc
          refine ⟨q, ?_, ht⟩
          dsimp only
          rw [upd_other _ _ (fun h => by rw [h, hr] at hq; cases hq)]
          exact hq
    | reset i =>
      rw [apply]
      cases hr : s.runs i with
      | none => exact inv_same hinv (fun j h => by cases h)
      | some r =>
        dsimp only
        by_cases hp : r.phase = .start
        · rw [if_pos hp]
          refine inv_change (r := r) (r' := r) hinv hr ?_ rfl rfl rfl id (fun j h => by cases h) (hinv.ok i r hr).sums
            (fun d hd => upd_other _ _ hd) (fun h => by rw [hp] at h; cases h) (fun _ => ⟨?_, ?_⟩)
            (fun x hx => .inl hx) (fun b hb => .inl hb)
          · funext j
            by_cases hj : j = i
            · rw [hj, upd_same]; exact hr
            · rw [upd_other _ _ hj]
          · intro _ h; rw [hp] at h; rcases h with h | h | h <;> cases h
          · intro _ h; rw [hp] at h; cases h
        · rw [if_neg hp]; exact inv_same hinv (fun j h => by cases h)
    | step i =>
      rw [apply]
      cases hr : s.runs i with
      | none => exact inv_same hinv (fun j h => by cases h)
      | some r =>
        dsimp only
        have hri := hinv.ok i r hr
        rw [stepRun]
        cases hp : r.phase with
        | start =>
          dsimp only
          cases hsel : r.sel with
          | nil =>
            refine inv_change (r := r) hinv hr rfl rfl hsel.symm rfl (fun _ => by rw [hp]; decide) (fun j h => by cases h) hri.sums
              (fun d hd => rfl) (fun _ => rfl) (fun _ => ⟨fun h => absurd rfl h, fun h => absurd rfl h⟩)
              (fun x hx => .inl hx) (fun b hb => .inl hb)
          | cons p ps =>
            refine inv_change (r := r) hinv hr rfl rfl hsel.symm rfl (fun _ => by rw [hp]; decide) (fun j h => by cases h) hri.sums
              (fun d hd => upd_other _ _ hd) (fun h => by rw [hp] at h; cases h) (fun _ => ⟨?_, ?_⟩)
              (fun x hx => .inl hx) (fun b hb => .inl hb)
            · intro _ h; rcases h with h | h | h <;> cases h
            · intro _ h; cases h
        | mapOpen =>
          dsimp only
          refine inv_change (r := r) hinv hr rfl rfl rfl rfl (fun _ => by rw [hp]; decide) (fun j h => by cases h) hri.sums
            (fun d hd => upd_other _ _ hd) (fun h => by rw [hp] at h; cases h) (fun _ => ⟨?_, ?_⟩)
            (fun x hx => .inl hx) (fun b hb => .inl hb)
          · intro _ _; dsimp only; rw [upd_same]
          · intro _ h; cases h
        | mapDone =>
          dsimp only
          refine inv_change (r := r) hinv hr rfl rfl rfl rfl (fun _ => by rw [hp]; decide) (fun j h => by cases h) hri.sums
            (fun d hd => upd_other _ _ hd) (fun h => by rw [hp] at h; cases h) (fun _ => ⟨?_, ?_⟩)
            (fun x hx => .inl hx) (fun b hb => .inl hb)
          · intro hs _; dsimp only; rw [upd_same]; exact (hri.content (by rw [hp]; decide)).map hs (.inl hp)
          · intro _ h; cases h
        | sumOpen =>
          dsimp only
          refine inv_change (r := r) hinv hr rfl rfl rfl rfl (fun _ => by rw [hp]; decide) (fun j h => by cases h) hri.sums
            (fun d hd => upd_other _ _ hd) (fun h => by rw [hp] at h; cases h) (fun _ => ⟨?_, ?_⟩)
            (fun x hx => .inl hx) (fun b hb => .inl hb)
          · intro hs _; dsimp only; rw [upd_same]; exact (hri.content (by rw [hp]; decide)).map hs (.inr (.inl hp))
          · intro hs _; dsimp only; rw [upd_same]
        | going => exact inv_same hinv (fun j h => by cases h)
        | over => exact inv_same hinv (fun j h => by cases h)
    | use i t src =>
      rw [apply]
      cases hr : s.runs i with
      | none => exact inv_same hinv (fun j h => by cases h)
      | some r =>
        dsimp only
        have hri := hinv.ok i r hr
        by_cases hp : r.phase = .going
        · rw [if_pos hp, readSums_eq hri hp]
          cases hl : s.cache.lookup (keyOf (buildSums hash r.sel) t src) with
          | none =>
            exact inv_change (r := r) hinv hr rfl rfl rfl rfl id (fun j h => by cases h) (.inr rfl)
              (fun d hd => rfl) (fun _ => rfl)
              (fun hl => ⟨(hri.content hl).map, (hri.content hl).sum⟩) (fun x hx => .inl hx) (fun b hb => .inl hb)
          | some a =>
            refine inv_change (r := r) hinv hr rfl rfl rfl rfl id (fun j h => by cases h) (.inr rfl)
              (fun d hd => rfl) (fun _ => rfl)
              (fun hl => ⟨(hri.content hl).map, (hri.content hl).sum⟩) (fun x hx => .inl hx) (fun b hb => ?_)
            rcases List.mem_cons.mp hb with rfl | hb
            · refine .inr ⟨rfl, fun hc => ?_⟩
              obtain ⟨i', d', sel', hb', hk, ha⟩ := hinv.cache _ _ (mem_of_lookup hl) hc
              dsimp only at hc ⊢
              rw [ha]
              exact trapped_agree (hash := hash) (tidy_prefix htidy _ _ _ _ hb').1 (tidy_prefix htidy _ _ _ _ hri.begun).1 htell.1
                ((tell_prefix htell).2 _ _ _ _ _ _ _ _ hb' hri.begun) hc hk.symm
            · exact .inl hb
        · rw [if_neg hp]; exact inv_same hinv (fun j h => by cases h)
    | compile i t src =>
      rw [apply]
      cases hr : s.runs i with
      | none => exact inv_same hinv (fun j h => by cases h)
      | some r =>
        dsimp only
        have hri := hinv.ok i r hr
        by_cases hp : r.phase = .going
        · rw [if_pos hp, readSums_eq hri hp, told_eq hri hp]
          refine inv_change (r := r) hinv hr rfl rfl rfl rfl id (fun j h => by cases h) (.inr rfl)
            (fun d hd => rfl) (fun _ => rfl)
            (fun hl => ⟨(hri.content hl).map, (hri.content hl).sum⟩) (fun x hx => ?_) (fun b hb => ?_)
          · rcases List.mem_cons.mp hx with rfl | hx
            · exact .inr fun _ => ⟨i, r.dir, r.sel, hri.begun, rfl, rfl⟩
            · exact .inl hx
          · rcases List.mem_cons.mp hb with rfl | hb
            · exact .inr ⟨rfl, fun _ => rfl⟩
            · exact .inl hb
        · rw [if_neg hp]; exact inv_same hinv (fun j h => by cases h)
    | stop i =>
      rw [apply]
      cases hr : s.runs i with
      | none => exact inv_same hinv (fun j h => by cases h; exact hr)
      | some r =>
        dsimp only
        refine inv_change (r := r) hinv hr rfl rfl rfl rfl (fun h => absurd rfl h) (fun j h => by cases h; exact ⟨rfl, rfl⟩)
          (hinv.ok i r hr).sums (fun d hd => rfl) (fun _ => rfl) (fun h => absurd rfl h) (fun x hx => .inl hx) (fun b hb => .inl hb)

/-- **C96 (partial)**: after any history of runs in any projects, with `-a`, killed anywhere, overlapping when their
projects differ, each package object that a run links, compiled by it or taken from the build cache, has traps in exactly
the declarations which this run selected. Missing: runs at the same time in one project, runs that select nothing inside
programs built by another run, commands outside the main module, and files with a `//line` directive above the `package`
clause (all counterexamples below), and selections that md5 of their run-together names cannot tell apart (C51). -/
theorem C96_runs_partial (hash : Str → Str) (evs : List Event) (honce : Spec.Once evs) (hone : Spec.OneAtATime evs)
    (hnest : Spec.NotNested evs) (htidy : Spec.TidyRuns evs) (htell : Spec.SumsTell hash evs) :
    ∀ b ∈ (run hash evs).built, b.target.command = false → Spec.Plain b.src →
      (∃ d sel inh, .begin b.run d sel inh ∈ evs) ∧
      ∀ d sel inh, .begin b.run d sel inh ∈ evs → Spec.AsSelected sel b.target b.src b.traps := by
  intro b hb hc hp
  have hinv := inv_run hash evs honce hone hnest htidy htell
  obtain ⟨r, hr, ht⟩ := hinv.built b hb hc
  have hri := hinv.ok _ r hr
  refine ⟨⟨_, _, _, hri.begun⟩, ?_⟩
  intro d sel inh hbeg
  rw [begin_unique honce hbeg hri.begun, ht, trapped_toldOf]
  exact C96_told_partial _ _ _ (htidy _ _ _ _ hri.begun) hc hp

/-- Runs that are alone in their projects do not fail for want of a readable selection: a package that such a run compiles
is linked. -/
theorem C96_compiles (hash : Str → Str) (evs : List Event) (honce : Spec.Once evs) (hone : Spec.OneAtATime evs)
    (hnest : Spec.NotNested evs) (htidy : Spec.TidyRuns evs) (htell : Spec.SumsTell hash evs)
    (i : Nat) (r : Run) (hr : (run hash evs).runs i = some r) (hg : r.phase = .going) (t : Target) (src : List CFile) :
    ∃ traps, ⟨i, t, src, traps⟩ ∈ (run hash (evs ++ [.compile i t src])).built := by
  have hri := (inv_run hash evs honce hone hnest htidy htell).ok i r hr
  refine ⟨trapped (toldOf r.sel) t src, ?_⟩
  rw [run, List.foldl_append]
  show _ ∈ (apply hash (run hash evs) (.compile i t src)).built
  rw [apply, hr]
  dsimp only
  rw [if_pos hg, told_eq hri hg]
  exact List.mem_cons_self

/-- Whatever else is going on, an unreadable selection (while another run of the project writes it) makes the compilation
fail; nothing is compiled without the traps because of it, and nothing gets into the cache. -/
theorem C96_unreadable (hash : Str → Str) (evs : List Event) (i d : Nat) (r : Run) (t : Target) (src : List CFile)
    (hr : (run hash evs).runs i = some r) (he : r.env = some d) (hm : ∀ m, ((run hash evs).files d).map ≠ .whole m) :
    (run hash (evs ++ [.compile i t src])).built = (run hash evs).built ∧
      (run hash (evs ++ [.compile i t src])).cache = (run hash evs).cache := by
  have ht : told (run hash evs).files r = none := by
    rw [told, he]
    dsimp only
    cases hc : ((run hash evs).files d).map with
    | whole m => exact absurd hc (hm m)
    | absent => rfl
    | broken => rfl
  have hrun : run hash (evs ++ [.compile i t src]) = apply hash (run hash evs) (.compile i t src) := by
    rw [run, List.foldl_append]; rfl
  rw [hrun, apply, hr]
  dsimp only
  by_cases hg : r.phase = .going
  · rw [if_pos hg, ht]; exact ⟨rfl, rfl⟩
  · rw [if_neg hg]; exact ⟨rfl, rfl⟩

/-! ### Concrete cases -/

def hx : Str → Str := fun s => 'h' :: s

def fGet : TrapFile := ⟨"get.go".toList, ["Get".toList], []⟩
def fPut : TrapFile := ⟨"get.go".toList, ["Put".toList], ["Store".toList]⟩
def selGet : Selection := [⟨"ex.com/dep".toList, false, [fGet]⟩]
def selPut : Selection := [⟨"ex.com/dep".toList, false, [fPut]⟩]
def dep : Target := ⟨"ex.com/dep".toList, false⟩
def dGet : Decl := ⟨false, "Get".toList, true⟩
def dPut : Decl := ⟨false, "Put".toList, true⟩
def dStore : Decl := ⟨true, "Store".toList, true⟩
def depSrc : List CFile := [⟨"get.go".toList, "get.go".toList, [dGet, dPut, dStore]⟩]

/-- Run 0 selects `Get` and is killed while it writes; run 1 selects `Put` and compiles; run 2, again with `Get`,
compiles, run 3 in another project selects `Put` and overlaps with it; run 4 selects nothing. -/
def history : List Event :=
  [.begin 0 0 selGet none, .step 0, .step 0, .step 0, .stop 0,
   .begin 1 0 selPut none, .reset 1, .step 1, .step 1, .step 1, .step 1, .use 1 dep depSrc, .compile 1 dep depSrc, .stop 1,
   .begin 2 0 selGet none, .step 2, .begin 3 1 selPut none, .step 3, .step 2, .step 2, .step 3, .step 3, .step 2, .step 3,
   .compile 2 dep depSrc, .use 3 dep depSrc, .stop 2,
   .begin 4 0 [] none, .step 4, .use 4 dep depSrc, .compile 4 dep depSrc]

/-- Run 1 has opened the file of the selection while run 0 builds: the hypotheses of `C96_unreadable` are met. -/
example : ∃ r, (run hx [.begin 0 0 selGet none, .step 0, .step 0, .step 0, .step 0, .begin 1 0 selPut none, .step 1]).runs 0
      = some r ∧ r.phase = .going ∧ r.env = some 0 ∧
    ∀ m, ((run hx [.begin 0 0 selGet none, .step 0, .step 0, .step 0, .step 0, .begin 1 0 selPut none, .step 1]).files 0).map
      ≠ .whole m := by
  refine ⟨_, rfl, rfl, rfl, ?_⟩
  intro m h
  have e : ((run hx [.begin 0 0 selGet none, .step 0, .step 0, .step 0, .step 0, .begin 1 0 selPut none, .step 1]).files 0).map
      = .broken := rfl
  rw [e] at h
  cases h

/-- The begins of a history, in order. -/
def begins (evs : List Event) : List (Nat × Nat × Selection × Option Nat) :=
  evs.filterMap fun e => match e with | .begin r d sel inh => some (r, d, sel, inh) | _ => none

theorem mem_begins {evs : List Event} {r d : Nat} {sel : Selection} {inh : Option Nat}
    (h : Event.begin r d sel inh ∈ evs) : (r, d, sel, inh) ∈ begins evs :=
  List.mem_filterMap.mpr ⟨_, h, rfl⟩

/-- A test for `Spec.Once`. -/
theorem once_of {evs : List Event} (h : ((begins evs).map (·.1)).Nodup) : Spec.Once evs := by
  intro pre mid post r d sel inh d' sel' inh' he
  rw [he] at h
  simp only [begins, List.filterMap_append, List.filterMap_cons, List.map_append, List.map_cons, List.append_assoc,
    List.cons_append] at h
  have h2 := (List.nodup_append.mp h).2.1
  rw [List.nodup_cons] at h2
  exact h2.1 (List.mem_append_right _ List.mem_cons_self)

/-- A test for `Spec.OneAtATime`: `open_` are the runs that have begun and not stopped. -/
def oneAtATime : List (Nat × Nat) → List Event → Bool
  | _, [] => true
  | open_, .begin r d _ _ :: es => open_.all (fun x => x.2 != d) && oneAtATime ((r, d) :: open_) es
  | open_, .stop r :: es => oneAtATime (open_.filter fun x => x.1 != r) es
  | open_, _ :: es => oneAtATime open_ es

theorem one_of_open : ∀ (mid post : List Event) (o : List (Nat × Nat)) (r r' d : Nat) (sel : Selection) (inh : Option Nat),
    (r, d) ∈ o → oneAtATime o (mid ++ .begin r' d sel inh :: post) = true → Event.stop r ∈ mid := by
  intro mid
  induction mid with
  | nil =>
    intro post o r r' d sel inh ho h
    rw [List.nil_append, oneAtATime, Bool.and_eq_true] at h
    have := List.all_eq_true.mp h.1 (r, d) ho
    simp at this
  | cons e mid ih =>
    intro post o r r' d sel inh ho h
    rw [List.cons_append] at h
    cases e with
    | begin a b c x =>
      rw [oneAtATime, Bool.and_eq_true] at h
      exact List.mem_cons_of_mem _ (ih post _ r r' d sel inh (List.mem_cons_of_mem _ ho) h.2)
    | stop a =>
      rw [oneAtATime] at h
      by_cases ha : a = r
      · rw [ha]; exact List.mem_cons_self
      · refine List.mem_cons_of_mem _ (ih post _ r r' d sel inh (List.mem_filter.mpr ⟨ho, ?_⟩) h)
        exact bne_iff_ne.mpr fun e => ha e.symm
    | reset a => exact List.mem_cons_of_mem _ (ih post o r r' d sel inh ho h)
    | step a => exact List.mem_cons_of_mem _ (ih post o r r' d sel inh ho h)
    | use a b c => exact List.mem_cons_of_mem _ (ih post o r r' d sel inh ho h)
    | compile a b c => exact List.mem_cons_of_mem _ (ih post o r r' d sel inh ho h)

theorem one_of : ∀ (pre mid post : List Event) (o : List (Nat × Nat)) (r r' d : Nat) (sel sel' : Selection)
    (inh inh' : Option Nat),
    oneAtATime o (pre ++ .begin r d sel inh :: mid ++ .begin r' d sel' inh' :: post) = true → Event.stop r ∈ mid := by
  intro pre
  induction pre with
  | nil =>
    intro mid post o r r' d sel sel' inh inh' h
    rw [List.nil_append, List.cons_append, oneAtATime, Bool.and_eq_true] at h
    exact one_of_open mid post _ r r' d sel' inh' List.mem_cons_self h.2
  | cons e pre ih =>
    intro mid post o r r' d sel sel' inh inh' h
    cases e with
    | begin a b c x =>
      rw [List.cons_append, List.cons_append, oneAtATime, Bool.and_eq_true] at h
      exact ih mid post _ r r' d sel sel' inh inh' h.2
    | stop a => exact ih mid post _ r r' d sel sel' inh inh' h
    | reset a => exact ih mid post _ r r' d sel sel' inh inh' h
    | step a => exact ih mid post _ r r' d sel sel' inh inh' h
    | use a b c => exact ih mid post _ r r' d sel sel' inh inh' h
    | compile a b c => exact ih mid post _ r r' d sel sel' inh inh' h

theorem oneAtATime_sound {evs : List Event} (h : oneAtATime [] evs = true) : Spec.OneAtATime evs := by
  intro pre mid post r r' d sel inh sel' inh' he
  rw [he] at h
  exact one_of pre mid post [] r r' d sel sel' inh inh' h

/-- A test for the other hypotheses. -/
def fine (evs : List Event) : Bool :=
  decide ((∀ x ∈ begins evs, (x.2.2.1.map (·.path)).Nodup ∧ ∀ p ∈ x.2.2.1, (p.files.map (·.name)).Nodup) ∧
    ∀ x ∈ begins evs, ∀ y ∈ begins evs, ∀ p ∈ x.2.2.1, ∀ q ∈ y.2.2.1, p.path = q.path →
        trapSum hx p.files p.hasVarTrap = trapSum hx q.files q.hasVarTrap → p = q)

theorem fine_sound {evs : List Event} (h : fine evs = true) : Spec.TidyRuns evs ∧ Spec.SumsTell hx evs := by
  have h := of_decide_eq_true h
  refine ⟨fun r d sel inh hm => h.1 _ (mem_begins hm), fun x => List.cons_ne_nil _ _, ?_⟩
  intro r d sel inh r' d' sel' inh' hm hm'
  exact h.2 _ (mem_begins hm) _ (mem_begins hm')

theorem notNested_of {evs : List Event} (h : ∀ x ∈ begins evs, x.2.2.2 = none) : Spec.NotNested evs :=
  fun _ _ _ _ hm => h _ (mem_begins hm)

/-- The history above meets the hypotheses of `C96_runs_partial`. -/
example : Spec.Once history ∧ Spec.OneAtATime history ∧ Spec.NotNested history ∧ Spec.TidyRuns history ∧
    Spec.SumsTell hx history :=
  ⟨once_of (by decide), oneAtATime_sound (by decide), notNested_of (by decide), (fine_sound (by decide)).1,
    (fine_sound (by decide)).2⟩

/-- ... and links: the run with `Put` compiles and its namesake in the other project takes the object from the cache, the
one with `Get` gets its own, the one with nothing a plain one. -/
example : (run hx history).built.map (fun b => (b.run, b.traps.map (·.2))) =
    [(4, []), (3, [dPut, dStore]), (2, [dGet]), (1, [dPut, dStore])] := by decide

example : Spec.Tidy selPut ∧ dep.command = false ∧ Spec.Plain depSrc := by
  refine ⟨⟨by decide, by decide⟩, rfl, ?_⟩
  unfold Spec.Plain; decide

/-! ### Where it fails -/

theorem not_selected {sel : Selection} {t : Target} {src : List CFile} {traps : List (Str × Decl)} {n : Str} {d : Decl}
    (hm : (n, d) ∈ traps) (hno : ¬ Spec.Chosen sel t.path n d.intf d.id) : ¬ Spec.AsSelected sel t src traps :=
  fun h => hno ((h n d).mp hm).2.2

/-- Run 1 overwrites the selection after run 0, in the same project, has read its sums. -/
def overlap : List Event :=
  [.begin 0 0 selGet none, .step 0, .step 0, .step 0, .step 0, .use 0 dep depSrc,
   .begin 1 0 selPut none, .step 1, .step 1, .compile 0 dep depSrc, .stop 0, .stop 1,
   .begin 2 0 selGet none, .step 2, .step 2, .step 2, .step 2, .use 2 dep depSrc]

/-- Two runs at the same time in one project: the object of run 0 has the traps of run 1, and it stays in the cache: run 2,
alone and long after, with the selection of run 0, links it too. There a mock of `Get` has no effect, and `Put` has a trap
that nobody asked for. -/
theorem C96_counterexample_overlap : Spec.Once overlap ∧ Spec.NotNested overlap ∧ Spec.TidyRuns overlap ∧
    Spec.SumsTell hx overlap ∧ .begin 2 0 selGet none ∈ overlap ∧
    ∃ b ∈ (run hx overlap).built, b.run = 2 ∧ b.target = dep ∧ b.src = depSrc ∧ b.traps.map (·.2) = [dPut, dStore] ∧
      ¬ Spec.AsSelected selGet b.target b.src b.traps := by
  refine ⟨once_of (by decide), notNested_of (by decide), (fine_sound (by decide)).1, (fine_sound (by decide)).2, ?_,
    ⟨2, dep, depSrc, [("get.go".toList, dPut), ("get.go".toList, dStore)]⟩, by decide, rfl, rfl, rfl, rfl, ?_⟩
  · unfold overlap; simp
  · refine not_selected (n := "get.go".toList) (d := dPut) List.mem_cons_self ?_
    rintro ⟨p, hp, _, f, hf, _, hid⟩
    rw [List.mem_singleton.mp hp] at hf
    rw [List.mem_singleton.mp hf] at hid
    revert hid; decide

/-- Two runs with the *same* selection: run 0 reads the sums while run 1 writes them again. -/
def halfWritten : List Event :=
  [.begin 0 0 selGet none, .step 0, .step 0, .step 0, .step 0,
   .begin 1 0 selGet none, .step 1, .step 1, .step 1, .compile 0 dep depSrc, .step 1, .stop 0, .stop 1,
   .begin 2 1 [] none, .step 2, .use 2 dep depSrc]

/-- An unreadable file of sums is taken as an empty one (the error is dropped), so the object with traps goes into the cache
under the key of the plain package: a run in another project that selects nothing links it. -/
theorem C96_counterexample_half_written : Spec.Once halfWritten ∧ Spec.NotNested halfWritten ∧
    Spec.TidyRuns halfWritten ∧ Spec.SumsTell hx halfWritten ∧ .begin 2 1 [] none ∈ halfWritten ∧
    ∃ b ∈ (run hx halfWritten).built, b.run = 2 ∧ b.target = dep ∧ b.src = depSrc ∧ b.traps.map (·.2) = [dGet] ∧
      ¬ Spec.AsSelected [] b.target b.src b.traps := by
  refine ⟨once_of (by decide), notNested_of (by decide), (fine_sound (by decide)).1, (fine_sound (by decide)).2, ?_,
    ⟨2, dep, depSrc, [("get.go".toList, dGet)]⟩, by decide, rfl, rfl, rfl, rfl, ?_⟩
  · unfold halfWritten; simp
  · refine not_selected (n := "get.go".toList) (d := dGet) List.mem_cons_self ?_
    rintro ⟨p, hp, _⟩
    cases hp

/-- Run 1 is started by a test of run 0, in another project, and selects nothing. -/
def nested : List Event :=
  [.begin 0 0 selGet none, .step 0, .step 0, .step 0, .step 0, .begin 1 1 [] (some 0), .step 1, .compile 1 dep depSrc]

/-- `xgo` sets the variables only when it has something to hand over, and never removes those it was started with: a run
that selects nothing, started from a test under `xgo test`, compiles with the traps of the outer run. -/
theorem C96_counterexample_nested : Spec.Once nested ∧ Spec.OneAtATime nested ∧ Spec.TidyRuns nested ∧
    Spec.SumsTell hx nested ∧ .begin 1 1 [] (some 0) ∈ nested ∧
    ∃ b ∈ (run hx nested).built, b.run = 1 ∧ b.target = dep ∧ b.src = depSrc ∧ b.traps.map (·.2) = [dGet] ∧
      ¬ Spec.AsSelected [] b.target b.src b.traps := by
  refine ⟨once_of (by decide), oneAtATime_sound (by decide), (fine_sound (by decide)).1, (fine_sound (by decide)).2, ?_,
    ⟨1, dep, depSrc, [("get.go".toList, dGet)]⟩, by decide, rfl, rfl, rfl, rfl, ?_⟩
  · unfold nested; simp
  · refine not_selected (n := "get.go".toList) (d := dGet) List.mem_cons_self ?_
    rintro ⟨p, hp, _⟩
    cases hp

/-- One run, alone: `go` compiles a command with `-p main`, and the selection has its import path; and a file with a
`//line` directive above the `package` clause, such as goyacc writes, is looked up under the name in the directive. Nothing
of either is trapped, although it is selected. -/
theorem C96_counterexample_names :
    (∃ t src, t = (⟨"ex.com/dep".toList, true⟩ : Target) ∧ Spec.Plain src ∧
      ¬ Spec.AsSelected selGet t src (trapped (some (buildMapping selGet)) t src)) ∧
    (∃ src, ¬ Spec.AsSelected selGet dep src (trapped (some (buildMapping selGet)) dep src)) := by
  refine ⟨⟨_, depSrc, rfl, ?_, ?_⟩, [⟨"get.go".toList, "get.y".toList, [dGet]⟩], ?_⟩
  · unfold Spec.Plain; decide
  · intro h
    have := (h "get.go".toList dGet).mpr ⟨⟨_, List.mem_cons_self, rfl, List.mem_cons_self⟩, rfl,
      _, List.mem_cons_self, rfl, _, List.mem_cons_self, rfl, .inl ⟨rfl, List.mem_cons_self⟩⟩
    revert this; decide
  · intro h
    have := (h "get.go".toList dGet).mpr ⟨⟨_, List.mem_cons_self, rfl, List.mem_cons_self⟩, rfl,
      _, List.mem_cons_self, rfl, _, List.mem_cons_self, rfl, .inl ⟨rfl, List.mem_cons_self⟩⟩
    revert this; decide

end Verif.Cmd.Handoff
