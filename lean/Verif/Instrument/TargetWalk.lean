import Verif.Instrument.TargetProps
/-
Proofs for C67, second part: the traversal of function bodies finds the calls of interest, each with a scope that agrees with
Go's.
-/
namespace Verif.Instrument.Target

variable {P : Prog}

/-! ### The code's scope during the traversal -/

/-- `lk` are the names declared by `if`, `for` and `switch` statements that are over; `mu` contains the names of multi-valued
    definitions and of `x := x`. -/
structure Inv (P : Prog) (mu : List String) (s : Scope) (env : Env) (lk : List String) : Prop where
  r : R P s env
  imports : s.imports = env.imports
  frames : s.frames ≠ []
  /-- where the definitions come from -/
  defs : ∀ f ∈ s.frames, ∀ x d, f.defs.lookup x = some d →
    d.multi = true ∨ (d.split = true ∧ d.expr = .ident x) ∨ x ∈ lk ∨ shortIn env.locals x
  split : ∀ x d, getDef s.frames x = some d → d.multi = true ∨ d.split = false ∨ SplitOk s.frames x
  /-- the variables declared by `:=` are known -/
  short : ∀ l, l <:+ env.locals → ∀ x e tl, look l x = some (.short e, tl) → x ∉ mu →
    (¬ boundIn tl x) ∧ ∃ d, getDef s.frames x = some d ∧ d.expr = e ∧ d.multi = false ∧ d.split = false ∧ d.id.2 = x

variable {mu : List String}

theorem suffix_cons_iff {α : Type} {l : List α} {a : α} {r : List α} : l <:+ a :: r ↔ l = a :: r ∨ l <:+ r :=
  List.suffix_cons_iff

theorem Inv.mono {s : Scope} {env : Env} {lk lk' : List String} (h : Inv P mu s env lk) (hl : ∀ x ∈ lk, x ∈ lk') :
    Inv P mu s env lk' := by
  refine { h with defs := fun f hf x d hd => ?_ }
  rcases h.defs f hf x d hd with h | h | h | h
  · exact .inl h
  · exact .inr (.inl h)
  · exact .inr (.inr (.inl (hl x h)))
  · exact .inr (.inr (.inr h))

/-- leaving the scope of some names that the code does not forget -/
theorem Inv.weaken {s : Scope} {env env' : Env} {lk lk' : List String} (h : Inv P mu s env' lk)
    (hp : env'.pkg = env.pkg) (hi : env'.imports = env.imports) (hs : env.locals <:+ env'.locals)
    (hk : ∀ x, x ∈ lk ∨ shortIn env'.locals x → x ∈ lk' ∨ shortIn env.locals x) : Inv P mu s env lk' := by
  have e : env = env'.outer env.locals := by cases env; cases env'; simp_all [Env.outer]
  exact
  { r := by rw [e]; exact h.r.outer hs
    imports := h.imports.trans hi
    frames := h.frames
    defs := fun f hf x d hd => by
      rcases h.defs f hf x d hd with h | h | h
      · exact .inl h
      · exact .inr (.inl h)
      · exact .inr (.inr (hk x h))
    split := h.split
    short := fun l hl => h.short l (hl.trans hs) }

theorem has_push {s : Scope} {ns : List String} {x : String} :
    has (s.push ns).frames x = (ns.contains x || has s.frames x) := by
  simp [Scope.push, has]

/-- The frames change, but not the definitions; the new names are not global. -/
theorem Inv.frames_eq {s s' : Scope} {env : Env} {lk : List String} (h : Inv P mu s env lk) (hp : s'.pkg = s.pkg)
    (hi : s'.imports = s.imports) (hn : s'.frames ≠ [])
    (hd : ∀ x, getDef s'.frames x = getDef s.frames x)
    (hf : ∀ f ∈ s'.frames, ∀ x d, f.defs.lookup x = some d → ∃ f' ∈ s.frames, f'.defs.lookup x = some d)
    (hg : ∀ x, Global P env.pkg env.imports x → has s'.frames x = false) : Inv P mu s' env lk := by
  have hsp : ∀ x, SplitOk s.frames x → SplitOk s'.frames x := by
    intro x h f hfm d hfd
    obtain ⟨f', a, b⟩ := hf f hfm x d hfd
    exact h f' a d b
  exact
  { r :=
    { pkg := hp.trans h.r.pkg
      file := by rw [hp, hi]; exact h.r.file
      agree := by rw [hi]; exact h.r.agree
      efresh := h.r.efresh
      glob := hg
      loc := by
        intro l hl x hx
        rw [hp, hi]
        refine ⟨(h.r.loc l hl x hx).1, ?_⟩
        intro d hgd
        rw [hd] at hgd
        rcases (h.r.loc l hl x hx).2 d hgd with h1 | h1 | h1
        · exact .inl h1
        · exact .inr (.inl h1)
        · exact .inr (.inr ⟨h1.1, hsp x h1.2⟩) }
    imports := hi.trans h.imports
    frames := hn
    defs := fun f hfm x d hfd => by
      obtain ⟨f', a, b⟩ := hf f hfm x d hfd
      exact h.defs f' a x d b
    split := fun x d hgd => by
      rw [hd] at hgd
      rcases h.split x d hgd with h1 | h1 | h1
      · exact .inl h1
      · exact .inr (.inl h1)
      · exact .inr (.inr (hsp x h1))
    short := fun l hl x e tl he hm => by rw [hd]; exact h.short l hl x e tl he hm }

theorem Inv.push {s : Scope} {env : Env} {lk : List String} (h : Inv P mu s env lk) {ns : List String}
    (hn : ∀ x ∈ ns, ¬ Global P env.pkg env.imports x) : Inv P mu (s.push ns) env lk := by
  refine h.frames_eq rfl rfl (by simp [Scope.push]) ?_ ?_ ?_
  · intro x; simp [Scope.push, getDef]
  · intro f hf x d hd
    simp only [Scope.push, List.mem_cons] at hf
    rcases hf with rfl | hf
    · simp at hd
    · exact ⟨f, hf, hd⟩
  · intro x hx
    rw [has_push, h.r.glob x hx]
    simp only [Bool.or_false]
    rw [← Bool.not_eq_true]
    intro hc
    exact hn x (List.contains_iff_mem.1 hc) hx

theorem Inv.push_nil {s : Scope} {env : Env} {lk : List String} (h : Inv P mu s env lk) : Inv P mu s.push env lk :=
  h.push (by simp)

theorem Inv.add {s : Scope} {env : Env} {lk : List String} (h : Inv P mu s env lk) {ns : List String}
    (hn : ∀ x ∈ ns, ¬ Global P env.pkg env.imports x) : Inv P mu (s.add ns) env lk := by
  have hnil := h.frames
  have hglob := h.r.glob
  obtain ⟨pkg, im, fr⟩ := s
  cases fr with
  | nil => exact absurd rfl hnil
  | cons f rest =>
    refine h.frames_eq rfl rfl (by simp [Scope.add]) ?_ ?_ ?_
    · intro x; simp [Scope.add, getDef]
    · intro f' hf x d hd
      simp only [Scope.add, List.mem_cons] at hf
      rcases hf with rfl | hf
      · exact ⟨f, by simp, hd⟩
      · exact ⟨f', by simp [hf], hd⟩
    · intro x hx
      have := hglob x hx
      simp only [Scope.add, has, Bool.or_eq_false_iff] at this ⊢
      refine ⟨⟨?_, this.1.2⟩, this.2⟩
      rw [← Bool.not_eq_true, List.contains_iff_mem, List.mem_append]
      rintro (hc | hc)
      · exact hn x hc hx
      · have := this.1.1; rw [← Bool.not_eq_true, List.contains_iff_mem] at this; exact this hc

theorem lookup_none_of {β : Type} {l : List (String × β)} {x : String} (h : ∀ b, (x, b) ∉ l) : l.lookup x = none := by
  cases hl : l.lookup x with
  | none => rfl
  | some b => exact absurd (lookup_mem hl) (h b)

theorem look_mem {l : Locals} {x : String} {b : Bind} {tl : Locals} (h : look l x = some (b, tl)) :
    ∃ g ∈ l, (x, b) ∈ g := by
  induction l with
  | nil => cases h
  | cons g r ih =>
    simp only [look] at h
    split at h
    · rename_i b' hb; cases h; exact ⟨g, List.mem_cons_self, lookup_mem hb⟩
    · obtain ⟨g', a, c⟩ := ih h; exact ⟨g', List.mem_cons_of_mem _ a, c⟩

theorem look_bound {l l' : Locals} (hl : l <:+ l') {x : String} (h : (look l x).isSome = true) : boundIn l' x := by
  obtain ⟨⟨b, tl⟩, hb⟩ := Option.isSome_iff_exists.1 h
  obtain ⟨g, a, c⟩ := look_mem hb
  exact ⟨g, hl.subset a, b, c⟩

def Bind.isShort : Bind → Bool
  | .short _ => true
  | _ => false

theorem shortIn_cons {g : List (String × Bind)} {l : Locals} {x : String} (h : shortIn l x) : shortIn (g :: l) x := by
  obtain ⟨g', a, b⟩ := h; exact ⟨g', List.mem_cons_of_mem _ a, b⟩

/-- Names that are not declared by `:=`: the code need not know of them. -/
theorem Inv.bind {s : Scope} {env : Env} {lk : List String} (h : Inv P mu s env lk) {ns : List String}
    (hfr : Fresh P env lk ns) {g : List (String × Bind)}
    (hg : ∀ x b, (x, b) ∈ g → x ∈ ns ∧ blank x = false ∧ b.isShort = false) : Inv P mu s (env.bind g) lk := by
  refine { r := ⟨h.r.pkg, h.r.file, h.r.agree, h.r.efresh, h.r.glob, ?_⟩, imports := h.imports, frames := h.frames, defs := ?_,
           split := h.split, short := ?_ }
  · intro l hl x hx
    rcases suffix_cons_iff.1 hl with rfl | hl
    · simp only [look] at hx
      cases hlk : g.lookup x with
      | none =>
        rw [hlk] at hx
        obtain ⟨h1, h2⟩ := h.r.loc env.locals List.suffix_rfl x hx
        refine ⟨h1, fun d hd => ?_⟩
        rcases h2 d hd with h3 | ⟨h3, tl, h4, h5⟩ | h3
        · exact .inl h3
        · exact .inr (.inl ⟨h3, tl, by simp only [look, hlk]; exact h4, h5⟩)
        · exact .inr (.inr h3)
      | some b =>
        obtain ⟨h1, h2, h3⟩ := hg x b (lookup_mem hlk)
        obtain ⟨h4, h5, h6⟩ := hfr x h1 h2
        refine ⟨⟨?_, ?_, ?_⟩, ?_⟩
        · rw [h.r.pkg]
          cases hp : P env.pkg x with
          | none => rfl
          | some d => exact absurd (.inl (by rw [hp]; rfl)) h4
        · rw [h.imports]
          cases hp : env.imports.lookup x with
          | none => rfl
          | some d => exact absurd (.inr (.inl (by rw [hp]; rfl))) h4
        · exact fun hp => h4 (.inr (.inr (.inl hp)))
        · intro d hd
          obtain ⟨f, hf, hfd⟩ := getDef_mem hd
          rcases h.defs f hf x d hfd with h7 | h7 | h7 | h7
          · exact .inl h7
          · rcases h.split x d hd with h8 | h8 | h8
            · exact .inl h8
            · rw [h7.1] at h8; cases h8
            · exact .inr (.inr ⟨h7.1, h8⟩)
          · exact absurd h7 h6
          · exact absurd h7 h5
    · exact h.r.loc l hl x hx
  · intro f hf x d hd
    rcases h.defs f hf x d hd with h7 | h7 | h7 | h7
    · exact .inl h7
    · exact .inr (.inl h7)
    · exact .inr (.inr (.inl h7))
    · exact .inr (.inr (.inr (shortIn_cons h7)))
  · intro l hl x e tl he hm
    rcases suffix_cons_iff.1 hl with rfl | hl
    · simp only [look] at he
      split at he
      · rename_i b hb
        cases he
        have := (hg _ _ (lookup_mem hb)).2.2
        cases this
      · exact h.short env.locals List.suffix_rfl x e tl he hm
    · exact h.short l hl x e tl he hm

/-- `s'` is `s` with the definitions `ds` -/
structure Ext (s s' : Scope) (ds : List (String × Define)) : Prop where
  pkg : s'.pkg = s.pkg
  imports : s'.imports = s.imports
  ne : s'.frames ≠ []
  get : ∀ x, getDef s'.frames x = (ds.lookup x).or (getDef s.frames x)
  mem : ∀ f ∈ s'.frames, ∀ x d, f.defs.lookup x = some d →
    ds.lookup x = some d ∨ ∃ f' ∈ s.frames, f'.defs.lookup x = some d
  has : ∀ x, ds.lookup x = none → has s.frames x = false → has s'.frames x = false

theorem ext_add {s : Scope} (h : s.frames ≠ []) (ds : List (String × Define)) : Ext s (s.addDefs ds) ds := by
  obtain ⟨pkg, im, fr⟩ := s
  cases fr with
  | nil => exact absurd rfl h
  | cons f rest =>
    refine ⟨rfl, rfl, by simp [Scope.addDefs], ?_, ?_, ?_⟩
    · intro x
      simp only [Scope.addDefs, getDef, List.lookup_append]
      cases ds.lookup x <;> rfl
    · intro f' hf x d hd
      simp only [Scope.addDefs, List.mem_cons] at hf
      rcases hf with rfl | hf
      · simp only [List.lookup_append] at hd
        cases hl : ds.lookup x with
        | some d' => rw [hl] at hd; exact .inl (by simpa using hd)
        | none => rw [hl] at hd; exact .inr ⟨f, by simp, by simpa using hd⟩
      · exact .inr ⟨f', by simp [hf], hd⟩
    · intro x hx hh
      simp only [Scope.addDefs, Target.has, List.lookup_append, hx, Option.none_or] at hh ⊢
      exact hh

theorem ext_split (s : Scope) (ds : List (String × Define)) : Ext s (s.splitWith ds) ds := by
  refine ⟨rfl, rfl, by simp [Scope.splitWith], ?_, ?_, ?_⟩
  · intro x
    simp only [Scope.splitWith, getDef]
    cases ds.lookup x <;> rfl
  · intro f' hf x d hd
    simp only [Scope.splitWith, List.mem_cons] at hf
    rcases hf with rfl | hf
    · exact .inl hd
    · exact .inr ⟨f', hf, hd⟩
  · intro x hx hh
    simp [Scope.splitWith, Target.has, hx, hh]

/-- What a new definition may be. -/
def DefOk (P : Prog) (mu : List String) (s : Scope) (env : Env) (g : List (String × Bind)) (x : String) (d : Define) : Prop :=
  (d.multi = true ∧ x ∈ mu) ∨
  (d.split = true ∧ d.expr = .ident x ∧ SplitOk s.frames x ∧ x ∈ mu) ∨
  (d.multi = false ∧ d.split = false ∧ ¬ boundIn env.locals x ∧ g.lookup x = some (.short d.expr) ∧
    Scoped P env (used d.expr) ∧ d.id.2 = x)

theorem Inv.ext {s s' : Scope} {env : Env} {lk : List String} (h : Inv P mu s env lk) {ds : List (String × Define)}
    (he : Ext s s' ds) {g : List (String × Bind)}
    (hng : ∀ x d, ds.lookup x = some d → ¬ Global P env.pkg env.imports x)
    (hgd : ∀ x, ds.lookup x = none → g.lookup x = none)
    (hok : ∀ x d, ds.lookup x = some d → DefOk P mu s env g x d) : Inv P mu s' (env.bind g) lk := by
  have hsp : ∀ x, ds.lookup x = none → SplitOk s.frames x → SplitOk s'.frames x := by
    intro x hx hs f hf d hd
    rcases he.mem f hf x d hd with h1 | ⟨f', a, b⟩
    · rw [hx] at h1; cases h1
    · exact hs f' a d b
  have hsn : ∀ x d, ds.lookup x = some d → d.split = true → d.expr = .ident x → SplitOk s.frames x →
      SplitOk s'.frames x := by
    intro x d hx h1 h2 hs f hf d' hd
    rcases he.mem f hf x d' hd with h3 | ⟨f', a, b⟩
    · rw [hx] at h3; cases h3; exact .inr ⟨h1, h2⟩
    · exact hs f' a d' b
  have loc0 : ∀ x, ¬ Global P env.pkg env.imports x → P s.pkg x = none ∧ s.imports.lookup x = none ∧ x ∉ predeclared := by
    intro x h4
    refine ⟨?_, ?_, ?_⟩
    · rw [h.r.pkg]
      cases hp : P env.pkg x with
      | none => rfl
      | some d => exact absurd (.inl (by rw [hp]; rfl)) h4
    · rw [h.imports]
      cases hp : env.imports.lookup x with
      | none => rfl
      | some d => exact absurd (.inr (.inl (by rw [hp]; rfl))) h4
    · exact fun hp => h4 (.inr (.inr (.inl hp)))
  refine { r := ⟨he.pkg.trans h.r.pkg, by rw [he.pkg, he.imports]; exact h.r.file, by rw [he.imports]; exact h.r.agree, h.r.efresh, ?_, ?_⟩,
           imports := he.imports.trans h.imports, frames := he.ne, defs := ?_, split := ?_, short := ?_ }
  · intro x hx
    refine he.has x ?_ (h.r.glob x hx)
    cases hl : ds.lookup x with
    | none => rfl
    | some d => exact absurd hx (hng x d hl)
  · intro l hl x hx
    rw [he.pkg, he.imports]
    cases hd : ds.lookup x with
    | some d =>
      refine ⟨loc0 x (hng x d hd), ?_⟩
      intro d' hd'
      rw [he.get, hd] at hd'
      cases hd'
      rcases hok x d hd with h1 | ⟨h1, h2, h3, _⟩ | ⟨h1, h2, h3, h4, h5, _⟩
      · exact .inl h1.1
      · exact .inr (.inr ⟨h1, hsn x d hd h1 h2 h3⟩)
      · rcases suffix_cons_iff.1 hl with rfl | hl
        · exact .inr (.inl ⟨h2, env.locals, by simp only [look, h4], h5⟩)
        · exact absurd (look_bound hl hx) h3
    | none =>
      have hg := hgd x hd
      have hx' : ∃ l', l' <:+ env.locals ∧ look l x = look l' x := by
        rcases suffix_cons_iff.1 hl with rfl | hl
        · exact ⟨env.locals, List.suffix_rfl, by simp only [look, hg]⟩
        · exact ⟨l, hl, rfl⟩
      obtain ⟨l', hl', e⟩ := hx'
      obtain ⟨h1, h2⟩ := h.r.loc l' hl' x (e ▸ hx)
      refine ⟨h1, ?_⟩
      intro d hd'
      rw [he.get, hd] at hd'
      rcases h2 d hd' with h3 | ⟨h3, tl, h4, h5⟩ | h3
      · exact .inl h3
      · exact .inr (.inl ⟨h3, tl, e.trans h4, h5⟩)
      · exact .inr (.inr ⟨h3.1, hsp x hd h3.2⟩)
  · intro f hf x d hd
    rcases he.mem f hf x d hd with h1 | ⟨f', a, b⟩
    · rcases hok x d h1 with h2 | ⟨h2, h3, _⟩ | ⟨_, _, _, h4, _, _⟩
      · exact .inl h2.1
      · exact .inr (.inl ⟨h2, h3⟩)
      · exact .inr (.inr (.inr ⟨g, List.mem_cons_self, _, lookup_mem h4⟩))
    · rcases h.defs f' a x d b with h7 | h7 | h7 | h7
      · exact .inl h7
      · exact .inr (.inl h7)
      · exact .inr (.inr (.inl h7))
      · exact .inr (.inr (.inr (shortIn_cons h7)))
  · intro x d hd
    rw [he.get] at hd
    cases hl : ds.lookup x with
    | some d' =>
      rw [hl] at hd
      cases hd
      rcases hok x d hl with h2 | ⟨h2, h3, h4, _⟩ | ⟨_, h2, _⟩
      · exact .inl h2.1
      · exact .inr (.inr (hsn x d hl h2 h3 h4))
      · exact .inr (.inl h2)
    | none =>
      rw [hl] at hd
      rcases h.split x d hd with h1 | h1 | h1
      · exact .inl h1
      · exact .inr (.inl h1)
      · exact .inr (.inr (hsp x hl h1))
  · intro l hl x e tl hlk hm
    rw [he.get]
    cases hd : ds.lookup x with
    | some d =>
      rcases hok x d hd with h1 | h1 | ⟨h1, h2, h3, h4, h5, h6⟩
      · exact absurd h1.2 hm
      · exact absurd h1.2.2.2 hm
      · rcases suffix_cons_iff.1 hl with rfl | hl
        · simp only [look, h4] at hlk
          cases hlk
          exact ⟨h3, d, rfl, rfl, h1, h2, h6⟩
        · exact absurd (look_bound hl (by rw [hlk]; rfl)) h3
    | none =>
      have hg := hgd x hd
      rcases suffix_cons_iff.1 hl with rfl | hl
      · simp only [look, hg] at hlk
        exact h.short _ List.suffix_rfl x e tl hlk hm
      · exact h.short l hl x e tl hlk hm

theorem lookup_map_filter {α β : Type} (z : List (String × α)) (F : String → α → β) (p : String → Bool) (y : String) :
    ((z.map fun (x, e) => (x, F x e)).filter fun (x, _) => p x).lookup y =
      if p y then (z.lookup y).map (F y) else none := by
  induction z with
  | nil => simp
  | cons a z ih =>
    obtain ⟨x, e⟩ := a
    simp only [List.map_cons, List.filter_cons]
    by_cases hp : p x = true
    · simp only [hp, if_true, List.lookup]
      by_cases hx : y = x
      · subst hx; simp [hp]
      · have hb : (y == x) = false := by simpa using hx
        simp only [hb]; exact ih
    · simp only [hp, if_false, List.lookup, Bool.false_eq_true, ih]
      by_cases hx : y = x
      · subst hx; simp [hp]
      · have hb : (y == x) = false := by simpa using hx
        simp only [hb]

theorem lookup_const_filter {β : Type} (l : List String) (F : String → β) (p : String → Bool) (y : String) :
    ((l.map fun x => (x, F x)).filter fun (x, _) => p x).lookup y = if p y ∧ y ∈ l then some (F y) else none := by
  induction l with
  | nil => simp
  | cons x l ih =>
    simp only [List.map_cons, List.filter_cons]
    by_cases hp : p x = true
    · simp only [hp, if_true, List.lookup]
      by_cases hx : y = x
      · subst hx; simp [hp]
      · have hb : (y == x) = false := by simpa using hx
        simp only [hb, ih]; simp [hx]
    · simp only [hp, if_false, Bool.false_eq_true, ih]
      by_cases hx : y = x
      · subst hx; simp [hp]
      · simp [hx]

theorem blank_false {x : String} : blank x = false ↔ x ≠ "_" ∧ x ≠ "" := by simp [blank]

theorem notBlank_eq : (fun (p : String × Define) => decide (p.1 ≠ "_" ∧ p.1 ≠ "")) = fun (x, _) => !blank x := by
  funext ⟨x, d⟩
  simp [blank]

theorem usedEs_mem {es : Exprs} {e : Expr} (h : e ∈ es.toList) {x : String} (hx : x ∈ used e) : x ∈ usedEs es := by
  induction es using Exprs.toList.induct with
  | case1 => simp [Exprs.toList] at h
  | case2 a es ih =>
    simp only [Exprs.toList, List.mem_cons] at h
    simp only [usedEs, List.mem_append]
    rcases h with rfl | h
    · exact .inl hx
    · exact .inr (ih h)

theorem rhsNames_used {es : Exprs} {x : String} (h : x ∈ rhsNames es) : x ∈ usedEs es := by
  induction es using rhsNames.induct with
  | case1 => simp [rhsNames] at h
  | case2 y es hb ih => simp only [rhsNames, hb, if_true] at h; simp [usedEs, ih h]
  | case3 y es hb ih =>
    simp only [rhsNames, hb, if_false, List.mem_cons] at h
    rcases h with rfl | h
    · simp [usedEs, used]
    · simp [usedEs, ih h]
  | case4 a es h1 ih =>
    have : rhsNames (.cons a es) = rhsNames es := by
      cases a <;> first | rfl | exact absurd rfl (h1 _)
    rw [this] at h
    simp [usedEs, ih h]

theorem lookup_map_snd {α β : Type} (l : List (String × α)) (F : α → β) (y : String) :
    (l.map fun p => (p.1, F p.2)).lookup y = (l.lookup y).map F := by
  induction l with
  | nil => rfl
  | cons a l ih =>
    obtain ⟨x, d⟩ := a
    simp only [List.map_cons, List.lookup]
    cases y == x <;> simp [ih]

/-- names declared in the block are bound -/
def Bound (env : Env) (cur : List String) : Prop := ∀ x ∈ cur, blank x = false → boundIn env.locals x

theorem Inv.define {s : Scope} {env : Env} {lk cur lhs : List String} {rhs : Exprs} {id : Nat} (h : Inv P mu s env lk)
    (hd : DefineOk P env lk lhs rhs) (hc : Bound env cur) (hm : multiDefine lhs rhs = true → ∀ x ∈ lhs, x ∈ mu) :
    Inv P mu (define s id lhs rhs) (env.bind (bindDefine cur lhs rhs)) lk := by
  obtain ⟨hng, hd⟩ := hd
  rcases hd with ⟨h1, h2⟩ | hd | ⟨x, hb, rfl, rfl, h1, h2⟩
  · -- multi-valued
    replace hm := hm (by simp [multiDefine, h1])
    obtain ⟨e, es, rfl⟩ : ∃ e es, rhs = .cons e es := by
      cases rhs with
      | nil => simp [Exprs.length] at h2
      | cons e es => exact ⟨e, es, rfl⟩
    have hds : ∀ y, (defines id lhs (.cons e es)).lookup y =
        if (!blank y) = true ∧ y ∈ lhs then some { id := (id, y), expr := e, multi := true } else none := by
      intro y
      simp only [defines, h1, if_false]
      have := lookup_const_filter lhs (fun x => ({ id := (id, x), expr := e, multi := true } : Define)) (fun x => !blank x) y
      rw [← this]
      congr 2
      exact notBlank_eq
    have hg : ∀ y, ¬ ((!blank y) = true ∧ y ∈ lhs) → (bindDefine cur lhs (.cons e es)).lookup y = none := by
      intro y hy
      simp only [bindDefine, h1, if_false]
      have := lookup_const_filter lhs (fun x => Bind.opaque) (fun x => !blank x && !cur.contains x) y
      rw [this, if_neg]
      intro hc
      simp only [Bool.and_eq_true] at hc
      exact hy ⟨hc.1.1, hc.2⟩
    have key : ∀ s' ds, Ext s s' ds → (∀ y d, ds.lookup y = some d → d.multi = true ∧ y ∈ lhs ∧ blank y = false) →
        (∀ y, ds.lookup y = none → ¬ ((!blank y) = true ∧ y ∈ lhs)) →
        Inv P mu s' (env.bind (bindDefine cur lhs (.cons e es))) lk := by
      intro s' ds hx h3 h4
      refine h.ext hx ?_ ?_ ?_
      · intro y d hy; exact hng y (h3 y d hy).2.1 (h3 y d hy).2.2
      · intro y hy; exact hg y (h4 y hy)
      · intro y d hy; exact .inl ⟨(h3 y d hy).1, hm y (h3 y d hy).2.1⟩
    simp only [Target.define]
    split
    · refine key _ _ (ext_split s _) ?_ ?_
      · intro y d hy
        replace hy := (lookup_map_snd _ (fun d : Define => { d with split := true }) y).symm.trans hy
        rw [hds] at hy
        split at hy
        · rename_i hc; cases hy; exact ⟨rfl, hc.2, by simpa using hc.1⟩
        · cases hy
      · intro y hy
        replace hy := (lookup_map_snd _ (fun d : Define => { d with split := true }) y).symm.trans hy
        rw [hds] at hy
        split at hy
        · cases hy
        · assumption
    · refine key _ _ (ext_add h.frames _) ?_ ?_
      · intro y d hy
        rw [hds] at hy
        split at hy
        · rename_i hc; cases hy; exact ⟨rfl, hc.2, by simpa using hc.1⟩
        · cases hy
      · intro y hy
        rw [hds] at hy
        split at hy
        · cases hy
        · assumption
  · -- new names
    obtain ⟨hl, hnd, hnb, hsc⟩ := hd
    have hds : ∀ y, (defines id lhs rhs).lookup y =
        if (!blank y) = true then ((lhs.zip rhs.toList).lookup y).map fun e => { id := (id, y), expr := e } else none := by
      intro y
      simp only [defines, hl, if_true]
      have := lookup_map_filter (lhs.zip rhs.toList) (fun x e => ({ id := (id, x), expr := e } : Define)) (fun x => !blank x) y
      rw [← this]
      congr 2
      exact notBlank_eq
    have hg : ∀ y, (bindDefine cur lhs rhs).lookup y =
        if (!blank y && !cur.contains y) = true then ((lhs.zip rhs.toList).lookup y).map .short else none := by
      intro y
      simp only [bindDefine, hl, if_true]
      exact lookup_map_filter (lhs.zip rhs.toList) (fun x e => Bind.short e) (fun x => !blank x && !cur.contains x) y
    have hin : ∀ y d, (defines id lhs rhs).lookup y = some d →
        blank y = false ∧ y ∈ lhs ∧ ∃ e, d = { id := (id, y), expr := e } ∧ e ∈ rhs.toList ∧
          (lhs.zip rhs.toList).lookup y = some e := by
      intro y d hy
      rw [hds] at hy
      split at hy
      · rename_i hb
        obtain ⟨e, he, rfl⟩ := Option.map_eq_some_iff.1 hy
        have := List.of_mem_zip (lookup_mem he)
        exact ⟨by simpa using hb, this.1, e, rfl, this.2, he⟩
      · cases hy
    have hns : ((defines id lhs rhs).any fun (x, _) => (rhsNames rhs).contains x) = false := by
      rw [← Bool.not_eq_true]
      intro ha
      rw [List.any_eq_true] at ha
      obtain ⟨⟨x, d⟩, hx, hr⟩ := ha
      have hx : x ∈ lhs ∧ blank x = false := by
        simp only [defines, hl, if_true, List.mem_filter, List.mem_map] at hx
        obtain ⟨⟨⟨y, e⟩, hz, he⟩, hb⟩ := hx
        cases he
        exact ⟨(List.of_mem_zip hz).1, blank_false.2 (by simpa using hb)⟩
      have hu := rhsNames_used (List.contains_iff_mem.1 hr)
      refine hng x hx.1 hx.2 ?_
      rcases hsc x hu with h1 | h1 | h1 | h1
      · exact absurd (look_bound List.suffix_rfl h1) (hnb x hx.1 hx.2)
      · exact .inl h1
      · exact .inr (.inl h1)
      · exact .inr (.inr (.inl h1))
    simp only [Target.define, hns, if_false, Bool.false_eq_true]
    refine h.ext (ext_add h.frames _) ?_ ?_ ?_
    · intro y d hy; exact hng y (hin y d hy).2.1 (hin y d hy).1
    · intro y hy
      rw [hds] at hy
      rw [hg]
      split
      · rename_i hb
        rw [if_pos (by simp only [Bool.and_eq_true] at hb; exact hb.1)] at hy
        rw [Option.map_eq_none_iff] at hy
        rw [hy]; rfl
      · rfl
    · intro y d hy
      obtain ⟨h1, h2, e, rfl, h3, h4⟩ := hin y d hy
      refine .inr (.inr ⟨rfl, rfl, hnb y h2 h1, ?_, ?_, rfl⟩)
      · rw [hg, h4, if_pos]; rfl
        simp only [h1, Bool.not_false, Bool.true_and, Bool.not_eq_true']
        rw [← Bool.not_eq_true]
        intro hcc
        exact hnb y h2 h1 (hc y (List.contains_iff_mem.1 hcc) h1)
      · intro z hz; exact hsc z (usedEs_mem h3 hz)
  · -- `x := x`
    replace hm := hm (by simp [multiDefine, Exprs.length]) x (by simp)
    have hb' := blank_false.1 hb
    have hdef : Target.define s id [x] (.cons (.ident x) .nil) =
        s.splitWith [(x, { id := (id, x), expr := .ident x, split := true })] := by
      simp [Target.define, defines, Exprs.length, Exprs.toList, rhsNames, hb'.1, hb'.2]
    rw [hdef]
    refine h.ext (ext_split s _) ?_ ?_ ?_
    · intro y d hy
      have := lookup_mem hy
      simp only [List.mem_singleton, Prod.mk.injEq] at this
      rw [this.1]; exact hng x (by simp) hb
    · intro y hy
      refine lookup_none_of fun b hyb => ?_
      have hyx : y = x := by
        simp [bindDefine, Exprs.length, Exprs.toList] at hyb
        exact hyb.1.1
      subst hyx
      simp at hy
    · intro y d hy
      have := lookup_mem hy
      simp only [List.mem_singleton, Prod.mk.injEq] at this
      obtain ⟨rfl, rfl⟩ := this
      refine .inr (.inl ⟨rfl, rfl, ?_, hm⟩)
      intro f hf d' hd'
      rcases h.defs f hf y d' hd' with h3 | h3 | h3 | h3
      · exact .inl h3
      · exact .inr h3
      · exact absurd h3 h2
      · exact absurd h3 h1

/-! ### Statements -/

theorem envS_pkg (env : Env) (cur : List String) (st : Stmt) : (envS env cur st).1.pkg = env.pkg := by
  cases st <;> rfl

theorem envS_imports (env : Env) (cur : List String) (st : Stmt) : (envS env cur st).1.imports = env.imports := by
  cases st <;> rfl

theorem envS_suffix (env : Env) (cur : List String) (st : Stmt) : env.locals <:+ (envS env cur st).1.locals := by
  cases st <;> first | exact List.suffix_rfl | exact List.suffix_cons _ _

theorem bindOpaque_mem {names : List String} {x : String} {b : Bind} (h : (x, b) ∈ bindOpaque names) :
    x ∈ names ∧ blank x = false ∧ b.isShort = false := by
  simp only [bindOpaque, List.mem_map, List.mem_filter, Prod.mk.injEq] at h
  obtain ⟨y, ⟨h1, h2⟩, rfl, rfl⟩ := h
  exact ⟨h1, by simpa using h2, rfl⟩

theorem bindVar_mem {names : List String} {t : Option Expr} {vals : Exprs} {x : String} {b : Bind}
    (h : (x, b) ∈ bindVar names t vals) : x ∈ names ∧ blank x = false ∧ b.isShort = false := by
  simp only [bindVar, List.mem_filter] at h
  obtain ⟨h, hb⟩ := h
  refine ⟨?_, by simpa using hb, ?_⟩ <;> revert h <;> split
  · simp only [List.mem_map, Prod.mk.injEq]; rintro ⟨y, h, rfl, rfl⟩; exact h
  · split
    · simp only [List.mem_map]; rintro ⟨⟨y, e⟩, h, he⟩; cases he; exact (List.of_mem_zip h).1
    · simp only [List.mem_map, Prod.mk.injEq]; rintro ⟨y, h, rfl, rfl⟩; exact h
  · simp only [List.mem_map, Prod.mk.injEq]; rintro ⟨y, h, rfl, rfl⟩; rfl
  · split
    · simp only [List.mem_map]; rintro ⟨⟨y, e⟩, h, he⟩; cases he; rfl
    · simp only [List.mem_map, Prod.mk.injEq]; rintro ⟨y, h, rfl, rfl⟩; rfl

theorem bindParams_mem {fs : Fields} {x : String} {b : Bind} (h : (x, b) ∈ bindParams fs) :
    x ∈ fs.names ∧ blank x = false ∧ b.isShort = false := by
  induction fs using bindParams.induct with
  | case1 => simp [bindParams] at h
  | case2 ns t rest ih =>
    simp only [bindParams, List.mem_append, List.mem_map, List.mem_filter, Prod.mk.injEq] at h
    rcases h with ⟨y, ⟨h1, h2⟩, rfl, rfl⟩ | h
    · exact ⟨by simp [Fields.names, h1], by simpa using h2, rfl⟩
    · exact ⟨by simp [Fields.names, (ih h).1], (ih h).2⟩

theorem bindParams_has {fs : Fields} {x : String} (h : x ∈ fs.names) (hb : blank x = false) : ∃ b, (x, b) ∈ bindParams fs := by
  induction fs using bindParams.induct with
  | case1 => simp [Fields.names] at h
  | case2 ns t rest ih =>
    simp only [Fields.names, List.mem_append] at h
    simp only [bindParams, List.mem_append, List.mem_map, List.mem_filter, Prod.mk.injEq]
    rcases h with h | h
    · exact ⟨_, .inl ⟨x, ⟨h, by simp [hb]⟩, rfl, rfl⟩⟩
    · obtain ⟨b, hb⟩ := ih h; exact ⟨b, .inr hb⟩

theorem boundIn_head {env : Env} {g : List (String × Bind)} {x : String} {b : Bind} (h : (x, b) ∈ g) :
    boundIn (env.bind g).locals x := ⟨g, List.mem_cons_self, b, h⟩

theorem boundIn_cons {env : Env} {g : List (String × Bind)} {x : String} (h : boundIn env.locals x) :
    boundIn (env.bind g).locals x := by
  obtain ⟨g', h1, h2⟩ := h; exact ⟨g', List.mem_cons_of_mem _ h1, h2⟩

theorem Bound.step {env : Env} {cur : List String} (h : Bound env cur) (st : Stmt) :
    Bound (envS env cur st).1 (envS env cur st).2 := by
  cases st with
  | define id lhs rhs =>
    intro x hx hb
    simp only [envS, List.mem_append] at hx ⊢
    by_cases hc : x ∈ cur
    · exact boundIn_cons (h x hc hb)
    · have hx := hx.resolve_right hc
      by_cases hl : lhs.length = rhs.length
      · have : ∃ e, (x, e) ∈ lhs.zip rhs.toList := by
          have hlen : rhs.toList.length = rhs.length := by
            clear hl
            induction rhs using Exprs.toList.induct with
            | case1 => rfl
            | case2 e es ih => simp [Exprs.toList, Exprs.length, ih]
          have hm : (lhs.zip rhs.toList).map Prod.fst = lhs := List.map_fst_zip (by omega)
          rw [← hm] at hx
          obtain ⟨⟨y, e⟩, h1, rfl⟩ := List.mem_map.1 hx
          exact ⟨e, h1⟩
        obtain ⟨e, he⟩ := this
        refine boundIn_head (b := .short e) ?_
        simp only [bindDefine, hl, if_true, List.mem_filter, List.mem_map]
        refine ⟨⟨(x, e), he, rfl⟩, ?_⟩
        simp [hb, hc]
      · refine boundIn_head (b := Bind.opaque) ?_
        simp only [bindDefine, hl, if_false, List.mem_filter, List.mem_map]
        refine ⟨⟨x, hx, rfl⟩, ?_⟩
        simp [hb, hc]
  | varDecl names t vals =>
    intro x hx hb
    simp only [envS, List.mem_append] at hx ⊢
    rcases hx.symm with hx | hx
    · exact boundIn_cons (h x hx hb)
    · cases t with
      | some t =>
        refine boundIn_head (b := .typed t) ?_
        simp only [bindVar, List.mem_filter, List.mem_map]
        exact ⟨⟨x, hx, rfl⟩, by simp [hb]⟩
      | none =>
        by_cases hl : names.length = vals.length
        · have : ∃ e, (x, e) ∈ names.zip vals.toList := by
            have hlen : vals.toList.length = vals.length := by
              clear hl
              induction vals using Exprs.toList.induct with
              | case1 => rfl
              | case2 e es ih => simp [Exprs.toList, Exprs.length, ih]
            have hm : (names.zip vals.toList).map Prod.fst = names := List.map_fst_zip (by omega)
            rw [← hm] at hx
            obtain ⟨⟨y, e⟩, h1, rfl⟩ := List.mem_map.1 hx
            exact ⟨e, h1⟩
          obtain ⟨e, he⟩ := this
          refine boundIn_head (b := .init e) ?_
          simp only [bindVar, hl, if_true, List.mem_filter, List.mem_map]
          exact ⟨⟨(x, e), he, rfl⟩, by simp [hb]⟩
        · refine boundIn_head (b := Bind.opaque) ?_
          simp only [bindVar, hl, if_false, List.mem_filter, List.mem_map]
          exact ⟨⟨x, hx, rfl⟩, by simp [hb]⟩
  | typeDecl n a t =>
    intro x hx hb
    simp only [envS, List.mem_cons] at hx ⊢
    rcases hx with rfl | hx
    · exact boundIn_head (b := Bind.opaque) (by simp [bindOpaque, hb])
    · exact boundIn_cons (h x hx hb)
  | _ => exact h

theorem envSs_pkg (ss : Stmts) : ∀ (env : Env) (cur : List String), (envSs env cur ss).1.pkg = env.pkg ∧
    (envSs env cur ss).1.imports = env.imports ∧ env.locals <:+ (envSs env cur ss).1.locals ∧
    (Bound env cur → Bound (envSs env cur ss).1 (envSs env cur ss).2) := by
  induction ss using shortNames.induct with
  | case1 => intro env cur; exact ⟨rfl, rfl, List.suffix_rfl, id⟩
  | case2 id lhs rhs ss ih =>
    intro env cur
    obtain ⟨h1, h2, h3, h4⟩ := ih (envS env cur (.define id lhs rhs)).1 (envS env cur (.define id lhs rhs)).2
    exact ⟨h1.trans (envS_pkg env cur _), h2.trans (envS_imports env cur _), (envS_suffix env cur _).trans h3,
      fun h => h4 (h.step _)⟩
  | case3 st ss _ ih =>
    intro env cur
    obtain ⟨h1, h2, h3, h4⟩ := ih (envS env cur st).1 (envS env cur st).2
    exact ⟨h1.trans (envS_pkg env cur st), h2.trans (envS_imports env cur st), (envS_suffix env cur st).trans h3,
      fun h => h4 (h.step st)⟩

theorem shortIn_bind {env : Env} {g : List (String × Bind)} {x : String} (h : shortIn (env.bind g).locals x) :
    shortIn env.locals x ∨ ∃ e, (x, Bind.short e) ∈ g := by
  obtain ⟨g', h1, e, h2⟩ := h
  rcases List.mem_cons.1 h1 with rfl | h1
  · exact .inr ⟨e, h2⟩
  · exact .inl ⟨g', h1, e, h2⟩

theorem shortIn_envSs (ss : Stmts) : ∀ (env : Env) (cur : List String) (x : String),
    shortIn (envSs env cur ss).1.locals x → x ∈ shortNames ss ∨ shortIn env.locals x := by
  induction ss using shortNames.induct with
  | case1 => intro env cur x h; exact .inr h
  | case2 id lhs rhs ss ih =>
    intro env cur x h
    rcases ih _ _ x h with h | h
    · exact .inl (by simp [shortNames, h])
    · rcases shortIn_bind h with h | ⟨e, h⟩
      · exact .inr h
      · left
        simp only [bindDefine] at h
        by_cases hl : lhs.length = rhs.length
        · simp only [hl, if_true, List.mem_filter, List.mem_map] at h
          obtain ⟨⟨⟨y, e'⟩, h1, h2⟩, _⟩ := h
          cases h2
          simp [shortNames, hl, (List.of_mem_zip h1).1]
        · simp [hl] at h
  | case3 st ss hd ih =>
    intro env cur x h
    have hs : shortNames (.cons st ss) = shortNames ss := by
      cases st <;> first | rfl | exact absurd rfl (hd _ _ _)
    rw [hs]
    rcases ih _ _ x h with h | h
    · exact .inl h
    · right
      cases st with
      | define id lhs rhs => exact absurd rfl (hd _ _ _)
      | varDecl names t vals =>
        rcases shortIn_bind h with h | ⟨e, h⟩
        · exact h
        · have := (bindVar_mem h).2.2; cases this
      | typeDecl n a t =>
        rcases shortIn_bind h with h | ⟨e, h⟩
        · exact h
        · have := (bindOpaque_mem h).2.2; cases this
      | _ => exact h

theorem notBlank_mem {ns : List String} {x : String} : x ∈ notBlank ns ↔ x ∈ ns ∧ blank x = false := by
  simp [notBlank, blank]

theorem Fresh.notGlobal {env : Env} {lk ns : List String} (h : Fresh P env lk ns) :
    ∀ x ∈ notBlank ns, ¬ Global P env.pkg env.imports x :=
  fun x hx => (h x (notBlank_mem.1 hx).1 (notBlank_mem.1 hx).2).1

/-- the blank names are never global -/
theorem global_notBlank (hP : ProgOk P) {s : Scope} {env : Env} (hr : R P s env) (hi : s.imports = env.imports) {x : String}
    (h : Global P env.pkg env.imports x) : blank x = false := by
  rcases h with h | h | h | ⟨n, d, h1, h2⟩
  · obtain ⟨d, hd⟩ := Option.isSome_iff_exists.1 h
    exact hP.name _ _ _ hd
  · obtain ⟨q, hq⟩ := Option.isSome_iff_exists.1 h
    exact (hr.file.fresh x q (hi ▸ hq)).1
  · have : ∀ y ∈ predeclared, blank y = false := by decide
    exact this x h
  · obtain ⟨q, hq⟩ := Option.isSome_iff_exists.1 h2
    exact ((hP.file _ _ _ h1).fresh x q hq).1

theorem Fresh.notGlobal' (hP : ProgOk P) {s : Scope} {env : Env} {lk ns : List String} (hi : Inv P mu s env lk)
    (h : Fresh P env lk ns) : ∀ x ∈ ns, ¬ Global P env.pkg env.imports x := by
  intro x hx hg
  exact (h x hx (global_notBlank hP hi.r hi.imports hg)).1 hg

mutual
theorem stepS (hP : ProgOk P) {s : Scope} {env : Env} {lk cur : List String} (h : Inv P mu s env lk) (hb : Bound env cur) :
    ∀ st : Stmt, SafeS P env lk st → (∀ x ∈ multiS st, x ∈ mu) → Inv P mu (scopeS s st) (envS env cur st).1 (lk ++ leaks st)
  | .exprs _, _, _ => h.mono (fun x hx => List.mem_append_left _ hx)
  | .block _, _, _ => h.mono (fun x hx => List.mem_append_left _ hx)
  | .clause _ _ _, _, _ => h.mono (fun x hx => List.mem_append_left _ hx)
  | .define id lhs rhs, hs, hm => by
    simp only [SafeS] at hs
    refine Inv.mono (h.define hs.2 hb ?_) (fun x hx => List.mem_append_left _ hx)
    intro h1 x hx
    exact hm x (by simp [multiS, h1, hx])
  | .varDecl names t vals, hs, _ => by
    simp only [SafeS] at hs
    exact Inv.mono ((h.add (hs.2.notGlobal' hP h)).bind hs.2 fun x b hx => bindVar_mem hx)
      (fun x hx => List.mem_append_left _ hx)
  | .typeDecl n a t, hs, _ => by
    simp only [SafeS] at hs
    exact Inv.mono ((h.add (hs.notGlobal' hP h)).bind hs fun x b hx => bindOpaque_mem hx)
      (fun x hx => List.mem_append_left _ hx)
  | .range names x body, hs, _ => by
    simp only [SafeS] at hs
    exact Inv.mono (h.add hs.1.notGlobal) (fun x hx => List.mem_append_left _ hx)
  | .ctl init es post body els, hs, hm => by
    simp only [SafeS] at hs
    obtain ⟨h1, h2, h3, h4, h5⟩ := hs
    simp only [multiS, List.mem_append] at hm
    have i1 := stepSs hP h (cur := []) (by intro x hx; cases hx) init h1 (fun x hx => hm x (.inl hx))
    have e1 := envSs_pkg init env []
    have i2 := stepSs hP i1 (e1.2.2.2 (by intro x hx; cases hx)) post h3 (fun x hx => hm x (.inr (.inr (.inl hx))))
    have e2 := envSs_pkg post (envSs env [] init).1 (envSs env [] init).2
    have i2' : Inv P mu (scopeSs (scopeSs s init) post) (envSs env [] init).1
        (lk ++ leaksSs init ++ shortNames post ++ leaksSs post) := by
      refine i2.weaken e2.1 e2.2.1 e2.2.2.1 ?_
      rintro x (hx | hx)
      · left; simp only [List.mem_append] at hx ⊢; rcases hx with (hx | hx) | hx <;> simp [hx]
      · rcases shortIn_envSs post _ _ x hx with hx | hx
        · left; simp [hx]
        · exact .inr hx
    have i3 := stepSs hP i2' (cur := []) (by intro x hx; cases hx) els h5 (fun x hx => hm x (.inr (.inr (.inr (.inr hx)))))
    have e3 := envSs_pkg els (envSs env [] init).1 []
    simp only [scopeS, envS]
    refine i3.weaken (e3.1.trans e1.1) (e3.2.1.trans e1.2.1) (e1.2.2.1.trans e3.2.2.1) ?_
    rintro x (hx | hx)
    · left
      simp only [List.mem_append, leaks] at hx ⊢
      rcases hx with (((hx | hx) | hx) | hx) | hx <;> simp [hx]
    · rcases shortIn_envSs els _ _ x hx with hx | hx
      · left; simp [leaks, hx]
      · rcases shortIn_envSs init _ _ x hx with hx | hx
        · left; simp [leaks, hx]
        · exact .inr hx
theorem stepSs (hP : ProgOk P) {s : Scope} {env : Env} {lk cur : List String} (h : Inv P mu s env lk) (hb : Bound env cur) :
    ∀ ss : Stmts, SafeSs P env cur lk ss → (∀ x ∈ multiSs ss, x ∈ mu) →
      Inv P mu (scopeSs s ss) (envSs env cur ss).1 (lk ++ leaksSs ss)
  | .nil, _, _ => h.mono (fun x hx => List.mem_append_left _ hx)
  | .cons st ss, hs, hm => by
    simp only [SafeSs] at hs
    simp only [multiSs, List.mem_append] at hm
    have i1 := stepS hP h hb st hs.1 (fun x hx => hm x (.inl hx))
    have i2 := stepSs hP i1 (hb.step st) ss hs.2 (fun x hx => hm x (.inr hx))
    simp only [leaksSs, ← List.append_assoc]
    exact i2
end

/-! ### The calls that are found -/

theorem hookOf_iff (q m : String) :
    hookOf q m = if (q, m) ∈ hooksAll then some .all else if (q, m) ∈ hooks then some .target else none := by
  have e1 : mockPkg = "github.com/xhd2015/xgo/runtime/mock" := rfl
  have e2 : trapPkg = "github.com/xhd2015/xgo/runtime/trap" := rfl
  have e3 : tracePkg = "github.com/xhd2015/xgo/runtime/trace" := rfl
  have e4 : functabPkg = "github.com/xhd2015/xgo/runtime/functab" := rfl
  unfold hookOf hooksAll hooks
  rw [← e1, ← e2, ← e3, ← e4]
  clear e1 e2 e3 e4
  generalize mockPkg = a
  generalize trapPkg = b
  generalize tracePkg = c
  generalize functabPkg = d
  simp only [List.mem_cons, Prod.mk.injEq, List.not_mem_nil, or_false]
  by_cases h1 : m = "Patch"
  · subst h1; simp (decide := true) only [and_false, and_true, or_false, false_or, or_true, true_or, if_true, if_false]
  by_cases h2 : m = "Mock"
  · subst h2; simp (decide := true) only [and_false, and_true, or_false, false_or, or_true, true_or, if_true, if_false]
  by_cases h3 : m = "AddFuncInterceptor"
  · subst h3; simp (decide := true) only [and_false, and_true, or_false, false_or, or_true, true_or, if_true, if_false]
  by_cases h4 : m = "MarkIntercept"
  · subst h4; simp (decide := true) only [and_false, and_true, or_false, false_or, or_true, true_or, if_true, if_false]
  by_cases h5 : m = "Record"
  · subst h5; simp (decide := true) only [and_false, and_true, or_false, false_or, or_true, true_or, if_true, if_false]
  by_cases h6 : m = "RecordCall"
  · subst h6; simp (decide := true) only [and_false, and_true, or_false, false_or, or_true, true_or, if_true, if_false]
  by_cases h7 : m = "RecordResult"
  · subst h7; simp (decide := true) only [and_false, and_true, or_false, false_or, or_true, true_or, if_true, if_false]
  by_cases h8 : m = "InfoFunc"
  · subst h8; simp (decide := true) only [and_false, and_true, or_false, false_or, or_true, true_or, if_true, if_false]
  by_cases h9 : m = "InfoVar"
  · subst h9; simp (decide := true) only [and_false, and_true, or_false, false_or, or_true, true_or, if_true, if_false]
  by_cases h10 : m = "AddInterceptor"
  · subst h10; simp (decide := true) only [and_false, and_true, or_false, false_or, or_true, true_or, if_true, if_false]
  by_cases h11 : m = "MarkInterceptAll"
  · subst h11; simp (decide := true) only [and_false, and_true, or_false, false_or, or_true, true_or, if_true, if_false]
  simp only [h1, h2, h3, h4, h5, h6, h7, h8, h9, h10, h11, and_false, or_false, if_false]

/-- The sites the code finds and the calls of interest, in the same order.  Only calls without arguments that ask for all
    functions are missed. -/
inductive Align (P : Prog) (mu : List String) : List Site → List Occ → Prop
  | nil : Align P mu [] []
  | target {s env lk e ss os} : Inv P mu s env lk → Scoped P env (used e) → Align P mu ss os →
      Align P mu (.target s e :: ss) (.target env e :: os)
  | all {ss os} : Align P mu ss os → Align P mu (.all :: ss) (.all true :: os)
  | skip {ss os} : Align P mu ss os → Align P mu ss (.all false :: os)

theorem Align.append {a : List Site} {b : List Occ} (h : Align P mu a b) {c : List Site} {d : List Occ} (h' : Align P mu c d) :
    Align P mu (a ++ c) (b ++ d) := by
  induction h with
  | nil => exact h'
  | target hi hs _ ih => exact .target hi hs ih
  | all _ ih => exact .all ih
  | skip _ ih => exact .skip ih

theorem calleeHook_eq {s : Scope} {env : Env} {lk : List String} (h : Inv P mu s env lk) (f : Expr) :
    calleeHook P s f = (callee P env f).bind fun h => hookOf h.1 h.2 := by
  cases f with
  | sel x m =>
    cases x with
    | ident x =>
      simp only [calleeHook, callee, h.r.pkg, h.imports]
      cases hi : env.imports.lookup x with
      | none =>
        have e : ∀ c : Prop, [Decidable c] → (if c then none else Option.map (fun q : String => (q, m)) none) = none := by
          intro c _; split <;> rfl
        rw [e]
        split
        · rfl
        · split <;> rfl
      | some q =>
        have h1 := h.r.glob x (.inr (.inl (by rw [hi]; rfl)))
        have h2 : (look env.locals x).isSome = false := by
          rw [← Bool.not_eq_true]
          intro hl
          have := (h.r.loc _ List.suffix_rfl x hl).1.2.1
          rw [h.imports, hi] at this
          cases this
        simp only [h1, h2, Bool.false_eq_true, if_false, false_or]
        split <;> simp
    | _ => rfl
  | _ => rfl

theorem align_call {s : Scope} {env : Env} {lk : List String} (h : Inv P mu s env lk) {f : Expr} {args : Exprs}
    (hc : CallOk P env f args) : Align P mu (callSite P s f args) (callOcc P env f args) := by
  simp only [CallOk] at hc
  cases args with
  | nil =>
    simp only [callSite, callOcc]
    split
    · exact .nil
    · split
      · exact .skip .nil
      · split <;> exact .nil
  | cons a args =>
    simp only [callSite, calleeHook_eq h]
    simp only [callOcc] at hc ⊢
    cases hcl : callee P env f with
    | none => exact .nil
    | some q =>
      obtain ⟨q, m⟩ := q
      simp only [hcl] at hc
      simp only [Option.bind_some, hookOf_iff]
      by_cases h1 : (q, m) ∈ hooksAll
      · simp only [h1, if_true]; exact .all .nil
      · by_cases h2 : (q, m) ∈ hooks
        · simp only [h1, h2, if_true, if_false] at hc ⊢
          exact .target h (hc a (by simp)) .nil
        · simp only [h1, h2, if_false]; exact .nil

mutual
theorem walkE (hP : ProgOk P) {s : Scope} {env : Env} {lk : List String} (h : Inv P mu s env lk) :
    ∀ e : Expr, SafeE P env lk e → (∀ x ∈ multiE e, x ∈ mu) → Align P mu (sitesE P s e) (occE P env e)
  | .sel x _, hs, hm => by simp only [SafeE, multiE, sitesE, occE] at *; exact walkE hP h x hs hm
  | .star x, hs, hm => by simp only [SafeE, multiE, sitesE, occE] at *; exact walkE hP h x hs hm
  | .addr x, hs, hm => by simp only [SafeE, multiE, sitesE, occE] at *; exact walkE hP h x hs hm
  | .neg x, hs, hm => by simp only [SafeE, multiE, sitesE, occE] at *; exact walkE hP h x hs hm
  | .paren x, hs, hm => by simp only [SafeE, multiE, sitesE, occE] at *; exact walkE hP h x hs hm
  | .binary _ x y, hs, hm => by
    simp only [SafeE, multiE, sitesE, occE, List.mem_append] at *
    exact (walkE hP h x hs.1 fun z hz => hm z (.inl hz)).append (walkE hP h y hs.2 fun z hz => hm z (.inr hz))
  | .call f args, hs, hm => by
    simp only [SafeE, multiE, sitesE, occE, List.mem_append] at *
    exact (walkE hP h f hs.1 fun z hz => hm z (.inl hz)).append
      ((align_call h hs.2.1).append (walkEs hP h args hs.2.2 fun z hz => hm z (.inr hz)))
  | .comp _ elts, hs, hm => by simp only [SafeE, multiE, sitesE, occE] at *; exact walkEs hP h elts hs hm
  | .index x y, hs, hm => by
    simp only [SafeE, multiE, sitesE, occE, List.mem_append] at *
    exact (walkE hP h x hs.1 fun z hz => hm z (.inl hz)).append (walkE hP h y hs.2 fun z hz => hm z (.inr hz))
  | .func ps rs body, hs, hm => by
    simp only [SafeE, multiE, sitesE, occE] at *
    have i := ((h.push hs.1.notGlobal).push_nil).bind hs.1 (g := bindParams ps ++ bindParams rs) (by
      intro x b hx
      rcases List.mem_append.1 hx with hx | hx
      · exact ⟨List.mem_append_left _ (bindParams_mem hx).1, (bindParams_mem hx).2⟩
      · exact ⟨List.mem_append_right _ (bindParams_mem hx).1, (bindParams_mem hx).2⟩)
    refine walkSs hP i ?_ body hs.2 hm
    intro x hx hb
    rcases List.mem_append.1 hx with hx | hx
    · obtain ⟨b, hb⟩ := bindParams_has hx hb
      exact boundIn_head (List.mem_append_left _ hb)
    · obtain ⟨b, hb⟩ := bindParams_has hx hb
      exact boundIn_head (List.mem_append_right _ hb)
  | .other es, hs, hm => by simp only [SafeE, multiE, sitesE, occE] at *; exact walkEs hP h es hs hm
  | .ident _, _, _ => .nil
  | .lit _, _, _ => .nil
  | .funcT _ _, _, _ => .nil
  | .structT _, _, _ => .nil
  | .arrayT _ _, _, _ => .nil
  | .mapT _ _, _, _ => .nil
  | .chanT _, _, _ => .nil
  | .ifaceT, _, _ => .nil
theorem walkEs (hP : ProgOk P) {s : Scope} {env : Env} {lk : List String} (h : Inv P mu s env lk) :
    ∀ es : Exprs, SafeEs P env lk es → (∀ x ∈ multiEs es, x ∈ mu) → Align P mu (sitesEs P s es) (occEs P env es)
  | .nil, _, _ => .nil
  | .cons e es, hs, hm => by
    simp only [SafeEs, multiEs, sitesEs, occEs, List.mem_append] at *
    exact (walkE hP h e hs.1 fun z hz => hm z (.inl hz)).append (walkEs hP h es hs.2 fun z hz => hm z (.inr hz))
theorem walkS (hP : ProgOk P) {s : Scope} {env : Env} {lk : List String} (h : Inv P mu s env lk) :
    ∀ st : Stmt, SafeS P env lk st → (∀ x ∈ multiS st, x ∈ mu) → Align P mu (sitesS P s st) (occS P env st)
  | .exprs es, hs, hm => by simp only [SafeS, multiS, sitesS, occS] at *; exact walkEs hP h es hs hm
  | .define id lhs rhs, hs, hm => by
    simp only [SafeS, multiS, sitesS, occS, List.mem_append] at *
    exact walkEs hP h rhs hs.1 fun z hz => hm z (.inl hz)
  | .varDecl names t vals, hs, hm => by
    simp only [SafeS, multiS, sitesS, occS] at *
    exact walkEs hP h vals hs.1 hm
  | .typeDecl _ _ _, _, _ => .nil
  | .block body, hs, hm => by
    simp only [SafeS, multiS, sitesS, occS] at *
    exact walkSs hP h.push_nil (by intro x hx; cases hx) body hs hm
  | .ctl init es post body els, hs, hm => by
    simp only [SafeS, multiS, sitesS, occS, List.mem_append] at *
    obtain ⟨h1, h2, h3, h4, h5⟩ := hs
    have b0 : Bound env [] := by intro x hx; cases hx
    have i1 := stepSs hP h b0 init h1 (fun x hx => hm x (.inl hx))
    have e1 := envSs_pkg init env []
    have b1 := e1.2.2.2 b0
    have i2 := stepSs hP i1 b1 post h3 (fun x hx => hm x (.inr (.inr (.inl hx))))
    have e2 := envSs_pkg post (envSs env [] init).1 (envSs env [] init).2
    have i2' : Inv P mu (scopeSs (scopeSs s init) post) (envSs env [] init).1
        (lk ++ leaksSs init ++ shortNames post ++ leaksSs post) := by
      refine i2.weaken e2.1 e2.2.1 e2.2.2.1 ?_
      rintro x (hx | hx)
      · left; simp only [List.mem_append] at hx ⊢; rcases hx with (hx | hx) | hx <;> simp [hx]
      · rcases shortIn_envSs post _ _ x hx with hx | hx
        · left; simp [hx]
        · exact .inr hx
    exact (walkSs hP h b0 init h1 (fun x hx => hm x (.inl hx))).append
      ((walkEs hP i1 es h2 (fun x hx => hm x (.inr (.inl hx)))).append
        ((walkSs hP i1 b1 post h3 (fun x hx => hm x (.inr (.inr (.inl hx))))).append
          ((walkSs hP i2'.push_nil (by intro x hx; cases hx) body h4 (fun x hx => hm x (.inr (.inr (.inr (.inl hx)))))).append
            (walkSs hP i2' (by intro x hx; cases hx) els h5 (fun x hx => hm x (.inr (.inr (.inr (.inr hx)))))))))
  | .range names x body, hs, hm => by
    simp only [SafeS, multiS, sitesS, occS, List.mem_append] at *
    have i1 := h.add hs.1.notGlobal
    exact (walkE hP i1 x hs.2.1 (fun z hz => hm z (.inl hz))).append
      (walkSs hP (i1.push_nil.bind hs.1 fun x b hx => bindOpaque_mem hx) (by intro x hx; cases hx) body hs.2.2
        (fun z hz => hm z (.inr hz)))
  | .clause names es body, hs, hm => by
    simp only [SafeS, multiS, sitesS, occS, List.mem_append] at *
    rw [hs.2.1, List.nil_append]
    exact walkSs hP (h.push_nil.bind hs.1 fun x b hx => bindOpaque_mem hx) (by intro x hx; cases hx) body hs.2.2
        (fun z hz => hm z (.inr hz))
theorem walkSs (hP : ProgOk P) {s : Scope} {env : Env} {lk cur : List String} (h : Inv P mu s env lk) (hb : Bound env cur) :
    ∀ ss : Stmts, SafeSs P env cur lk ss → (∀ x ∈ multiSs ss, x ∈ mu) → Align P mu (sitesSs P s ss) (occSs P env cur ss)
  | .nil, _, _ => .nil
  | .cons st ss, hs, hm => by
    simp only [SafeSs, multiSs, sitesSs, occSs, List.mem_append] at *
    exact (walkS hP h st hs.1 (fun z hz => hm z (.inl hz))).append
      (walkSs hP (stepS hP h hb st hs.1 (fun z hz => hm z (.inl hz))) (hb.step st) ss hs.2 (fun z hz => hm z (.inr hz)))
end

theorem walk (hP : ProgOk P) {f : Func} (hf : Safe P f) : Align P (multiSs f.body) (sites P f) (occs P f) := by
  have i0 : Inv P (multiSs f.body) (({ pkg := f.pkg, imports := f.imports : Scope }).push) { pkg := f.pkg, imports := f.imports } [] :=
    { r :=
      { pkg := rfl, file := hf.file
        agree := fun x a b h1 h2 => by simpa using h1.symm.trans h2
        efresh := fun x q hx => (hf.file.fresh x q hx).2.2
        glob := fun _ _ => rfl
        loc := by
          intro l hl x hx
          have : l = [] := List.suffix_nil.1 hl
          subst this; simp [look] at hx }
      imports := rfl
      frames := by simp [Scope.push]
      defs := by intro fr hfr x d hd; simp [Scope.push] at hfr; subst hfr; simp at hd
      split := by intro x d hd; simp [Scope.push, getDef] at hd
      short := by
        intro l hl x e tl hx
        have : l = [] := List.suffix_nil.1 hl
        subst this; simp [look] at hx }
  have e : ({ pkg := f.pkg, imports := f.imports : Scope }).push (notBlank (f.recv.names ++ f.ps.names ++ f.rs.names)) =
      (({ pkg := f.pkg, imports := f.imports : Scope }).push).add (notBlank (f.recv.names ++ f.ps.names ++ f.rs.names)) := by
    simp [Scope.push, Scope.add]
  simp only [sites, occs, e]
  refine walkSs hP (((i0.add hf.params.notGlobal).push_nil).bind hf.params ?_) ?_ f.body hf.body (fun x hx => hx)
  · intro x b hx
    simp only [List.mem_append] at hx
    rcases hx with (hx | hx) | hx
    · exact ⟨by simp [(bindParams_mem hx).1], (bindParams_mem hx).2⟩
    · exact ⟨by simp [(bindParams_mem hx).1], (bindParams_mem hx).2⟩
    · exact ⟨by simp [(bindParams_mem hx).1], (bindParams_mem hx).2⟩
  · intro x hx hb
    simp only [List.mem_append] at hx
    rcases hx with (hx | hx) | hx
    all_goals
      obtain ⟨b, hb⟩ := bindParams_has hx hb
      exact boundIn_head (b := b) (by simp [hb])

end Verif.Instrument.Target
