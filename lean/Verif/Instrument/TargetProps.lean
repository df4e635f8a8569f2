import Verif.Instrument.TargetSpec
/-
Proofs for C67: what xgo records as the target of `mock.Patch` etc. is what the expression names, and what is named directly
is recorded.
-/
namespace Verif.Instrument.Target

variable {P : Prog}

/-! ### Scopes -/

theorem getDef_none {fs : List Frame} {x : String} (h : has fs x = false) : getDef fs x = none := by
  induction fs with
  | nil => rfl
  | cons f rest ih =>
    simp only [has, Bool.or_eq_false_iff] at h
    simp only [getDef]
    cases hl : f.defs.lookup x with
    | none => exact ih h.2
    | some d => rw [hl] at h; simp at h

theorem look_suffix {l : Locals} {x : String} {b : Bind} {t : Locals} (h : look l x = some (b, t)) : t <:+ l := by
  induction l with
  | nil => simp [look] at h
  | cons g rest ih =>
    simp only [look] at h
    split at h
    · cases h; exact List.suffix_cons _ _
    · exact (ih h).trans (List.suffix_cons _ _)

theorem lookup_mem {β : Type} {l : List (String × β)} {x : String} {b : β} (h : l.lookup x = some b) : (x, b) ∈ l := by
  induction l with
  | nil => simp at h
  | cons a r ih =>
    obtain ⟨k, v⟩ := a
    simp only [List.lookup] at h
    split at h
    · rename_i e; simp at e; cases h; subst e; simp
    · exact List.mem_cons_of_mem _ (ih h)

/-- all definitions of the name in the code's scope are multi-valued or `x := x` -/
def SplitOk (fs : List Frame) (x : String) : Prop :=
  ∀ f ∈ fs, ∀ d, f.defs.lookup x = some d → d.multi = true ∨ (d.split = true ∧ d.expr = .ident x)

/-- What a definition in the code's scope may be, for a name that is bound by the locals `l`. -/
def LocOk (P : Prog) (fs : List Frame) (env : Env) (l : Locals) (x : String) (d : Define) : Prop :=
  d.multi = true ∨
  (d.split = false ∧ ∃ tl, look l x = some (.short d.expr, tl) ∧ Scoped P (env.outer tl) (used d.expr)) ∨
  (d.split = true ∧ SplitOk fs x)

theorem getDef_mem {fs : List Frame} {x : String} {d : Define} (h : getDef fs x = some d) :
    ∃ f ∈ fs, f.defs.lookup x = some d := by
  induction fs with
  | nil => cases h
  | cons f rest ih =>
    simp only [getDef] at h
    split at h
    · rename_i d' hd; cases h; exact ⟨f, List.mem_cons_self, hd⟩
    · obtain ⟨f', a, b⟩ := ih h; exact ⟨f', List.mem_cons_of_mem _ a, b⟩

/-- The code's scope agrees with Go's, as far as it claims to know something. -/
structure R (P : Prog) (s : Scope) (env : Env) : Prop where
  pkg : s.pkg = env.pkg
  file : FileOk P s.pkg s.imports
  agree : ∀ x q q', s.imports.lookup x = some q → env.imports.lookup x = some q' → q = q'
  efresh : ∀ x q, env.imports.lookup x = some q → x ∉ predeclared
  glob : ∀ x, Global P env.pkg env.imports x → has s.frames x = false
  loc : ∀ l, l <:+ env.locals → ∀ x, (look l x).isSome = true →
    (P s.pkg x = none ∧ s.imports.lookup x = none ∧ x ∉ predeclared) ∧
    ∀ d, getDef s.frames x = some d → LocOk P s.frames env l x d

theorem R.outer {s : Scope} {env : Env} (h : R P s env) {l : Locals} (hl : l <:+ env.locals) : R P s (env.outer l) :=
  { pkg := h.pkg, file := h.file, agree := h.agree, efresh := h.efresh, glob := h.glob
    loc := fun l' hl' => h.loc l' (hl'.trans hl) }

/-- a declaration of the same package, resolved in the scope where it is used -/
theorem R.decl (hP : ProgOk P) {s : Scope} {env : Env} (h : R P s env) {n : String} {d : Decl} (hd : P s.pkg n = some d) :
    R P s (d.env s.pkg) :=
  { pkg := rfl, file := h.file, agree := fun x q q' h1 h2 => h.file.agree n d hd x q q' h1 h2
    efresh := fun x q hx => ((hP.file _ _ _ hd).fresh x q hx).2.2
    glob := by
      intro x hx
      apply h.glob
      rcases hx with hx | hx | hx | hx
      · exact .inl (h.pkg ▸ hx)
      · exact .inr (.inr (.inr ⟨n, d, h.pkg ▸ hd, hx⟩))
      · exact .inr (.inr (.inl hx))
      · exact .inr (.inr (.inr (h.pkg ▸ hx)))
    loc := by
      intro l hl x hx
      have : l = [] := List.suffix_nil.1 hl
      subst this; simp [look] at hx }

/-- a declaration of another package, resolved in the scope of its file -/
theorem R.fresh (hP : ProgOk P) {q n : String} {d : Decl} (hd : P q n = some d) :
    R P { pkg := q, imports := d.imports } (d.env q) :=
  { pkg := rfl, file := hP.file q n d hd
    agree := fun x a b h1 h2 => by simpa using h1.symm.trans h2
    efresh := fun x q' hx => ((hP.file _ _ _ hd).fresh x q' hx).2.2
    glob := fun _ _ => rfl
    loc := by
      intro l hl x hx
      have : l = [] := List.suffix_nil.1 hl
      subst this; simp [look] at hx }

/-! ### What the results of the resolver mean -/

def Ty.isNamed : Ty → Bool
  | .named .. => true
  | .inst _ => true
  | .lazy .. => true
  | _ => false

/-- If the type claims to be a defined type, or a structure, or a function type, then it is one of the types in `K`. -/
def TyOK (P : Prog) : (GType → Prop) → Ty → Prop
  | K, .named p n t => ∃ a e ms im, P p n = some ⟨.typ a e ms, im⟩ ∧
      (if a then TyOK P K t
       else K (.named p n) ∧ t.isNamed = false ∧ TyOK P (fun G => Is P { pkg := p, imports := im } e (.is .type G)) t)
  | K, .ptr t => TyOK P (fun G => K (.ptr G)) t
  | K, .inst t => TyOK P K t
  | K, .lazy s e => ∃ env, R P s env ∧ Scoped P env (used e) ∧ ∀ G, Is P env e (.is .type G) → K G
  | K, .rawPtr t => TyOK P (fun G => ∃ G', K (.ptr G') ∧ Under P G' G) t
  | K, .sig s rs => ∃ env ps, R P s env ∧ Scoped P env (usedF rs) ∧ K (.lit env (.funcT ps rs))
  | K, .struct s fs => ∃ env, R P s env ∧ Scoped P env (usedF fs) ∧ K (.lit env (.structT fs))
  | _, _ => True

theorem TyOK.mono {t : Ty} : ∀ {K K' : GType → Prop}, TyOK P K t → (∀ G, K G → K' G) → TyOK P K' t := by
  induction t with
  | named p n t ih =>
    intro K K' h hk
    obtain ⟨a, e, ms, im, hp, h⟩ := h
    refine ⟨a, e, ms, im, hp, ?_⟩
    cases a with
    | true => simp only [if_true] at h ⊢; exact ih h hk
    | false => simp at h ⊢; exact ⟨hk _ h.1, h.2⟩
  | ptr t ih => intro K K' h hk; exact ih (K := fun G => K (.ptr G)) h (fun G => hk _)
  | inst t ih => intro K K' h hk; exact ih (K := K) h hk
  | lazy s e => intro K K' h hk; obtain ⟨env, a, b, c⟩ := h; exact ⟨env, a, b, fun G hG => hk _ (c G hG)⟩
  | rawPtr t ih =>
    intro K K' h hk
    exact ih (K := fun G => ∃ G', K (.ptr G') ∧ Under P G' G) h (fun G ⟨G', a, b⟩ => ⟨G', hk _ a, b⟩)
  | sig s rs => intro K K' h hk; obtain ⟨env, ps, a, b, c⟩ := h; exact ⟨env, ps, a, b, hk _ c⟩
  | struct s fs => intro K K' h hk; obtain ⟨env, a, b, c⟩ := h; exact ⟨env, a, b, hk _ c⟩
  | _ => intros; trivial

/-- which thing a value claims to be -/
def IdOK (P : Prog) (env : Env) (e : Expr) : Obj → Prop
  | .pkgVar p n _ => Is P env e (.var p n)
  | .pkgFunc p n _ => Is P env e (.func p n)
  | .method p n m => Is P env e (.method p n m)
  | .pointer (.pkgVar p n _) => Is P env e (.addr p n)
  | .untypedLit _ => isLit e = true
  | _ => True

def InfoOK (P : Prog) (env : Env) (e : Expr) : Info → Prop
  | .op b => Is P env e (.builtin b)
  | .pkg q => Is P env e (.pkg q)
  | .type t => TyOK P (fun G => Is P env e (.is .type G)) t
  | .obj o => IdOK P env e o ∧ TyOK P (fun G => Is P env e (.is .value G)) o.type
  | _ => True

theorem InfoOK.mono {env env' : Env} {e e' : Expr} {i : Info} (h : InfoOK P env e i)
    (hf : ∀ f, Is P env e f → Is P env' e' f) (hl : isLit e = true → isLit e' = true) : InfoOK P env' e' i := by
  cases i with
  | unknown => trivial
  | lazy => trivial
  | op b => exact hf _ h
  | pkg q => exact hf _ h
  | type t => exact TyOK.mono (t := t) h fun G => hf _
  | obj o =>
    refine ⟨?_, TyOK.mono h.2 fun G => hf _⟩
    have h := h.1
    cases o with
    | pkgVar p n t => exact hf _ h
    | pkgFunc p n t => exact hf _ h
    | method p n m => exact hf _ h
    | pointer o => cases o <;> first | exact hf _ h | trivial
    | untypedLit t => exact hl h
    | _ => trivial

theorem asType_ok {env : Env} {e : Expr} {i : Info} (h : InfoOK P env e i) :
    TyOK P (fun G => Is P env e (.is .type G)) i.asType := by
  cases i <;> first | trivial | exact h

/-! ### Soundness of the resolver -/

theorem Scoped.left {env : Env} {a b : List String} (h : Scoped P env (a ++ b)) : Scoped P env a :=
  fun x hx => h x (List.mem_append_left _ hx)
theorem Scoped.right {env : Env} {a b : List String} (h : Scoped P env (a ++ b)) : Scoped P env b :=
  fun x hx => h x (List.mem_append_right _ hx)

theorem fieldType_has {f : String} {fs : Fields} {e : Expr} (h : fieldType f fs = some e) : HasField fs f e := by
  induction fs using fieldType.induct (f := f) with
  | case1 => simp [fieldType] at h
  | case2 ns t rest hc =>
    simp only [fieldType, hc, if_true] at h
    cases h
    cases ns with
    | nil =>
      simp only [List.getLast?_nil] at hc
      have hc : embedName e = some f := hc
      refine .embedded ?_
      cases e with
      | ident x => simpa [embedName, embedded] using hc
      | sel x g => simpa [embedName, embedded] using hc
      | star x => cases x <;> first | (simp [embedName] at hc; done) | (simpa [embedName, embedded] using hc)
      | _ => simp [embedName] at hc
    | cons a r =>
      refine .named ?_
      rw [List.getLast?_eq_some_getLast (List.cons_ne_nil a r)] at hc
      have hc : (a :: r).getLast (List.cons_ne_nil a r) = f := by simpa using hc
      rw [← hc]; exact List.getLast_mem _
  | case3 ns t rest hc ih =>
    simp only [fieldType, hc, if_false] at h
    exact .rest (ih h)

theorem fieldType_scoped {f : String} {fs : Fields} {e : Expr} (h : fieldType f fs = some e) {env : Env}
    (hs : Scoped P env (usedF fs)) : Scoped P env (used e) := by
  induction fs using fieldType.induct (f := f) with
  | case1 => simp [fieldType] at h
  | case2 ns t rest hc =>
    simp only [fieldType, hc, if_true] at h
    cases h
    simp only [usedF] at hs
    exact hs.left
  | case3 ns t rest hc ih =>
    simp only [fieldType, hc, if_false] at h
    simp only [usedF] at hs
    exact ih h hs.right

theorem types_one {rs : Fields} {t : Expr} (h : rs.types = [t]) : ∃ ns, rs = .cons ns t .nil := by
  cases rs with
  | nil => simp [Fields.types] at h
  | cons ns t' rest =>
    cases rest with
    | nil => simp [Fields.types] at h; subst h; exact ⟨ns, rfl⟩
    | cons => simp [Fields.types] at h

/-- the defined type an alias stands for -/
theorem resolveAlias_ok (hP : ProgOk P) {t : Ty} : ∀ {p n : String} {K : GType → Prop}, TyOK P K (.named p n t) → ∀ {d m},
    P (resolveAlias p n t).1 (resolveAlias p n t).2 = some d → d.kind.method? m = true →
    K (.named (resolveAlias p n t).1 (resolveAlias p n t).2) ∧
      ∃ a e ms im, d = ⟨.typ a e ms, im⟩ ∧ (ms.lookup m).isSome = true := by
  have base : ∀ {p n : String} {K : GType → Prop} {t : Ty} {d m}, TyOK P K (.named p n t) → P p n = some d →
      d.kind.method? m = true → K (.named p n) ∧ ∃ a e ms im, d = ⟨.typ a e ms, im⟩ ∧ (ms.lookup m).isSome = true := by
    intro p n K t d m h hd hm
    obtain ⟨a, e, ms, im, hp, h⟩ := h
    have : d = ⟨.typ a e ms, im⟩ := by rw [hd] at hp; exact Option.some.inj hp
    subst this
    cases a with
    | false => simp at h; exact ⟨h.1, _, _, _, _, rfl, hm⟩
    | true =>
      have := (hP.decl _ _ _ hd)
      simp [DeclOk] at this
      simp [DeclKind.method?, this.2] at hm
  intro p n K h d m hd hm
  induction p, n, t using resolveAlias.induct generalizing K with
  | case1 p n p' n' t' ih =>
    simp only [resolveAlias] at hd ⊢
    refine ih ?_ hd
    obtain ⟨a, e, ms, im, hp, h⟩ := h
    cases a with
    | true => simpa [TyOK] using h
    | false => simp [Ty.isNamed] at h
  | case2 p n p' n' t' ih =>
    simp only [resolveAlias] at hd ⊢
    refine ih ?_ hd
    obtain ⟨a, e, ms, im, hp, h⟩ := h
    cases a with
    | true => simpa using h
    | false => simp [Ty.isNamed] at h
  | case3 t p n h1 h2 =>
    have e : resolveAlias p n t = (p, n) := by
      cases t <;> first | rfl | (exact absurd rfl (h2 _ _ _)) | skip
      rename_i u
      cases u <;> first | rfl | (exact absurd rfl (h1 _ _ _))
    rw [e] at hd ⊢
    exact base h hd hm

theorem typeLit_notNamed {n : Nat} {s : Scope} {vis : List Key} {e : Expr} (h : typeLit e = true) :
    (resolve P n s vis e).asType.isNamed = false := by
  cases n with
  | zero => simp [resolve, Info.asType, Info.ty?, Ty.isNamed]
  | succ n =>
    cases e <;> simp [typeLit] at h <;> simp only [resolve]
    · split
      · rfl
      · split <;> rfl
      · split <;> rfl
    · rfl
    · rfl
    · split
      · rfl
      · split <;> rfl
    all_goals rfl

/-- the results for the kinds of expressions that are types, or values of the same type -/
theorem value_ok {env : Env} {e : Expr} {t : Ty} (h : TyOK P (fun G => Is P env e (.is .value G)) t) :
    InfoOK P env e (.obj (.value t)) := ⟨trivial, h⟩

theorem ite_unknown {env : Env} {e : Expr} {t : Ty} {i : Info} (h : InfoOK P env e i) :
    InfoOK P env e (if t.isUnknown then .unknown else i) := by
  split
  · trivial
  · exact h

/-- What the functions of the resolver promise, with fuel `n`. -/
structure Sound (P : Prog) (n : Nat) : Prop where
  resolve : ∀ s vis e env, R P s env → Scoped P env (used e) → InfoOK P env e (resolve P n s vis e)
  force : ∀ vis t K, TyOK P K t → TyOK P K (force P n vis t)
  underlying : ∀ vis t K, TyOK P K t → TyOK P (fun u => ∃ t, K t ∧ Under P t u) (underlying P n vis t)
  field : ∀ vis t k env x f, TyOK P (fun G => Is P env x (.is k G)) t → InfoOK P env (.sel x f) (field P n vis t f)

theorem sound_force {n : Nat} (h : Sound P n) (vis : List Key) (t : Ty) (K : GType → Prop) (ht : TyOK P K t) :
    TyOK P K (force P (n + 1) vis t) := by
  cases t <;> simp only [force] <;> try exact ht
  rename_i s e
  obtain ⟨env, hr, hs, hk⟩ := ht
  exact (asType_ok (h.resolve s vis e env hr hs)).mono hk

theorem sound_underlying {n : Nat} (h : Sound P n) (vis : List Key) (t : Ty) (K : GType → Prop) (ht : TyOK P K t) :
    TyOK P (fun u => ∃ t, K t ∧ Under P t u) (underlying P (n + 1) vis t) := by
  cases t <;> simp only [underlying]
  case named p x t =>
    obtain ⟨a, e, ms, im, hp, ht⟩ := ht
    cases a with
    | true => simp only [if_true] at ht; exact h.underlying vis t K ht
    | false =>
      simp at ht
      refine (h.underlying vis t _ ht.2.2).mono ?_
      rintro u ⟨t', h1, h2⟩
      exact ⟨_, ht.1, .named hp h1 h2⟩
  case ptr t =>
    have := h.underlying vis t (fun G => K (.ptr G)) ht
    exact this.mono fun G ⟨G', h1, h2⟩ => ⟨G', ⟨_, h1, .ptr⟩, h2⟩
  case inst t => exact h.underlying vis t K ht
  case lazy s e =>
    obtain ⟨env, hr, hs, hk⟩ := ht
    exact h.underlying vis _ K ((asType_ok (h.resolve s vis e env hr hs)).mono hk)
  case rawPtr t => exact TyOK.mono (t := t) ht fun G ⟨G', h1, h2⟩ => ⟨G', ⟨_, h1, .ptr⟩, h2⟩
  case sig s rs => obtain ⟨env, ps, h1, h2, h3⟩ := ht; exact ⟨env, ps, h1, h2, _, h3, .lit⟩
  case struct s rs => obtain ⟨env, h1, h2, h3⟩ := ht; exact ⟨env, h1, h2, _, h3, .lit⟩
  all_goals trivial

theorem sound_field (hP : ProgOk P) {n : Nat} (h : Sound P n) (vis : List Key) (t : Ty) (k : Kind) (env : Env) (x : Expr) (f : String)
    (ht : TyOK P (fun G => Is P env x (.is k G)) t) : InfoOK P env (.sel x f) (field P (n + 1) vis t f) := by
  simp only [field]
  have ht := h.force vis t _ ht
  generalize force P n vis t = t at ht ⊢
  -- the type in which is looked, and what it is
  have hr : ∃ K' : GType → Prop, ((∀ G, K' G → Is P env x (.is k G)) ∨ (∀ G, K' G → Is P env x (.is k (.ptr G)))) ∧
      TyOK P K' (uninst (derefOr (force P n vis) t)) := by
    have inst : ∀ (K : GType → Prop) (u : Ty), TyOK P K u → TyOK P K (uninst u) := by
      intro K u hu
      cases u <;> exact hu
    cases t with
    | ptr e => exact ⟨_, .inr fun G hG => hG, inst _ _ (h.force vis e _ ht)⟩
    | _ => exact ⟨_, .inl fun G hG => hG, inst _ _ ht⟩
  obtain ⟨K', hK, hr⟩ := hr
  generalize uninst (derefOr (force P n vis) t) = r at hr ⊢
  cases r with
  | named p y u =>
    simp only
    split
    · rename_i hm
      simp only [hasMethod] at hm
      split at hm
      · rename_i d hd
        obtain ⟨h1, a, e, ms, im, rfl, h2⟩ := resolveAlias_ok hP hr hd hm
        refine ⟨?_, trivial⟩
        rcases hK with hK | hK
        · exact .method (hK _ h1) hd h2
        · exact .methodPtr (hK _ h1) hd h2
      · cases hm
    · have hu := h.underlying vis t _ ht
      generalize underlying P n vis t = u' at hu ⊢
      cases u' with
      | struct s fs =>
        simp only [unraw]
        obtain ⟨env', h1, h2, t', h3, h4⟩ := hu
        cases he : fieldType f fs with
        | some e => exact ⟨trivial, env', h1, fieldType_scoped he h2, fun G hG => .field h3 h4 (fieldType_has he) hG⟩
        | none => trivial
      | rawPtr u' =>
        cases u' with
        | struct s fs =>
          simp only [unraw]
          obtain ⟨env', h1, h2, t', ⟨t'', h3, h4⟩, h5⟩ := hu
          cases he : fieldType f fs with
          | some e => exact ⟨trivial, env', h1, fieldType_scoped he h2, fun G hG => .fieldPtr h3 h4 h5 (fieldType_has he) hG⟩
          | none => trivial
        | _ => trivial
      | _ => trivial
  | _ => trivial

theorem universe_unknown {x : String} (h3 : x ∉ predeclared) : universeInfo x = .unknown := by
  simp only [universeInfo]
  have h5 : x ≠ "nil" := by rintro rfl; exact h3 (by decide)
  have h6 : ¬ operations.contains x = true := by
    intro hc
    have : ∀ y ∈ operations, y ∈ predeclared := by decide
    exact h3 (this x (List.contains_iff_mem.1 hc))
  have h7 : ¬ basicNames.contains x = true := by
    intro hc
    have : ∀ y ∈ basicNames, y ∈ predeclared := by decide
    exact h3 (this x (List.contains_iff_mem.1 hc))
  rw [if_neg h5, if_neg h6, if_neg h7]

/-- a local name of Go -/
theorem sound_local {n : Nat} (h : Sound P n) {s : Scope} {vis : List Key} {env : Env} {x : String} (hr : R P s env)
    {b : Bind} {l : Locals} (hl : look env.locals x = some (b, l)) :
    InfoOK P env (.ident x) (resolve P (n + 1) s vis (.ident x)) := by
  obtain ⟨⟨h1, h2, h3⟩, h4⟩ := hr.loc env.locals List.suffix_rfl x (by rw [hl]; rfl)
  -- a scope in which there is no definition
  have plain : ∀ (fr : List Frame) (vis : List Key) (m : Nat), getDef fr x = none →
      resolve P m { s with frames := fr } vis (.ident x) = .unknown := by
    intro fr vis m hd
    cases m with
    | zero => rfl
    | succ m =>
      simp only [resolve, hd, h1, h2]
      split
      · rfl
      · exact universe_unknown h3
  cases hd : getDef s.frames x with
  | none => rw [plain s.frames vis (n + 1) hd]; trivial
  | some d =>
    simp only [resolve, hd]
    split
    · trivial
    · rename_i hm
      rcases h4 d hd with h4 | ⟨h4, tl, h5, h6⟩ | ⟨h4, h6⟩
      · exact absurd h4 hm
      · -- declared by `:=`
        have e : b = .short d.expr ∧ l = tl := by rw [hl] at h5; cases h5; exact ⟨rfl, rfl⟩
        obtain ⟨rfl, rfl⟩ := e
        rw [h4]
        simp only [if_false, Bool.false_eq_true]
        have ih := h.resolve s (.define d.id :: vis) d.expr (env.outer l) (hr.outer (look_suffix hl)) h6
        split
        · rename_i o ho
          split at ho
          · cases ho
          · rw [ho] at ih
            exact ⟨trivial, ih.2.mono fun G hG => .short hl hG⟩
        · trivial
      · -- `x := x`
        obtain ⟨f, hf, hfd⟩ := getDef_mem hd
        have h5 : d.expr = .ident x := by
          rcases h6 f hf d hfd with h | h
          · exact absurd h hm
          · exact h.2
        rw [h4, h5]
        simp only [if_true]
        have hx : ∀ (m : Nat) (fr : List Frame) (vis : List Key), SplitOk fr x → ∀ o,
            resolve P m { s with frames := fr } vis (.ident x) ≠ .obj o := by
          intro m
          induction m with
          | zero => intro fr vis _ o ho; cases ho
          | succ m ih =>
            intro fr vis hfr o ho
            cases hp : getDef fr x with
            | none => rw [plain fr vis _ hp] at ho; cases ho
            | some d' =>
              simp only [resolve, hp] at ho
              split at ho
              · cases ho
              · rename_i hm'
                obtain ⟨f', hf', hfd'⟩ := getDef_mem hp
                obtain ⟨h7, h8⟩ := (hfr f' hf' d' hfd').resolve_left hm'
                rw [h7, h8] at ho
                simp only [if_true] at ho
                split at ho
                · rename_i o' ho'
                  split at ho'
                  · cases ho'
                  · exact ih fr.tail _ (fun f hf => hfr f (List.mem_of_mem_tail hf)) _ ho'
                · cases ho
        split
        · rename_i o ho
          split at ho
          · cases ho
          · exact absurd ho (hx n s.frames.tail _ (fun f hf => h6 f (List.mem_of_mem_tail hf)) o)
        · trivial

theorem universe_ok {env : Env} {x : String} (h1 : look env.locals x = none) (h2 : P env.pkg x = none)
    (h3 : env.imports.lookup x = none) (h4 : x ∈ predeclared) : InfoOK P env (.ident x) (universeInfo x) := by
  simp only [universeInfo]
  split
  · exact ⟨trivial, trivial⟩
  · split
    · exact .builtin h1 h2 h3 h4
    · split <;> trivial

theorem obj_value {env : Env} {e e' : Expr} {o : Obj} (h : InfoOK P env e (.obj o))
    (hf : ∀ G, Is P env e (.is .value G) → Is P env e' (.is .value G)) : InfoOK P env e' (.obj (.value o.type)) :=
  ⟨trivial, h.2.mono hf⟩

/-- a name that is not local in Go -/
theorem sound_global (hP : ProgOk P) {n : Nat} (h : Sound P n) {s : Scope} {vis : List Key} {env : Env} {x : String} (hr : R P s env)
    (hl : look env.locals x = none)
    (hg : (P env.pkg x).isSome = true ∨ (env.imports.lookup x).isSome = true ∨ x ∈ predeclared) :
    InfoOK P env (.ident x) (resolve P (n + 1) s vis (.ident x)) := by
  have hh : has s.frames x = false := hr.glob x (by
    rcases hg with h | h | h
    · exact .inl h
    · exact .inr (.inl h)
    · exact .inr (.inr (.inl h)))
  simp only [resolve, getDef_none hh, hh, Bool.false_eq_true, if_false]
  cases hd : P s.pkg x with
  | some d =>
    obtain ⟨kind, im⟩ := d
    have hd' : P env.pkg x = some ⟨kind, im⟩ := hr.pkg ▸ hd
    have hrd := R.decl hP hr hd
    have hok := hP.decl _ _ _ hd
    -- the type or value of the declaration
    have go : ∀ e, Scoped P { pkg := env.pkg, imports := im } (used e) →
        InfoOK P { pkg := env.pkg, imports := im } e
          (if vis.contains (.decl s.pkg x) then .lazy else resolve P n s (.decl s.pkg x :: vis) e) := by
      intro e he
      split
      · trivial
      · exact h.resolve s _ e _ (by rw [← hr.pkg]; exact hrd) he
    rw [hr.pkg] at hok
    cases kind with
    | typ a e ms =>
      simp only
      simp only [DeclOk] at hok
      have ht := asType_ok (go e hok.1)
      refine ite_unknown ?_
      refine ⟨a, e, ms, im, hd, ?_⟩
      cases a with
      | true =>
        simp only [if_true]
        exact ht.mono fun G hG => .alias hl hd' hG
      | false =>
        simp at hok
        refine ⟨hr.pkg ▸ .defined hl hd', ?_, hr.pkg ▸ ht⟩
        split
        · rfl
        · exact typeLit_notNamed hok.2
    | var t v =>
      simp only [DeclOk] at hok
      cases t with
      | some e =>
        simp only
        have ht := asType_ok (go e (hok.1 e rfl))
        refine ite_unknown ⟨hr.pkg ▸ .var hl hd', ?_⟩
        exact ht.mono fun G hG => .varType hl hd' hG
      | none =>
        cases v with
        | some e =>
          simp only
          have ht := go e (hok.2 e rfl)
          generalize (if vis.contains (.decl s.pkg x) then .lazy else resolve P n s (.decl s.pkg x :: vis) e) = i at ht ⊢
          cases i with
          | unknown => trivial
          | obj o => exact ite_unknown ⟨hr.pkg ▸ .var hl hd', ht.2.mono fun G hG => .varValue hl hd' hG⟩
          | _ => exact ⟨hr.pkg ▸ .var hl hd', trivial⟩
        | none => trivial
    | func ps rs =>
      simp only [DeclOk] at hok
      refine ⟨hr.pkg ▸ .func hl hd', ?_⟩
      exact ⟨_, ps, by rw [← hr.pkg]; exact hrd, hok, .funcType hl hd'⟩
  | none =>
    have hd' : P env.pkg x = none := hr.pkg ▸ hd
    simp only
    cases hi : s.imports.lookup x with
    | some q =>
      have : env.imports.lookup x = some q := by
        rcases hg with h | h | h
        · rw [hd'] at h; cases h
        · obtain ⟨q', hq⟩ := Option.isSome_iff_exists.1 h
          rw [hq, hr.agree x q q' hi hq]
        · exact absurd h (hr.file.fresh x q hi).2.2
      exact .imported hl hd' this
    | none =>
      by_cases hq : env.imports.lookup x = none
      · refine universe_ok hl hd' hq ?_
        rcases hg with h | h | h
        · rw [hd'] at h; cases h
        · rw [hq] at h; cases h
        · exact h
      · -- imported there, but not here
        obtain ⟨q, hq⟩ := Option.ne_none_iff_exists'.1 hq
        rw [universe_unknown (hr.efresh x q hq)]
        trivial

/-- any expression -/
theorem sound_resolve (hP : ProgOk P) {n : Nat} (h : Sound P n) (s : Scope) (vis : List Key) (e : Expr) (env : Env)
    (hr : R P s env) (hs : Scoped P env (used e)) : InfoOK P env e (resolve P (n + 1) s vis e) := by
  cases e with
  | ident x =>
    cases hl : look env.locals x with
    | some b => exact sound_local h hr hl
    | none =>
      refine sound_global hP h hr hl ?_
      rcases hs x (by simp [used]) with h | h
      · rw [hl] at h; cases h
      · exact h
  | sel x f =>
    have ih := h.resolve s vis x env hr hs
    simp only [resolve]
    generalize resolve P n s vis x = i at ih ⊢
    cases i with
    | pkg q =>
      simp only
      cases hd : P q f with
      | none => trivial
      | some d =>
        simp only
        refine (h.resolve _ vis (.ident f) (d.env q) (R.fresh hP hd) ?_).mono (fun F hF => .qualified ih hd hF) (fun hl => by cases hl)
        intro y hy
        simp only [used, List.mem_singleton] at hy
        subst hy
        exact .inr (.inl (by simp [Decl.env, hd]))
    | obj o => exact h.field vis o.type .value env x f ih.2
    | type t => exact h.field vis t .type env x f ih
    | _ => trivial
  | star x =>
    have ih := h.resolve s vis x env hr hs
    simp only [resolve]
    generalize resolve P n s vis x = i at ih ⊢
    cases i with
    | obj o =>
      simp only
      refine ite_unknown ?_
      have ih := ih.2
      generalize o.type = t at ih
      cases t with
      | ptr t => exact ⟨trivial, TyOK.mono (t := t) ih fun G hG => .starValue hG⟩
      | _ => exact ⟨trivial, trivial⟩
    | type t => exact TyOK.mono (t := t) ih fun G hG => .starType hG
    | _ => trivial
  | addr x =>
    have ih := h.resolve s vis x env hr hs
    simp only [resolve]
    generalize resolve P n s vis x = i at ih ⊢
    cases i with
    | obj o =>
      refine ⟨?_, TyOK.mono (t := o.type) ih.2 fun G hG => .addr hG⟩
      have ih := ih.1
      cases o <;> first | trivial | exact .addrVar ih
    | _ => trivial
  | neg x =>
    have ih := h.resolve s vis x env hr hs
    simp only [resolve]
    generalize resolve P n s vis x = i at ih ⊢
    cases i with
    | obj o => exact obj_value ih fun G hG => .neg hG
    | _ => trivial
  | paren x =>
    have ih := h.resolve s vis x env hr hs
    simp only [resolve]
    exact ih.mono (fun F hF => .paren hF) (fun hl => hl)
  | binary op x y =>
    simp only [used] at hs
    have ihx := h.resolve s vis x env hr hs.left
    have ihy := h.resolve s vis y env hr hs.right
    simp only [resolve]
    cases op with
    | arith =>
      simp only
      generalize resolve P n s vis x = i at ihx ⊢
      cases i with
      | obj o =>
        cases o with
        | untypedLit t =>
          simp only
          generalize resolve P n s vis y = j at ihy ⊢
          cases j with
          | obj o => exact obj_value ihy fun G hG => .arithLit ihx.1 hG
          | _ => trivial
        | _ => exact obj_value ihx fun G hG => .arith hG
      | _ => trivial
    | shift =>
      simp only
      generalize resolve P n s vis x = i at ihx ⊢
      cases i with
      | obj o => exact obj_value ihx fun G hG => .shift hG
      | _ => trivial
    | cmp => exact ⟨trivial, trivial⟩
    | other => trivial
  | comp t elts =>
    simp only [resolve]
    exact ite_unknown ⟨trivial, (asType_ok (h.resolve s vis t env hr hs)).mono fun G hG => .comp hG⟩
  | index x i =>
    simp only [used] at hs
    have ihx := h.resolve s vis x env hr hs.left
    simp only [resolve]
    generalize resolve P n s vis x = j at ihx ⊢
    cases j with
    | obj o =>
      cases o with
      | pkgFunc p f sig => exact ⟨.instFunc ihx.1, ihx.2.mono fun G hG => .instFuncType ihx.1 hG⟩
      | method p t m => exact ⟨.instMethod ihx.1, trivial⟩
      | _ => trivial
    | type t => exact ite_unknown (TyOK.mono (t := t) ihx fun G hG => .instType hG)
    | pkg q => exact ite_unknown trivial
    | unknown => exact ite_unknown trivial
    | _ => trivial
  | lit t =>
    simp only [resolve]
    cases t with
    | some b => exact ⟨rfl, trivial⟩
    | none => trivial
  | func ps rs body => exact ⟨trivial, env, ps, hr, hs, .funcLit⟩
  | funcT ps rs => exact ⟨env, ps, hr, hs, .sig⟩
  | structT fs => exact ⟨env, hr, hs, .struct⟩
  | arrayT b e =>
    simp only [resolve]
    refine ite_unknown ?_
    cases b <;> trivial
  | mapT k v => trivial
  | chanT t => trivial
  | ifaceT => trivial
  | call f args =>
    simp only [used] at hs
    have ihf := h.resolve s vis f env hr hs.left
    have hsa := hs.right
    simp only [resolve]
    generalize resolve P n s vis f = i at ihf ⊢
    cases i with
    | op b =>
      cases args with
      | nil => trivial
      | cons a rest =>
        simp only [usedEs] at hsa
        have iha := h.resolve s vis a env hr hsa.left
        simp only
        split
        · rename_i hb
          subst hb
          cases rest with
          | nil =>
            refine ite_unknown ⟨trivial, ?_⟩
            exact TyOK.mono (t := (resolve P n s vis a).asType) (asType_ok iha) fun G hG => .new ihf hG
          | cons => trivial
        · split
          · rename_i hb
            subst hb
            exact ite_unknown ⟨trivial, (asType_ok iha).mono fun G hG => .make ihf hG⟩
          · split
            · rename_i hb
              subst hb
              generalize resolve P n s vis a = i at iha ⊢
              cases i with
              | obj o => exact obj_value iha fun G hG => .append ihf hG
              | _ => trivial
            · trivial
    | obj o =>
      simp only
      have hu := h.underlying vis o.type _ ihf.2
      generalize underlying P n vis o.type = u at hu ⊢
      cases u with
      | sig s' rs =>
        simp only
        split
        · rename_i t ht
          obtain ⟨ns, rfl⟩ := types_one ht
          obtain ⟨env', ps, h1, h2, t', h3, h4⟩ := hu
          simp only [usedF, List.append_nil] at h2
          exact ⟨trivial, env', h1, h2, fun G hG => .call h3 h4 rfl hG⟩
        · exact ⟨trivial, trivial⟩
      | sig0 => exact ⟨trivial, trivial⟩
      | _ => trivial
    | type t => exact ⟨trivial, TyOK.mono (t := t) ihf fun G hG => .convert hG⟩
    | unknown => exact ⟨trivial, trivial⟩
    | pkg q => exact ⟨trivial, trivial⟩
    | _ => trivial
  | other es => trivial

theorem sound (hP : ProgOk P) : ∀ n, Sound P n
  | 0 =>
    { resolve := fun _ _ _ _ _ _ => trivial
      force := by
        intro vis t K ht
        cases t <;> first | exact ht | trivial
      underlying := fun _ _ _ _ => trivial
      field := fun _ _ _ _ _ _ _ => trivial }
  | n + 1 =>
    have h := sound hP n
    { resolve := sound_resolve hP h
      force := sound_force h
      underlying := sound_underlying h
      field := sound_field hP h }

end Verif.Instrument.Target
