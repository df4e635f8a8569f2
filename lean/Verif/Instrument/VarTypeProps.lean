import Verif.Instrument.VarTypeSpec
/-
C73: the resolver finds the type that Go gives a value.
-/
namespace Verif.Instrument.VarType
open Spec

variable {P : Prog} {seen : Seen}

/-- The scope gives the names the meaning they have in `env`, or none. -/
structure Near (P : Prog) (s : Scope) (env : Env) (ns : List Str) : Prop where
  proper : env.xtest = false
  imports : ∀ y q, env.imports.lookup y = some q → ¬ Predeclared y ∧ ∀ b, P env.pkg b y = none
  pkg : s.pkg = env.pkg
  names : ∀ y ∈ ns, (∀ t, s.locals.look y ≠ some (some t)) ∧
    (s.imports.lookup y = none ∨ s.imports.lookup y = env.imports.lookup y)

theorem Near.sub {s : Scope} {env : Env} {a b : List Str} (h : Near P s env b) (hs : ∀ y ∈ a, y ∈ b) : Near P s env a :=
  ⟨h.proper, h.imports, h.pkg, fun y hy => h.names y (hs y hy)⟩

/-- What the resolver has found agrees with the type of Go. -/
def Rep (P : Prog) : Ty → GType → Prop
  | .basic x, T => ∃ b, predeclaredType x = some b ∧ T = .basic b
  | .named p x t, T => ∃ a e im, P p false x = some ⟨.typ a e, im⟩ ∧ (a = false → T = .named p false x) ∧
      (a = true → Is P true ⟨p, false, im⟩ e (.type T)) ∧ ∀ T', Is P true ⟨p, false, im⟩ e (.type T') → Rep P t T'
  | .ptr t, T => ∃ T', T = .ptr T' ∧ Rep P t T'
  | .slice t, T => ∃ T', T = .slice T' ∧ Rep P t T'
  | .map k v, T => ∃ K V, T = .map K V ∧ Rep P k K ∧ Rep P v V
  | .lazy s e, T => ∃ env, Near P s env (names e) ∧ Is P true env e (.type T)
  | .sig s rs, T => ∃ env, T = .func env rs ∧ Near P s env (namesAll rs)
  | .tuple _ _, _ => False
  | .null, _ => False
  | .pkg _, _ => False
  | .unknown, _ => True
  | .untyped, _ => True
  | .array, _ => True
  | .chan, _ => True
  | .iface, _ => True
  | .struct, _ => True

def Obj.isLit : Obj → Prop
  | .untypedLit _ => True
  | .value _ => False

def Ok (P : Prog) : Info → Fact → Prop
  | .unknown, _ => True
  | .op n, .builtin m => n = m
  | .type (.pkg q), .pkg q' => q = q'
  | .type t, .type T => Rep P t T
  | .obj o, .val w => Rep P o.type w.default ∧ (o.isLit → ∃ k, w = .const k)
  | _, _ => False

theorem Ok.type {i : Info} {T : GType} (h : Ok P i (.type T)) : i = .unknown ∨ ∃ t, i = .type t ∧ Rep P t T := by
  cases i with
  | unknown => exact Or.inl rfl
  | op n => exact h.elim
  | obj o => exact h.elim
  | type t => cases t <;> exact Or.inr ⟨_, rfl, h⟩

theorem Ok.val {i : Info} {w : Val} (h : Ok P i (.val w)) :
    i = .unknown ∨ ∃ o, i = .obj o ∧ Rep P o.type w.default ∧ (o.isLit → ∃ k, w = .const k) := by
  cases i with
  | unknown => exact Or.inl rfl
  | op n => exact h.elim
  | obj o => exact Or.inr ⟨_, rfl, h⟩
  | type t => cases t <;> exact h.elim

theorem Ok.pkg {i : Info} {q : Str} (h : Ok P i (.pkg q)) : i = .unknown ∨ i = .type (.pkg q) := by
  cases i with
  | unknown => exact Or.inl rfl
  | op n => exact h.elim
  | obj o => exact h.elim
  | type t => cases t <;> first | exact h.elim | (right; rw [show _ = q from h])

theorem Ok.builtin {i : Info} {n : Str} (h : Ok P i (.builtin n)) : i = .unknown ∨ i = .op n := by
  cases i with
  | unknown => exact Or.inl rfl
  | op m => right; rw [show m = n from h]
  | obj o => exact h.elim
  | type t => cases t <;> exact h.elim

theorem ok_type {t : Ty} {T : GType} (h : Rep P t T) : Ok P (.type t) (.type T) := by
  cases t <;> exact h

theorem ok_value {t : Ty} {w : Val} (h : Rep P t w.default) : Ok P (.obj (.value t)) (.val w) := ⟨h, fun h => h.elim⟩

theorem Ok.asType {i : Info} {T : GType} (h : Ok P i (.type T)) : Rep P i.asType T := by
  rcases h.type with h | ⟨t, h, hr⟩
  · rw [h]; trivial
  · rw [h]; exact hr

theorem table_proper (hP : ProgOk P) {p x : Str} {d : Decl} (h : P p false x = some d) : table P p x = some d := by
  unfold table
  cases ht : P p true x with
  | none => exact h
  | some d' => rw [(hP.xtest p x d' ht).1] at h; cases h

theorem table_none (hP : ProgOk P) {p x : Str} (h : P p false x = none) (hx : Predeclared x) : table P p x = none := by
  unfold table
  cases ht : P p true x with
  | none => exact h
  | some d' => exact absurd hx (hP.xtest p x d' ht).2

theorem universal_builtin {x : Str} (h : x ∈ builtins) : universal x = .op x ∨ universal x = .unknown := by
  have hn : ∀ x ∈ builtins, x ≠ "nil".toList ∧ basicNames.contains x = false := by decide +kernel
  unfold universal
  rw [if_neg (hn x h).1]
  by_cases ho : operations.contains x = true
  · rw [if_pos ho]; exact Or.inl rfl
  · rw [if_neg ho, if_neg (by rw [(hn x h).2]; decide)]; exact Or.inr rfl

theorem universal_type {x b : Str} (h : predeclaredType x = some b) : universal x = .type (.basic x) ∨ universal x = .unknown := by
  have hn : ∀ x ∈ operations, predeclaredType x = none := by decide +kernel
  have h0 : predeclaredType "nil".toList = none := by decide +kernel
  unfold universal
  rw [if_neg (by intro e; rw [e, h0] at h; cases h)]
  by_cases ho : operations.contains x = true
  · rw [hn x (by simpa using ho)] at h; cases h
  rw [if_neg ho]
  by_cases hb : basicNames.contains x = true
  · rw [if_pos hb]; exact Or.inl rfl
  · rw [if_neg hb]; exact Or.inr rfl

theorem universal_other {x : Str} (h : ¬ Predeclared x) : universal x = .unknown := by
  have ho : ∀ x ∈ operations, x ∈ builtins := by decide +kernel
  have hb : ∀ x ∈ basicNames, (predeclaredType x).isSome = true := by decide +kernel
  unfold universal
  rw [if_neg (fun e => h (Or.inr (Or.inr (Or.inl e)))),
    if_neg (fun e => h (Or.inr (Or.inl (ho x (by simpa using e))))),
    if_neg (fun e => h (Or.inl (hb x (by simpa using e))))]

theorem Rep.unknown {T : GType} {t : Ty} (h : t.isUnknown = true) : Rep P t T := by
  cases t <;> first | trivial | cases h

theorem lit_resolve (n : Nat) (s : Scope) : ∀ e, isLit e = true → resolve P seen n s e = .unknown ∨
    ∃ t, resolve P seen n s e = .obj (.untypedLit t) := by
  induction n with
  | zero => intro e _; exact Or.inl (by rw [resolve])
  | succ n ih =>
    intro e h
    cases e with
    | lit k => rw [resolve]; cases k <;> first | exact Or.inr ⟨_, rfl⟩ | exact Or.inl rfl
    | paren e => rw [resolve]; exact ih e h
    | _ => cases h

/-- The scope of a declaration met first, and its own. -/
theorem near_seen (hP : ProgOk P) (hs : SeenOk P seen) {p x : Str} {k : DeclKind} {im : Imports} (h : P p false x = some ⟨k, im⟩) :
    Near P (seen p x) ⟨p, false, im⟩ (declNames k) :=
  ⟨rfl, fun y q hq => hP.imports p false x _ h y q hq, (hs p x _ h).1, (hs p x _ h).2⟩

theorem near_file (hP : ProgOk P) {p x : Str} {d : Decl} (h : P p false x = some d) (ns : List Str) :
    Near P (.mk p d.imports .nil) ⟨p, false, d.imports⟩ ns :=
  ⟨rfl, fun y q hq => hP.imports p false x _ h y q hq, rfl, fun y _ => ⟨fun t h => by simp [Scope.locals, Locals.look] at h, Or.inr rfl⟩⟩

def ResolveOk (P : Prog) (seen : Seen) (n : Nat) : Prop :=
  ∀ s env e F, Near P s env (names e) → Is P true env e F → Ok P (resolve P seen n s e) F

def UnderOk (P : Prog) (seen : Seen) (n : Nat) : Prop :=
  ∀ t T env rs s' rs', Rep P t T → Under P true T (.func env rs) → under P seen n t = .sig s' rs' → rs' = rs ∧ Near P s' env (namesAll rs)

theorem under_step {n : Nat} (ihr : ResolveOk P seen n) (ihu : UnderOk P seen n) : UnderOk P seen (n + 1) := by
  intro t T env rs s' rs' hr hu h
  cases t with
  | named p x t =>
    rw [under] at h
    obtain ⟨a, e, im, h1, h2, h3, h4⟩ := hr
    cases a with
    | true => exact ihu _ _ _ _ _ _ (h4 T (h3 rfl)) hu h
    | false =>
      rw [h2 rfl] at hu
      cases hu with
      | named g1 g2 g3 =>
        rw [h1] at g1
        injection g1 with g1
        injection g1 with g4 g5
        injection g4 with g6 g7
        subst g5; subst g7
        exact ihu _ _ _ _ _ _ (h4 _ g2) g3 h
  | lazy s e =>
    rw [under] at h
    obtain ⟨env', h1, h2⟩ := hr
    exact ihu _ _ _ _ _ _ (ihr _ _ _ _ h1 h2).asType hu h
  | sig s rs2 =>
    rw [under] at h
    · obtain ⟨env', h1, h2⟩ := hr
      injection h with h3 h4
      subst h3; subst h4
      rw [h1] at hu
      cases hu with
      | func => exact ⟨rfl, h2⟩
    all_goals (intros; contradiction)
  | _ => rw [under] at h <;> first | cases h | (intros; intro hh; cases hh)

theorem ident_step (hP : ProgOk P) (hs : SeenOk P seen) {n : Nat} (ihr : ResolveOk P seen n) {s : Scope} {env : Env} {x : Str} {F : Fact}
    (hn : Near P s env [x]) (h : Is P true env (.ident x) F) : Ok P (resolve P seen (n + 1) s (.ident x)) F := by
  rw [resolve]
  have hx := hn.names x (by simp)
  cases hl : s.locals.look x with
  | some o =>
    cases o with
    | some t => exact absurd hl (hx.1 t)
    | none => trivial
  | none =>
    obtain ⟨pkg, xt, imports⟩ := env
    have hpkg : s.pkg = pkg := hn.pkg
    have hxt : xt = false := hn.proper
    subst hxt
    simp only [hpkg]
    have hnone : ∀ b, P pkg false x = none → imports.lookup x = none → Predeclared x → Ok P (universal x) b →
        Ok P (match table P pkg x with
          | some d => match d.kind with
            | .typ _ e => if (resolve P seen n (seen pkg x) e).asType.isUnknown then .unknown
                else .type (.named pkg x (resolve P seen n (seen pkg x) e).asType)
            | .func rs => .obj (.value (.sig (seen pkg x) rs))
            | .var _ (some e) _ _ _ => if (resolve P seen n (seen pkg x) e).asType.isUnknown then .unknown
                else .obj (.value (resolve P seen n (seen pkg x) e).asType)
            | .var c none v m i => match (DeclKind.var c none v m i).value with
              | none => .unknown
              | some e => match resolve P seen n (seen pkg x) e with
                | .unknown => .unknown
                | .obj o => if o.type.isUnknown then .unknown else .obj (.value o.type)
                | _ => .obj (.value .null)
          | none => match s.imports.lookup x with
            | some q => .type (.pkg q)
            | none => universal x) b := by
      intro b h1 h2 h3 h4
      rw [table_none hP h1 h3]
      have : s.imports.lookup x = none := by rcases hx.2 with h | h; exact h; exact h.trans h2
      simp only [this]
      exact h4
    cases h with
    | alias h1 h2 =>
      rw [table_proper hP h1]
      simp only
      have := (ihr _ _ _ _ (near_seen hP hs h1) h2).asType
      split
      · trivial
      · refine ok_type ⟨_, _, _, h1, (fun h => by cases h), fun _ => h2, fun T' hT' => (ihr _ _ _ _ (near_seen hP hs h1) hT').asType⟩
    | defined h1 =>
      rw [table_proper hP h1]
      simp only
      split
      · trivial
      · refine ok_type ⟨_, _, _, h1, fun _ => rfl, (fun h => by cases h), fun T' hT' => (ihr _ _ _ _ (near_seen hP hs h1) hT').asType⟩
    | @declared _ _ c e v m i im T h1 h2 =>
      rw [table_proper hP h1]
      simp only
      have hne : Near P (seen pkg x) ⟨pkg, false, im⟩ (names e) :=
        (near_seen hP hs h1).sub (fun y hy => by simp [declNames, optNames, hy])
      have := (ihr _ _ _ _ hne h2).asType
      split
      · trivial
      · exact ok_value this
    | @var _ _ e im w h1 h2 =>
      rw [table_proper hP h1]
      simp only [DeclKind.value, if_true]
      have hne : Near P (seen pkg x) ⟨pkg, false, im⟩ (names e) :=
        (near_seen hP hs h1).sub (fun y hy => by simp [declNames, optNames, hy])
      rcases (ihr _ _ _ _ hne h2).val with h | ⟨o, h, hr, hl⟩
      · rw [h]; trivial
      · rw [h]
        simp only
        split
        · trivial
        · exact ok_value (w := .typed _) hr
    | vars h1 => cases h1
    | @const _ _ e im w h1 h2 =>
      rw [table_proper hP h1]
      simp only [DeclKind.value, if_true]
      have hne : Near P (seen pkg x) ⟨pkg, false, im⟩ (names e) :=
        (near_seen hP hs h1).sub (fun y hy => by simp [declNames, optNames, hy])
      rcases (ihr _ _ _ _ hne h2).val with h | ⟨o, h, hr, hl⟩
      · rw [h]; trivial
      · rw [h]
        simp only
        split
        · trivial
        · exact ok_value hr
    | func h1 =>
      rw [table_proper hP h1]
      exact ok_value (w := .typed _) ⟨_, rfl, near_seen hP hs h1⟩
    | imported h1 h2 =>
      have himp := hn.imports x _ h2
      have htab : table P pkg x = none := by unfold table; rw [himp.2 true]; exact himp.2 false
      rw [htab]
      simp only
      rcases hx.2 with h | h
      · rw [h]; simp only; rw [universal_other himp.1]; trivial
      · rw [h, show imports.lookup x = some _ from h2]; exact rfl
    | basic h1 h2 h3 =>
      refine hnone _ h1 h2 (Or.inl (by rw [h3]; rfl)) ?_
      rcases universal_type h3 with h | h
      · rw [h]; exact ok_type ⟨_, h3, rfl⟩
      · rw [h]; trivial
    | builtin h1 h2 h3 =>
      refine hnone _ h1 h2 (Or.inr (Or.inl h3)) ?_
      rcases universal_builtin h3 with h | h
      · rw [h]; exact rfl
      · rw [h]; trivial
    | truth h1 h2 h3 =>
      refine hnone _ h1 h2 (Or.inr (Or.inr (Or.inr h3))) ?_
      rcases h3 with h | h
      · rw [h]; exact trivial
      · rw [h]; exact trivial

theorem resolve_step (hP : ProgOk P) (hs : SeenOk P seen) {n : Nat} (ihr : ResolveOk P seen n) (ihu : UnderOk P seen n) :
    ResolveOk P seen (n + 1) := by
  intro s env e F hn h
  cases e with
  | ident x => exact ident_step hP hs ihr hn h
  | sel x f =>
    rw [resolve]
    cases h with
    | qualified h1 h2 h3 h4 =>
      rcases (ihr s env (.ident x) _ hn h1).pkg with h | h
      · rw [h]; trivial
      · rw [h]
        simp only
        rw [table_proper hP h3]
        exact ihr _ _ _ _ (near_file hP h3 _) h4
  | star e =>
    rw [resolve]
    cases h with
    | starT h1 =>
      rcases (ihr s env e _ hn h1).type with h | ⟨t, h, hr⟩
      · rw [h]; trivial
      · rw [h]; exact ok_type ⟨_, rfl, hr⟩
    | star h1 =>
      rcases (ihr s env e _ hn h1).val with h | ⟨o, h, hr, hl⟩
      · rw [h]; trivial
      · rw [h]
        simp only
        split
        · trivial
        · rename_i hu
          refine ok_value ?_
          cases ht : o.type with
          | ptr t =>
            rw [ht] at hr
            obtain ⟨T', e1, e2⟩ := hr
            injection e1 with e1
            rw [deref]
            show Rep P t _
            simp only [Val.default]
            rw [e1]; exact e2
          | _ => rw [ht] at hu; exact absurd rfl hu
  | addr e =>
    rw [resolve]
    cases h with
    | addr h1 =>
      rcases (ihr s env e _ hn h1).val with h | ⟨o, h, hr, hl⟩
      · rw [h]; trivial
      · rw [h]; exact ok_value (w := .typed _) ⟨_, rfl, hr⟩
  | not e =>
    rw [resolve]
    cases h with
    | not h1 =>
      rcases (ihr s env e _ hn h1).val with h | ⟨o, h, hr, hl⟩
      · rw [h]; trivial
      · rw [h]; exact ok_value hr
  | paren e =>
    rw [resolve]
    cases h with
    | paren h1 => exact ihr s env e _ hn h1
  | binary op x y =>
    rw [resolve.eq_def]; simp only
    have hnx : Near P s env (names x) := hn.sub fun z hz => by simp [names, hz]
    have hny : Near P s env (names y) := hn.sub fun z hz => by simp [names, hz]
    have left : ∀ w, Is P true env x (.val w) → ∀ w', w.default = w'.default → (∀ k, w = .const k → False) →
        Ok P (match resolve P seen n s x with
          | .obj (.untypedLit _) => match resolve P seen n s y with
            | .obj o => .obj (.value o.type)
            | _ => .unknown
          | .obj o => .obj (.value o.type)
          | _ => .unknown) (.val w') := by
      intro w h1 w' hd hk
      rcases (ihr s env _ _ hnx h1).val with h | ⟨o, h, hr, hl⟩
      · rw [h]; trivial
      · rw [h]
        cases o with
        | untypedLit t => obtain ⟨k, hk'⟩ := hl trivial; exact (hk k hk').elim
        | value t => rw [hd] at hr; exact ok_value hr
    cases h with
    | arith h1 h2 => exact left _ h1 _ rfl fun k h => by cases h
    | arithConst h1 h2 => exact left _ h1 _ rfl fun k h => by cases h
    | constArith h0 h1 h2 =>
      rcases lit_resolve (P := P) (seen := seen) n s x (h0 rfl) with h | ⟨t, h⟩
      · simp only [h]; trivial
      · simp only [h]
        rcases (ihr s env _ _ hny h2).val with h | ⟨o, h, hr, hl⟩
        · rw [h]; trivial
        · rw [h]; exact ok_value hr
    | @consts _ _ _ k k' j h0 h1 h2 h3 =>
      have hk := h0 rfl
      subst hk
      have hj : j = k := by cases k <;> cases h3 <;> rfl
      subst hj
      rcases (ihr s env _ _ hnx h1).val with h | ⟨o, h, hr, hl⟩
      · simp only [h]; trivial
      · simp only [h]
        cases o with
        | untypedLit t =>
          simp only
          rcases (ihr s env _ _ hny h2).val with h | ⟨o, h, hr, hl⟩
          · rw [h]; trivial
          · rw [h]; exact ok_value hr
        | value t => exact ok_value hr
    | shift h1 h2 =>
      rcases (ihr s env _ _ hnx h1).val with h | ⟨o, h, hr, hl⟩
      · simp only [h]; trivial
      · simp only [h]; exact ok_value hr
    | @shiftConst _ _ _ k k' j h0 h1 h2 h3 =>
      have hk := h0 rfl
      have hj : j = k := by cases k <;> first | exact absurd rfl hk | (cases h3; done) | (cases h3; rfl)
      subst hj
      rcases (ihr s env _ _ hnx h1).val with h | ⟨o, h, hr, hl⟩
      · simp only [h]; trivial
      · simp only [h]; exact ok_value hr
    | cmp => exact ok_value (w := .const .bool) ⟨_, by decide +kernel, rfl⟩
  | call f args =>
    rw [resolve.eq_def]; simp only
    have hnf : Near P s env (names f) := hn.sub fun z hz => by simp [names, hz]
    have hna : ∀ m a rest, args = .cons m a rest → Near P s env (names a) := fun m a rest ha =>
      hn.sub fun z hz => by rw [ha]; simp [names, namesAll, hz]
    cases h with
    | convert h1 =>
      rcases (ihr s env _ _ hnf h1).type with h | ⟨t, h, hr⟩
      · rw [h]; exact ok_value (w := .typed _) trivial
      · rw [h]; exact ok_value (w := .typed _) hr
    | @call _ _ _ T env' m e U h1 h2 h3 h4 =>
      rcases (ihr s env _ _ hnf h1).val with h | ⟨o, h, hr, hl⟩
      · rw [h]; exact ok_value (w := .typed _) trivial
      · rw [h]
        simp only
        cases hu : under P seen n o.type with
        | sig s' rs' =>
          obtain ⟨g1, g2⟩ := ihu _ _ _ _ _ _ hr h2 hu
          subst g1
          exact ok_value (w := .typed _) ⟨env', g2.sub (fun y hy => by simp [namesAll, hy]), h4⟩
        | _ => trivial
    | new h1 h2 =>
      rcases (ihr s env _ _ hnf h1).builtin with h | h
      · rw [h]; exact ok_value (w := .typed _) trivial
      · rw [h]
        simp only [if_true]
        have := (ihr s env _ _ (hna _ _ _ rfl) h2).asType
        split
        · trivial
        · exact ok_value (w := .typed _) ⟨_, rfl, this⟩
    | make h1 h2 =>
      rcases (ihr s env _ _ hnf h1).builtin with h | h
      · rw [h]; exact ok_value (w := .typed _) trivial
      · rw [h]
        simp only [if_true]
        rw [if_neg (by decide)]
        have := (ihr s env _ _ (hna _ _ _ rfl) h2).asType
        split
        · trivial
        · exact ok_value (w := .typed _) this
    | append h1 h2 =>
      rcases (ihr s env _ _ hnf h1).builtin with h | h
      · rw [h]; exact ok_value (w := .typed _) trivial
      · rw [h]
        simp only [if_true]
        rw [if_neg (by decide), if_neg (by decide)]
        rcases (ihr s env _ _ (hna _ _ _ rfl) h2).val with h | ⟨o, h, hr, hl⟩
        · rw [h]; trivial
        · rw [h]; exact ok_value hr
  | comp t =>
    rw [resolve]
    cases h with
    | comp h1 =>
      have := (ihr s env t _ hn h1).asType
      split
      · trivial
      · exact ok_value (w := .typed _) this
  | lit k =>
    rw [resolve]
    cases h with
    | lit h1 h2 =>
      cases k <;> cases h2 <;> first | exact absurd rfl (h1 rfl) | exact ⟨⟨_, by decide +kernel, rfl⟩, fun _ => ⟨_, rfl⟩⟩
  | func rs =>
    rw [resolve]
    cases h with
    | funcLit => exact ok_value (w := .typed _) ⟨_, rfl, hn⟩
  | funcT rs =>
    rw [resolve]
    cases h with
    | sig => exact ok_type ⟨_, rfl, hn⟩
  | mapT k v =>
    rw [resolve]
    cases h with
    | map h1 h2 =>
      exact ok_type ⟨_, _, rfl, ⟨env, hn.sub fun z hz => by simp [names, hz], h1⟩, ⟨env, hn.sub fun z hz => by simp [names, hz], h2⟩⟩
  | arrayT b e =>
    rw [resolve]
    cases h with
    | slice h1 =>
      have := (ihr s env e _ hn h1).asType
      split
      · trivial
      · exact ok_type ⟨_, rfl, this⟩
    | array =>
      split
      · trivial
      · exact ok_type trivial
  | structT => rw [resolve]; cases h; exact ok_type trivial
  | ifaceT => rw [resolve]; cases h; exact ok_type trivial
  | chanT => rw [resolve]; cases h; exact ok_type trivial
  | other => cases h

/-- The resolver is right wherever it knows something. -/
theorem resolve_ok (hP : ProgOk P) (hs : SeenOk P seen) : ∀ n, ResolveOk P seen n ∧ UnderOk P seen n := by
  intro n
  induction n with
  | zero => exact ⟨fun s env e F _ _ => by rw [resolve]; trivial, fun t T env rs s' rs' _ _ h => by rw [under] at h; cases h⟩
  | succ n ih => exact ⟨resolve_step hP hs ih.1 ih.2, under_step ih.1 ih.2⟩

end Verif.Instrument.VarType
