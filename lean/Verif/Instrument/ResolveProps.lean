import Verif.Instrument.ResolveSpec
/-
C39: soundness of the scoping used for variable rewriting.
-/
namespace Verif.Instrument.Resolve

/-! ## Scopes -/

theorem has_push (s : Scope) (n : String) : s.push.has n = s.has n := by
  simp [Scope.push, Scope.has]

theorem has_add (s : Scope) (ns : List String) (n : String) :
    (s.add ns).has n = (ns.contains n || s.has n) := by
  cases s <;> simp [Scope.add, Scope.has, Bool.or_assoc]

theorem has_addDefs (s : Scope) (ns : List String) (n : String) :
    (s.addDefs ns).has n = (ns.contains n || s.has n) := by
  cases s with
  | nil => simp [Scope.addDefs, Scope.has]
  | cons f rest =>
    simp only [Scope.addDefs, Scope.has, List.contains_append]
    cases f.names.contains n <;> cases ns.contains n <;> simp

theorem has_split (s : Scope) (ns : List String) (n : String) :
    (s.split ns).has n = (ns.contains n || s.has n) := by
  simp [Scope.split, Scope.has]

theorem has_define (s : Scope) (lhs rhs : Exprs) (n : String) :
    (define s lhs rhs).has n = ((identNames lhs).contains n || s.has n) := by
  unfold define
  dsimp only
  split
  · exact has_split _ _ _
  · exact has_addDefs _ _ _

theorem isBlank_iff (n : String) : isBlank n = true ↔ ¬ (n ≠ "_" ∧ n ≠ "") := by
  simp only [isBlank, Bool.or_eq_true, beq_iff_eq]
  constructor
  · rintro (h | h) ⟨h1, h2⟩
    · exact h2 h
    · exact h1 h
  · intro h
    by_cases h1 : n = ""
    · exact Or.inl h1
    · by_cases h2 : n = "_"
      · exact Or.inr h2
      · exact absurd ⟨h2, h1⟩ h

theorem mem_declared {ns : List String} {n : String} :
    n ∈ declared ns ↔ n ∈ ns ∧ isBlank n = false := by
  unfold declared
  rw [List.mem_filter]
  constructor
  · rintro ⟨h, hb⟩
    refine ⟨h, ?_⟩
    cases hc : isBlank n with
    | false => rfl
    | true => exact absurd (of_decide_eq_true hb) ((isBlank_iff n).1 hc)
  · rintro ⟨h, hb⟩
    refine ⟨h, decide_eq_true ?_⟩
    apply Classical.byContradiction
    intro hn
    rw [(isBlank_iff n).2 hn] at hb
    cases hb

theorem mem_identNames {xs : Exprs} {n : String} :
    n ∈ identNames xs ↔ n ∈ declared (lhsNames xs) := by
  rw [mem_declared]
  fun_induction identNames xs with
  | case1 => simp [lhsNames]
  | case2 xs p m hb ih =>
    simp only [lhsNames, List.mem_cons]
    constructor
    · intro h; exact ⟨Or.inr (ih.1 h).1, (ih.1 h).2⟩
    · rintro ⟨h | h, hb'⟩
      · subst h; rw [hb] at hb'; cases hb'
      · exact ih.2 ⟨h, hb'⟩
  | case3 xs p m hb ih =>
    simp only [lhsNames, List.mem_cons]
    constructor
    · rintro (h | h)
      · subst h; exact ⟨Or.inl rfl, by simpa using hb⟩
      · exact ⟨Or.inr (ih.1 h).1, (ih.1 h).2⟩
    · rintro ⟨h | h, hb'⟩
      · exact Or.inl h
      · exact Or.inr (ih.2 ⟨h, hb'⟩)
  | case4 x xs hx ih =>
    have e : lhsNames (.cons x xs) = lhsNames xs := by
      cases x <;> first | rfl | exact absurd rfl (hx _ _)
    rw [e]; exact ih

theorem mem_identName {k : Expr} {n : String} :
    n ∈ identName k ↔ n ∈ declared (lhsNames (.cons k .nil)) := by
  rw [← mem_identNames]
  cases k <;> simp [identName, identNames]

/-- The code's scope knows every local name, except harmless ones. -/
def Cov (c : Ctx) (env : List String) (s : Scope) : Prop :=
  ∀ n, n ∈ env → s.has n = true ∨ Harmless c n

theorem Cov.push {c : Ctx} {env s} (h : Cov c env s) : Cov c env s.push := by
  intro n hn; rw [has_push]; exact h n hn

theorem Cov.mono {c : Ctx} {env s s'} (h : Cov c env s) (hs : ∀ n, s.has n = true → s'.has n = true) :
    Cov c env s' := by
  intro n hn
  rcases h n hn with h | h
  · exact Or.inl (hs n h)
  · exact Or.inr h

theorem Cov.append {c : Ctx} {ns env s} (h : Cov c env s) (hn : Cov c ns s) : Cov c (ns ++ env) s := by
  intro n hm
  rcases List.mem_append.1 hm with h' | h'
  · exact hn n h'
  · exact h n h'

/-! ## Resolution -/

theorem bareName_deparen (x : Expr) : bareName (deparen x) = bareName x := by
  fun_induction deparen x with
  | case1 x ih => rw [ih]; rfl
  | case2 => rfl

theorem exprOccs_deparen (full : Bool) (env : List String) (x : Expr) :
    exprOccs full env (deparen x) = exprOccs full env x := by
  fun_induction deparen x with
  | case1 x ih => rw [ih]; rfl
  | case2 => rfl

theorem exprOccs_addr (env : List String) (x : Expr) : exprOccs true env (.addr x) = exprOccs true env x := by
  cases x <;> simp [exprOccs]

theorem declInfo_pkgVar {c : Ctx} {p n p' n'} (h : declInfo c p n = .pkgVar p' n') :
    p' = p ∧ n' = n ∧ IsVar c p n := by
  unfold declInfo at h
  split at h
  · split at h <;> simp_all [IsVar]
  · split at h <;> simp_all [IsVar]
  · cases h
  · cases h

theorem declInfo_ne {c : Ctx} {p n} : (∀ p' n', declInfo c p n ≠ .ptr p' n') ∧
    (∀ p', declInfo c p n ≠ .imp p') := by
  unfold declInfo
  constructor
  · intro p' n'; split <;> (try split) <;> simp
  · intro p'; split <;> (try split) <;> simp

theorem resolve_imp {c : Ctx} {env s} (hc : Cov c env s) {e p} (h : resolve c s e = .imp p) :
    ∃ q, bareName e = some q ∧ env.contains q = false ∧ c.decls c.self q = none ∧
      c.imports q = some p := by
  fun_induction resolve c s e with
  | case1 pos n hn hl => cases h
  | case2 pos n hn hl => cases h
  | case3 pos n hn k hk => exact absurd h (declInfo_ne.2 _)
  | case4 pos n hn hd p' hp =>
    cases h
    refine ⟨n, rfl, ?_, hd, hp⟩
    cases he : env.contains n with
    | false => rfl
    | true =>
      rcases hc n (by simpa using he) with h | h
      · exact absurd h hn
      · rw [h.2 hd] at hp; cases hp
  | case5 => cases h
  | case6 x ih => exact ih h
  | case7 => cases h
  | case8 => cases h
  | case9 => cases h
  | case10 => cases h
  | case11 => cases h
  | case12 => exact absurd h (declInfo_ne.2 _)
  | case13 => cases h
  | case14 => cases h
  | case15 => cases h

/-- What a recorded reference needs. -/
def Target (c : Ctx) (occs : List Occ) (e : Expr) (p n : String) : Prop :=
  ∃ pos, identPos e = some pos ∧ IsVar c p n ∧
    ((p = c.self ∧ .id pos n false ∈ occs) ∨
     (∃ q, .qual pos n q false ∈ occs ∧ c.decls c.self q = none ∧ c.imports q = some p))

theorem resolve_var {c : Ctx} {env s} (hc : Cov c env s) {e p n}
    (h : resolve c s e = .pkgVar p n ∨ resolve c s e = .ptr p n) :
    Target c (exprOccs true env e) e p n := by
  fun_induction resolve c s e with
  | case1 => simp at h
  | case2 => simp at h
  | case3 pos m hn k hk =>
    rcases h with h | h
    · obtain ⟨rfl, rfl, hv⟩ := declInfo_pkgVar h
      refine ⟨pos, rfl, hv, Or.inl ⟨rfl, ?_⟩⟩
      have he : env.contains n = false := by
        cases he : env.contains n with
        | false => rfl
        | true =>
          rcases hc n (by simpa using he) with h | h
          · exact absurd h hn
          · exact absurd hv h.1
      simp [exprOccs, (by simpa using he : n ∉ env)]
    · exact absurd h (declInfo_ne.1 _ _)
  | case4 => simp at h
  | case5 => simp at h
  | case6 x ih => exact ih h
  | case7 x p' n' hx ih =>
    rcases h with h | h
    · cases h
    · cases h
      obtain ⟨pos, h1, h2⟩ := ih (Or.inl hx)
      rw [← exprOccs_addr] at h2
      exact ⟨pos, h1, h2⟩
  | case8 => simp at h
  | case9 => simp at h
  | case10 => simp at h
  | case11 => simp at h
  | case12 x pos m p' hx ih =>
    rcases h with h | h
    · obtain ⟨rfl, rfl, hv⟩ := declInfo_pkgVar h
      obtain ⟨q, hq, hq1, hq2, hq3⟩ := resolve_imp hc hx
      refine ⟨pos, rfl, hv, Or.inr ⟨q, ?_, hq2, hq3⟩⟩
      simp [exprOccs, hq, (by simpa using hq1 : q ∉ env)]
    · exact absurd h (declInfo_ne.1 _ _)
  | case13 => simp at h
  | case14 => simp at h
  | case15 => simp at h

theorem wrap_pkgVar {w i p n} (h : wrap w i = .pkgVar p n) : i = .pkgVar p n := by
  unfold wrap at h
  split at h
  · split at h <;> simp_all
  · exact h

theorem wrap_ptr {w i p n} (h : wrap w i = .ptr p n) : i = .pkgVar p n ∨ i = .ptr p n := by
  unfold wrap at h
  split at h
  · split at h <;> simp_all
  · exact Or.inr h

theorem go_eq {c : Ctx} {addr x hasSel p n b r} (h : collectVarRef.go c addr x hasSel p n b = some r) :
    r.pkg = p ∧ r.name = n ∧ r.target = deparen x := by
  unfold collectVarRef.go at h
  split at h
  · cases h
  · split at h
    · cases h
    · split at h
      · cases h
      · cases h; exact ⟨rfl, rfl, rfl⟩

theorem go_allow {c : Ctx} {addr x hasSel p n b r} (h : collectVarRef.go c addr x hasSel p n b = some r) :
    c.allow r.pkg = true := by
  unfold collectVarRef.go at h
  split at h
  · cases h
  · rename_i ha
    split at h
    · cases h
    · split at h
      · cases h
      · cases h; simpa using ha

theorem collectVarRef_ok {c : Ctx} {env s} (hc : Cov c env s) {w addr x hasSel r}
    (h : collectVarRef c s w addr x hasSel = some r) : RefOk c (exprOccs true env x) r := by
  unfold collectVarRef at h
  have key : ∀ p n b, collectVarRef.go c addr x hasSel p n b = some r →
      (resolve c s (deparen x) = .pkgVar p n ∨ resolve c s (deparen x) = .ptr p n) →
      RefOk c (exprOccs true env x) r := by
    intro p n b hg hr
    obtain ⟨h1, h2, h3⟩ := go_eq hg
    have := resolve_var hc hr
    rw [exprOccs_deparen] at this
    refine ⟨go_allow hg, ?_⟩
    rw [h1, h2, h3]
    exact this
  split at h
  · rename_i p n hr
    exact key p n _ h (Or.inl (wrap_pkgVar hr))
  · rename_i p n hr
    exact key p n _ h (wrap_ptr hr)
  · cases h

theorem collectIdent_ok {c : Ctx} {env s} (hc : Cov c env s) {w addr pos n r}
    (h : collectIdent c s w addr pos n = some r) : RefOk c (exprOccs true env (.ident pos n)) r := by
  unfold collectIdent at h
  split at h
  · cases h
  · exact collectVarRef_ok hc h

theorem RefOk.mono {c : Ctx} {o o' : List Occ} {r} (h : RefOk c o r) (ho : ∀ x, x ∈ o → x ∈ o') :
    RefOk c o' r := by
  obtain ⟨ha, pos, h1, h2, h3⟩ := h
  refine ⟨ha, pos, h1, h2, ?_⟩
  rcases h3 with ⟨e, h3⟩ | ⟨q, h3, h4, h5⟩
  · exact Or.inl ⟨e, ho _ h3⟩
  · exact Or.inr ⟨q, ho _ h3, h4, h5⟩

theorem collectSelector_ok {c : Ctx} {env s} (hc : Cov c env s) {w addr x pos n r}
    (h : collectSelector c s w addr x pos n = some r) :
    RefOk c (exprOccs true env (.sel x pos n)) r := by
  unfold collectSelector at h
  split at h
  · cases h
  · rename_i p v hr
    have hr := wrap_pkgVar hr
    obtain ⟨h1, h2, h3⟩ := go_eq h
    obtain ⟨ps, hp, hv, ho⟩ := resolve_var hc (Or.inl hr)
    simp only [identPos, Option.some.injEq] at hp
    subst hp
    refine ⟨go_allow h, pos, by rw [h3]; rfl, by rw [h1, h2]; exact hv, ?_⟩
    rw [h1, h2]; exact ho
  · refine (collectVarRef_ok hc h).mono ?_
    intro o ho
    simp only [exprOccs, List.mem_append]
    exact Or.inl ho

/-! ## The traversal -/

theorem afterGo_env {n : String} : (sp : Specs) → (env : List String) →
    (n ∈ after.go env sp ↔ n ∈ after.go [] sp ∨ n ∈ env)
  | .nil, env => by simp [after.go]
  | .typeSpec m rest, env => by
    simp only [after.go]
    rw [afterGo_env rest (declared [m] ++ env), afterGo_env rest (declared [m] ++ [])]
    simp only [List.mem_append, List.not_mem_nil, or_false, or_assoc]
  | .valueSpec ms vs rest, env => by
    simp only [after.go]
    rw [afterGo_env rest (declared ms ++ env), afterGo_env rest (declared ms ++ [])]
    simp only [List.mem_append, List.not_mem_nil, or_false, or_assoc]

theorem after_env {n : String} : (st : Stmt) → (env : List String) →
    (n ∈ after env st ↔ n ∈ after [] st ∨ n ∈ env)
  | .assign true lhs rhs, env => by simp [after]
  | .assign false lhs rhs, env => by simp [after]
  | .decl sp, env => afterGo_env sp env
  | .label s, env => after_env s env
  | .empty, env | .expr _, env | .goDefer _ _, env | .send _ _, env | .incDec _, env | .ret _, env
  | .block _, env | .ifS _ _ _ _, env | .forS _ _ _ _, env | .range _ _ _ _ _, env
  | .switchS _ _ _, env | .typeSwitch _ _ _, env | .select _, env | .caseClause _ _, env
  | .commClause _ _, env => by simp [after]

/-- The code's scope only grows along a spec list. -/
theorem specsRefs_mono {c : Ctx} {n : String} : (sp : Specs) → (s : Scope) →
    s.has n = true → (specsRefs c s sp).1.has n = true
  | .nil, s, h => by simpa [specsRefs] using h
  | .typeSpec m rest, s, h => by
    simp only [specsRefs]
    exact specsRefs_mono rest _ (by rw [has_add]; simp [h])
  | .valueSpec ms vs rest, s, h => by
    simp only [specsRefs]
    exact specsRefs_mono rest _ (by rw [has_add]; simp [h])

theorem stmtRefs_mono {c : Ctx} {n : String} : (st : Stmt) → (s : Scope) →
    s.has n = true → (stmtRefs c s st).1.has n = true
  | .assign d lhs rhs, s, h => by
    simp only [stmtRefs]
    split
    · rw [has_define]; simp [h]
    · exact h
  | .decl sp, s, h => by simp only [stmtRefs]; exact specsRefs_mono sp s h
  | .label st, s, h => by simp only [stmtRefs]; exact stmtRefs_mono st s h
  | .ifS init cond body els, s, h => by
    simp only [stmtRefs]; exact stmtRefs_mono els _ (stmtRefs_mono init s h)
  | .forS init cond post body, s, h => by
    simp only [stmtRefs]; exact stmtRefs_mono post _ (stmtRefs_mono init s h)
  | .range d key value x body, s, h => by
    simp only [stmtRefs]
    split
    · rw [has_add]; simp [h]
    · exact h
  | .switchS init tag body, s, h => by simp only [stmtRefs]; exact stmtRefs_mono init s h
  | .typeSwitch init assign body, s, h => by
    simp only [stmtRefs]; exact stmtRefs_mono assign _ (stmtRefs_mono init s h)
  | .empty, s, h | .expr _, s, h | .goDefer _ _, s, h | .send _ _, s, h | .incDec _, s, h
  | .ret _, s, h | .block _, s, h | .select _, s, h | .caseClause _ _, s, h
  | .commClause _ _, s, h => by simpa only [stmtRefs] using h

theorem specsRefs_after {c : Ctx} {n : String} : (sp : Specs) → (s : Scope) →
    n ∈ after.go [] sp → (specsRefs c s sp).1.has n = true
  | .nil, s, h => by simp [after.go] at h
  | .typeSpec m rest, s, h => by
    simp only [specsRefs]
    simp only [after.go] at h
    rcases (afterGo_env rest _).1 h with h | h
    · exact specsRefs_after rest _ h
    · refine specsRefs_mono rest _ ?_
      rw [has_add]
      have := (mem_declared.1 (by simpa using h)).1
      simp_all
  | .valueSpec ms vs rest, s, h => by
    simp only [specsRefs]
    simp only [after.go] at h
    rcases (afterGo_env rest _).1 h with h | h
    · exact specsRefs_after rest _ h
    · refine specsRefs_mono rest _ ?_
      rw [has_add]
      have := (mem_declared.1 (by simpa using h)).1
      simp_all

/-- A name declared by a statement is known to the code's scope afterwards. -/
theorem stmtRefs_after {c : Ctx} {n : String} : (st : Stmt) → (s : Scope) →
    n ∈ after [] st → (stmtRefs c s st).1.has n = true
  | .assign true lhs rhs, s, h => by
    simp only [stmtRefs, if_true]
    rw [has_define]
    have := mem_identNames.2 (by simpa [after] using h : n ∈ declared (lhsNames lhs))
    simp_all
  | .assign false lhs rhs, s, h => by simp [after] at h
  | .decl sp, s, h => by simp only [stmtRefs]; exact specsRefs_after sp s h
  | .label st, s, h => by simp only [stmtRefs]; exact stmtRefs_after st s h
  | .empty, s, h | .expr _, s, h | .goDefer _ _, s, h | .send _ _, s, h | .incDec _, s, h
  | .ret _, s, h | .block _, s, h | .select _, s, h | .caseClause _ _, s, h
  | .ifS _ _ _ _, s, h | .forS _ _ _ _, s, h | .range _ _ _ _ _, s, h
  | .switchS _ _ _, s, h | .typeSwitch _ _ _, s, h
  | .commClause _ _, s, h => by simp [after] at h

theorem Cov.stmt {c : Ctx} {env s} (h : Cov c env s) (st : Stmt) :
    Cov c (after env st) (stmtRefs c s st).1 := by
  intro n hn
  rcases (after_env st env).1 hn with hn | hn
  · exact Or.inl (stmtRefs_after st s hn)
  · rcases h n hn with h | h
    · exact Or.inl (stmtRefs_mono st s h)
    · exact Or.inr h

/-- Local names that only the code's scope or only harmless. -/
theorem Cov.keep {c : Ctx} {env s} (h : Cov c env s) (st : Stmt) :
    Cov c env (stmtRefs c s st).1 := h.mono (fun _ => stmtRefs_mono st s)

theorem cov_add {c : Ctx} {env s ns} (h : Cov c env s) : Cov c (declared ns ++ env) (s.add ns) := by
  intro n hn
  rw [has_add]
  rcases List.mem_append.1 hn with hn | hn
  · have := (mem_declared.1 hn).1
    left; simp_all
  · rcases h n hn with h | h
    · left; simp [h]
    · exact Or.inr h

theorem cov_func {c : Ctx} {env s ns} (h : Cov c env s) :
    Cov c (declared ns ++ env) (Scope.push ({ names := ns.filter (fun n => !isBlank n) } :: s)) := by
  intro n hn
  rw [has_push]
  rcases List.mem_append.1 hn with hn | hn
  · have := mem_declared.1 hn
    left; simp [Scope.has, this.1, this.2]
  · rcases h n hn with h | h
    · left; simp [Scope.has, h]
    · exact Or.inr h

theorem mem_toList {α} {o : Option α} {r : α} (h : r ∈ o.toList) : o = some r := by
  cases o with
  | none => simp at h
  | some a => simp at h; rw [h]

theorem key_skip {c : Ctx} {s : Scope} {pos n} {w : Bool}
    (hk : keyConflict c s (.ident pos n) = false) : exprRefs c s w (.ident pos n) = [] := by
  simp only [keyConflict, Bool.or_eq_false_iff] at hk
  have hd : c.decls c.self n = none := by simpa using hk.2
  have : collectIdent c s w false pos n = none := by
    unfold collectIdent
    split
    · rfl
    · unfold collectVarRef
      have hr : ∀ p m, wrap w (resolve c s (deparen (.ident pos n))) ≠ .pkgVar p m ∧
          wrap w (resolve c s (deparen (.ident pos n))) ≠ .ptr p m := by
        intro p m
        simp only [deparen, resolve, hk.1, hd, wrap]
        cases c.imports n <;> cases w <;> simp
      split
      · rename_i p m h; exact absurd h (hr p m).1
      · rename_i p m h; exact absurd h (hr p m).2
      · rfl
  simp [exprRefs, this]

mutual
theorem exprRefs_ok {c : Ctx} : (e : Expr) → ∀ ⦃env s w⦄, Cov c env s →
    (∀ n, n ∈ exprComm e → Harmless c n) → ∀ r, r ∈ exprRefs c s w e → RefOk c (exprOccs true env e) r
  | .none => by intro env s w _ _ r hr; simp [exprRefs] at hr
  | .lit => by intro env s w _ _ r hr; simp [exprRefs] at hr
  | .typ => by intro env s w _ _ r hr; simp [exprRefs] at hr
  | .ident pos n => by
    intro env s w hc _ r hr
    simp only [exprRefs] at hr
    exact collectIdent_ok hc (mem_toList hr)
  | .sel x pos n => by
    intro env s w hc hm r hr
    simp only [exprRefs] at hr
    split at hr
    · rename_i r' h
      simp only [List.mem_singleton] at hr; subst hr
      exact collectSelector_ok hc h
    · refine (exprRefs_ok x hc (fun n hn => hm n hn) r hr).mono ?_
      intro o ho; simp only [exprOccs, List.mem_append]; exact Or.inl ho
  | .addr (.ident pos n) => by
    intro env s w hc _ r hr
    simp only [exprRefs] at hr
    split at hr
    · rename_i r' h
      simp only [List.mem_singleton] at hr; subst hr
      exact collectIdent_ok hc h
    · exact collectIdent_ok hc (mem_toList hr)
  | .addr (.sel x pos n) => by
    intro env s w hc hm r hr
    simp only [exprRefs] at hr
    split at hr
    · rename_i r' h
      simp only [List.mem_singleton] at hr; subst hr
      exact collectSelector_ok hc h
    · split at hr
      · simp at hr
      · split at hr
        · rename_i r' h
          simp only [List.mem_singleton] at hr; subst hr
          exact collectSelector_ok hc h
        · refine (exprRefs_ok x hc (fun n hn => hm n hn) r hr).mono ?_
          intro o ho; simp only [exprOccs, List.mem_append]; exact Or.inl ho
  | .addr (.none) => by intro env s w _ _ r hr; simp [exprRefs] at hr
  | .addr (.lit) => by intro env s w _ _ r hr; simp [exprRefs] at hr
  | .addr (.typ) => by intro env s w _ _ r hr; simp [exprRefs] at hr
  | .addr (.addr x) => fun _ _ _ hc hm r hr => exprRefs_ok (.addr x) (w := false) hc hm r (by simpa only [exprRefs] using hr)
  | .addr (.paren x) => fun _ _ _ hc hm r hr => exprRefs_ok (.paren x) (w := false) hc hm r (by simpa only [exprRefs] using hr)
  | .addr (.unary x) => fun _ _ _ hc hm r hr => exprRefs_ok (.unary x) (w := false) hc hm r (by simpa only [exprRefs] using hr)
  | .addr (.binary x y) => fun _ _ _ hc hm r hr => exprRefs_ok (.binary x y) (w := false) hc hm r (by simpa only [exprRefs] using hr)
  | .addr (.slice x a b d) => fun _ _ _ hc hm r hr => exprRefs_ok (.slice x a b d) (w := false) hc hm r (by simpa only [exprRefs] using hr)
  | .addr (.call f args) => fun _ _ _ hc hm r hr => exprRefs_ok (.call f args) (w := false) hc hm r (by simpa only [exprRefs] using hr)
  | .addr (.composite es) => fun _ _ _ hc hm r hr => exprRefs_ok (.composite es) (w := false) hc hm r (by simpa only [exprRefs] using hr)
  | .addr (.kv b k v) => fun _ _ _ hc hm r hr => exprRefs_ok (.kv b k v) (w := false) hc hm r (by simpa only [exprRefs] using hr)
  | .addr (.func ps body) => fun _ _ _ hc hm r hr => exprRefs_ok (.func ps body) (w := false) hc hm r (by simpa only [exprRefs] using hr)
  | .paren x => by
    intro env s w hc hm r hr
    simp only [exprRefs] at hr
    exact exprRefs_ok x hc hm r hr
  | .unary x => by
    intro env s w hc hm r hr
    simp only [exprRefs] at hr
    exact exprRefs_ok x hc hm r hr
  | .binary x y => by
    intro env s w hc hm r hr
    simp only [exprRefs, List.mem_append] at hr
    simp only [exprComm, List.mem_append] at hm
    rcases hr with hr | hr
    · exact (exprRefs_ok x hc (fun n hn => hm n (Or.inl hn)) r hr).mono
        (fun o ho => by simp only [exprOccs, List.mem_append]; exact Or.inl ho)
    · exact (exprRefs_ok y hc (fun n hn => hm n (Or.inr hn)) r hr).mono
        (fun o ho => by simp only [exprOccs, List.mem_append]; exact Or.inr ho)
  | .slice x lo hi mx => by
    intro env s w hc hm r hr
    simp only [exprRefs, List.mem_append] at hr
    simp only [exprComm, List.mem_append] at hm
    rcases hr with (hr | hr) | hr
    · exact (exprRefs_ok x hc (fun n hn => hm n (by simp [hn])) r hr).mono
        (fun o ho => by simp only [exprOccs, List.mem_append]; simp [ho])
    · exact (exprRefs_ok lo hc (fun n hn => hm n (by simp [hn])) r hr).mono
        (fun o ho => by simp only [exprOccs, List.mem_append]; simp [ho])
    · exact (exprRefs_ok hi hc (fun n hn => hm n (by simp [hn])) r hr).mono
        (fun o ho => by simp only [exprOccs, List.mem_append]; simp [ho])
  | .call f args => by
    intro env s w hc hm r hr
    simp only [exprRefs, List.mem_append] at hr
    simp only [exprComm, List.mem_append] at hm
    rcases hr with hr | hr
    · exact (exprRefs_ok f hc (fun n hn => hm n (Or.inl hn)) r hr).mono
        (fun o ho => by simp only [exprOccs, List.mem_append]; exact Or.inl ho)
    · exact (exprsRefs_ok args hc (fun n hn => hm n (Or.inr hn)) r hr).mono
        (fun o ho => by simp only [exprOccs, List.mem_append]; exact Or.inr ho)
  | .composite es => by
    intro env s w hc hm r hr
    simp only [exprRefs] at hr
    exact exprsRefs_ok es hc hm r hr
  | .kv b k v => by
    intro env s w hc hm r hr
    simp only [exprRefs, List.mem_append] at hr
    simp only [exprComm, List.mem_append] at hm
    rcases hr with hr | hr
    · split at hr
      · simp at hr
      · rename_i hk
        have hf : isFieldKey b k = false := by
          cases k with
          | ident pos n =>
            rw [key_skip (by simpa using hk)] at hr
            simp at hr
          | _ => rfl
        refine (exprRefs_ok k hc (fun n hn => hm n (Or.inl hn)) r hr).mono
          (fun o ho => ?_)
        simp only [exprOccs, List.mem_append, hf]; exact Or.inl ho
    · exact (exprRefs_ok v hc (fun n hn => hm n (Or.inr hn)) r hr).mono
        (fun o ho => by simp only [exprOccs, List.mem_append]; exact Or.inr ho)
  | .func ps body => by
    intro env s w hc hm r hr
    simp only [exprRefs] at hr
    exact stmtsRefs_ok body (cov_func hc) hm r hr
theorem exprsRefs_ok {c : Ctx} : (es : Exprs) → ∀ ⦃env s⦄, Cov c env s →
    (∀ n, n ∈ exprsComm es → Harmless c n) → ∀ r, r ∈ exprsRefs c s es → RefOk c (exprsOccs true env es) r
  | .nil => by intro env s _ _ r hr; simp [exprsRefs] at hr
  | .cons x xs => by
    intro env s hc hm r hr
    simp only [exprsRefs, List.mem_append] at hr
    simp only [exprsComm, List.mem_append] at hm
    rcases hr with hr | hr
    · exact (exprRefs_ok x hc (fun n hn => hm n (Or.inl hn)) r hr).mono
        (fun o ho => by simp only [exprsOccs, List.mem_append]; exact Or.inl ho)
    · exact (exprsRefs_ok xs hc (fun n hn => hm n (Or.inr hn)) r hr).mono
        (fun o ho => by simp only [exprsOccs, List.mem_append]; exact Or.inr ho)
theorem stmtRefs_ok {c : Ctx} : (st : Stmt) → ∀ ⦃env s⦄, Cov c env s →
    (∀ n, n ∈ stmtComm st → Harmless c n) → ∀ r, r ∈ (stmtRefs c s st).2 → RefOk c (stmtOccs true env st) r
  | .empty => by intro env s _ _ r hr; simp [stmtRefs] at hr
  | .incDec x => by intro env s _ _ r hr; simp [stmtRefs] at hr
  | .expr x => by
    intro env s hc hm r hr
    exact exprRefs_ok x hc hm r hr
  | .goDefer f args => by
    intro env s hc hm r hr
    simp only [stmtRefs, List.mem_append] at hr
    simp only [stmtComm, List.mem_append] at hm
    rcases hr with hr | hr
    · exact (exprRefs_ok f hc (fun n hn => hm n (Or.inl hn)) r hr).mono
        (fun o ho => by simp only [stmtOccs, List.mem_append]; exact Or.inl ho)
    · exact (exprsRefs_ok args hc (fun n hn => hm n (Or.inr hn)) r hr).mono
        (fun o ho => by simp only [stmtOccs, List.mem_append]; exact Or.inr ho)
  | .send ch v => by
    intro env s hc hm r hr
    simp only [stmtRefs, List.mem_append] at hr
    simp only [stmtComm, List.mem_append] at hm
    rcases hr with hr | hr
    · exact (exprRefs_ok ch hc (fun n hn => hm n (Or.inl hn)) r hr).mono
        (fun o ho => by simp only [stmtOccs, List.mem_append]; exact Or.inl ho)
    · exact (exprRefs_ok v hc (fun n hn => hm n (Or.inr hn)) r hr).mono
        (fun o ho => by simp only [stmtOccs, List.mem_append]; exact Or.inr ho)
  | .ret xs => by
    intro env s hc hm r hr
    exact exprsRefs_ok xs hc hm r hr
  | .assign d lhs rhs => by
    intro env s hc hm r hr
    simp only [stmtRefs] at hr
    simp only [stmtComm, List.mem_append] at hm
    exact (exprsRefs_ok rhs hc (fun n hn => hm n (Or.inr hn)) r hr).mono
        (fun o ho => by simp only [stmtOccs, List.mem_append]; exact Or.inr ho)
  | .decl sp => by
    intro env s hc hm r hr
    simp only [stmtRefs] at hr
    exact specsRefs_ok sp hc hm r hr
  | .block body => by
    intro env s hc hm r hr
    simp only [stmtRefs] at hr
    exact stmtsRefs_ok body hc.push hm r hr
  | .ifS init cond body els => by
    intro env s hc hm r hr
    simp only [stmtRefs, List.mem_append] at hr
    simp only [stmtComm, List.mem_append] at hm
    rcases hr with ((hr | hr) | hr) | hr
    · exact (stmtRefs_ok init hc (fun n hn => hm n (by simp [hn])) r hr).mono
        (fun o ho => by simp only [stmtOccs, List.mem_append]; simp [ho])
    · exact (exprRefs_ok cond (hc.stmt init) (fun n hn => hm n (by simp [hn])) r hr).mono
        (fun o ho => by simp only [stmtOccs, List.mem_append]; simp [ho])
    · exact (stmtsRefs_ok body (hc.stmt init).push (fun n hn => hm n (by simp [hn])) r hr).mono
        (fun o ho => by simp only [stmtOccs, List.mem_append]; simp [ho])
    · exact (stmtRefs_ok els (hc.stmt init) (fun n hn => hm n (by simp [hn])) r hr).mono
        (fun o ho => by simp only [stmtOccs, List.mem_append]; simp [ho])
  | .forS init cond post body => by
    intro env s hc hm r hr
    simp only [stmtRefs, List.mem_append] at hr
    simp only [stmtComm, List.mem_append] at hm
    rcases hr with ((hr | hr) | hr) | hr
    · exact (stmtRefs_ok init hc (fun n hn => hm n (by simp [hn])) r hr).mono
        (fun o ho => by simp only [stmtOccs, List.mem_append]; simp [ho])
    · exact (exprRefs_ok cond (hc.stmt init) (fun n hn => hm n (by simp [hn])) r hr).mono
        (fun o ho => by simp only [stmtOccs, List.mem_append]; simp [ho])
    · exact (stmtRefs_ok post (hc.stmt init) (fun n hn => hm n (by simp [hn])) r hr).mono
        (fun o ho => by simp only [stmtOccs, List.mem_append]; simp [ho])
    · exact (stmtsRefs_ok body ((hc.stmt init).keep post).push (fun n hn => hm n (by simp [hn])) r hr).mono
        (fun o ho => by simp only [stmtOccs, List.mem_append]; simp [ho])
  | .range d key value x body => by
    intro env s hc hm r hr
    simp only [stmtRefs, List.mem_append] at hr
    simp only [stmtComm, List.mem_append] at hm
    have hc0 : Cov c env (if d then s.add (identName key ++ identName value) else s) := by
      split
      · exact hc.mono (fun n h => by rw [has_add]; simp [h])
      · exact hc
    have hc1 : Cov c (if d then declared (lhsNames (.cons key (.cons value .nil))) ++ env else env)
        (if d then s.add (identName key ++ identName value) else s) := by
      cases d with
      | false => exact hc0
      | true =>
        simp only [if_true] at hc0 ⊢
        refine hc0.append ?_
        intro n hn
        left
        rw [has_add]
        have : n ∈ identName key ++ identName value := by
          rw [List.mem_append, mem_identName, mem_identName]
          cases key <;> simp_all [lhsNames, mem_declared]
        simp_all
    rcases hr with hr | hr
    · exact (exprRefs_ok x hc0 (fun n hn => hm n (by simp [hn])) r hr).mono
        (fun o ho => by simp only [stmtOccs, List.mem_append]; simp [ho])
    · exact (stmtsRefs_ok body hc1.push (fun n hn => hm n (by simp [hn])) r hr).mono
        (fun o ho => by simp only [stmtOccs, List.mem_append]; simp [ho])
  | .switchS init tag body => by
    intro env s hc hm r hr
    simp only [stmtRefs, List.mem_append] at hr
    simp only [stmtComm, List.mem_append] at hm
    rcases hr with (hr | hr) | hr
    · exact (stmtRefs_ok init hc (fun n hn => hm n (by simp [hn])) r hr).mono
        (fun o ho => by simp only [stmtOccs, List.mem_append]; simp [ho])
    · exact (exprRefs_ok tag (hc.stmt init) (fun n hn => hm n (by simp [hn])) r hr).mono
        (fun o ho => by simp only [stmtOccs, List.mem_append]; simp [ho])
    · exact (stmtsRefs_ok body (hc.stmt init).push (fun n hn => hm n (by simp [hn])) r hr).mono
        (fun o ho => by simp only [stmtOccs, List.mem_append]; simp [ho])
  | .typeSwitch init assign body => by
    intro env s hc hm r hr
    simp only [stmtRefs, List.mem_append] at hr
    simp only [stmtComm, List.mem_append] at hm
    rcases hr with (hr | hr) | hr
    · exact (stmtRefs_ok init hc (fun n hn => hm n (by simp [hn])) r hr).mono
        (fun o ho => by simp only [stmtOccs, List.mem_append]; simp [ho])
    · exact (stmtRefs_ok assign (hc.stmt init) (fun n hn => hm n (by simp [hn])) r hr).mono
        (fun o ho => by simp only [stmtOccs, List.mem_append]; simp [ho])
    · exact (stmtsRefs_ok body ((hc.stmt init).stmt assign).push (fun n hn => hm n (by simp [hn])) r hr).mono
        (fun o ho => by simp only [stmtOccs, List.mem_append]; simp [ho])
  | .select body => by
    intro env s hc hm r hr
    simp only [stmtRefs] at hr
    exact stmtsRefs_ok body hc.push hm r hr
  | .label st => by
    intro env s hc hm r hr
    simp only [stmtRefs] at hr
    exact stmtRefs_ok st hc hm r hr
  | .caseClause list body => by
    intro env s hc hm r hr
    simp only [stmtRefs] at hr
    simp only [stmtComm, List.mem_append] at hm
    exact (stmtsRefs_ok body hc.push (fun n hn => hm n (by simp [hn])) r hr).mono
        (fun o ho => by simp only [stmtOccs, List.mem_append]; simp [ho])
  | .commClause comm body => by
    intro env s hc hm r hr
    simp only [stmtRefs] at hr
    simp only [stmtComm, List.mem_append] at hm
    have hc1 : Cov c (after env comm) s := by
      intro n hn
      rcases (after_env comm env).1 hn with h | h
      · exact Or.inr (hm n (by simp [h]))
      · exact hc n h
    exact (stmtsRefs_ok body hc1.push (fun n hn => hm n (by simp [hn])) r hr).mono
        (fun o ho => by simp only [stmtOccs, List.mem_append]; simp [ho])
theorem stmtsRefs_ok {c : Ctx} : (ss : Stmts) → ∀ ⦃env s⦄, Cov c env s →
    (∀ n, n ∈ stmtsComm ss → Harmless c n) → ∀ r, r ∈ (stmtsRefs c s ss).2 → RefOk c (stmtsOccs true env ss) r
  | .nil => by intro env s _ _ r hr; simp [stmtsRefs] at hr
  | .cons st ss => by
    intro env s hc hm r hr
    simp only [stmtsRefs, List.mem_append] at hr
    simp only [stmtsComm, List.mem_append] at hm
    rcases hr with hr | hr
    · exact (stmtRefs_ok st hc (fun n hn => hm n (Or.inl hn)) r hr).mono
        (fun o ho => by simp only [stmtsOccs, List.mem_append]; exact Or.inl ho)
    · exact (stmtsRefs_ok ss (hc.stmt st) (fun n hn => hm n (Or.inr hn)) r hr).mono
        (fun o ho => by simp only [stmtsOccs, List.mem_append]; exact Or.inr ho)
theorem specsRefs_ok {c : Ctx} : (sp : Specs) → ∀ ⦃env s⦄, Cov c env s →
    (∀ n, n ∈ specsComm sp → Harmless c n) → ∀ r, r ∈ (specsRefs c s sp).2 → RefOk c (specsOccs true env sp) r
  | .nil => by intro env s _ _ r hr; simp [specsRefs] at hr
  | .typeSpec n rest => by
    intro env s hc hm r hr
    simp only [specsRefs] at hr
    exact specsRefs_ok rest (cov_add hc) hm r hr
  | .valueSpec ns vs rest => by
    intro env s hc hm r hr
    simp only [specsRefs, List.mem_append] at hr
    simp only [specsComm, List.mem_append] at hm
    rcases hr with hr | hr
    · exact (exprsRefs_ok vs hc (fun n hn => hm n (Or.inl hn)) r hr).mono
        (fun o ho => by simp only [specsOccs, List.mem_append]; exact Or.inl ho)
    · exact (specsRefs_ok rest (cov_add hc) (fun n hn => hm n (Or.inr hn)) r hr).mono
        (fun o ho => by simp only [specsOccs, List.mem_append]; exact Or.inr ho)
end

/-- C39 (partial).  For every function body, whatever the type resolver answers: an identifier that
is recorded as a reference to a package variable is, by Go's scoping rules, a use of that package
variable, named directly or qualified by the name of an imported package.  Missing: names declared
by a receive statement of a `select` clause and type parameter names must not collide with a
variable of the package or with an import name; the code does not look at them
(`C39_counterexample_select`, `C39_counterexample_typeParam`). -/
theorem C39_sound_partial (c : Ctx) (f : FuncDecl)
    (hcomm : ∀ n, n ∈ stmtsComm f.body → Harmless c n)
    (htp : ∀ n, n ∈ f.tparams → Harmless c n)
    (r : VarRef) (hr : r ∈ funcRefs c f) : RefOk c (funcOccs true f) r := by
  refine stmtsRefs_ok f.body ?_ hcomm r hr
  intro n hn
  rw [has_push]
  have hd := mem_declared.1 hn
  rcases List.mem_append.1 hd.1 with h | h
  · left; simp [Scope.has, h, hd.2]
  · exact Or.inr (htp n h)

end Verif.Instrument.Resolve
