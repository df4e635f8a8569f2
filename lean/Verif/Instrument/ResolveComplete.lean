import Verif.Instrument.ResolveProps
/-
C59: at most one rewrite per identifier, and every use in an instrumented position is found.
-/
namespace Verif.Instrument.Resolve

/-! ## At most once -/

/-- The positions of recorded references. -/
def refPos (r : VarRef) : Option Nat := identPos r.target

theorem identPos_deparen (x : Expr) : identPos (deparen x) = identPos x := by
  fun_induction deparen x with
  | case1 x ih => rw [ih]; rfl
  | case2 => rfl

theorem resolve_pos {c : Ctx} {s e p n} (h : resolve c s e = .pkgVar p n ∨ resolve c s e = .ptr p n) :
    ∃ pos, identPos e = some pos ∧ pos ∈ exprPos e := by
  fun_induction resolve c s e with
  | case1 => simp at h
  | case2 => simp at h
  | case3 pos m hn k hk => exact ⟨pos, rfl, by simp [exprPos]⟩
  | case4 => simp at h
  | case5 => simp at h
  | case6 x ih => exact ih h
  | case7 x p' n' hx ih =>
    rcases h with h | h
    · cases h
    · cases h; exact ih (Or.inl hx)
  | case8 => simp at h
  | case9 => simp at h
  | case10 => simp at h
  | case11 => simp at h
  | case12 x pos m p' hx ih => exact ⟨pos, rfl, by simp [exprPos]⟩
  | case13 => simp at h
  | case14 => simp at h
  | case15 => simp at h

theorem collectVarRef_some {c : Ctx} {s w addr x hasSel r} (h : collectVarRef c s w addr x hasSel = some r) :
    r.target = deparen x ∧
      (resolve c s (deparen x) = .pkgVar r.pkg r.name ∨ resolve c s (deparen x) = .ptr r.pkg r.name) := by
  unfold collectVarRef at h
  split at h
  · rename_i p n hr
    obtain ⟨h1, h2, h3⟩ := go_eq h
    exact ⟨h3, Or.inl (by rw [h1, h2]; exact wrap_pkgVar hr)⟩
  · rename_i p n hr
    obtain ⟨h1, h2, h3⟩ := go_eq h
    exact ⟨h3, by rw [h1, h2]; exact wrap_ptr hr⟩
  · cases h

theorem resolve_deparen (c : Ctx) (s : Scope) (x : Expr) : resolve c s (deparen x) = resolve c s x := by
  fun_induction deparen x with
  | case1 x ih => rw [ih]; rfl
  | case2 => rfl

theorem single_sublist {α} {a : α} {l : List α} (h : a ∈ l) : [a].Sublist l :=
  List.singleton_sublist.2 h

theorem collectVarRef_pos {c : Ctx} {s w addr x hasSel r}
    (h : collectVarRef c s w addr x hasSel = some r) :
    ∃ pos, refPos r = some pos ∧ pos ∈ exprPos x := by
  obtain ⟨h1, h2⟩ := collectVarRef_some h
  rw [resolve_deparen] at h2
  obtain ⟨pos, h3, h4⟩ := resolve_pos h2
  exact ⟨pos, by unfold refPos; rw [h1, identPos_deparen]; exact h3, h4⟩

theorem collectIdent_pos {c : Ctx} {s w addr pos n r} (h : collectIdent c s w addr pos n = some r) :
    refPos r = some pos := by
  unfold collectIdent at h
  split at h
  · cases h
  · obtain ⟨p, h1, h2⟩ := collectVarRef_pos h
    simp only [exprPos, List.mem_singleton] at h2
    rw [h1, h2]

theorem collectSelector_pos {c : Ctx} {s w addr x pos n r}
    (h : collectSelector c s w addr x pos n = some r) :
    ∃ p, refPos r = some p ∧ p ∈ exprPos (.sel x pos n) := by
  unfold collectSelector at h
  split at h
  · cases h
  · obtain ⟨h1, h2, h3⟩ := go_eq h
    exact ⟨pos, by unfold refPos; rw [h3]; rfl, by simp [exprPos]⟩
  · obtain ⟨p, h1, h2⟩ := collectVarRef_pos h
    exact ⟨p, h1, by simp [exprPos, h2]⟩

abbrev Sub (rs : List VarRef) (ps : List Nat) : Prop := (rs.map refPos).Sublist (ps.map some)

theorem Sub.one {r : VarRef} {p : Nat} {ps : List Nat} (h : refPos r = some p) (hp : p ∈ ps) :
    Sub [r] ps := by
  unfold Sub
  simp only [List.map_cons, List.map_nil, h]
  exact single_sublist (List.mem_map_of_mem hp)

theorem Sub.nil {ps : List Nat} : Sub [] ps := List.nil_sublist _

theorem Sub.app {a b : List VarRef} {ps qs : List Nat} (h1 : Sub a ps) (h2 : Sub b qs) :
    Sub (a ++ b) (ps ++ qs) := by
  unfold Sub; rw [List.map_append, List.map_append]; exact h1.append h2

theorem Sub.left {a : List VarRef} {ps qs : List Nat} (h1 : Sub a ps) : Sub a (ps ++ qs) := by
  unfold Sub; rw [List.map_append]; exact h1.trans (List.sublist_append_left _ _)

theorem Sub.right {a : List VarRef} {ps qs : List Nat} (h1 : Sub a qs) : Sub a (ps ++ qs) := by
  unfold Sub; rw [List.map_append]; exact h1.trans (List.sublist_append_right _ _)

theorem Sub.toList {o : Option VarRef} {ps : List Nat}
    (h : ∀ r, o = some r → ∃ p, refPos r = some p ∧ p ∈ ps) : Sub o.toList ps := by
  cases o with
  | none => exact Sub.nil
  | some r =>
    obtain ⟨p, h1, h2⟩ := h r rfl
    exact Sub.one h1 h2

mutual
theorem exprRefs_sub {c : Ctx} : (e : Expr) → (s : Scope) → (w : Bool) → Sub (exprRefs c s w e) (exprPos e)
  | .none, s, w => Sub.nil
  | .lit, s, w => Sub.nil
  | .typ, s, w => Sub.nil
  | .ident pos n, s, w => by
    simp only [exprRefs]
    exact Sub.toList (fun r h => ⟨pos, collectIdent_pos h, by simp [exprPos]⟩)
  | .sel x pos n, s, w => by
    simp only [exprRefs]
    split
    · rename_i r h
      obtain ⟨p, h1, h2⟩ := collectSelector_pos h
      exact Sub.one h1 h2
    · exact (exprRefs_sub x s _).left
  | .addr (.ident pos n), s, w => by
    simp only [exprRefs]
    split
    · rename_i r h
      exact Sub.one (collectIdent_pos h) (by simp [exprPos])
    · exact Sub.toList (fun r h => ⟨pos, collectIdent_pos h, by simp [exprPos]⟩)
  | .addr (.sel x pos n), s, w => by
    simp only [exprRefs]
    split
    · rename_i r h
      obtain ⟨p, h1, h2⟩ := collectSelector_pos h
      exact Sub.one h1 h2
    · split
      · exact Sub.nil
      · split
        · rename_i r h
          obtain ⟨p, h1, h2⟩ := collectSelector_pos h
          exact Sub.one h1 h2
        · exact (exprRefs_sub x s _).left
  | .addr .none, s, w | .addr .lit, s, w | .addr .typ, s, w => by simp only [exprRefs]; exact Sub.nil
  | .addr (.addr x), s, w => by simpa only [exprRefs, exprPos] using exprRefs_sub (.addr x) s false
  | .addr (.paren x), s, w => by simpa only [exprRefs, exprPos] using exprRefs_sub (.paren x) s false
  | .addr (.unary x), s, w => by simpa only [exprRefs, exprPos] using exprRefs_sub (.unary x) s false
  | .addr (.binary x y), s, w => by simpa only [exprRefs, exprPos] using exprRefs_sub (.binary x y) s false
  | .addr (.slice x a b d), s, w => by simpa only [exprRefs, exprPos] using exprRefs_sub (.slice x a b d) s false
  | .addr (.call f as), s, w => by simpa only [exprRefs, exprPos] using exprRefs_sub (.call f as) s false
  | .addr (.composite es), s, w => by simpa only [exprRefs, exprPos] using exprRefs_sub (.composite es) s false
  | .addr (.kv b k v), s, w => by simpa only [exprRefs, exprPos] using exprRefs_sub (.kv b k v) s false
  | .addr (.func ps b), s, w => by simpa only [exprRefs, exprPos] using exprRefs_sub (.func ps b) s false
  | .paren x, s, w => by simp only [exprRefs, exprPos]; exact exprRefs_sub x s w
  | .unary x, s, w => by simp only [exprRefs, exprPos]; exact exprRefs_sub x s false
  | .binary x y, s, w => by
    simp only [exprRefs, exprPos]; exact (exprRefs_sub x s false).app (exprRefs_sub y s false)
  | .slice x lo hi mx, s, w => by
    simp only [exprRefs, exprPos]
    exact (((exprRefs_sub x s false).app (exprRefs_sub lo s false)).app (exprRefs_sub hi s false)).left
  | .call f args, s, w => by
    simp only [exprRefs, exprPos]; exact (exprRefs_sub f s false).app (exprsRefs_sub args s)
  | .composite es, s, w => by simp only [exprRefs, exprPos]; exact exprsRefs_sub es s
  | .kv b k v, s, w => by
    simp only [exprRefs, exprPos]
    refine Sub.app ?_ (exprRefs_sub v s false)
    split
    · exact Sub.nil
    · exact exprRefs_sub k s false
  | .func ps body, s, w => by simp only [exprRefs, exprPos]; exact stmtsRefs_sub body _
theorem exprsRefs_sub {c : Ctx} : (es : Exprs) → (s : Scope) → Sub (exprsRefs c s es) (exprsPos es)
  | .nil, s => Sub.nil
  | .cons x xs, s => by
    simp only [exprsRefs, exprsPos]; exact (exprRefs_sub x s false).app (exprsRefs_sub xs s)
theorem stmtRefs_sub {c : Ctx} : (st : Stmt) → (s : Scope) → Sub (stmtRefs c s st).2 (stmtPos st)
  | .empty, s => Sub.nil
  | .expr x, s => by simp only [stmtRefs, stmtPos]; exact exprRefs_sub x s false
  | .goDefer f args, s => by
    simp only [stmtRefs, stmtPos]; exact (exprRefs_sub f s false).app (exprsRefs_sub args s)
  | .send ch v, s => by
    simp only [stmtRefs, stmtPos]; exact (exprRefs_sub ch s false).app (exprRefs_sub v s false)
  | .incDec x, s => Sub.nil
  | .ret xs, s => by simp only [stmtRefs, stmtPos]; exact exprsRefs_sub xs s
  | .assign d lhs rhs, s => by simp only [stmtRefs, stmtPos]; exact (exprsRefs_sub rhs s).right
  | .decl sp, s => by simp only [stmtRefs, stmtPos]; exact specsRefs_sub sp s
  | .block body, s => by simp only [stmtRefs, stmtPos]; exact stmtsRefs_sub body _
  | .ifS init cond body els, s => by
    simp only [stmtRefs, stmtPos]
    exact (((stmtRefs_sub init s).app (exprRefs_sub cond _ false)).app (stmtsRefs_sub body _)).app
      (stmtRefs_sub els _)
  | .forS init cond post body, s => by
    simp only [stmtRefs, stmtPos]
    exact (((stmtRefs_sub init s).app (exprRefs_sub cond _ false)).app (stmtRefs_sub post _)).app
      (stmtsRefs_sub body _)
  | .range d key value x body, s => by
    simp only [stmtRefs, stmtPos]
    exact ((exprRefs_sub x _ false).right).app (stmtsRefs_sub body _)
  | .switchS init tag body, s => by
    simp only [stmtRefs, stmtPos]
    exact ((stmtRefs_sub init s).app (exprRefs_sub tag _ false)).app (stmtsRefs_sub body _)
  | .typeSwitch init assign body, s => by
    simp only [stmtRefs, stmtPos]
    exact ((stmtRefs_sub init s).app (stmtRefs_sub assign _)).app (stmtsRefs_sub body _)
  | .select body, s => by simp only [stmtRefs, stmtPos]; exact stmtsRefs_sub body _
  | .label st, s => by simp only [stmtRefs, stmtPos]; exact stmtRefs_sub st s
  | .caseClause list body, s => by simp only [stmtRefs, stmtPos]; exact (stmtsRefs_sub body _).right
  | .commClause comm body, s => by simp only [stmtRefs, stmtPos]; exact (stmtsRefs_sub body _).right
theorem stmtsRefs_sub {c : Ctx} : (ss : Stmts) → (s : Scope) → Sub (stmtsRefs c s ss).2 (stmtsPos ss)
  | .nil, s => Sub.nil
  | .cons st ss, s => by
    simp only [stmtsRefs, stmtsPos]; exact (stmtRefs_sub st s).app (stmtsRefs_sub ss _)
theorem specsRefs_sub {c : Ctx} : (sp : Specs) → (s : Scope) → Sub (specsRefs c s sp).2 (specsPos sp)
  | .nil, s => Sub.nil
  | .typeSpec n rest, s => by simp only [specsRefs, specsPos]; exact specsRefs_sub rest _
  | .valueSpec ns vs rest, s => by
    simp only [specsRefs, specsPos]; exact (exprsRefs_sub vs s).app (specsRefs_sub rest _)
end

/-- C59, at most once: the recorded references are names of the body, in source order, and no name
is recorded more often than it stands there: with distinct positions, never twice. -/
theorem C59_once (c : Ctx) (f : FuncDecl) :
    ((funcRefs c f).map refPos).Sublist ((stmtsPos f.body).map some) ∧
    ((stmtsPos f.body).Nodup → ((funcRefs c f).map refPos).Nodup) := by
  have h := stmtsRefs_sub (c := c) f.body (Scope.push [{ names := f.names.filter (fun n => !isBlank n) }])
  refine ⟨h, fun hn => ?_⟩
  refine List.Pairwise.sublist h ?_
  rw [List.pairwise_map]
  exact hn.imp (fun hne heq => hne (Option.some.inj heq))

/-! ## Every use is found -/

theorem bareName_ident {x : Expr} {q : String} (h : bareName x = some q) :
    ∃ pos, deparen x = .ident pos q := by
  fun_induction bareName x with
  | case1 pos n => cases h; exact ⟨pos, rfl⟩
  | case2 x ih => exact ih h
  | case3 => cases h

theorem resolve_bare {c : Ctx} {s x q p} (h : bareName x = some q) (hs : s.has q = false)
    (hd : c.decls c.self q = none) (hi : c.imports q = some p) : resolve c s x = .imp p := by
  obtain ⟨pos, e⟩ := bareName_ident h
  rw [← resolve_deparen, e]
  simp [resolve, hs, hd, hi]

theorem exprOccs_bare {x : Expr} {q : String} (h : bareName x = some q) (full : Bool) (env : List String) :
    ∃ pos, exprOccs full env x = [.id pos q (env.contains q)] := by
  obtain ⟨pos, e⟩ := bareName_ident h
  refine ⟨pos, ?_⟩
  rw [← exprOccs_deparen, e]
  simp [exprOccs]

/-- The package name is not found where a package-level declaration is. -/
theorem not_imp_of_var {c : Ctx} {n} (h : IsVar c c.self n) : c.decls c.self n ≠ none := by
  rcases h with h | h <;> simp [h]

theorem declInfo_var {c : Ctx} {p n} (h : IsVar c p n) (hk : c.known p n = true) :
    declInfo c p n = .pkgVar p n := by
  unfold declInfo
  rcases h with h | h <;> simp [h, hk]

/-- an expression that resolves to a package variable has only one use of a variable in it -/
theorem resolve_unique {c : Ctx} {s e p n} (full : Bool) (env : List String)
    (h : resolve c s e = .pkgVar p n ∨ resolve c s e = .ptr p n)
    {o key pos p' m} (ho : o ∈ exprOccs full env e) (hu : UseOf c o key pos p' m)
    (hk : s.has key = false) (hv : IsVar c p' m) :
    identPos e = some pos ∧ p' = p ∧ m = n := by
  fun_induction resolve c s e with
  | case1 => simp at h
  | case2 => simp at h
  | case3 pos' k hn kd hkd =>
    simp only [exprOccs, List.mem_singleton] at ho
    subst ho
    cases hu
    rcases h with h | h
    · obtain ⟨rfl, rfl, -⟩ := declInfo_pkgVar h
      exact ⟨rfl, rfl, rfl⟩
    · exact absurd h (declInfo_ne.1 _ _)
  | case4 => simp at h
  | case5 => simp at h
  | case6 x ih => exact ih h ho
  | case7 x p1 n1 hx ih =>
    rcases h with h | h
    · cases h
    · cases h
      refine ih (Or.inl hx) ?_
      cases x with
      | sel y pos' k =>
        simp only [exprOccs, List.mem_append] at ho ⊢
        rcases ho with ho | ho
        · split at ho
          · exact Or.inl ho
          · simp at ho
        · exact Or.inr ho
      | _ => simpa only [exprOccs] using ho
  | case8 => simp at h
  | case9 => simp at h
  | case10 => simp at h
  | case11 => simp at h
  | case12 x pos' k p1 hx ih =>
    rcases h with h | h
    · obtain ⟨rfl, rfl, -⟩ := declInfo_pkgVar h
      obtain ⟨q, hq, -, hq2, hq3⟩ := resolve_imp (env := []) (fun n hn => by cases hn) hx
      obtain ⟨posq, hoq⟩ := exprOccs_bare hq full env
      simp only [exprOccs, hq, hoq, List.mem_append, List.mem_singleton] at ho
      rcases ho with ho | ho
      · subst ho
        cases hu
        exact absurd hq2 (not_imp_of_var hv)
      · subst ho
        cases hu with
        | qualified _ _ _ _ _ h1 h2 =>
          rw [hq3] at h2; cases h2
          exact ⟨rfl, rfl, rfl⟩
    · exact absurd h (declInfo_ne.1 _ _)
  | case13 => simp at h
  | case14 => simp at h
  | case15 => simp at h

/-- The recorded reference is the wanted one. -/
def Matches (r : VarRef) (pos : Nat) (p m : String) : Prop :=
  identPos r.target = some pos ∧ r.pkg = p ∧ r.name = m

theorem collectVarRef_matches {c : Ctx} {s w addr x hasSel r} {full : Bool} {env : List String}
    (h : collectVarRef c s w addr x hasSel = some r) {o key pos p m}
    (ho : o ∈ exprOccs full env x) (hu : UseOf c o key pos p m)
    (hk : s.has key = false) (hv : IsVar c p m) : Matches r pos p m := by
  obtain ⟨h1, h2⟩ := collectVarRef_some h
  rw [← exprOccs_deparen] at ho
  obtain ⟨a, b, d⟩ := resolve_unique full env h2 ho hu hk hv
  exact ⟨by rw [h1]; exact a, b.symm, d.symm⟩

theorem collectSelector_matches {c : Ctx} {s w addr x pos' n r} {full : Bool} {env : List String}
    (h : collectSelector c s w addr x pos' n = some r) {o key pos p m}
    (ho : o ∈ exprOccs full env (.sel x pos' n)) (hu : UseOf c o key pos p m)
    (hk : s.has key = false) (hv : IsVar c p m) : Matches r pos p m := by
  unfold collectSelector at h
  split at h
  · cases h
  · rename_i p1 v hr
    have hr := wrap_pkgVar hr
    obtain ⟨h1, h2, h3⟩ := go_eq h
    obtain ⟨a, b, d⟩ := resolve_unique full env (Or.inl hr) ho hu hk hv
    refine ⟨by rw [h3]; exact a, by rw [h1, b], by rw [h2, d]⟩
  · simp only [exprOccs, List.mem_append] at ho
    rcases ho with ho | ho
    · exact collectVarRef_matches h ho hu hk hv
    · split at ho
      · rename_i q hq
        simp only [List.mem_singleton] at ho
        subst ho
        cases hu with
        | qualified _ _ _ _ _ h1 h2 =>
          have := resolve_bare hq hk h1 h2
          obtain ⟨-, h4⟩ := collectVarRef_some h
          rw [resolve_deparen, this] at h4
          simp at h4
      · simp at ho

theorem go_some {c : Ctx} {p n} (h : Instrumentable c p n) (addr : Bool) (x : Expr) (hasSel b : Bool)
    (hs : (addr && hasSel) = false) : ∃ r, collectVarRef.go c addr x hasSel p n b = some r := by
  unfold collectVarRef.go
  simp [h.2.2.1, h.2.2.2.1, hs]

theorem collectIdent_found {c : Ctx} {s : Scope} (w addr : Bool) {pos n} (hn : s.has n = false)
    (h : Instrumentable c c.self n) : ∃ r, collectIdent c s w addr pos n = some r := by
  unfold collectIdent
  have hb : isBlank n = false := by
    cases hb : isBlank n with
    | false => rfl
    | true => exact absurd ⟨h.2.2.2.2.2, h.2.2.2.2.1⟩ ((isBlank_iff n).1 hb)
  rw [hb, hn]
  simp only [Bool.or_self, Bool.false_eq_true, if_false]
  have hr : resolve c s (deparen (.ident pos n)) = .pkgVar c.self n := by
    simp only [deparen, resolve, hn]
    have hd := not_imp_of_var h.1
    cases hdd : c.decls c.self n with
    | none => exact absurd hdd hd
    | some k => exact declInfo_var h.1 h.2.1
  unfold collectVarRef
  rw [hr]
  cases w with
  | false => exact go_some h _ _ _ _ (by simp)
  | true => exact go_some h _ _ _ _ (by simp)

/-- State of the traversal in which nothing was lost: an expression already turned into a pointer is
resolved, and is not itself a variable that should have been recorded. -/
def WOk (c : Ctx) (s : Scope) (w : Bool) (e : Expr) : Prop :=
  w = true → resolve c s e ≠ .unknown ∧
    ∀ p n, resolve c s e = .pkgVar p n → ¬ Instrumentable c p n

theorem sel_found {c : Ctx} {s : Scope} {w : Bool} {x pos' n} {env : List String}
    (hw : WOk c s w (.sel x pos' n))
    {o key pos p m}
    (ho : o ∈ exprOccs false env (.sel x pos' n)) (hu : UseOf c o key pos p m)
    (hk : s.has key = false) (hv : Instrumentable c p m)
    (hnone : collectSelector c s w false x pos' n = none) :
    o ∈ exprOccs false env x ∧ WOk c s (w || wantsPtr c s x pos') x := by
  unfold collectSelector at hnone
  -- the selected name of an imported package
  have himp : ∀ q, bareName x = some q → c.decls c.self q = none → c.imports q = some p →
      s.has q = false → m = n → False := by
    intro q hq h1 h2 h3 e
    subst e
    have hr : resolve c s (.sel x pos' m) = .pkgVar p m := by
      simp only [resolve, resolve_bare hq h3 h1 h2]
      exact declInfo_var hv.1 hv.2.1
    cases w with
    | true => exact (hw rfl).2 p m hr hv
    | false =>
      rw [hr] at hnone
      simp only [wrap] at hnone
      obtain ⟨r, hr'⟩ := go_some hv false (.ident pos' m) false false rfl
      rw [show (if false = true then _ else _ : Info) = Info.pkgVar p m from rfl] at hnone
      simp only [hr'] at hnone
      cases hnone
  constructor
  · simp only [exprOccs, List.mem_append] at ho
    rcases ho with ho | ho
    · exact ho
    · split at ho
      · rename_i q hq
        simp only [List.mem_singleton] at ho
        subst ho
        cases hu with
        | qualified _ _ _ _ _ h1 h2 => exact (himp _ hq h1 h2 hk rfl).elim
      · simp at ho
  · intro hww
    constructor
    · intro hx
      have hu' : resolve c s (.sel x pos' n) = .unknown := by simp only [resolve, hx]
      have : wantsPtr c s x pos' = false := by simp only [wantsPtr, hx]
      rw [this, Bool.or_false] at hww
      exact (hw hww).1 hu'
    · intro p1 n1 hx hi
      by_cases hf : c.field pos' = .unknown
      · have hu' : resolve c s (.sel x pos' n) = .unknown := by simp only [resolve, hx, hf, if_true]
        have : wantsPtr c s x pos' = false := by simp [wantsPtr, hx, hf]
        rw [this, Bool.or_false] at hww
        exact (hw hww).1 hu'
      · have hu' : resolve c s (.sel x pos' n) = .other := by simp only [resolve, hx, hf, if_false]
        rw [hu'] at hnone
        have hwo : wrap w .other = .other := by cases w <;> rfl
        rw [hwo] at hnone
        simp only [hww] at hnone
        unfold collectVarRef at hnone
        rw [resolve_deparen, hx] at hnone
        obtain ⟨r, hr⟩ := go_some hi false x true true rfl
        simp only [wrap, if_true] at hnone
        rw [hr] at hnone
        cases hnone

/-- The code's scope only has names that are declared. -/
theorem specsRefs_has {c : Ctx} {n : String} : (sp : Specs) → (s : Scope) →
    s.has n = false → n ∉ specsDecls sp → (specsRefs c s sp).1.has n = false
  | .nil, s, h, _ => by simpa only [specsRefs] using h
  | .typeSpec m rest, s, h, hd => by
    simp only [specsDecls, List.mem_cons, not_or] at hd
    simp only [specsRefs]
    exact specsRefs_has rest _ (by rw [has_add]; simp [h, hd.1]) hd.2
  | .valueSpec ms vs rest, s, h, hd => by
    simp only [specsDecls, List.mem_append, not_or] at hd
    simp only [specsRefs]
    exact specsRefs_has rest _ (by rw [has_add]; simp [h, hd.1.1]) hd.2

theorem stmtRefs_has {c : Ctx} {n : String} : (st : Stmt) → (s : Scope) →
    s.has n = false → n ∉ stmtDecls st → (stmtRefs c s st).1.has n = false
  | .assign d lhs rhs, s, h, hd => by
    simp only [stmtDecls, List.mem_append, not_or] at hd
    simp only [stmtRefs]
    split
    · rename_i hdd
      rw [has_define]
      have : n ∉ identNames lhs := by
        intro hm
        have := (mem_declared.1 (mem_identNames.1 hm)).1
        simp [hdd, this] at hd
      simp [h, this]
    · exact h
  | .decl sp, s, h, hd => by simp only [stmtRefs]; exact specsRefs_has sp s h hd
  | .label st, s, h, hd => by simp only [stmtRefs]; exact stmtRefs_has st s h hd
  | .ifS init cond body els, s, h, hd => by
    simp only [stmtDecls, List.mem_append, not_or] at hd
    simp only [stmtRefs]; exact stmtRefs_has els _ (stmtRefs_has init s h hd.1.1.1) hd.2
  | .forS init cond post body, s, h, hd => by
    simp only [stmtDecls, List.mem_append, not_or] at hd
    simp only [stmtRefs]; exact stmtRefs_has post _ (stmtRefs_has init s h hd.1.1.1) hd.1.2
  | .range d key value x body, s, h, hd => by
    simp only [stmtDecls, List.mem_append, not_or] at hd
    simp only [stmtRefs]
    split
    · rename_i hdd
      rw [has_add]
      have : n ∉ identName key ++ identName value := by
        intro hm
        rw [List.mem_append, mem_identName, mem_identName, mem_declared, mem_declared] at hm
        have hd1 := hd.1.1.1.1
        simp only [hdd, if_true] at hd1
        cases key <;> simp_all [lhsNames]
      simp_all
    · exact h
  | .switchS init tag body, s, h, hd => by
    simp only [stmtDecls, List.mem_append, not_or] at hd
    simp only [stmtRefs]; exact stmtRefs_has init s h hd.1.1
  | .typeSwitch init assign body, s, h, hd => by
    simp only [stmtDecls, List.mem_append, not_or] at hd
    simp only [stmtRefs]; exact stmtRefs_has assign _ (stmtRefs_has init s h hd.1.1) hd.1.2
  | .empty, s, h, _ | .expr _, s, h, _ | .goDefer _ _, s, h, _ | .send _ _, s, h, _ | .incDec _, s, h, _
  | .ret _, s, h, _ | .block _, s, h, _ | .select _, s, h, _ | .caseClause _ _, s, h, _
  | .commClause _ _, s, h, _ => by simpa only [stmtRefs] using h

theorem rangeScope_has {s : Scope} {n : String} {d : Bool} {key value : Expr} (h : s.has n = false)
    (hd : n ∉ (if d then lhsNames (.cons key (.cons value .nil)) else [])) :
    (if d then s.add (identName key ++ identName value) else s).has n = false := by
  split
  · rename_i hdd
    rw [has_add]
    have : n ∉ identName key ++ identName value := by
      intro hm
      rw [List.mem_append, mem_identName, mem_identName, mem_declared, mem_declared] at hm
      simp only [hdd, if_true] at hd
      cases key <;> simp_all [lhsNames]
    simp_all
  · exact h

theorem found_mono {rs rs' : List VarRef} {pos p m} (h : ∃ r, r ∈ rs ∧ Matches r pos p m)
    (hs : ∀ r, r ∈ rs → r ∈ rs') : ∃ r, r ∈ rs' ∧ Matches r pos p m := by
  obtain ⟨r, h1, h2⟩ := h
  exact ⟨r, hs r h1, h2⟩

theorem wok_false (c : Ctx) (s : Scope) (e : Expr) : WOk c s false e := by intro h; cases h

mutual
theorem exprRefs_found {c : Ctx} {key p m : String} (hv : Instrumentable c p m) :
    (e : Expr) → ∀ ⦃s w env⦄, s.has key = false → key ∉ exprDecls e → WOk c s w e →
      ∀ ⦃o pos⦄, UseOf c o key pos p m → o ∈ exprOccs false env e →
        ∃ r, r ∈ exprRefs c s w e ∧ Matches r pos p m
  | .none => by intro s w env _ _ _ o pos _ ho; simp [exprOccs] at ho
  | .lit => by intro s w env _ _ _ o pos _ ho; simp [exprOccs] at ho
  | .typ => by intro s w env _ _ _ o pos _ ho; simp [exprOccs] at ho
  | .ident pos' n => by
    intro s w env hs hd hw o pos hu ho
    simp only [exprOccs, List.mem_singleton] at ho
    subst ho
    cases hu
    obtain ⟨r, hr⟩ := collectIdent_found (pos := pos') w false hs hv
    refine ⟨r, by simp [exprRefs, hr], ?_⟩
    unfold collectIdent at hr
    split at hr
    · cases hr
    · exact collectVarRef_matches (full := false) (env := env) hr
        (o := .id pos' key (env.contains key)) (by simp [exprOccs]) (.direct _ _ _) hs hv.1
  | .sel x pos' n => by
    intro s w env hs hd hw o pos hu ho
    simp only [exprRefs]
    cases hc : collectSelector c s w false x pos' n with
    | some r => exact ⟨r, by simp, collectSelector_matches hc ho hu hs hv.1⟩
    | none =>
      obtain ⟨h1, h2⟩ := sel_found hw ho hu hs hv hc
      exact exprRefs_found hv x hs hd h2 hu h1
  | .addr (.ident pos' n) => by
    intro s w env hs hd hw o pos hu ho
    simp only [exprOccs, List.mem_singleton] at ho
    subst ho
    cases hu
    obtain ⟨r, hr⟩ := collectIdent_found (pos := pos') false true hs hv
    refine ⟨r, by simp [exprRefs, hr], ?_⟩
    unfold collectIdent at hr
    split at hr
    · cases hr
    · exact collectVarRef_matches (full := false) (env := env) hr
        (o := .id pos' key (env.contains key)) (by simp [exprOccs]) (.direct _ _ _) hs hv.1
  | .addr (.sel x pos' n) => by
    intro s w env hs hd hw o pos hu ho
    simp only [exprOccs, Bool.false_eq_true, if_false, List.nil_append] at ho
    split at ho
    · rename_i q hq
      simp only [List.mem_singleton] at ho
      subst ho
      cases hu with
      | qualified _ _ _ _ _ h1 h2 =>
        have hr : resolve c s (.sel x pos' m) = .pkgVar p m := by
          simp only [resolve, resolve_bare hq hs h1 h2]
          exact declInfo_var hv.1 hv.2.1
        obtain ⟨r, hg⟩ := go_some hv true (.ident pos' m) false false rfl
        have hcs : collectSelector c s false true x pos' m = some r := by
          unfold collectSelector
          rw [hr]
          exact hg
        refine ⟨r, by simp [exprRefs, hcs], ?_⟩
        refine collectSelector_matches (full := false) (env := env) hcs
          (o := .qual pos' m key (env.contains key)) ?_ (.qualified _ _ _ _ _ h1 h2) hs hv.1
        simp [exprOccs, hq]
    · simp at ho
  | .addr .none => by intro s w env _ _ _ o pos _ ho; simp [exprOccs] at ho
  | .addr .lit => by intro s w env _ _ _ o pos _ ho; simp [exprOccs] at ho
  | .addr .typ => by intro s w env _ _ _ o pos _ ho; simp [exprOccs] at ho
  | .addr (.addr x) => fun s w env hs hd _ o pos hu ho => by
    simpa only [exprRefs] using exprRefs_found hv (.addr x) (w := false) (env := env) hs hd (wok_false c s _) hu
      (by simpa only [exprOccs] using ho)
  | .addr (.paren x) => fun s w env hs hd _ o pos hu ho => by
    simpa only [exprRefs] using exprRefs_found hv (.paren x) (w := false) (env := env) hs hd (wok_false c s _) hu
      (by simpa only [exprOccs] using ho)
  | .addr (.unary x) => fun s w env hs hd _ o pos hu ho => by
    simpa only [exprRefs] using exprRefs_found hv (.unary x) (w := false) (env := env) hs hd (wok_false c s _) hu
      (by simpa only [exprOccs] using ho)
  | .addr (.binary x y) => fun s w env hs hd _ o pos hu ho => by
    simpa only [exprRefs] using exprRefs_found hv (.binary x y) (w := false) (env := env) hs hd (wok_false c s _) hu
      (by simpa only [exprOccs] using ho)
  | .addr (.slice x a b d) => fun s w env hs hd _ o pos hu ho => by
    simpa only [exprRefs] using exprRefs_found hv (.slice x a b d) (w := false) (env := env) hs hd (wok_false c s _) hu
      (by simpa only [exprOccs] using ho)
  | .addr (.call f as) => fun s w env hs hd _ o pos hu ho => by
    simpa only [exprRefs] using exprRefs_found hv (.call f as) (w := false) (env := env) hs hd (wok_false c s _) hu
      (by simpa only [exprOccs] using ho)
  | .addr (.composite es) => fun s w env hs hd _ o pos hu ho => by
    simpa only [exprRefs] using exprRefs_found hv (.composite es) (w := false) (env := env) hs hd (wok_false c s _) hu
      (by simpa only [exprOccs] using ho)
  | .addr (.kv b k v) => fun s w env hs hd _ o pos hu ho => by
    simpa only [exprRefs] using exprRefs_found hv (.kv b k v) (w := false) (env := env) hs hd (wok_false c s _) hu
      (by simpa only [exprOccs] using ho)
  | .addr (.func ps b) => fun s w env hs hd _ o pos hu ho => by
    simpa only [exprRefs] using exprRefs_found hv (.func ps b) (w := false) (env := env) hs hd (wok_false c s _) hu
      (by simpa only [exprOccs] using ho)
  | .paren x => by
    intro s w env hs hd hw o pos hu ho
    simp only [exprRefs]
    exact exprRefs_found hv x hs hd hw hu ho
  | .unary x => by
    intro s w env hs hd hw o pos hu ho
    simp only [exprRefs]
    exact exprRefs_found hv x hs hd (wok_false c s _) hu ho
  | .binary x y => by
    intro s w env hs hd hw o pos hu ho
    simp only [exprOccs, List.mem_append] at ho
    simp only [exprDecls, List.mem_append, not_or] at hd
    simp only [exprRefs]
    rcases ho with ho | ho
    · exact found_mono (exprRefs_found hv x hs hd.1 (wok_false c s _) hu ho) (fun r h => by simp [h])
    · exact found_mono (exprRefs_found hv y hs hd.2 (wok_false c s _) hu ho) (fun r h => by simp [h])
  | .slice x lo hi mx => by
    intro s w env hs hd hw o pos hu ho
    simp only [exprOccs, List.mem_append] at ho
    simp only [exprDecls, List.mem_append, not_or] at hd
    simp only [exprRefs]
    rcases ho with ((ho | ho) | ho) | ho
    · exact found_mono (exprRefs_found hv x hs hd.1.1.1 (wok_false c s _) hu ho) (fun r h => by simp [h])
    · exact found_mono (exprRefs_found hv lo hs hd.1.1.2 (wok_false c s _) hu ho) (fun r h => by simp [h])
    · exact found_mono (exprRefs_found hv hi hs hd.1.2 (wok_false c s _) hu ho) (fun r h => by simp [h])
    · simp at ho
  | .call f args => by
    intro s w env hs hd hw o pos hu ho
    simp only [exprOccs, List.mem_append] at ho
    simp only [exprDecls, List.mem_append, not_or] at hd
    simp only [exprRefs]
    rcases ho with ho | ho
    · exact found_mono (exprRefs_found hv f hs hd.1 (wok_false c s _) hu ho) (fun r h => by simp [h])
    · exact found_mono (exprsRefs_found hv args hs hd.2 hu ho) (fun r h => by simp [h])
  | .composite es => by
    intro s w env hs hd hw o pos hu ho
    simp only [exprRefs]
    exact exprsRefs_found hv es hs hd hu ho
  | .kv b k v => by
    intro s w env hs hd hw o pos hu ho
    simp only [exprOccs, List.mem_append] at ho
    simp only [exprDecls, List.mem_append, not_or] at hd
    simp only [exprRefs]
    rcases ho with ho | ho
    · split at ho
      · simp at ho
      · rename_i hk
        have hk' : keyConflict c s k = false := by
          cases k <;> simp_all [keyConflict, isIdent]
        rw [hk']
        exact found_mono (exprRefs_found hv k hs hd.1 (wok_false c s _) hu ho) (fun r h => by simp [h])
    · exact found_mono (exprRefs_found hv v hs hd.2 (wok_false c s _) hu ho) (fun r h => by simp [h])
  | .func ps body => by
    intro s w env hs hd hw o pos hu ho
    simp only [exprDecls, List.mem_append, not_or] at hd
    simp only [exprRefs]
    refine stmtsRefs_found hv body ?_ hd.2 hu ho
    rw [has_push]
    simp [Scope.has, hs, hd.1]
theorem exprsRefs_found {c : Ctx} {key p m : String} (hv : Instrumentable c p m) :
    (es : Exprs) → ∀ ⦃s env⦄, s.has key = false → key ∉ exprsDecls es →
      ∀ ⦃o pos⦄, UseOf c o key pos p m → o ∈ exprsOccs false env es →
        ∃ r, r ∈ exprsRefs c s es ∧ Matches r pos p m
  | .nil => by intro s env _ _ o pos _ ho; simp [exprsOccs] at ho
  | .cons x xs => by
    intro s env hs hd o pos hu ho
    simp only [exprsOccs, List.mem_append] at ho
    simp only [exprsDecls, List.mem_append, not_or] at hd
    simp only [exprsRefs]
    rcases ho with ho | ho
    · exact found_mono (exprRefs_found hv x hs hd.1 (wok_false c s _) hu ho) (fun r h => by simp [h])
    · exact found_mono (exprsRefs_found hv xs hs hd.2 hu ho) (fun r h => by simp [h])
theorem stmtRefs_found {c : Ctx} {key p m : String} (hv : Instrumentable c p m) :
    (st : Stmt) → ∀ ⦃s env⦄, s.has key = false → key ∉ stmtDecls st →
      ∀ ⦃o pos⦄, UseOf c o key pos p m → o ∈ stmtOccs false env st →
        ∃ r, r ∈ (stmtRefs c s st).2 ∧ Matches r pos p m
  | .empty => by intro s env _ _ o pos _ ho; simp [stmtOccs] at ho
  | .incDec x => by intro s env _ _ o pos _ ho; simp [stmtOccs] at ho
  | .expr x => by
    intro s env hs hd o pos hu ho
    exact exprRefs_found hv x hs hd (wok_false c s _) hu ho
  | .goDefer f args => by
    intro s env hs hd o pos hu ho
    simp only [stmtOccs, List.mem_append] at ho
    simp only [stmtDecls, List.mem_append, not_or] at hd
    simp only [stmtRefs]
    rcases ho with ho | ho
    · exact found_mono (exprRefs_found hv f hs hd.1 (wok_false c s _) hu ho) (fun r h => by simp [h])
    · exact found_mono (exprsRefs_found hv args hs hd.2 hu ho) (fun r h => by simp [h])
  | .send ch v => by
    intro s env hs hd o pos hu ho
    simp only [stmtOccs, List.mem_append] at ho
    simp only [stmtDecls, List.mem_append, not_or] at hd
    simp only [stmtRefs]
    rcases ho with ho | ho
    · exact found_mono (exprRefs_found hv ch hs hd.1 (wok_false c s _) hu ho) (fun r h => by simp [h])
    · exact found_mono (exprRefs_found hv v hs hd.2 (wok_false c s _) hu ho) (fun r h => by simp [h])
  | .ret xs => by
    intro s env hs hd o pos hu ho
    exact exprsRefs_found hv xs hs hd hu ho
  | .assign d lhs rhs => by
    intro s env hs hd o pos hu ho
    simp only [stmtOccs, List.mem_append] at ho
    simp only [stmtDecls, List.mem_append, not_or] at hd
    simp only [stmtRefs]
    rcases ho with ho | ho
    · simp at ho
    · exact exprsRefs_found hv rhs hs hd.2 hu ho
  | .decl sp => by
    intro s env hs hd o pos hu ho
    simp only [stmtRefs]
    exact specsRefs_found hv sp hs hd hu ho
  | .block body => by
    intro s env hs hd o pos hu ho
    simp only [stmtRefs]
    exact stmtsRefs_found hv body (by rw [has_push]; exact hs) hd hu ho
  | .ifS init cond body els => by
    intro s env hs hd o pos hu ho
    simp only [stmtOccs, List.mem_append] at ho
    simp only [stmtDecls, List.mem_append, not_or] at hd
    simp only [stmtRefs]
    have hs1 := stmtRefs_has (c := c) init s hs hd.1.1.1
    rcases ho with ((ho | ho) | ho) | ho
    · exact found_mono (stmtRefs_found hv init hs hd.1.1.1 hu ho) (fun r h => by simp [h])
    · exact found_mono (exprRefs_found hv cond hs1 hd.1.1.2 (wok_false c _ _) hu ho) (fun r h => by simp [h])
    · exact found_mono (stmtsRefs_found hv body (by rw [has_push]; exact hs1) hd.1.2 hu ho) (fun r h => by simp [h])
    · exact found_mono (stmtRefs_found hv els hs1 hd.2 hu ho) (fun r h => by simp [h])
  | .forS init cond post body => by
    intro s env hs hd o pos hu ho
    simp only [stmtOccs, List.mem_append] at ho
    simp only [stmtDecls, List.mem_append, not_or] at hd
    simp only [stmtRefs]
    have hs1 := stmtRefs_has (c := c) init s hs hd.1.1.1
    have hs2 := stmtRefs_has (c := c) post _ hs1 hd.1.2
    rcases ho with ((ho | ho) | ho) | ho
    · exact found_mono (stmtRefs_found hv init hs hd.1.1.1 hu ho) (fun r h => by simp [h])
    · exact found_mono (exprRefs_found hv cond hs1 hd.1.1.2 (wok_false c _ _) hu ho) (fun r h => by simp [h])
    · exact found_mono (stmtRefs_found hv post hs1 hd.1.2 hu ho) (fun r h => by simp [h])
    · exact found_mono (stmtsRefs_found hv body (by rw [has_push]; exact hs2) hd.2 hu ho) (fun r h => by simp [h])
  | .range d k v x body => by
    intro s env hs hd o pos hu ho
    simp only [stmtOccs, List.mem_append] at ho
    simp only [stmtDecls, List.mem_append, not_or] at hd
    simp only [stmtRefs]
    have hs1 := rangeScope_has hs hd.1.1.1.1
    rcases ho with (ho | ho) | ho
    · simp at ho
    · exact found_mono (exprRefs_found hv x hs1 hd.1.2 (wok_false c _ _) hu ho)
        (fun r h => List.mem_append.2 (Or.inl h))
    · exact found_mono (stmtsRefs_found hv body (by rw [has_push]; exact hs1) hd.2 hu ho)
        (fun r h => List.mem_append.2 (Or.inr h))
  | .switchS init tag body => by
    intro s env hs hd o pos hu ho
    simp only [stmtOccs, List.mem_append] at ho
    simp only [stmtDecls, List.mem_append, not_or] at hd
    simp only [stmtRefs]
    have hs1 := stmtRefs_has (c := c) init s hs hd.1.1
    rcases ho with (ho | ho) | ho
    · exact found_mono (stmtRefs_found hv init hs hd.1.1 hu ho) (fun r h => by simp [h])
    · exact found_mono (exprRefs_found hv tag hs1 hd.1.2 (wok_false c _ _) hu ho) (fun r h => by simp [h])
    · exact found_mono (stmtsRefs_found hv body (by rw [has_push]; exact hs1) hd.2 hu ho) (fun r h => by simp [h])
  | .typeSwitch init assign body => by
    intro s env hs hd o pos hu ho
    simp only [stmtOccs, List.mem_append] at ho
    simp only [stmtDecls, List.mem_append, not_or] at hd
    simp only [stmtRefs]
    have hs1 := stmtRefs_has (c := c) init s hs hd.1.1
    have hs2 := stmtRefs_has (c := c) assign _ hs1 hd.1.2
    rcases ho with (ho | ho) | ho
    · exact found_mono (stmtRefs_found hv init hs hd.1.1 hu ho) (fun r h => by simp [h])
    · exact found_mono (stmtRefs_found hv assign hs1 hd.1.2 hu ho) (fun r h => by simp [h])
    · exact found_mono (stmtsRefs_found hv body (by rw [has_push]; exact hs2) hd.2 hu ho) (fun r h => by simp [h])
  | .select body => by
    intro s env hs hd o pos hu ho
    simp only [stmtRefs]
    exact stmtsRefs_found hv body (by rw [has_push]; exact hs) hd hu ho
  | .label st => by
    intro s env hs hd o pos hu ho
    simp only [stmtRefs]
    exact stmtRefs_found hv st hs hd hu ho
  | .caseClause list body => by
    intro s env hs hd o pos hu ho
    simp only [stmtOccs, List.mem_append] at ho
    simp only [stmtDecls, List.mem_append, not_or] at hd
    simp only [stmtRefs]
    rcases ho with ho | ho
    · simp at ho
    · exact stmtsRefs_found hv body (by rw [has_push]; exact hs) hd.2 hu ho
  | .commClause comm body => by
    intro s env hs hd o pos hu ho
    simp only [stmtOccs, List.mem_append] at ho
    simp only [stmtDecls, List.mem_append, not_or] at hd
    simp only [stmtRefs]
    rcases ho with ho | ho
    · simp at ho
    · exact stmtsRefs_found hv body (by rw [has_push]; exact hs) hd.2 hu ho
theorem stmtsRefs_found {c : Ctx} {key p m : String} (hv : Instrumentable c p m) :
    (ss : Stmts) → ∀ ⦃s env⦄, s.has key = false → key ∉ stmtsDecls ss →
      ∀ ⦃o pos⦄, UseOf c o key pos p m → o ∈ stmtsOccs false env ss →
        ∃ r, r ∈ (stmtsRefs c s ss).2 ∧ Matches r pos p m
  | .nil => by intro s env _ _ o pos _ ho; simp [stmtsOccs] at ho
  | .cons st ss => by
    intro s env hs hd o pos hu ho
    simp only [stmtsOccs, List.mem_append] at ho
    simp only [stmtsDecls, List.mem_append, not_or] at hd
    simp only [stmtsRefs]
    rcases ho with ho | ho
    · exact found_mono (stmtRefs_found hv st hs hd.1 hu ho) (fun r h => by simp [h])
    · exact found_mono (stmtsRefs_found hv ss (stmtRefs_has (c := c) st s hs hd.1) hd.2 hu ho) (fun r h => by simp [h])
theorem specsRefs_found {c : Ctx} {key p m : String} (hv : Instrumentable c p m) :
    (sp : Specs) → ∀ ⦃s env⦄, s.has key = false → key ∉ specsDecls sp →
      ∀ ⦃o pos⦄, UseOf c o key pos p m → o ∈ specsOccs false env sp →
        ∃ r, r ∈ (specsRefs c s sp).2 ∧ Matches r pos p m
  | .nil => by intro s env _ _ o pos _ ho; simp [specsOccs] at ho
  | .typeSpec n rest => by
    intro s env hs hd o pos hu ho
    simp only [specsDecls, List.mem_cons, not_or] at hd
    simp only [specsRefs]
    exact specsRefs_found hv rest (by rw [has_add]; simp [hs, hd.1]) hd.2 hu ho
  | .valueSpec ns vs rest => by
    intro s env hs hd o pos hu ho
    simp only [specsOccs, List.mem_append] at ho
    simp only [specsDecls, List.mem_append, not_or] at hd
    simp only [specsRefs]
    rcases ho with ho | ho
    · exact found_mono (exprsRefs_found hv vs hs hd.1.2 hu ho) (fun r h => by simp [h])
    · exact found_mono (specsRefs_found hv rest (s := s.add ns) (by rw [has_add]; simp [hs, hd.1.1]) hd.2 hu ho)
        (fun r h => by simp [h])
end

/-- C59 (partial).  Every use of an instrumentable package variable, direct or through an import,
that stands in a position xgo instruments (`funcOccs false`) is recorded, whatever the type resolver
answers about fields and methods, provided the name (of the variable, or of the imported package) is
declared nowhere inside the function.  Missing: positions xgo does not look at, and functions that
also declare the name locally, where uses outside that declaration's scope are lost
(`C59_counterexample_shadow`, `C59_counterexample_position`). -/
theorem C59_complete_partial (c : Ctx) (f : FuncDecl) {o : Occ} {key : String} {pos : Nat}
    {p m : String} (hv : Instrumentable c p m) (ho : o ∈ funcOccs false f) (hu : UseOf c o key pos p m)
    (hk : key ∉ funcDecls f) :
    ∃ r, r ∈ funcRefs c f ∧ identPos r.target = some pos ∧ r.pkg = p ∧ r.name = m := by
  simp only [funcDecls, List.mem_append, not_or] at hk
  refine stmtsRefs_found hv f.body ?_ hk.2 hu ho
  rw [has_push]
  simp [Scope.has, hk.1.1]

/-- **C39** (what is changed) The references whose text is changed are references to variables of the packages under test, or to variables
that a mock names; each is, by Go's scoping rules, a use of that variable. Missing: as in `C39_sound_partial`. -/
theorem C39_rewritten_partial (c : Ctx) (f : FuncDecl) (main : String → Bool) (trapped writable : String → String → Bool)
    (hcomm : ∀ n, n ∈ stmtsComm f.body → Harmless c n) (htp : ∀ n, n ∈ f.tparams → Harmless c n)
    (r : VarRef) (hr : r ∈ rewritten c main trapped writable (funcRefs c f)) :
    RefOk c (funcOccs true f) r ∧ c.decls r.pkg r.name = some .var ∧ (main r.pkg = true ∨ trapped r.pkg r.name = true) ∧
    writable r.pkg r.name = true := by
  obtain ⟨h1, h2⟩ := List.mem_filter.1 hr
  simp only [Bool.and_eq_true, Bool.or_eq_true, decide_eq_true_eq] at h2
  exact ⟨C39_sound_partial c f hcomm htp r h1, h2.1.1, h2.1.2, h2.2⟩

/-- **C59** (what is changed) Every use of a variable of a package under test, or of a variable that a mock names, is changed, if the type
of the variable can be written down. Missing: as in `C59_complete_partial`. -/
theorem C59_rewritten_partial (c : Ctx) (f : FuncDecl) (main : String → Bool) (trapped writable : String → String → Bool)
    {o : Occ} {key : String} {pos : Nat} {p m : String} (hv : Instrumentable c p m) (hd : c.decls p m = some .var)
    (hm : main p = true ∨ trapped p m = true) (hw : writable p m = true) (ho : o ∈ funcOccs false f) (hu : UseOf c o key pos p m)
    (hk : key ∉ funcDecls f) :
    ∃ r, r ∈ rewritten c main trapped writable (funcRefs c f) ∧ identPos r.target = some pos ∧ r.pkg = p ∧ r.name = m := by
  obtain ⟨r, h1, h2, rfl, rfl⟩ := C59_complete_partial c f hv ho hu hk
  refine ⟨r, List.mem_filter.2 ⟨h1, ?_⟩, h2, rfl, rfl⟩
  simp only [Bool.and_eq_true, Bool.or_eq_true, decide_eq_true_eq]
  exact ⟨⟨hd, hm⟩, hw⟩

end Verif.Instrument.Resolve
