import Verif.Instrument.ResolveComplete
/-
C60 (how a recorded reference is written back) and the examples and counterexamples for C39, C59
and C60.
-/
namespace Verif.Instrument.Resolve

/-! ## Writing the references back: `applyRewrite` (instrument_var/trap_var.go:121-138)

Only for expressions made of names, selectors, parentheses and `&`; the prefix `T_` for variables
called `Test...` in test files is left out. -/

/-- `getSuffix` -/
def suffix (needPtr : Bool) : String := if needPtr then "_xgo_get_addr()" else "_xgo_get()"

/-- the text inserted after the name at `pos` -/
def suffixAt (rs : List VarRef) (pos : Nat) : String :=
  match rs.find? (fun r => refPos r == some pos) with
  | some r => suffix r.needPtr
  | none => ""

/-- the `&` in front of `x` is deleted -/
def ampDeleted (rs : List VarRef) (x : Expr) : Bool :=
  rs.any (fun r => r.addr && !r.fieldAccess && (refPos r == identPos x))

/-- the source text of an expression after the rewrites -/
def render (rs : List VarRef) : Expr → String
  | .ident pos n => n ++ suffixAt rs pos
  | .sel x pos n => render rs x ++ ("." ++ n ++ suffixAt rs pos)
  | .addr x => (if ampDeleted rs x then "" else "&") ++ render rs x
  | .paren x => "(" ++ (render rs x ++ ")")
  | _ => ""

theorem resolve_ident_var {c : Ctx} {s : Scope} {pos n} (hn : s.has n = false)
    (h : Instrumentable c c.self n) : resolve c s (.ident pos n) = .pkgVar c.self n := by
  simp only [resolve, hn]
  have hd := not_imp_of_var h.1
  cases hdd : c.decls c.self n with
  | none => exact absurd hdd hd
  | some k => exact declInfo_var h.1 h.2.1

theorem go_val {c : Ctx} {p n} (h : Instrumentable c p n) (addr : Bool) (x : Expr) (hasSel b : Bool)
    (hs : (addr && hasSel && !c.ptrVar p n) = false) :
    collectVarRef.go c addr x hasSel p n b = some
      { pkg := p, name := n, target := deparen x, addr := addr,
        needPtr := if addr then !(addr && hasSel) else (!c.ptrVar p n && b),
        fieldAccess := addr && hasSel } := by
  unfold collectVarRef.go
  simp only [h.2.2.1, h.2.2.2.1, hs]
  simp

theorem notBlank {n : String} (h1 : n ≠ "") (h2 : n ≠ "_") : isBlank n = false := by
  cases hb : isBlank n with
  | false => rfl
  | true => exact absurd ⟨h2, h1⟩ ((isBlank_iff n).1 hb)

theorem collectIdent_val {c : Ctx} {s : Scope} (addr : Bool) {pos n} (hn : s.has n = false)
    (h : Instrumentable c c.self n) :
    collectIdent c s false addr pos n = some
      { pkg := c.self, name := n, target := .ident pos n, addr := addr, needPtr := addr,
        fieldAccess := false } := by
  unfold collectIdent
  rw [notBlank h.2.2.2.2.1 h.2.2.2.2.2, hn]
  simp only [Bool.or_self, Bool.false_eq_true, if_false]
  unfold collectVarRef
  rw [resolve_deparen, resolve_ident_var hn h]
  simp only [wrap, Bool.false_eq_true, if_false]
  rw [go_val h _ _ _ _ (by simp)]
  cases addr <;> simp [deparen]

/-- C60: a package variable that is read becomes a call of its getter. -/
theorem C60_value (c : Ctx) (s : Scope) (pos : Nat) (n : String) (hn : s.has n = false)
    (h : Instrumentable c c.self n) :
    render (exprRefs c s false (.ident pos n)) (.ident pos n) = n ++ "_xgo_get()" := by
  simp [exprRefs, collectIdent_val false hn h, render, suffixAt, refPos, identPos, suffix]

/-- C60: `&V` becomes a call of the function that returns the address. -/
theorem C60_amp (c : Ctx) (s : Scope) (pos : Nat) (n : String) (hn : s.has n = false)
    (h : Instrumentable c c.self n) :
    render (exprRefs c s false (.addr (.ident pos n))) (.addr (.ident pos n)) =
      n ++ "_xgo_get_addr()" := by
  simp [exprRefs, collectIdent_val true hn h, render, suffixAt, refPos, identPos, suffix, ampDeleted]

/-- C60: likewise `&q.V` for an imported package. -/
theorem C60_amp_qualified (c : Ctx) (s : Scope) (qpos pos : Nat) (q n p : String) (hne : qpos ≠ pos)
    (hq : s.has q = false) (hd : c.decls c.self q = none) (hi : c.imports q = some p)
    (h : Instrumentable c p n) :
    render (exprRefs c s false (.addr (.sel (.ident qpos q) pos n))) (.addr (.sel (.ident qpos q) pos n)) =
      q ++ ("." ++ n ++ "_xgo_get_addr()") := by
  have hr : resolve c s (.sel (.ident qpos q) pos n) = .pkgVar p n := by
    simp only [resolve, hq, hd, hi]
    exact declInfo_var h.1 h.2.1
  have hc : collectSelector c s false true (.ident qpos q) pos n = some
      { pkg := p, name := n, target := .ident pos n, addr := true, needPtr := true,
        fieldAccess := false } := by
    unfold collectSelector
    rw [hr]
    simp only [wrap, Bool.false_eq_true, if_false]
    rw [go_val h _ _ _ _ (by simp)]
    rfl
  have hne' : (pos == qpos) = false := by simp; omega
  simp [exprRefs, hc, render, suffixAt, refPos, identPos, suffix, ampDeleted, hne']

theorem resolve_field {c : Ctx} {s : Scope} {vpos pos v f} (hn : s.has v = false)
    (h : Instrumentable c c.self v) (hf : c.field pos ≠ .unknown) :
    resolve c s (.sel (.ident vpos v) pos f) = .other := by
  simp only [resolve] 
  have := resolve_ident_var (pos := vpos) hn h
  simp only [resolve] at this
  rw [this]
  simp [hf]

/-- C60: `&V.F` for a variable `V` of pointer type takes the address of the field of the object
that the getter's pointer refers to. -/
theorem C60_amp_field_ptr (c : Ctx) (s : Scope) (vpos pos : Nat) (v f : String) (hne : vpos ≠ pos)
    (hv : s.has v = false) (h : Instrumentable c c.self v) (hp : c.ptrVar c.self v = true)
    (hf : c.field pos = .value) :
    render (exprRefs c s false (.addr (.sel (.ident vpos v) pos f))) (.addr (.sel (.ident vpos v) pos f)) =
      "&" ++ (v ++ "_xgo_get()" ++ ("." ++ f)) := by
  have hc : collectSelector c s false true (.ident vpos v) pos f = some
      { pkg := c.self, name := v, target := .ident vpos v, addr := true, needPtr := false,
        fieldAccess := true } := by
    unfold collectSelector
    rw [resolve_field hv h (by rw [hf]; simp)]
    simp only [wrap, Bool.false_eq_true, if_false]
    have hw : wantsPtr c s (.ident vpos v) pos = false := by
      simp [wantsPtr, resolve_ident_var hv h, hf]
    rw [hw]
    unfold collectVarRef
    rw [resolve_deparen, resolve_ident_var hv h]
    simp only [wrap, Bool.or_self, Bool.false_eq_true, if_false]
    rw [go_val h _ _ _ _ (by simp [hp])]
    rfl
  have hne' : (vpos == pos) = false := by simp; exact hne
  simp [exprRefs, hc, render, suffixAt, refPos, identPos, suffix, ampDeleted, hne']

/-- C60: `&V.F` for a variable that is no pointer is left alone: it still is the address of a part
of the variable. -/
theorem C60_amp_field_value (c : Ctx) (s : Scope) (vpos pos : Nat) (v f : String)
    (hv : s.has v = false) (h : Instrumentable c c.self v) (hp : c.ptrVar c.self v = false) :
    exprRefs c s false (.addr (.sel (.ident vpos v) pos f)) = [] := by
  have hc : collectSelector c s false true (.ident vpos v) pos f = none := by
    unfold collectSelector
    have hr : resolve c s (.sel (.ident vpos v) pos f) = .unknown ∨
        resolve c s (.sel (.ident vpos v) pos f) = .other := by
      have := resolve_ident_var (pos := vpos) hv h
      simp only [resolve] at this ⊢
      rw [this]
      by_cases hf : c.field pos = .unknown
      · left; simp [hf]
      · right; simp [hf]
    rcases hr with hr | hr
    · rw [hr]; rfl
    · rw [hr]
      simp only [wrap, Bool.false_eq_true, if_false]
      unfold collectVarRef
      rw [resolve_deparen, resolve_ident_var hv h]
      cases hw : wantsPtr c s (.ident vpos v) pos <;>
        simp [wrap, collectVarRef.go, h.2.2.1, h.2.2.2.1, hp]
  have hsk : skipAddr c s (.ident vpos v) pos = true := by
    unfold skipAddr
    rw [resolve_ident_var hv h]
    cases hw : wantsPtr c s (.ident vpos v) pos <;> simp [wrap]
  simp [exprRefs, hc, hsk]

/-- C60: calling a method with pointer receiver on a variable that is no pointer goes through the
variable's address, so that the method works on the variable and not on a copy. -/
theorem C60_method (c : Ctx) (s : Scope) (vpos pos : Nat) (v f : String) (hne : vpos ≠ pos)
    (hv : s.has v = false) (h : Instrumentable c c.self v) (hp : c.ptrVar c.self v = false)
    (hf : c.field pos = .ptrMethod) :
    render (exprRefs c s false (.sel (.ident vpos v) pos f)) (.sel (.ident vpos v) pos f) =
      v ++ "_xgo_get_addr()" ++ ("." ++ f) := by
  have hc : collectSelector c s false false (.ident vpos v) pos f = some
      { pkg := c.self, name := v, target := .ident vpos v, addr := false, needPtr := true,
        fieldAccess := false } := by
    unfold collectSelector
    rw [resolve_field hv h (by rw [hf]; simp)]
    simp only [wrap, Bool.false_eq_true, if_false]
    have hw : wantsPtr c s (.ident vpos v) pos = true := by
      simp [wantsPtr, resolve_ident_var hv h, hf]
    rw [hw]
    unfold collectVarRef
    rw [resolve_deparen, resolve_ident_var hv h]
    simp only [wrap, Bool.or_true, if_true]
    rw [go_val h _ _ _ _ (by simp)]
    simp [hp, deparen]
  have hne' : (vpos == pos) = false := by simp; exact hne
  simp [exprRefs, hc, render, suffixAt, refPos, identPos, suffix, hne']

/-! ## Examples -/

/-- package `p` with a struct variable `V`, a pointer variable `P`, a constant `C`, a function `use`
and an import `q` of a package with a variable `X`; the name at position 50 is a method with pointer
receiver, everything else selected is a field -/
def exCtx : Ctx where
  self := "p"
  imports := fun n => if n = "q" then some "example.com/q" else none
  decls := fun p n =>
    if p = "p" then
      if n = "V" ∨ n = "P" then some .var
      else if n = "C" then some .const
      else if n = "use" then some .func else none
    else if p = "example.com/q" ∧ n = "X" then some .var else none
  known := fun _ _ => true
  typed := fun _ _ => true
  ptrVar := fun _ n => n = "P"
  allow := fun _ => true
  localKnown := fun _ => true
  field := fun n => if n = 50 then .ptrMethod else .value

def stmts : List Stmt → Stmts
  | [] => .nil
  | s :: ss => .cons s (stmts ss)
def exprs : List Expr → Exprs
  | [] => .nil
  | s :: ss => .cons s (exprs ss)

/-- `func f(a int) { a = V + q.X; if V := a; V > 0 { use(V) }; P.f.g(&V, func(P int) int { return P }) }` -/
def exFunc : FuncDecl where
  tparams := ["T"]
  names := ["a", "_"]
  body := stmts [
    .assign false (exprs [.ident 1 "a"]) (exprs [.binary (.ident 2 "V") (.sel (.ident 3 "q") 4 "X")]),
    .ifS (.assign true (exprs [.ident 5 "W"]) (exprs [.ident 6 "a"])) (.binary (.ident 7 "W") .lit)
      (stmts [.expr (.call (.ident 8 "use") (exprs [.ident 9 "W"]))]) .empty,
    .expr (.call (.sel (.sel (.ident 10 "P") 11 "f") 12 "g")
      (exprs [.addr (.ident 13 "V"), .func ["P"] (stmts [.ret (exprs [.ident 14 "P"])])]))]

/-- The hypotheses of `C39_sound_partial` hold of it, and it records four references. -/
example : (∀ n, n ∈ stmtsComm exFunc.body → Harmless exCtx n) ∧
    (∀ n, n ∈ exFunc.tparams → Harmless exCtx n) ∧
    (funcRefs exCtx exFunc).map (fun r => (r.pkg, r.name, refPos r, r.needPtr)) =
      [("p", "V", some 2, false), ("example.com/q", "X", some 4, false),
       ("p", "P", some 10, false), ("p", "V", some 13, true)] := by
  refine ⟨?_, ?_, by decide +kernel⟩
  · have : stmtsComm exFunc.body = [] := by decide +kernel
    intro n hn; rw [this] at hn; cases hn
  · intro n hn
    have : n = "T" := by simpa [exFunc] using hn
    subst this
    unfold Harmless IsVar
    exact ⟨by decide +kernel, by decide +kernel⟩

/-- The hypotheses of `C59_complete_partial` hold for the use of `V` at position 2. -/
example : Instrumentable exCtx "p" "V" ∧ Occ.id 2 "V" false ∈ funcOccs false exFunc ∧
    UseOf exCtx (.id 2 "V" false) "V" 2 "p" "V" ∧ "V" ∉ funcDecls exFunc :=
  ⟨by unfold Instrumentable IsVar; decide +kernel, by decide +kernel, .direct 2 "V" false,
    by decide +kernel⟩

/-- ... and for `q.X`. -/
example : Instrumentable exCtx "example.com/q" "X" ∧ Occ.qual 4 "X" "q" false ∈ funcOccs false exFunc ∧
    UseOf exCtx (.qual 4 "X" "q" false) "q" 4 "example.com/q" "X" ∧ "q" ∉ funcDecls exFunc :=
  ⟨by unfold Instrumentable IsVar; decide +kernel, by decide +kernel,
    .qualified 4 "X" "q" _ false (by decide +kernel) (by decide +kernel), by decide +kernel⟩

example : (stmtsPos exFunc.body).Nodup := by decide +kernel

/-! ## Counterexamples -/

/-- the reference recorded in the counterexamples: a read of `p.V` at `pos` -/
def readV (pos : Nat) : VarRef where
  pkg := "p"
  name := "V"
  target := .ident pos "V"
  addr := false
  needPtr := false
  fieldAccess := false

/-- `select { case V := <-ch: use(V) }` with a package variable `V`. -/
def exSelect : FuncDecl where
  tparams := []
  names := ["ch"]
  body := stmts [.select (stmts [.commClause
    (.assign true (exprs [.ident 1 "V"]) (exprs [.unary (.ident 2 "ch")]))
    (stmts [.expr (.call (.ident 3 "use") (exprs [.ident 4 "V"]))])])]

/-- C39 fails: the `V` declared in the clause is rewritten as the package variable. -/
theorem C39_counterexample_select :
    ∃ r, r ∈ funcRefs exCtx exSelect ∧ ¬ RefOk exCtx (funcOccs true exSelect) r := by
  refine ⟨readV 4, ?_, ?_⟩
  · have : funcRefs exCtx exSelect = [readV 4] := by
      have : exCtx.decls "p" "V" = some .var := by decide
      have h2 : exCtx.decls "p" "use" = some .func := by decide
      simp [funcRefs, exSelect, stmts, exprs, stmtsRefs, stmtRefs, exprRefs, exprsRefs, collectIdent,
        collectVarRef, collectVarRef.go, resolve, deparen, wrap, declInfo, Scope.has, Scope.push, isBlank, readV,
        show exCtx.self = "p" from rfl, this, h2, show exCtx.known "p" "V" = true from rfl,
        show exCtx.allow "p" = true from rfl, show exCtx.typed "p" "V" = true from rfl]
    rw [this]; simp
  · have : funcOccs true exSelect = [.id 2 "ch" true, .id 3 "use" false, .id 4 "V" true] := by
      decide +kernel
    rw [this]
    rintro ⟨-, pos, -, -, ⟨-, h⟩ | ⟨q, h, -⟩⟩ <;> simp [readV] at h

/-- `func f[V any]() { use(V(1)) }` with a package variable `V`. -/
def exTypeParam : FuncDecl where
  tparams := ["V"]
  names := []
  body := stmts [.expr (.call (.ident 1 "use") (exprs [.call (.ident 2 "V") (exprs [.lit])]))]

/-- C39 fails: the type parameter is rewritten as the package variable. -/
theorem C39_counterexample_typeParam :
    ∃ r, r ∈ funcRefs exCtx exTypeParam ∧ ¬ RefOk exCtx (funcOccs true exTypeParam) r := by
  refine ⟨readV 2, ?_, ?_⟩
  · have : funcRefs exCtx exTypeParam = [readV 2] := by
      have : exCtx.decls "p" "V" = some .var := by decide
      have h2 : exCtx.decls "p" "use" = some .func := by decide
      simp [funcRefs, exTypeParam, stmts, exprs, stmtsRefs, stmtRefs, exprRefs, exprsRefs, collectIdent,
        collectVarRef, collectVarRef.go, resolve, deparen, wrap, declInfo, Scope.has, Scope.push, isBlank, readV,
        show exCtx.self = "p" from rfl, this, h2, show exCtx.known "p" "V" = true from rfl,
        show exCtx.allow "p" = true from rfl, show exCtx.typed "p" "V" = true from rfl]
    rw [this]; simp
  · have : funcOccs true exTypeParam = [.id 1 "use" false, .id 2 "V" true] := by
      decide +kernel
    rw [this]
    rintro ⟨-, pos, -, -, ⟨-, h⟩ | ⟨q, h, -⟩⟩ <;> simp [readV] at h

/-- `if V := 1; V > 0 {}; return V`: the last `V` is the package variable. -/
def exShadow : FuncDecl where
  tparams := []
  names := []
  body := stmts [
    .ifS (.assign true (exprs [.ident 1 "V"]) (exprs [.lit])) (.binary (.ident 2 "V") .lit) .nil .empty,
    .ret (exprs [.ident 3 "V"])]

/-- C59 fails: the use after the `if` is a use of the package variable in an instrumented position,
and it is not recorded. -/
theorem C59_counterexample_shadow :
    Instrumentable exCtx "p" "V" ∧ Occ.id 3 "V" false ∈ funcOccs false exShadow ∧
      funcRefs exCtx exShadow = [] := by
  refine ⟨by unfold Instrumentable IsVar; decide +kernel, by decide +kernel, ?_⟩
  have : (funcRefs exCtx exShadow).length = 0 := by decide +kernel
  exact List.eq_nil_of_length_eq_zero this

/-- `for V := range V { }`: the `V` behind `range` is the package variable. -/
def exRange : FuncDecl where
  tparams := []
  names := []
  body := stmts [.range true (.ident 1 "V") .none (.ident 2 "V") .nil]

/-- C59 fails here too. -/
theorem C59_counterexample_range :
    Occ.id 2 "V" false ∈ funcOccs false exRange ∧ funcRefs exCtx exRange = [] := by
  refine ⟨by decide +kernel, ?_⟩
  have : (funcRefs exCtx exRange).length = 0 := by decide +kernel
  exact List.eq_nil_of_length_eq_zero this

/-- `switch { case V: }` and `a[V] = 1`: uses of the package variable that xgo does not look at,
although no local `V` is declared. -/
def exPosition : FuncDecl where
  tparams := []
  names := ["a"]
  body := stmts [
    .switchS .empty .none (stmts [.caseClause (exprs [.ident 1 "V"]) .nil]),
    .assign false (exprs [.binary (.ident 2 "a") (.ident 3 "V")]) (exprs [.lit])]

/-- C59 fails of positions outside `funcOccs false`. -/
theorem C59_counterexample_position :
    Occ.id 1 "V" false ∈ funcOccs true exPosition ∧ Occ.id 3 "V" false ∈ funcOccs true exPosition ∧
      "V" ∉ funcDecls exPosition ∧ funcRefs exCtx exPosition = [] := by
  refine ⟨by decide +kernel, by decide +kernel, by decide +kernel, ?_⟩
  have : (funcRefs exCtx exPosition).length = 0 := by decide +kernel
  exact List.eq_nil_of_length_eq_zero this

/-- `&V.F.G`, `&(V)` and `(&V).M` for a struct variable `V`. -/
def ampNested : Expr := .addr (.sel (.sel (.ident 1 "V") 2 "F") 3 "G")
def ampParen : Expr := .addr (.paren (.ident 1 "V"))
def ampInside : Expr := .sel (.paren (.addr (.ident 1 "V"))) 2 "M"

/-- C60 fails: the result takes the address of (a part of) a call's result, which is no address of
the variable and not even legal Go. -/
theorem C60_counterexample :
    render (exprRefs exCtx [] false ampNested) ampNested = "&V_xgo_get().F.G" ∧
    render (exprRefs exCtx [] false ampParen) ampParen = "&(V_xgo_get())" ∧
    render (exprRefs exCtx [] false ampInside) ampInside = "(&V_xgo_get_addr()).M" := by
  refine ⟨?_, ?_, ?_⟩ <;> decide +kernel

/-- The C60 theorems apply to `exCtx`. -/
example : Scope.has [] "V" = false ∧ Instrumentable exCtx exCtx.self "V" ∧
    Instrumentable exCtx exCtx.self "P" ∧ exCtx.ptrVar exCtx.self "P" = true ∧
    exCtx.ptrVar exCtx.self "V" = false ∧ exCtx.field 50 = .ptrMethod ∧ exCtx.field 3 = .value ∧
    exCtx.decls exCtx.self "q" = none ∧ exCtx.imports "q" = some "example.com/q" := by
  unfold Instrumentable IsVar
  decide +kernel

end Verif.Instrument.Resolve
