/-
**C89**, continued: the whole text and the run.
-/
import Verif.Instrument.RegReadMain
import Verif.Instrument.SourceLines

namespace Verif.Instrument.RegRead
open Spec
open Verif.Instrument.RegCode hiding Str bool
open Verif.Instrument.FuncTrap (dec name2)
open Verif.Instrument.CoverNotes (quote escape unquote unquote_quote)

/-! ### What is registered -/

/-- One registration: its variable, the text of its literal, the value set later, and what it says. -/
structure Item where
  key : Str
  text : Str
  fn : Option Str
  entry : Entry

def Item.lit (reg : Str) (x : Item) : Literal where
  varDef := "var ".toList ++ x.key ++ '=' :: x.text
  varReg := reg ++ '(' :: x.key ++ [')']
  delayInit := match x.fn with
    | none => []
    | some f => x.key ++ '.' :: "Func".toList ++ '=' :: f

variable (pr : Char → Bool) (n : Names) (stdlib : Bool) (fv fvv pkg file : Str)

def varItem (v : RegCode.Named) : Item where
  key := v.infoVar
  text := makeLiteral pr n fvv 1 v.name v.name v.line stdlib
    ["Var:&".toList ++ v.name, "ResNames:[]string{".toList ++ quote pr v.name ++ ['}']]
  fn := none
  entry := varEntry pkg file stdlib v

def funcItem (f : Func) : Item where
  key := f.infoVar
  text := makeLiteral pr n fv 0 f.name f.identity f.line stdlib (funcExtra pr f)
  fn := if f.recvGeneric || f.genericParams then none else some f.identity
  entry := func0 pkg file stdlib f

def intfItem (t : RegCode.Named) : Item where
  key := t.infoVar
  text := makeLiteral pr n fv 0 t.name t.name t.line stdlib ["Interface:true".toList, "RecvType: ".toList ++ quote pr t.name]
  fn := none
  entry := intfEntry pkg file stdlib t

def items (d : Decls) : List Item :=
  d.vars.map (varItem pr n stdlib fvv pkg file) ++ d.funcs.map (funcItem pr n stdlib fv pkg file) ++
    d.intfs.map (intfItem pr n stdlib fv pkg file)

theorem fileLiterals_eq (d : Decls) : fileLiterals pr n stdlib fv fvv d = (items pr n stdlib fv fvv pkg file d).map (Item.lit n.register) := by
  unfold fileLiterals items
  rw [List.map_append, List.map_append, List.map_map, List.map_map, List.map_map]
  congr 1
  congr 1
  apply List.map_congr_left
  intro f _
  unfold funcLiteral Function.comp defineLiteral Item.lit funcItem
  simp only
  cases f.recvGeneric || f.genericParams <;> rfl

/-- What an item says when all values are set. -/
def Item.final (x : Item) : Entry := match x.fn with
  | none => x.entry
  | some f => { x.entry with func := some f }

theorem items_events (reg : Str) (d : Decls) : (items pr n stdlib fv fvv pkg file d).map (fun x => Event.register reg x.key x.final) =
    d.vars.map (fun v => .register reg v.infoVar (varEntry pkg file stdlib v)) ++
    d.funcs.map (fun f => .register reg f.infoVar (funcEntry pkg file stdlib f)) ++
    d.intfs.map (fun t => .register reg t.infoVar (intfEntry pkg file stdlib t)) := by
  unfold items
  rw [List.map_append, List.map_append, List.map_map, List.map_map, List.map_map]
  congr 1
  congr 1
  apply List.map_congr_left
  intro f _
  unfold Function.comp Item.final funcItem
  simp only
  cases h1 : f.recvGeneric <;> cases h2 : f.genericParams <;> simp [func0, funcEntry, h1, h2]

theorem items_keys (d : Decls) : (items pr n stdlib fv fvv pkg file d).map (·.key) =
    d.vars.map (·.infoVar) ++ d.funcs.map (·.infoVar) ++ d.intfs.map (·.infoVar) := by
  unfold items
  rw [List.map_append, List.map_append, List.map_map, List.map_map, List.map_map]
  rfl

variable {pr n stdlib fv fvv pkg file}

/-! ### Running -/

/-- An item as a variable, before and after its value is set. -/
def Item.before (x : Item) : Str × Entry := (x.key, x.entry)
def Item.done (x : Item) : Str × Entry := (x.key, x.final)

theorem lookup_mid {α} {k : Str} {v : α} {a b : List (Str × α)} (h : ∀ x ∈ a, x.1 ≠ k) : (a ++ (k, v) :: b).lookup k = some v := by
  induction a with
  | nil => simp
  | cons x a ih =>
    have := h x List.mem_cons_self
    obtain ⟨x1, x2⟩ := x
    rw [List.cons_append, List.lookup_cons, show (k == x1) = false from by rw [beq_eq_false_iff_ne]; exact fun he => this he.symm]
    exact ih fun y hy => h y (List.mem_cons_of_mem _ hy)

theorem map_mid {a b : List (Str × Entry)} {k : Str} {v w : Entry} (ha : ∀ x ∈ a, x.1 ≠ k) (hb : ∀ x ∈ b, x.1 ≠ k) :
    (a ++ (k, v) :: b).map (fun y => if y.1 = k then (y.1, w) else y) = a ++ (k, w) :: b := by
  have h : ∀ l : List (Str × Entry), (∀ x ∈ l, x.1 ≠ k) → l.map (fun y => if y.1 = k then (y.1, w) else y) = l := by
    intro l hl
    conv => rhs; rw [← List.map_id l]
    apply List.map_congr_left
    intro x hx
    rw [if_neg (hl x hx)]; rfl
  rw [List.map_append, List.map_cons, h a ha, h b hb, if_pos rfl]

/-- The statements that set values, as statements. -/
def Item.sets (x : Item) : List Str := match x.fn with
  | none => []
  | some f => [x.key ++ '.' :: "Func".toList ++ '=' :: f]

theorem run_sets : ∀ (todo pre : List Item) (ev : List Event), ((pre ++ todo).map (·.key)).Nodup → (∀ x ∈ todo, Ident x.key) →
    (todo.map Item.sets).flatten.foldlM exec (pre.map Item.done ++ todo.map Item.before, ev) =
      some (pre.map Item.done ++ todo.map Item.done, ev) := by
  intro todo
  induction todo with
  | nil => intro pre ev _ _; rfl
  | cons x todo ih =>
    intro pre ev hn hi
    have hi' : ∀ y ∈ todo, Ident y.key := fun y hy => hi y (List.mem_cons_of_mem _ hy)
    have ih := ih (pre ++ [x]) ev (by rw [List.append_assoc]; exact hn) hi'
    rw [List.map_append, List.append_assoc, List.append_assoc] at ih
    rw [show ((x :: todo).map Item.sets).flatten = x.sets ++ (todo.map Item.sets).flatten from rfl, List.foldlM_append]
    rw [List.map_append, List.nodup_append] at hn
    obtain ⟨_, hn2, hn3⟩ := hn
    rw [List.map_cons, List.nodup_cons] at hn2
    have h1 : ∀ y ∈ pre.map Item.done, y.1 ≠ x.key := by
      intro y hy
      obtain ⟨z, hz, rfl⟩ := List.mem_map.1 hy
      exact hn3 z.key (List.mem_map.2 ⟨z, hz, rfl⟩) x.key (by simp)
    have h2 : ∀ y ∈ todo.map Item.before, y.1 ≠ x.key := by
      intro y hy he
      obtain ⟨z, hz, rfl⟩ := List.mem_map.1 hy
      exact hn2.1 (List.mem_map.2 ⟨z, hz, he⟩)
    have key : x.sets.foldlM exec (pre.map Item.done ++ (x :: todo).map Item.before, ev) =
        some (pre.map Item.done ++ (x.done :: todo.map Item.before), ev) := by
      cases hf : x.fn with
      | none =>
        rw [show x.sets = [] by rw [Item.sets, hf], show x.done = x.before by rw [Item.done, Item.final, hf]; rfl]
        rfl
      | some f =>
        have hk := hi x List.mem_cons_self
        rw [show x.sets = [x.key ++ '.' :: "Func".toList ++ '=' :: f] by rw [Item.sets, hf], List.foldlM_cons]
        have h3 : exec (pre.map Item.done ++ (x :: todo).map Item.before, ev) (x.key ++ '.' :: "Func".toList ++ '=' :: f) =
            some (pre.map Item.done ++ (x.done :: todo.map Item.before), ev) := by
          unfold exec
          have hc : cut '=' (x.key ++ '.' :: "Func".toList ++ '=' :: f) = some (x.key ++ '.' :: "Func".toList, f) := by
            apply cut_at
            intro hm
            rcases List.mem_append.1 hm with hm | hm
            · exact ident_not hk (by decide) hm
            · exact absurd hm (by decide)
          rw [hc]
          simp only
          rw [cut_at (ident_not hk (by decide)), Option.bind_some, if_pos rfl]
          rw [List.map_cons, show x.before = (x.key, x.entry) from rfl, lookup_mid h1, Option.map_some, map_mid h1 h2, Item.done, Item.final, hf]
        rw [h3]; rfl
    rw [key]
    exact ih

theorem run_regs {reg : Str} (hr : Ident reg) (st : List (Str × Entry)) : ∀ (todo : List Item) (ev : List Event),
    (∀ x ∈ todo, st.lookup x.key = some x.final) → (∀ x ∈ todo, Ident x.key) →
    (todo.map fun x => reg ++ '(' :: x.key ++ [')']).foldlM exec (st, ev) = some (st, ev ++ todo.map fun x => .register reg x.key x.final) := by
  intro todo
  induction todo with
  | nil => intro ev _ _; simp
  | cons x todo ih =>
    intro ev h hi
    have hk := hi x List.mem_cons_self
    have h1 : exec (st, ev) (reg ++ '(' :: x.key ++ [')']) = some (st, ev ++ [.register reg x.key x.final]) := by
      unfold exec
      have e : ∀ c, identChar c = false → c ≠ '(' → c ≠ ')' → c ∉ reg ++ '(' :: x.key ++ [')'] := by
        intro c hc h1 h2 hm
        simp only [List.mem_append, List.mem_cons, List.not_mem_nil, or_false] at hm
        rcases hm with (hm | hm | hm) | hm
        · exact ident_not hr hc hm
        · exact h1 hm
        · exact ident_not hk hc hm
        · exact h2 hm
      rw [cut_none (e '=' (by decide) (by decide) (by decide))]
      simp only
      rw [List.append_assoc, List.cons_append, cut_at (ident_not hr (by decide)), Option.bind_some, if_neg, if_pos (by simp)]
      · simp only [List.dropLast_concat]
        rw [h x List.mem_cons_self]; rfl
      · intro he
        have := hk.1
        have hlen := congrArg List.length he
        rw [List.length_append] at hlen
        cases hkk : x.key with
        | nil => exact this hkk
        | cons a b => rw [hkk] at hlen; simp at hlen
    rw [List.map_cons, List.foldlM_cons, h1]
    show List.foldlM _ _ _ = _
    rw [ih _ (fun y hy => h y (List.mem_cons_of_mem _ hy)) (fun y hy => hi y (List.mem_cons_of_mem _ hy)), List.map_cons, List.append_assoc]
    rfl

/-! ### The text -/

theorem func_expr_good {f : Str} (h : FuncExpr f) : Good (some ';') f ∧ f ≠ [] ∧ ∃ a c, f = a ++ [c] ∧ identChar c = true := by
  have hs : ∀ c, some ';' = some c → identChar c = false := by intro c hc; cases hc; decide
  have last : ∀ (p m : Str), Ident m → ∃ a c, p ++ m = a ++ [c] ∧ identChar c = true := by
    intro p m hm
    refine ⟨p ++ m.dropLast, m.getLast hm.1, ?_, ident_char hm (List.getLast_mem hm.1)⟩
    rw [List.append_assoc, List.dropLast_concat_getLast]
  cases h with
  | func h => exact ⟨good_ident h hs, h.1, last [] f h⟩
  | @method t m h1 h2 =>
    refine ⟨good_app (good_ident h1 hs) (good_cons (by decide) (by decide) (good_ident h2 hs)), by simp, ?_⟩
    have := last (t ++ ['.']) m h2
    rwa [List.append_assoc] at this
  | @ptrMethod t m h1 h2 =>
    refine ⟨?_, by simp, ?_⟩
    · have h3 : Good (some ';') ('(' :: (('*' :: t) ++ [')'])) :=
        good_bracket (.inl ⟨rfl, rfl⟩) (by decide) (good_cons (by decide) (by decide) (good_ident h1 (by intro c hc; cases hc)))
      have := good_app h3 (good_cons (c := '.') (by decide) (by decide) (good_ident h2 hs))
      simpa using this
    · have := last ('(' :: '*' :: t ++ [')', '.']) m h2
      simpa using this

theorem good_makeLiteral {T : Str} (hT : Ident T) {kvs : List (Str × Str)} (h : ∀ kv ∈ kvs, Field kv) :
    Good (some ';') ('&' :: (T ++ '{' :: (commas (kvs.map txt) ++ ['}']))) := by
  refine good_cons (by decide) (by decide) (good_app (good_ident hT (by intro c hc; cases hc; decide)) ?_)
  refine good_bracket (.inr (.inr ⟨rfl, rfl⟩)) (by decide) (good_commas _ ?_)
  intro x hx
  obtain ⟨kv, hkv, rfl⟩ := List.mem_map.1 hx
  exact good_none (good_txt (h kv hkv))

/-- The text of an item can be read. -/
structure Item.Ok (p : Prog) (x : Item) : Prop where
  key : Ident x.key
  good : Good (some ';') x.text
  first : x.text.head? = some '&'
  last : x.text.getLast? = some '}'
  fn : ∀ f, x.fn = some f → FuncExpr f
  tells : literal p x.text = some x.entry

theorem makeLiteral_ends (pr : Char → Bool) (n : Names) (fileVar : Str) (kind : Nat) (name identity : Str) (line : Nat) (stdlib : Bool)
    (extra : List Str) : (makeLiteral pr n fileVar kind name identity line stdlib extra).head? = some '&' ∧
    (makeLiteral pr n fileVar kind name identity line stdlib extra).getLast? = some '}' := by
  unfold makeLiteral
  constructor
  · simp only [List.cons_append]; rfl
  · rw [List.getLast?_concat]

theorem good_literal {vars : List (Str × Str)} (pr : Char → Bool) {n : Names} {fileVar pkg file : Str} (hT : Ident n.infoType)
    (h : Env vars n.pkgVar fileVar pkg file) (kind : Nat) (name identity : Str) (line : Nat) (stdlib : Bool) (kvs : List (Str × Str))
    (hf : ∀ kv ∈ kvs, Field kv) : Good (some ';') (makeLiteral pr n fileVar kind name identity line stdlib (kvs.map txt)) := by
  rw [makeLiteral_eq]
  refine good_makeLiteral hT ?_
  intro kv hkv
  rcases List.mem_append.1 hkv with hkv | hkv
  · rcases List.mem_append.1 hkv with hkv | hkv
    · exact base_field h _ _ _ _ kv hkv
    · exact hf kv hkv
  · exact std_field _ kv hkv

theorem items_ok (hp : pr '\n' = false) {p : Prog} (hT : Ident n.infoType) (hl : p.types.lookup n.infoType = some infoKeys)
    (h1 : Env p.vars n.pkgVar fv pkg file) (h2 : Env p.vars n.pkgVar fvv pkg file) {d : Decls} (hd : Spec.Named d) :
    ∀ x ∈ items pr n stdlib fv fvv pkg file d, x.Ok p := by
  intro x hx
  have hkey : Ident x.key := hd.infos x.key (by rw [← items_keys pr n stdlib fv fvv pkg file]; exact List.mem_map.2 ⟨x, hx, rfl⟩)
  rcases List.mem_append.1 hx with hx | hx
  · rcases List.mem_append.1 hx with hx | hx
    · obtain ⟨v, hv, rfl⟩ := List.mem_map.1 hx
      have hm := makeLiteral_ends pr n fvv 1 v.name v.name v.line stdlib
        ["Var:&".toList ++ v.name, "ResNames:[]string{".toList ++ quote pr v.name ++ ['}']]
      have hv := hd.vars v hv
      refine ⟨hkey, ?_, hm.1, hm.2, (by intro f hf; cases hf), var_literal hp hT hl h2 stdlib v hv⟩
      show Good _ (makeLiteral pr n fvv 1 v.name v.name v.line stdlib _)
      rw [show ["Var:&".toList ++ v.name, "ResNames:[]string{".toList ++ quote pr v.name ++ ['}']] = (varKvs pr v).map txt by
        rw [List.append_assoc]; rfl]
      exact good_literal pr hT h2 _ _ _ _ _ _ (var_field pr v hv)
    · obtain ⟨f, hf, rfl⟩ := List.mem_map.1 hx
      have hm := makeLiteral_ends pr n fv 0 f.name f.identity f.line stdlib (funcExtra pr f)
      refine ⟨hkey, ?_, hm.1, hm.2, ?_, func_literal hp hT hl h1 stdlib f⟩
      · show Good _ (makeLiteral pr n fv 0 f.name f.identity f.line stdlib _)
        rw [funcExtra_eq]
        exact good_literal pr hT h1 _ _ _ _ _ _ (func_field pr f)
      · intro g hg
        have hg : (if (f.recvGeneric || f.genericParams) = true then none else some f.identity) = some g := hg
        split at hg
        · cases hg
        · cases hg; exact hd.funcs f hf
  · obtain ⟨t, _, rfl⟩ := List.mem_map.1 hx
    have hm := makeLiteral_ends pr n fv 0 t.name t.name t.line stdlib ["Interface:true".toList, "RecvType: ".toList ++ quote pr t.name]
    refine ⟨hkey, ?_, hm.1, hm.2, (by intro f hf; cases hf), intf_literal hp hT hl h1 stdlib t⟩
    show Good _ (makeLiteral pr n fv 0 t.name t.name t.line stdlib _)
    rw [show ["Interface:true".toList, "RecvType: ".toList ++ quote pr t.name] = (intfKvs pr t).map txt from rfl]
    exact good_literal pr hT h1 _ _ _ _ _ _ (intf_field pr t)

/-! ### Reading the declarations -/

theorem decl_var (p : Prog) {name value : Str} (h : '=' ∉ name) :
    decl p ("var ".toList ++ (name ++ '=' :: value)) = some { p with vars := p.vars ++ [(trim name, trim value)] } := by
  unfold decl
  rw [if_pos (List.isPrefixOf_iff_prefix.2 (List.prefix_append _ _)), List.drop_left' (show "var ".toList.length = 4 by decide), cut_at h]
  rfl

theorem decl_init (p : Prog) {body : Str} {ps : List Str} (h : Reads ';' body ps) :
    decl p ("func init(){".toList ++ body ++ ";}".toList) = some { p with inits := p.inits ++ [ps] } := by
  have e : "func init(){".toList ++ body ++ ";}".toList = "func init(){".toList ++ ((body ++ [';']) ++ "}".toList) := by
    rw [List.append_assoc, List.append_assoc]; rfl
  have h1 : ∀ r : Str, ("var ".toList.isPrefixOf ("func init(){".toList ++ r)) = false := fun r => rfl
  have h2 : ∀ r : Str, ("type ".toList.isPrefixOf ("func init(){".toList ++ r)) = false := fun r => rfl
  rw [e]
  unfold decl
  rw [h1, h2, if_neg (by simp), if_neg (by simp), between_at, Option.bind_some, reads_end h]
  rfl

theorem parts_fields : parts ';' (semis infoFields) = some infoFields := by decide +kernel

theorem decl_type (p : Prog) {T : Str} (h : Ident T) :
    decl p ("type ".toList ++ T ++ " struct{".toList ++ semis infoFields ++ ['}']) = some { p with types := p.types ++ [(T, infoKeys)] } := by
  have e : "type ".toList ++ T ++ " struct{".toList ++ semis infoFields ++ ['}'] =
      "type ".toList ++ (T ++ ' ' :: ("struct{".toList ++ (semis infoFields ++ "}".toList))) := by
    rw [List.append_assoc, List.append_assoc, List.append_assoc]; rfl
  have h1 : ∀ r : Str, ("var ".toList.isPrefixOf ("type ".toList ++ r)) = false := fun r => rfl
  rw [e]
  unfold decl
  rw [h1, if_neg (by simp), if_pos (List.isPrefixOf_iff_prefix.2 (List.prefix_append _ _)),
    List.drop_left' (show "type ".toList.length = 5 by decide), cut_at (ident_not h (by decide)), Option.bind_some, between_at, Option.bind_some, parts_fields]
  rfl

/-- What the stubs declare. -/
def stubVars (pr : Char → Bool) (i : Nat) (pkgPath absFile : Str) : List (Str × Str) :=
  let n := Names.ofFile i
  [(n.register, "func(v interface{}){}".toList),
    (n.trapFunc, "func(info interface{}, recvPtr interface{}, args []interface{}, results []interface{}) (func(), bool){return nil, false;}".toList),
    (n.trapVar, "func(info interface{}, varAddr interface{}, res interface{}){}".toList),
    (n.trapVarPtr, "func(info interface{}, varAddr interface{}, res interface{}){}".toList),
    (n.pkgVar, quote pr pkgPath), (fileVar i, quote pr absFile), (fileVarForVar i, quote pr absFile)]

theorem names_ident (i : Nat) : Ident (Names.ofFile i).register ∧ Ident (Names.ofFile i).trapFunc ∧ Ident (Names.ofFile i).trapVar ∧
    Ident (Names.ofFile i).trapVarPtr ∧ Ident (Names.ofFile i).infoType ∧ Ident (Names.ofFile i).pkgVar ∧ Ident (Names.ofFile i).init ∧
    Ident (fileVar i) ∧ Ident (fileVarForVar i) := by
  refine ⟨?_, ?_, ?_, ?_, ?_, ?_, ?_, ?_, ?_⟩ <;> exact ident_app (by decide) (dec_ident i)

theorem decl_stub (p : Prog) {name value out t : Str} (h : Ident name) (ht : t = " =".toList ++ value) (hv : trim value = out) :
    decl p ("var ".toList ++ name ++ t) = some { p with vars := p.vars ++ [(name, out)] } := by
  subst ht
  have e : "var ".toList ++ name ++ (" =".toList ++ value) = "var ".toList ++ ((name ++ [' ']) ++ '=' :: value) := by
    rw [List.append_assoc, List.append_assoc]; rfl
  rw [e, decl_var, trim_free_space (ident_not h (by decide)) h.1, hv]
  intro hm
  rcases List.mem_append.1 hm with hm | hm
  · exact ident_not h (by decide) hm
  · exact absurd hm (by decide)

theorem decl_quote (p : Prog) (pr : Char → Bool) {name : Str} (h : Ident name) (v : Str) :
    decl p ("var ".toList ++ name ++ '=' :: quote pr v) = some { p with vars := p.vars ++ [(name, quote pr v)] } := by
  rw [List.append_assoc, decl_var p (ident_not h (by decide)), trim_ident h, trim_quote]

theorem foldlM_one {m : Type → Type} [Monad m] [LawfulMonad m] {σ α : Type} (f : σ → α → m σ) (s : σ) (a : α) (l : List α) {t : σ} (h : f s a = pure t) :
    (a :: l).foldlM f s = l.foldlM f t := by rw [List.foldlM_cons, h, pure_bind]

theorem decl_stubs (pr : Char → Bool) (i : Nat) (pkgPath absFile : Str) :
    (pkgStubs pr pkgPath (Names.ofFile i) ++ [fileStub pr (fileVar i) absFile, fileStub pr (fileVarForVar i) absFile]).foldlM decl {} =
      some { types := [((Names.ofFile i).infoType, infoKeys)], vars := stubVars pr i pkgPath absFile } := by
  obtain ⟨h1, h2, h3, h4, h5, h6, _, h8, h9⟩ := names_ident i
  unfold pkgStubs fileStub
  simp only [List.cons_append, List.nil_append]
  rw [foldlM_one (m := Option) decl _ _ _ (decl_type {} h5)]
  rw [foldlM_one (m := Option) decl _ _ _ (decl_stub _ (value := " func(v interface{}){}".toList) h1 (by decide +kernel) (out := "func(v interface{}){}".toList) (by decide +kernel))]
  rw [foldlM_one (m := Option) decl _ _ _ (decl_stub _ (value := " func(info interface{}, recvPtr interface{}, args []interface{}, results []interface{}) (func(), bool){return nil, false;}".toList) h2 (by decide +kernel)
    (out := "func(info interface{}, recvPtr interface{}, args []interface{}, results []interface{}) (func(), bool){return nil, false;}".toList) (by decide +kernel))]
  rw [foldlM_one (m := Option) decl _ _ _ (decl_stub _ (value := " func(info interface{}, varAddr interface{}, res interface{}){}".toList) h3 (by decide +kernel)
    (out := "func(info interface{}, varAddr interface{}, res interface{}){}".toList) (by decide +kernel))]
  rw [foldlM_one (m := Option) decl _ _ _ (decl_stub _ (value := " func(info interface{}, varAddr interface{}, res interface{}){}".toList) h4 (by decide +kernel)
    (out := "func(info interface{}, varAddr interface{}, res interface{}){}".toList) (by decide +kernel))]
  rw [foldlM_one (m := Option) decl _ _ _ (decl_quote _ pr h6 pkgPath)]
  rw [foldlM_one (m := Option) decl _ _ _ (decl_quote _ pr h8 absFile)]
  rw [foldlM_one (m := Option) decl _ _ _ (decl_quote _ pr h9 absFile)]
  rfl

/-! ### The whole text -/

/-- A statement that stands on its own. -/
def Stmt (s : Str) : Prop := Good (some ';') s ∧ Ends s

theorem reads_stmts (l : List Str) (h : ∀ s ∈ l, Stmt s) : Reads ';' (join l) (l.filter (· ≠ [])) ∧ Ends (join l) ∧ Good none (join l) := by
  refine ⟨?_, ends_join l fun s hs => (h s hs).2, good_join l fun s hs => ⟨(h s hs).2, good_none (h s hs).1⟩⟩
  have := reads_join (l.map fun s => (s, if s = [] then [] else [s])) (by
    intro x hx
    obtain ⟨s, hs, rfl⟩ := List.mem_map.1 hx
    refine ⟨(h s hs).2, ?_⟩
    simp only
    split
    · rename_i h0; rw [h0]; exact reads_nil _
    · rename_i h0; exact reads_one (h s hs).1 h0)
  rw [List.map_map, List.map_map] at this
  have e1 : l.map ((·.1) ∘ fun s => (s, if s = [] then [] else [s])) = l := by
    conv => rhs; rw [← List.map_id l]
    rfl
  have e2 : (l.map ((·.2) ∘ fun s => (s, if s = [] then [] else [s]))).flatten = l.filter (· ≠ []) := by
    clear this e1 h
    induction l with
    | nil => rfl
    | cons s l ih =>
      rw [List.map_cons, List.flatten_cons, ih]
      by_cases hs : s = []
      · subst hs; simp
      · simp [hs]
  rw [e1, e2] at this
  exact this

theorem stmt_init {body : Str} (h : Good none body) : Stmt ("func init(){".toList ++ body ++ ";}".toList) := by
  constructor
  · have e : "func init(){".toList ++ body ++ ";}".toList = "func init".toList ++ (('(' :: ([] ++ [')'])) ++ '{' :: ((body ++ [';']) ++ ['}'])) := by
      have h1 : "func init(){".toList = "func init".toList ++ ['(', ')', '{'] := by decide
      have h2 : ";}".toList = [';', '}'] := by decide
      generalize "func init(){".toList = x at *
      rw [h1, h2]; simp
    rw [e]
    refine good_app (good_word (by decide)) (good_app (good_bracket (.inl ⟨rfl, rfl⟩) (by decide) good_nil) ?_)
    exact good_bracket (.inr (.inr ⟨rfl, rfl⟩)) (by decide) (good_app h (good_cons (by decide) (by decide) good_nil))
  · have e : "func init(){".toList ++ body ++ ";}".toList = ("func init(){".toList ++ body ++ [';']) ++ ['}'] := by
      rw [List.append_assoc, List.append_assoc, List.append_assoc]; rfl
    rw [e]
    exact ends_last (by decide)

theorem stmt_quote (pr : Char → Bool) {name : Str} (h : Ident name) (v : Str) : Stmt ("var ".toList ++ name ++ '=' :: quote pr v) := by
  constructor
  · rw [List.append_assoc]
    refine good_app (good_word (by decide)) (good_app (good_ident h (by intro c hc; cases hc; decide)) ?_)
    exact good_cons (by decide) (by decide) (good_quote (by decide) _ _)
  · rw [quote]
    have : "var ".toList ++ name ++ '=' :: ('"' :: v.flatMap (escape pr) ++ ['"']) = ("var ".toList ++ name ++ '=' :: ('"' :: v.flatMap (escape pr))) ++ ['"'] := by simp
    rw [this]
    exact ends_last (by decide)

theorem good_decide {s : Str} (h1 : scan none 0 .code s = some (0, .code)) : Good none s := by
  have shift : ∀ (s : Str) (d d' k : Nat) (m m' : Mode) (sep : Option Char), k ≠ 0 ∨ sep = none → scan none d m s = some (d', m') → scan sep (d + k) m s = some (d' + k, m') := by
    intro s
    induction s with
    | nil => intro d d' k m m' sep _ h; cases h; rfl
    | cons c s ih =>
      intro d d' k m m' sep hk h
      rw [scan, if_neg (by rintro ⟨h, _⟩; cases h)] at h
      rw [scan, if_neg (by
        rintro ⟨h1, h2, _⟩
        rcases hk with hk | hk
        · omega
        · rw [hk] at h1; cases h1)]
      cases hs : step d m c with
      | none => rw [hs] at h; cases h
      | some x =>
        rw [hs, Option.bind_some] at h
        have : step (d + k) m c = some (x.1 + k, x.2) := by
          cases m with
          | esc => unfold step at hs ⊢; simp only at hs ⊢; cases hs; rfl
          | str => unfold step at hs ⊢; simp only at hs ⊢; cases hs; rfl
          | code =>
            unfold step at hs ⊢
            simp only at hs ⊢
            split
            · rw [if_pos (by assumption)] at hs; cases hs; rfl
            · rw [if_neg (by assumption)] at hs
              split
              · rw [if_pos (by assumption)] at hs; cases hs; simp only [Nat.add_right_comm]
              · rw [if_neg (by assumption)] at hs
                split
                · rw [if_pos (by assumption)] at hs
                  by_cases hd : d = 0
                  · rw [if_pos hd] at hs; cases hs
                  · rw [if_neg hd] at hs
                    cases hs
                    rw [if_neg (by omega)]
                    simp only
                    congr 2
                    omega
                · rw [if_neg (by assumption)] at hs; cases hs; rfl
        rw [this, Option.bind_some]
        exact ih x.1 d' k x.2 m' sep hk h
  intro d sep hd
  have := shift s 0 0 d .code .code sep (by
    by_cases h : d = 0
    · exact .inr ((hd h).elim id id)
    · exact .inl h) h1
  rwa [Nat.zero_add] at this

theorem good_top {s : Str} (h1 : scan none 0 .code s = some (0, .code)) (h2 : scan (some ';') 0 .code s = some (0, .code)) : Good (some ';') s := by
  intro d sep hd
  by_cases h : d = 0
  · subst h
    rcases hd rfl with rfl | rfl
    · exact h2
    · exact h1
  · exact good_decide h1 d sep (fun h0 => absurd h0 h)

theorem stmt_stub {name t : Str} (h : Ident name) (h1 : scan none 0 .code t = some (0, .code)) (h2 : scan (some ';') 0 .code t = some (0, .code))
    (h3 : needsSep t = true) : Stmt ("var ".toList ++ name ++ t) := by
  constructor
  · exact good_app (good_app (good_word (by decide)) (good_ident h (by intro c hc; cases hc; decide))) (good_top h1 h2)
  · intro _
    unfold needsSep at h3 ⊢
    rw [List.getLast?_append]
    revert h3
    cases t.getLast? with
    | none => simp
    | some c => simp

theorem stmt_stubs (pr : Char → Bool) (i : Nat) (pkgPath absFile : Str) :
    (∀ s ∈ pkgStubs pr pkgPath (Names.ofFile i), Stmt s ∧ s ≠ []) ∧ (Stmt (fileStub pr (fileVar i) absFile) ∧ fileStub pr (fileVar i) absFile ≠ []) ∧
    (Stmt (fileStub pr (fileVarForVar i) absFile) ∧ fileStub pr (fileVarForVar i) absFile ≠ []) := by
  obtain ⟨h1, h2, h3, h4, h5, h6, _, h8, h9⟩ := names_ident i
  have ne : ∀ (name t : Str), "var ".toList ++ name ++ t ≠ [] := by intro name t; simp
  refine ⟨?_, ⟨stmt_quote pr h8 absFile, ne _ _⟩, ⟨stmt_quote pr h9 absFile, ne _ _⟩⟩
  intro s hs
  unfold pkgStubs at hs
  rcases List.mem_cons.1 hs with rfl | hs
  · refine ⟨⟨?_, ends_last (by decide)⟩, by simp⟩
    rw [List.append_assoc, List.append_assoc]
    refine good_app (good_app (good_word (by decide)) (good_ident h5 (by intro c hc; cases hc; decide))) ?_
    exact good_top (by decide +kernel) (by decide +kernel)
  rcases List.mem_cons.1 hs with rfl | hs
  · exact ⟨stmt_stub h1 (by decide +kernel) (by decide +kernel) (by decide +kernel), ne _ _⟩
  rcases List.mem_cons.1 hs with rfl | hs
  · exact ⟨stmt_stub h2 (by decide +kernel) (by decide +kernel) (by decide +kernel), ne _ _⟩
  rcases List.mem_cons.1 hs with rfl | hs
  · exact ⟨stmt_stub h3 (by decide +kernel) (by decide +kernel) (by decide +kernel), ne _ _⟩
  rcases List.mem_cons.1 hs with rfl | hs
  · exact ⟨stmt_stub h4 (by decide +kernel) (by decide +kernel) (by decide +kernel), ne _ _⟩
  rcases List.mem_cons.1 hs with rfl | hs
  · exact ⟨stmt_quote pr h6 pkgPath, ne _ _⟩
  cases hs

end Verif.Instrument.RegRead
