/-
**C89**, the theorems.
-/
import Verif.Instrument.RegReadRun
import Verif.Instrument.FuncTrapIdents
import Verif.Instrument.SourceLinesMain

namespace Verif.Instrument.RegRead
open Spec
open Verif.Instrument.RegCode hiding Str bool
open Verif.Instrument.FuncTrap (dec name2)
open Verif.Instrument.CoverNotes (quote escape unquote unquote_quote)

/-- What an item needs so that its statements can be read. -/
structure Item.Written (x : Item) : Prop where
  key : Ident x.key
  good : Good (some ';') x.text
  first : x.text.head? = some '&'
  last : x.text.getLast? = some '}'
  fn : ∀ f, x.fn = some f → FuncExpr f

theorem stmt_def {x : Item} (h : x.Written) : Stmt ("var ".toList ++ x.key ++ '=' :: x.text) := by
  constructor
  · refine good_app (good_app (good_word (by decide)) (good_ident h.key (by intro c hc; cases hc; decide))) ?_
    exact good_cons (by decide) (by decide) h.good
  · intro _
    unfold needsSep
    rw [List.getLast?_append, List.getLast?_cons, h.last]
    rfl

theorem stmt_reg {reg : Str} (hr : Ident reg) {x : Item} (h : x.Written) : Stmt (reg ++ '(' :: x.key ++ [')']) := by
  constructor
  · rw [List.append_assoc]
    exact good_app (good_ident hr (by intro c hc; cases hc; decide))
      (good_bracket (.inl ⟨rfl, rfl⟩) (by decide) (good_ident h.key (by intro c hc; cases hc)))
  · exact ends_last (by decide)

theorem stmt_call {f : Str} (hf : Ident f) : Stmt (f ++ "()".toList) := by
  constructor
  · exact good_app (good_ident hf (by intro c hc; cases hc; decide)) (good_bracket (.inl ⟨rfl, rfl⟩) (by decide) good_nil)
  · rw [show f ++ "()".toList = (f ++ ['(']) ++ [')'] by simp]
    exact ends_last (by decide)

theorem stmt_set {reg : Str} {x : Item} (h : x.Written) : Stmt (x.lit reg).delayInit := by
  unfold Item.lit
  cases hf : x.fn with
  | none => exact ⟨good_nil, fun h => absurd rfl h⟩
  | some f =>
    obtain ⟨h1, h2, a, c, h3, h4⟩ := func_expr_good (h.fn f hf)
    constructor
    · refine good_app (good_app (good_ident h.key (by intro c hc; cases hc; decide)) (good_word (by decide))) ?_
      exact good_cons (by decide) (by decide) h1
    · simp only
      rw [h3, show x.key ++ '.' :: "Func".toList ++ '=' :: (a ++ [c]) = (x.key ++ '.' :: "Func".toList ++ '=' :: a) ++ [c] by
        rw [List.append_assoc, List.append_assoc, List.append_assoc]; rfl]
      apply ends_last
      constructor <;> · rintro rfl; exact absurd h4 (by decide)

theorem sets_eq (reg : Str) (l : List Item) : (l.map fun x => (x.lit reg).delayInit).filter (· ≠ []) = (l.map Item.sets).flatten := by
  induction l with
  | nil => rfl
  | cons x l ih =>
    rw [List.map_cons, List.map_cons, List.flatten_cons, ← ih, List.filter_cons]
    unfold Item.lit Item.sets
    cases x.fn with
    | none => rfl
    | some f => simp

/-- The registration code is read as what was written. -/
theorem reads_regCode {init reg : Str} (hi : Ident init) (hr : Ident reg) {l : List Item} (h : ∀ x ∈ l, x.Written) :
    ∃ pieces, Reads ';' (regCode init (l.map (Item.lit reg))) pieces ∧ Ends (regCode init (l.map (Item.lit reg))) ∧ ∀ p : Prog, pieces.foldlM decl p =
      some { p with
        vars := p.vars ++ l.map (fun x => (x.key, x.text))
        inits := p.inits ++ (if (l.map Item.sets).flatten = [] then [] else [(l.map Item.sets).flatten]) ++
          [(init ++ "()".toList) :: l.map fun x => reg ++ '(' :: x.key ++ [')']] } := by
  unfold regCode
  simp only [List.map_map]
  have hdefs := reads_stmts (l.map ((·.varDef) ∘ Item.lit reg)) (by
    intro s hs
    obtain ⟨x, hx, rfl⟩ := List.mem_map.1 hs
    exact stmt_def (h x hx))
  have hsets := reads_stmts (l.map ((·.delayInit) ∘ Item.lit reg)) (by
    intro s hs
    obtain ⟨x, hx, rfl⟩ := List.mem_map.1 hs
    exact stmt_set (h x hx))
  have hregs := reads_stmts (l.map ((·.varReg) ∘ Item.lit reg)) (by
    intro s hs
    obtain ⟨x, hx, rfl⟩ := List.mem_map.1 hs
    exact stmt_reg hr (h x hx))
  have fdefs : (l.map ((·.varDef) ∘ Item.lit reg)).filter (· ≠ []) = l.map fun x => "var ".toList ++ x.key ++ '=' :: x.text := by
    rw [List.filter_eq_self.2]
    · rfl
    · intro s hs
      obtain ⟨x, _, rfl⟩ := List.mem_map.1 hs
      simp [Item.lit]
  have fregs : (l.map ((·.varReg) ∘ Item.lit reg)).filter (· ≠ []) = l.map fun x => reg ++ '(' :: x.key ++ [')'] := by
    rw [List.filter_eq_self.2]
    · rfl
    · intro s hs
      obtain ⟨x, _, rfl⟩ := List.mem_map.1 hs
      simp [Item.lit]
  have fsets : (l.map ((·.delayInit) ∘ Item.lit reg)).filter (· ≠ []) = (l.map Item.sets).flatten := sets_eq reg l
  rw [fdefs] at hdefs
  rw [fregs] at hregs
  rw [fsets] at hsets
  have hzero : (l.map Item.sets).flatten = [] → join (l.map ((·.delayInit) ∘ Item.lit reg)) = [] := by
    intro hz
    rw [join, joinFrom_nonempty, fsets, hz]; rfl
  generalize join (l.map ((·.varDef) ∘ Item.lit reg)) = defs at hdefs ⊢
  generalize join (l.map ((·.varReg) ∘ Item.lit reg)) = regs at hregs ⊢
  generalize join (l.map ((·.delayInit) ∘ Item.lit reg)) = sets at hsets hzero ⊢
  -- the registering function
  have hcall := stmt_call hi
  have hbody := reads_join [(init ++ "()".toList, [init ++ "()".toList]), (regs, l.map fun x => reg ++ '(' :: x.key ++ [')'])] (by
    intro x hx
    rcases List.mem_cons.1 hx with rfl | hx
    · exact ⟨hcall.2, reads_one hcall.1 (by simp)⟩
    · rcases List.mem_cons.1 hx with rfl | hx
      · exact ⟨hregs.2.1, hregs.1⟩
      · cases hx)
  have hbodyg := good_join [init ++ "()".toList, regs] (by
    intro x hx
    rcases List.mem_cons.1 hx with rfl | hx
    · exact ⟨hcall.2, good_none hcall.1⟩
    · rcases List.mem_cons.1 hx with rfl | hx
      · exact ⟨hregs.2.1, hregs.2.2⟩
      · cases hx)
  simp only [List.map_cons, List.map_nil, List.flatten_cons, List.flatten_nil, List.append_nil, List.singleton_append] at hbody
  have hregf := stmt_init hbodyg
  -- the setting function
  have hsetf : ∃ ps, Reads ';' (if sets = [] then [] else "func init(){".toList ++ sets ++ ";}".toList) ps ∧
      Ends (if sets = [] then [] else "func init(){".toList ++ sets ++ ";}".toList) ∧
      ∀ p : Prog, ps.foldlM decl p = some { p with inits := p.inits ++ (if (l.map Item.sets).flatten = [] then [] else [(l.map Item.sets).flatten]) } := by
    by_cases h0 : sets = []
    · refine ⟨[], ?_, ?_, ?_⟩
      · rw [if_pos h0]; exact reads_nil _
      · rw [if_pos h0]; exact fun h => absurd rfl h
      · intro p
        rw [h0] at hsets
        have : (l.map Item.sets).flatten = [] := Option.some.inj (hsets.1.1.symm.trans (show parts ';' [] = some [] from rfl))
        rw [if_pos this, List.append_nil]; rfl
    · have hs := stmt_init hsets.2.2
      have hne : "func init(){".toList ++ sets ++ ";}".toList ≠ [] := by simp
      refine ⟨["func init(){".toList ++ sets ++ ";}".toList], ?_, ?_, ?_⟩
      · rw [if_neg h0]; exact reads_one hs.1 hne
      · rw [if_neg h0]; exact hs.2
      · intro p
        have : (l.map Item.sets).flatten ≠ [] := fun hz => h0 (hzero hz)
        rw [if_neg this, foldlM_one (m := Option) decl _ _ _ (decl_init p hsets.1)]; rfl
  obtain ⟨ps, h1, h2, h3⟩ := hsetf
  have hne : "func init(){".toList ++ join [init ++ "()".toList, regs] ++ ";}".toList ≠ [] := by simp
  have hall := reads_join [(defs, l.map fun x => "var ".toList ++ x.key ++ '=' :: x.text),
      (if sets = [] then [] else "func init(){".toList ++ sets ++ ";}".toList, ps),
      ("func init(){".toList ++ join [init ++ "()".toList, regs] ++ ";}".toList,
        ["func init(){".toList ++ join [init ++ "()".toList, regs] ++ ";}".toList])] (by
    intro x hx
    rcases List.mem_cons.1 hx with rfl | hx
    · exact ⟨hdefs.2.1, hdefs.1⟩
    rcases List.mem_cons.1 hx with rfl | hx
    · exact ⟨h2, h1⟩
    rcases List.mem_cons.1 hx with rfl | hx
    · exact ⟨hregf.2, reads_one hregf.1 hne⟩
    cases hx)
  refine ⟨_, hall, ?_, ?_⟩
  · exact ends_join _ (by
      intro x hx
      rcases List.mem_cons.1 hx with rfl | hx
      · exact hdefs.2.1
      rcases List.mem_cons.1 hx with rfl | hx
      · exact h2
      rcases List.mem_cons.1 hx with rfl | hx
      · exact hregf.2
      cases hx)
  · intro p
    simp only [List.map_cons, List.map_nil, List.flatten_cons, List.flatten_nil, List.append_nil]
    rw [List.foldlM_append]
    have hd : ∀ (l : List Item), (∀ x ∈ l, x.Written) → ∀ p : Prog, (l.map fun x => "var ".toList ++ x.key ++ '=' :: x.text).foldlM decl p =
        some { p with vars := p.vars ++ l.map (fun x => (x.key, x.text)) } := by
      intro l
      induction l with
      | nil => intro _ p; simp
      | cons x l ih =>
        intro h p
        have hx := h x List.mem_cons_self
        have e : decl p ("var ".toList ++ x.key ++ '=' :: x.text) = some { p with vars := p.vars ++ [(x.key, x.text)] } := by
          rw [List.append_assoc, decl_var p (ident_not hx.key (by decide)), trim_ident hx.key,
            trim_id (by rw [hx.first]; decide) (by rw [hx.last]; decide)]
        rw [List.map_cons, foldlM_one (m := Option) decl _ _ _ e, ih (fun y hy => h y (List.mem_cons_of_mem _ hy))]
        simp
    rw [hd l h]
    simp only [Option.bind_eq_bind, Option.bind_some]
    rw [List.foldlM_append, h3]
    simp only [Option.bind_eq_bind, Option.bind_some]
    rw [foldlM_one (m := Option) decl _ _ _ (decl_init _ hbody)]
    rfl

/-- What the registration code of a file is read as. -/
def progOf (pr : Char → Bool) (i : Nat) (pkgPath absFile : Str) (l : List Item) : Prog where
  types := [((Names.ofFile i).infoType, infoKeys)]
  vars := stubVars pr i pkgPath absFile ++ l.map fun x => (x.key, x.text)
  inits := (if (l.map Item.sets).flatten = [] then [] else [(l.map Item.sets).flatten]) ++
    [((Names.ofFile i).init ++ "()".toList) :: l.map fun x => (Names.ofFile i).register ++ '(' :: x.key ++ [')']]

theorem prog_read (pr : Char → Bool) (i : Nat) (pkgPath absFile : Str) {l : List Item} (h : ∀ x ∈ l, x.Written) :
    prog (';' :: join [join (pkgStubs pr pkgPath (Names.ofFile i)), fileStub pr (fileVar i) absFile, fileStub pr (fileVarForVar i) absFile,
      regCode (Names.ofFile i).init (l.map (Item.lit (Names.ofFile i).register))]) = some (progOf pr i pkgPath absFile l) := by
  obtain ⟨n1, _, _, _, _, _, n7, _, _⟩ := names_ident i
  obtain ⟨hs1, hs2, hs3⟩ := stmt_stubs pr i pkgPath absFile
  obtain ⟨pieces, h1, h2, h3⟩ := reads_regCode n7 n1 h
  have hstub := reads_stmts (pkgStubs pr pkgPath (Names.ofFile i)) fun s hs => (hs1 s hs).1
  rw [List.filter_eq_self.2 (fun s hs => by simpa using (hs1 s hs).2)] at hstub
  have hall := reads_join [(join (pkgStubs pr pkgPath (Names.ofFile i)), pkgStubs pr pkgPath (Names.ofFile i)),
      (fileStub pr (fileVar i) absFile, [fileStub pr (fileVar i) absFile]),
      (fileStub pr (fileVarForVar i) absFile, [fileStub pr (fileVarForVar i) absFile]),
      (regCode (Names.ofFile i).init (l.map (Item.lit (Names.ofFile i).register)), pieces)] (by
    intro x hx
    rcases List.mem_cons.1 hx with rfl | hx
    · exact ⟨hstub.2.1, hstub.1⟩
    rcases List.mem_cons.1 hx with rfl | hx
    · exact ⟨hs2.1.2, reads_one hs2.1.1 hs2.2⟩
    rcases List.mem_cons.1 hx with rfl | hx
    · exact ⟨hs3.1.2, reads_one hs3.1.1 hs3.2⟩
    rcases List.mem_cons.1 hx with rfl | hx
    · exact ⟨h2, h1⟩
    cases hx)
  have hall := reads_app (reads_nil ';') hall
  rw [List.nil_append, List.nil_append] at hall
  unfold prog
  have hread := hall.1
  simp only [List.map_cons, List.map_nil, List.flatten_cons, List.flatten_nil, List.append_nil] at hread
  rw [hread, Option.bind_some]
  have hst := decl_stubs pr i pkgPath absFile
  rw [← List.append_assoc, ← List.append_assoc, List.append_assoc _ [_] [_], List.foldlM_append]
  rw [List.singleton_append, hst]
  simp only [Option.bind_eq_bind, Option.bind_some]
  rw [h3]
  rfl

/-- Strings of the stubs. -/
theorem stub_env {pr : Char → Bool} (hp : pr '\n' = false) (i : Nat) (pkgPath absFile : Str) (rest : List (Str × Str)) :
    Env (stubVars pr i pkgPath absFile ++ rest) (Names.ofFile i).pkgVar (fileVar i) pkgPath absFile ∧
    Env (stubVars pr i pkgPath absFile ++ rest) (Names.ofFile i).pkgVar (fileVarForVar i) pkgPath absFile := by
  obtain ⟨_, _, _, _, _, h6, _, h8, h9⟩ := names_ident i
  have hne : ∀ (a b : Str), dec i = [] ∨ a.length ≠ b.length → a ++ dec i ≠ b ++ dec i := by
    intro a b h he
    rcases h with h | h
    · exact (dec_ident i).1 h
    · have := congrArg List.length he
      rw [List.length_append, List.length_append] at this
      omega
  have hne' : ∀ (a b : Str), a ≠ b → a ++ dec i ≠ b ++ dec i := fun a b h he => h (List.append_cancel_right he)
  have look : ∀ (k v : Str) (a b : List (Str × Str)), (∀ x ∈ a, x.1 ≠ k) → k.head? = some '_' →
      string (a ++ (k, quote pr v) :: b) k = some v := by
    intro k v a b h hk
    rw [string, if_neg (by rw [hk]; decide), lookup_mid h, Option.bind_some, if_pos (by rw [quote]; rfl), unquote_quote hp]
  have mem : ∀ (k : Str) (names : List Str) (a : List (Str × Str)), a.map (·.1) = names.map (· ++ dec i) → k ∉ names → ∀ x ∈ a, x.1 ≠ k ++ dec i := by
    intro k names a ha hk x hx he
    have : x.1 ∈ names.map (· ++ dec i) := ha ▸ List.mem_map.2 ⟨x, hx, rfl⟩
    obtain ⟨y, hy, hyx⟩ := List.mem_map.1 this
    rw [he] at hyx
    exact hk (List.append_cancel_right hyx ▸ hy)
  have p1 : string (stubVars pr i pkgPath absFile ++ rest) (Names.ofFile i).pkgVar = some pkgPath :=
    look _ _ ((stubVars pr i pkgPath absFile).take 4) _
      (mem "__xgo_pkg_".toList ["__xgo_register_".toList, "__xgo_trap_".toList, "__xgo_trap_var_".toList, "__xgo_trap_varptr_".toList] _ rfl (by decide)) rfl
  have p2 : string (stubVars pr i pkgPath absFile ++ rest) (fileVar i) = some absFile :=
    look _ _ ((stubVars pr i pkgPath absFile).take 5) _
      (mem "__xgo_file_".toList ["__xgo_register_".toList, "__xgo_trap_".toList, "__xgo_trap_var_".toList, "__xgo_trap_varptr_".toList,
        "__xgo_pkg_".toList] _ rfl (by decide)) rfl
  have p3 : string (stubVars pr i pkgPath absFile ++ rest) (fileVarForVar i) = some absFile :=
    look _ _ ((stubVars pr i pkgPath absFile).take 6) _
      (mem "__xgo_file_var_".toList ["__xgo_register_".toList, "__xgo_trap_".toList, "__xgo_trap_var_".toList, "__xgo_trap_varptr_".toList,
        "__xgo_pkg_".toList, "__xgo_file_".toList] _ rfl (by decide)) rfl
  exact ⟨⟨h6, h8, p1, p2⟩, ⟨h6, h9, p1, p3⟩⟩

/-- The run of the registration code. -/
theorem events_run (pr : Char → Bool) (i : Nat) (pkgPath absFile : Str) {l : List Item} (hw : ∀ x ∈ l, x.Written) (hnd : (l.map (·.key)).Nodup)
    (htell : ∀ x ∈ l, literal (progOf pr i pkgPath absFile l) x.text = some x.entry) :
    events (';' :: join [join (pkgStubs pr pkgPath (Names.ofFile i)), fileStub pr (fileVar i) absFile, fileStub pr (fileVarForVar i) absFile,
      regCode (Names.ofFile i).init (l.map (Item.lit (Names.ofFile i).register))]) =
      some (.call (Names.ofFile i).init :: l.map fun x => .register (Names.ofFile i).register x.key x.final) := by
  obtain ⟨n1, _, _, _, n5, _, n7, _, _⟩ := names_ident i
  unfold events
  rw [prog_read pr i pkgPath absFile hw, Option.bind_some]
  have hf : ((progOf pr i pkgPath absFile l).vars.filter fun v => v.2.head? = some '&') = l.map fun x => (x.key, x.text) := by
    unfold progOf
    simp only
    rw [List.filter_append, List.filter_eq_nil_iff.2, List.nil_append, List.filter_eq_self.2]
    · intro v hv
      obtain ⟨x, hx, rfl⟩ := List.mem_map.1 hv
      simpa using (hw x hx).first
    · intro v hv
      unfold stubVars at hv
      simp only [List.mem_cons, List.not_mem_nil, or_false] at hv
      rcases hv with rfl | rfl | rfl | rfl | rfl | rfl | rfl <;> simp [quote]
  rw [hf]
  have hm : ∀ l' : List Item, (∀ x ∈ l', x ∈ l) → (l'.map fun x => (x.key, x.text)).mapM (m := Option)
      (fun v => (literal (progOf pr i pkgPath absFile l) v.2).map fun e => (v.1, e)) = some (l'.map Item.before) := by
    intro l'
    induction l' with
    | nil => intro _; rfl
    | cons x l' ih =>
      intro hsub
      have := htell x (hsub x List.mem_cons_self)
      rw [List.map_cons, List.mapM_cons, ih fun y hy => hsub y (List.mem_cons_of_mem _ hy)]
      simp only
      rw [this]
      rfl
  rw [hm l fun _ h => h, Option.bind_some]
  have hin : (progOf pr i pkgPath absFile l).inits.flatten = (l.map Item.sets).flatten ++
      (((Names.ofFile i).init ++ "()".toList) :: l.map fun x => (Names.ofFile i).register ++ '(' :: x.key ++ [')']) := by
    unfold progOf
    simp only
    split
    · rename_i h0; rw [h0]; simp
    · simp
  rw [hin, List.foldlM_append]
  have hs := run_sets l [] [] (by simpa using hnd) fun x hx => (hw x hx).key
  simp only [List.map_nil, List.nil_append] at hs
  rw [hs]
  simp only [Option.bind_eq_bind, Option.bind_some]
  have hc : exec (l.map Item.done, []) ((Names.ofFile i).init ++ "()".toList) = some (l.map Item.done, [.call (Names.ofFile i).init]) := by
    unfold exec
    rw [cut_none (by
      intro hm
      rcases List.mem_append.1 hm with hm | hm
      · exact ident_not n7 (by decide) hm
      · exact absurd hm (by decide))]
    simp only
    rw [show (Names.ofFile i).init ++ "()".toList = (Names.ofFile i).init ++ '(' :: ")".toList from rfl, cut_at (ident_not n7 (by decide)),
      Option.bind_some, if_pos rfl]
    rfl
  rw [foldlM_one (m := Option) exec _ _ _ hc]
  rw [run_regs n1 (l.map Item.done) l _ ?_ fun x hx => (hw x hx).key]
  · rfl
  · intro x hx
    obtain ⟨a, b, rfl⟩ := List.append_of_mem hx
    rw [List.map_append, List.map_cons]
    rw [show x.done = (x.key, x.final) from rfl]
    apply lookup_mid
    intro y hy he
    obtain ⟨z, hz, rfl⟩ := List.mem_map.1 hy
    rw [List.map_append, List.nodup_append] at hnd
    exact hnd.2.2 z.key (List.mem_map.2 ⟨z, hz, rfl⟩) x.key (by simp) he

/-- **C89**: when the program starts, the code written into a file calls `__xgo_init_i` and then registers each variable, function and
    interface once, in this order, with all that is to be told about it; a file with nothing to intercept gets no code. -/
theorem C89_registered {pr : Char → Bool} (hp : pr '\n' = false) (i : Nat) (pkgPath absFile : Str) (stdlib : Bool) (d : Decls) (hd : Spec.Named d) :
    (d.vars = [] ∧ d.funcs = [] ∧ d.intfs = [] → register pr i pkgPath absFile stdlib d = none) ∧
    (¬ (d.vars = [] ∧ d.funcs = [] ∧ d.intfs = []) → ∃ code init, register pr i pkgPath absFile stdlib d = some (code, init) ∧
      events code = some (.call ("__xgo_init_".toList ++ dec i) ::
        (d.vars.map (fun v => .register ("__xgo_register_".toList ++ dec i) v.infoVar (varEntry pkgPath absFile stdlib v)) ++
          d.funcs.map (fun f => .register ("__xgo_register_".toList ++ dec i) f.infoVar (funcEntry pkgPath absFile stdlib f)) ++
          d.intfs.map (fun t => .register ("__xgo_register_".toList ++ dec i) t.infoVar (intfEntry pkgPath absFile stdlib t))))) := by
  have hlit := fileLiterals_eq pr (Names.ofFile i) stdlib (fileVar i) (fileVarForVar i) pkgPath absFile d
  have hkeys := items_keys pr (Names.ofFile i) stdlib (fileVar i) (fileVarForVar i) pkgPath absFile d
  have hfin := items_events pr (Names.ofFile i) stdlib (fileVar i) (fileVarForVar i) pkgPath absFile (Names.ofFile i).register d
  have hempty : items pr (Names.ofFile i) stdlib (fileVar i) (fileVarForVar i) pkgPath absFile d = [] ↔ d.vars = [] ∧ d.funcs = [] ∧ d.intfs = [] := by
    unfold items
    simp only [List.append_eq_nil_iff, List.map_eq_nil_iff, and_assoc]
  obtain ⟨n1, _, _, _, n5, _, n7, _, _⟩ := names_ident i
  have hok : ∀ l', ∀ x ∈ items pr (Names.ofFile i) stdlib (fileVar i) (fileVarForVar i) pkgPath absFile d,
      x.Ok (progOf pr i pkgPath absFile l') := by
    intro l'
    obtain ⟨e1, e2⟩ := stub_env hp i pkgPath absFile (l'.map fun x => (x.key, x.text))
    exact items_ok hp n5 (by simp [progOf]) e1 e2 hd
  unfold register
  simp only
  rw [hlit]
  generalize items pr (Names.ofFile i) stdlib (fileVar i) (fileVarForVar i) pkgPath absFile d = l at hkeys hfin hempty hok
  constructor
  · intro h
    rw [hempty.2 h]; rfl
  · intro h
    have hl : l ≠ [] := fun hz => h (hempty.1 hz)
    rw [if_neg (by simpa using hl)]
    refine ⟨_, _, rfl, ?_⟩
    have hw : ∀ x ∈ l, x.Written := by
      intro x hx
      have := hok [] x hx
      exact ⟨this.key, this.good, this.first, this.last, this.fn⟩
    have hnd : (l.map (·.key)).Nodup := hkeys ▸ hd.nodup
    rw [events_run pr i pkgPath absFile hw hnd fun x hx => (hok l x hx).tells, hfin]
    rfl

/-! ### A source file -/

open Verif.Instrument.SourceLines (Src FuncSrc namesOf funcOps trapText varOps getters)
open Verif.Instrument.FuncTrap (recvPrefix paramPrefix resultPrefix name2_var name2_func name2_intf text_inj)

theorem name2_ident {pre : Str} (h : ∀ c ∈ pre, identChar c = true) (i j : Nat) : Ident (name2 pre i j) := by
  unfold name2
  refine ident_app ?_ (dec_ident j)
  intro c hc
  rw [List.mem_append, List.mem_append, List.mem_append] at hc
  rcases hc with ((hc | hc) | hc) | hc
  · exact h c hc
  · rw [show c = '_' by simpa using hc]; decide
  · exact ident_char (dec_ident i) hc
  · rw [show c = '_' by simpa using hc]; decide

theorem map_zipIdx {α} (pre : Str) (i : Nat) (l : List α) : (l.zipIdx.map fun x => name2 pre i x.2) = (List.range l.length).map (name2 pre i) := by
  rw [List.range_eq_range', ← List.zipIdx_map_snd 0 l, List.map_map]
  rfl

theorem infos_eq (s : Src) : s.decls.vars.map (·.infoVar) ++ s.decls.funcs.map (·.infoVar) ++ s.decls.intfs.map (·.infoVar) =
    (List.range s.vars.length).map (name2 "__xgo_var_info".toList s.index) ++ (List.range s.funcs.length).map (name2 "__xgo_func_info".toList s.index) ++
      (List.range s.intfs.length).map (name2 "__xgo_intf_info".toList s.index) := by
  unfold Src.decls
  simp only [List.map_map]
  rw [← map_zipIdx, ← map_zipIdx, ← map_zipIdx]
  rfl

/-- What the user's declarations need: their names are names. -/
theorem src_named (s : Src) (hv : ∀ v ∈ s.vars, Ident v.name) (hf : ∀ f ∈ s.funcs, FuncExpr f.identity) : Spec.Named s.decls where
  vars := by
    intro v h
    obtain ⟨x, hx, rfl⟩ := List.mem_map.1 h
    exact hv x.1 (List.fst_mem_of_mem_zipIdx hx)
  funcs := by
    intro v h
    obtain ⟨x, hx, rfl⟩ := List.mem_map.1 h
    exact hf x.1 (List.fst_mem_of_mem_zipIdx hx)
  infos := by
    intro x hx
    rw [infos_eq] at hx
    rcases List.mem_append.1 hx with hx | hx
    · rcases List.mem_append.1 hx with hx | hx
      · obtain ⟨j, _, rfl⟩ := List.mem_map.1 hx; exact name2_ident (by decide) _ _
      · obtain ⟨j, _, rfl⟩ := List.mem_map.1 hx; exact name2_ident (by decide) _ _
    · obtain ⟨j, _, rfl⟩ := List.mem_map.1 hx; exact name2_ident (by decide) _ _
  nodup := by
    rw [infos_eq, List.nodup_append, List.nodup_append]
    have inj : ∀ (f : Nat → Str), (∀ a b, f a = f b → a = b) → ∀ n, ((List.range n).map f).Nodup := by
      intro f hf n
      exact List.Pairwise.map f (fun a b hab h => hab (hf a b h)) List.nodup_range
    refine ⟨⟨inj _ ?_ _, inj _ ?_ _, ?_⟩, inj _ ?_ _, ?_⟩
    · intro a b h
      rw [name2_var, name2_var] at h
      cases text_inj h; rfl
    · intro a b h
      rw [name2_func, name2_func] at h
      cases text_inj h; rfl
    · intro a ha b hb h
      obtain ⟨j, _, rfl⟩ := List.mem_map.1 ha
      obtain ⟨k, _, rfl⟩ := List.mem_map.1 hb
      rw [name2_var, name2_func] at h
      cases text_inj h
    · intro a b h
      rw [name2_intf, name2_intf] at h
      cases text_inj h; rfl
    · intro a ha b hb h
      obtain ⟨k, _, rfl⟩ := List.mem_map.1 hb
      rcases List.mem_append.1 ha with ha | ha
      · obtain ⟨j, _, rfl⟩ := List.mem_map.1 ha
        rw [name2_var, name2_intf] at h
        cases text_inj h
      · obtain ⟨j, _, rfl⟩ := List.mem_map.1 ha
        rw [name2_func, name2_intf] at h
        cases text_inj h

/-- **C89, functions**: the trap put into the body of a function is called with a variable that is registered once, before any function of
    an importing package runs, and what is registered with it is that function: its name, identity, place, parameters and results as they
    are called after the edits, and its value unless it is generic. -/
theorem C89_trapped {pr : Char → Bool} (hp : pr '\n' = false) (s : Src) (hv : ∀ v ∈ s.vars, Ident v.name) (hf : ∀ f ∈ s.funcs, FuncExpr f.identity)
    (j : Nat) (f : FuncSrc) (h : s.funcs[j]? = some f) :
    ∃ (x code init : Str) (evs : List Event) (e : Entry), register pr s.index s.pkgPath s.absFile s.stdlib s.decls = some (code, init) ∧
      events code = some evs ∧
      Verif.Text.Op.insert (f.lbrace + 1 : Nat) (trapText s.index f.bodyLine x (SourceLines.recvAddr (namesOf "__xgo_auto_rcv_".toList f.recv))
        (namesOf "__xgo_auto_param_".toList f.params) (namesOf "__xgo_auto_res_".toList f.results)) ∈ s.ops pr ∧
      evs.filter (fun ev => match ev with
        | .register _ y _ => y = x
        | .call _ => false) = [.register ("__xgo_register_".toList ++ dec s.index) x e] ∧
      e.kind = 0 ∧ e.interface = false ∧ e.name = f.name ∧ e.identity = f.identity ∧ e.pkg = s.pkgPath ∧ e.file = s.absFile ∧ e.line = f.line ∧
      e.args = namesOf "__xgo_auto_param_".toList f.params ∧ e.results = namesOf "__xgo_auto_res_".toList f.results ∧
      (e.func = none ↔ f.recvGeneric = true ∨ f.genericParams = true) ∧ (∀ v, e.func = some v → v = f.identity) ∧
      (∀ n p t, (namesOf "__xgo_auto_rcv_".toList f.recv).head? = some n → f.recvType = some (p, t) → e.recvName = n ∧ e.recvPtr = p ∧ e.recvType = t) := by
  show ∃ (x code init : Str) (evs : List Event) (e : Entry), register pr s.index s.pkgPath s.absFile s.stdlib s.decls = some (code, init) ∧
      events code = some evs ∧
      Verif.Text.Op.insert (f.lbrace + 1 : Nat) (trapText s.index f.bodyLine x (SourceLines.recvAddr (namesOf recvPrefix f.recv))
        (namesOf paramPrefix f.params) (namesOf resultPrefix f.results)) ∈ s.ops pr ∧
      evs.filter (fun ev => match ev with
        | .register _ y _ => y = x
        | .call _ => false) = [.register ("__xgo_register_".toList ++ dec s.index) x e] ∧
      e.kind = 0 ∧ e.interface = false ∧ e.name = f.name ∧ e.identity = f.identity ∧ e.pkg = s.pkgPath ∧ e.file = s.absFile ∧ e.line = f.line ∧
      e.args = namesOf paramPrefix f.params ∧ e.results = namesOf resultPrefix f.results ∧
      (e.func = none ↔ f.recvGeneric = true ∨ f.genericParams = true) ∧ (∀ v, e.func = some v → v = f.identity) ∧
      (∀ n p t, (namesOf recvPrefix f.recv).head? = some n → f.recvType = some (p, t) → e.recvName = n ∧ e.recvPtr = p ∧ e.recvType = t)
  have hd := src_named s hv hf
  have hz : (f, j) ∈ s.funcs.zipIdx := List.mem_zipIdx_iff_getElem?.2 h
  obtain ⟨g, hg, e1, e2, e3, e4, e5, e6, e7, e8, e9⟩ : ∃ g ∈ s.decls.funcs, g.identity = f.identity ∧ g.name = f.name ∧
      g.genericParams = f.genericParams ∧ g.line = f.line ∧ g.infoVar = name2 "__xgo_func_info".toList s.index j ∧
      g.recvGeneric = f.recvGeneric ∧ g.params = namesOf paramPrefix f.params ∧ g.results = namesOf resultPrefix f.results ∧
      g.recv = (namesOf recvPrefix f.recv).head?.map fun n =>
        Recv.mk ((f.recvType.map (·.1)).getD false) ((f.recvType.map (·.2)).getD []) n :=
    ⟨_, List.mem_map.2 ⟨(f, j), hz, rfl⟩, rfl, rfl, rfl, rfl, rfl, rfl, rfl, rfl, rfl⟩
  have hne : ¬ (s.decls.vars = [] ∧ s.decls.funcs = [] ∧ s.decls.intfs = []) := by
    rintro ⟨_, h, _⟩; rw [h] at hg; cases hg
  obtain ⟨code, init, h1, h2⟩ := (C89_registered hp s.index s.pkgPath s.absFile s.stdlib s.decls hd).2 hne
  refine ⟨g.infoVar, code, init, _, funcEntry s.pkgPath s.absFile s.stdlib g, h1, h2, ?_, ?_, ?_⟩
  · unfold Src.ops
    refine List.mem_append_left _ (List.mem_append_right _ ?_)
    rw [List.mem_flatten]
    refine ⟨_, List.mem_map.2 ⟨(f, j), hz, rfl⟩, ?_⟩
    rw [e5]
    unfold funcOps
    exact List.mem_append_right _ List.mem_cons_self
  · have hnd := hd.nodup
    generalize ("__xgo_register_".toList ++ dec s.index) = reg
    have hother : ∀ {α} (l : List α) (k : α → Str) (e : α → Entry), g.infoVar ∉ l.map k →
        (l.map fun a => Event.register reg (k a) (e a)).filter (fun ev => match ev with
          | .register _ y _ => y = g.infoVar
          | .call _ => false) = [] := by
      intro α l k e hn
      rw [List.filter_eq_nil_iff]
      intro ev hev
      obtain ⟨a, ha, rfl⟩ := List.mem_map.1 hev
      simp only [decide_eq_true_eq]
      intro he
      exact hn (List.mem_map.2 ⟨a, ha, he⟩)
    rw [List.filter_cons, if_neg (by simp), List.filter_append, List.filter_append]
    obtain ⟨a, b, hab⟩ := List.append_of_mem hg
    rw [hab] at hnd ⊢
    simp only [List.map_append, List.map_cons] at hnd ⊢
    rw [List.nodup_append, List.nodup_append, List.nodup_append, List.nodup_cons] at hnd
    obtain ⟨⟨_, ⟨_, ⟨hnb, _⟩, hna⟩, hnv⟩, _, hni⟩ := hnd
    rw [hother s.decls.vars (·.infoVar) _ (fun hm => hnv _ hm _ (by simp) rfl), List.nil_append,
      hother s.decls.intfs (·.infoVar) _ (fun hm => hni g.infoVar (by simp) _ hm rfl), List.append_nil, List.filter_append,
      hother a (·.infoVar) _ (fun hm => hna _ hm _ List.mem_cons_self rfl), List.nil_append, List.filter_cons, if_pos (by simp),
      hother b (·.infoVar) _ hnb]
  · refine ⟨rfl, rfl, e2, e1, rfl, rfl, e4, e7, e8, ?_, ?_, ?_⟩
    · unfold funcEntry
      simp only
      rw [e3, e6]
      split <;> simp_all
    · intro v hv
      unfold funcEntry at hv
      simp only at hv
      split at hv
      · cases hv
      · cases hv; exact e1
    · intro n p t hn ht
      rw [hn, ht] at e9
      unfold funcEntry
      simp only [e9]
      exact ⟨rfl, rfl, rfl⟩

/-- **C89, variables**: the getters of a variable call the trap with a variable that is registered once, and what is registered with it is
    that variable: its name, place and address. -/
theorem C89_variable {pr : Char → Bool} (hp : pr '\n' = false) (s : Src) (hv : ∀ v ∈ s.vars, Ident v.name) (hf : ∀ f ∈ s.funcs, FuncExpr f.identity)
    (j : Nat) (v : SourceLines.VarSrc) (h : s.vars[j]? = some v) :
    ∃ (x code init : Str) (evs : List Event) (e : Entry), register pr s.index s.pkgPath s.absFile s.stdlib s.decls = some (code, init) ∧
      events code = some evs ∧
      Verif.Text.Op.insert (v.declEnd : Nat) (getters s.index v.pre v.name x v.typ) ∈ s.ops pr ∧
      evs.filter (fun ev => match ev with
        | .register _ y _ => y = x
        | .call _ => false) = [.register ("__xgo_register_".toList ++ dec s.index) x e] ∧
      e.kind = 1 ∧ e.name = v.name ∧ e.identity = v.name ∧ e.pkg = s.pkgPath ∧ e.file = s.absFile ∧ e.line = v.line ∧ e.var = some v.name ∧
      e.results = [v.name] := by
  have hd := src_named s hv hf
  have hz : (v, j) ∈ s.vars.zipIdx := List.mem_zipIdx_iff_getElem?.2 h
  obtain ⟨g, hg, e1, e2, e3⟩ : ∃ g ∈ s.decls.vars, g.name = v.name ∧ g.line = v.line ∧ g.infoVar = name2 "__xgo_var_info".toList s.index j :=
    ⟨_, List.mem_map.2 ⟨(v, j), hz, rfl⟩, rfl, rfl, rfl⟩
  have hne : ¬ (s.decls.vars = [] ∧ s.decls.funcs = [] ∧ s.decls.intfs = []) := by
    rintro ⟨h, _, _⟩; rw [h] at hg; cases hg
  obtain ⟨code, init, h1, h2⟩ := (C89_registered hp s.index s.pkgPath s.absFile s.stdlib s.decls hd).2 hne
  refine ⟨g.infoVar, code, init, _, varEntry s.pkgPath s.absFile s.stdlib g, h1, h2, ?_, ?_, rfl, e1, e1, rfl, rfl, e2, congrArg some e1,
    congrArg (fun x => [x]) e1⟩
  · unfold Src.ops
    refine List.mem_append_left _ (List.mem_append_left _ (List.mem_append_left _ (List.mem_append_right _ ?_)))
    rw [List.mem_flatten]
    refine ⟨_, List.mem_map.2 ⟨(v, j), hz, rfl⟩, ?_⟩
    rw [e3]
    unfold varOps
    exact List.mem_cons_of_mem _ List.mem_cons_self
  · have hnd := hd.nodup
    generalize ("__xgo_register_".toList ++ dec s.index) = reg
    have hother : ∀ {α} (l : List α) (k : α → Str) (e : α → Entry), g.infoVar ∉ l.map k →
        (l.map fun a => Event.register reg (k a) (e a)).filter (fun ev => match ev with
          | .register _ y _ => y = g.infoVar
          | .call _ => false) = [] := by
      intro α l k e hn
      rw [List.filter_eq_nil_iff]
      intro ev hev
      obtain ⟨a, ha, rfl⟩ := List.mem_map.1 hev
      simp only [decide_eq_true_eq]
      intro he
      exact hn (List.mem_map.2 ⟨a, ha, he⟩)
    rw [List.filter_cons, if_neg (by simp), List.filter_append, List.filter_append]
    obtain ⟨a, b, hab⟩ := List.append_of_mem hg
    rw [hab] at hnd ⊢
    simp only [List.map_append, List.map_cons] at hnd ⊢
    rw [List.nodup_append, List.nodup_append, List.nodup_append, List.nodup_cons] at hnd
    obtain ⟨⟨⟨_, ⟨hnb, _⟩, hna⟩, _, hnv⟩, _, hni⟩ := hnd
    rw [hother s.decls.funcs (·.infoVar) _ (fun hm => hnv _ (by simp) _ hm rfl), List.append_nil,
      hother s.decls.intfs (·.infoVar) _ (fun hm => hni g.infoVar (by simp) _ hm rfl), List.append_nil, List.filter_append,
      hother a (·.infoVar) _ (fun hm => hna _ hm _ List.mem_cons_self rfl), List.nil_append, List.filter_cons, if_pos (by simp),
      hother b (·.infoVar) _ hnb]

/-- **C89, the hook for the runtime**: behind the last declaration xgo declares `__xgo_init_i`, not to be inlined, which names each of the
    four functions that the runtime replaces; all of them are declared in the file with a function that does nothing. -/
theorem C89_init (pr : Char → Bool) (i : Nat) (pkgPath absFile : Str) (stdlib : Bool) (d : Decls) {code init : Str}
    (h : register pr i pkgPath absFile stdlib d = some (code, init)) :
    ∃ body, between ("\n//go:noinline\nfunc __xgo_init_".toList ++ dec i ++ "(){".toList) "}".toList init = some body ∧
      parts ';' body = some (["__xgo_register_", "__xgo_trap_", "__xgo_trap_var_", "__xgo_trap_varptr_"].map fun x =>
        x.toList ++ dec i ++ '=' :: (x.toList ++ dec i)) := by
  unfold register at h
  simp only at h
  split at h
  · cases h
  · obtain ⟨rfl, rfl⟩ := Prod.mk.inj (Option.some.inj h)
    obtain ⟨h1, h2, h3, h4, _⟩ := names_ident i
    refine ⟨(Names.ofFile i).register ++ '=' :: (Names.ofFile i).register ++ ';' :: ((Names.ofFile i).trapFunc ++ '=' :: (Names.ofFile i).trapFunc ++ ';' ::
      ((Names.ofFile i).trapVar ++ '=' :: (Names.ofFile i).trapVar ++ ';' :: ((Names.ofFile i).trapVarPtr ++ '=' :: (Names.ofFile i).trapVarPtr ++ [';']))), ?_, ?_⟩
    · rw [← between_at ("\n//go:noinline\nfunc __xgo_init_".toList ++ dec i ++ "(){".toList) "}".toList]
      congr 1
      unfold initFunc
      have e1 : ";}".toList = [';'] ++ "}".toList := by decide
      have e2 : '\n' :: ("//go:noinline\nfunc ".toList ++ (Names.ofFile i).init) = "\n//go:noinline\nfunc __xgo_init_".toList ++ dec i := by
        show '\n' :: ("//go:noinline\nfunc ".toList ++ ("__xgo_init_".toList ++ dec i)) = _
        rw [← List.append_assoc, ← List.cons_append]
        congr 1
      rw [← e2, e1]
      simp only [List.append_assoc, List.cons_append]
    · have one : ∀ x : Str, Ident x → Good (some ';') (x ++ '=' :: x) ∧ x ++ '=' :: x ≠ [] := by
        intro x hx
        have := good_ident (sep := some ';') hx (by intro c hc; cases hc; decide)
        exact ⟨good_app this (good_cons (by decide) (by decide) this), by simp⟩
      have r : ∀ x : Str, Ident x → Reads ';' (x ++ '=' :: x) [x ++ '=' :: x] := fun x hx => reads_one (one x hx).1 (one x hx).2
      rw [(r _ h1).2, (r _ h2).2, (r _ h3).2, reads_end (r _ h4)]
      rfl

/-- The hypotheses are met by a file with a variable and two functions. -/
example : (∀ v ∈ SourceLines.srcA.vars, Ident v.name) ∧ (∀ f ∈ SourceLines.srcA.funcs, FuncExpr f.identity) ∧
    SourceLines.srcA.funcs[1]? = some SourceLines.fPtr ∧ SourceLines.ascii '\n' = false := by
  refine ⟨?_, ?_, rfl, by decide⟩
  · unfold Ident; decide
  · intro f hf
    refine .func ?_
    have : ∀ f ∈ SourceLines.srcA.funcs, f.identity ≠ [] ∧ ∀ c ∈ f.identity, c.isAlphanum = true ∨ c = '_' ∨ 128 ≤ c.toNat := by decide
    exact this f hf

/-- What is read from the code of that file. -/
example : ((register SourceLines.ascii 2 "example.com/a".toList "/w/a.go".toList false SourceLines.srcA.decls).bind fun x => events x.1) =
    some [.call "__xgo_init_2".toList,
      .register "__xgo_register_2".toList "__xgo_var_info_2_0".toList
        { kind := 1, pkg := "example.com/a".toList, name := "n".toList, identity := "n".toList, file := "/w/a.go".toList, line := 3,
          results := ["n".toList], var := some "n".toList },
      .register "__xgo_register_2".toList "__xgo_func_info_2_0".toList
        { pkg := "example.com/a".toList, name := "get".toList, identity := "get".toList, file := "/w/a.go".toList, line := 5,
          args := ["__xgo_auto_param_0".toList], results := ["__xgo_auto_res_0".toList], func := some "get".toList },
      .register "__xgo_register_2".toList "__xgo_func_info_2_1".toList
        { pkg := "example.com/a".toList, name := "ptr".toList, identity := "ptr".toList, file := "/w/a.go".toList, line := 9,
          results := ["__xgo_auto_res_0".toList], func := some "ptr".toList }] := by decide +kernel

end Verif.Instrument.RegRead
