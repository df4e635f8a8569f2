/-
**C88.** Instrumentation leaves the user's code on its lines, except where it writes a type that has line breaks.
-/
import Verif.Instrument.SourceLinesProps
import Verif.Instrument.CoverNotesProps

namespace Verif.Instrument.SourceLines
open Verif.Text Verif.Text.EditSpec Verif.Instrument.RegCode
open Verif.Instrument.FuncTrap (dec name2 blank fieldNames recvPrefix paramPrefix resultPrefix)
open Verif.Instrument.CoverNotes (quote quote_line)
open Spec

/-! ### Texts without line breaks -/

abbrev Free (s : Str) : Prop := '\n' ∉ s

theorem free_app {a b : Str} (ha : Free a) (hb : Free b) : Free (a ++ b) := by
  unfold Free at *; rw [List.mem_append]; exact not_or.2 ⟨ha, hb⟩

theorem free_cons {c : Char} {b : Str} (hc : c ≠ '\n') (hb : Free b) : Free (c :: b) := by
  unfold Free at *; rw [List.mem_cons]; exact not_or.2 ⟨fun h => hc h.symm, hb⟩

theorem free_dec (n : Nat) : Free (dec n) := by
  intro h
  have := Nat.isDigit_of_mem_toDigits (b := 10) (n := n) (by decide) (by decide) h
  exact absurd this (by decide)

theorem free_nil : Free [] := List.not_mem_nil

syntax "free" : tactic
macro_rules
  | `(tactic| free) => `(tactic| (repeat' first
      | with_reducible assumption
      | with_reducible apply free_dec
      | with_reducible apply free_nil
      | with_reducible apply free_app
      | with_reducible apply free_cons (by decide)
      | (with_reducible show Free (String.toList _); decide +kernel)))

theorem free_name2 {p : Str} (h : Free p) (i j : Nat) : Free (name2 p i j) := by
  unfold name2; free

theorem free_commas {l : List Str} (h : ∀ s ∈ l, Free s) : Free (commas l) := by
  induction l with
  | nil => exact free_nil
  | cons a l ih =>
    have ha := h a List.mem_cons_self
    have ih := ih fun s hs => h s (List.mem_cons_of_mem _ hs)
    cases l with
    | nil => exact ha
    | cons b l => exact free_app ha (free_cons (by decide) ih)

theorem free_bool (b : Bool) : Free (RegCode.bool b) := by cases b <;> decide

theorem free_joinFrom {l : List Str} (h : ∀ s ∈ l, Free s) : ∀ last, Free (joinFrom last l) := by
  induction l with
  | nil => intro _; exact free_nil
  | cons a l ih =>
    intro last
    have ha := h a List.mem_cons_self
    have ih := ih fun s hs => h s (List.mem_cons_of_mem _ hs)
    rw [joinFrom]
    split
    · exact ih _
    · refine free_app (free_app ?_ ha) (ih _)
      split
      · decide
      · exact free_nil

theorem free_join {l : List Str} (h : ∀ s ∈ l, Free s) : Free (join l) := free_joinFrom h []

section texts
variable {pr : Char → Bool} (hp : pr '\n' = false)
include hp

theorem free_quote (s : Str) : Free (quote pr s) := quote_line hp s

/-- The generated names. -/
structure FreeNames (n : RegCode.Names) : Prop where
  register : Free n.register
  trapFunc : Free n.trapFunc
  trapVar : Free n.trapVar
  trapVarPtr : Free n.trapVarPtr
  infoType : Free n.infoType
  pkgVar : Free n.pkgVar
  init : Free n.init

omit hp in
theorem free_names (i : Nat) : FreeNames (Names.ofFile i) := by
  constructor <;> (unfold Names.ofFile; simp only; free)

theorem free_makeLiteral {n : RegCode.Names} (hn : FreeNames n) {fv : Str} (hf : Free fv) (kind : Nat) (name identity : Str) (line : Nat)
    (stdlib : Bool) {extra : List Str} (he : ∀ s ∈ extra, Free s) :
    Free (makeLiteral pr n fv kind name identity line stdlib extra) := by
  have h1 := free_quote hp name
  have h2 := free_quote hp identity
  have h3 : Free (if extra = [] then [] else ',' :: commas extra) := by
    split
    · exact free_nil
    · exact free_cons (by decide) (free_commas he)
  have h4 : Free (if stdlib then ",Stdlib:true".toList else []) := by cases stdlib <;> decide
  have h5 := hn.infoType
  have h6 := hn.pkgVar
  unfold makeLiteral
  free

/-- The three parts of a registration. -/
def FreeLit (l : Literal) : Prop := Free l.varDef ∧ Free l.varReg ∧ Free l.delayInit

omit hp in
theorem free_define {n : RegCode.Names} (hn : FreeNames n) {info lit prop val : Str} (h1 : Free info) (h2 : Free lit) (h3 : Free prop)
    (h4 : Free val) : FreeLit (defineLiteral n info lit prop val) := by
  have h5 := hn.register
  unfold defineLiteral
  refine ⟨?_, ?_, ?_⟩
  · simp only; free
  · simp only; free
  · simp only
    split
    · exact free_nil
    · free

/-- What is registered has no line break in a name. -/
structure FreeDecls (d : Decls) : Prop where
  funcs : ∀ f ∈ d.funcs, Free f.identity ∧ Free f.infoVar
  vars : ∀ v ∈ d.vars, Free v.name ∧ Free v.infoVar
  intfs : ∀ v ∈ d.intfs, Free v.infoVar

theorem free_literals {n : RegCode.Names} (hn : FreeNames n) (stdlib : Bool) {fv fvv : Str} (h1 : Free fv) (h2 : Free fvv) {d : Decls}
    (hd : FreeDecls d) : ∀ l ∈ fileLiterals pr n stdlib fv fvv d, FreeLit l := by
  intro l hl
  unfold fileLiterals at hl
  rw [List.mem_append, List.mem_append, List.mem_map, List.mem_map, List.mem_map] at hl
  rcases hl with (⟨v, hv, rfl⟩ | ⟨f, hf, rfl⟩) | ⟨t, ht, rfl⟩
  · have h := hd.vars v hv
    refine free_define hn h.2 (free_makeLiteral hp hn h2 _ _ _ _ _ ?_) free_nil free_nil
    intro s hs
    have hq := free_quote hp v.name
    have hv := h.1
    simp only [List.mem_cons, List.not_mem_nil, or_false] at hs
    rcases hs with rfl | rfl <;> free
  · have h := hd.funcs f hf
    refine free_define hn h.2 (free_makeLiteral hp hn h1 _ _ _ _ _ ?_) ?_ h.1
    · intro s hs
      unfold funcExtra at hs
      rw [List.mem_append, List.mem_append, List.mem_append] at hs
      rcases hs with ((hs | hs) | hs) | hs
      · cases hr : f.recv with
        | none => rw [hr] at hs; cases hs
        | some r =>
          rw [hr] at hs
          have h1 := free_quote hp r.typeName
          have h2 := free_quote hp r.name
          have h3 := free_bool r.ptr
          simp only [List.mem_cons, List.not_mem_nil, or_false] at hs
          rcases hs with rfl | rfl | rfl <;> free
      · split at hs
        · rw [List.mem_singleton] at hs; subst hs; decide
        · cases hs
      · split at hs
        · cases hs
        · rw [List.mem_singleton] at hs; subst hs
          have : Free (commas (f.params.map (quote pr))) := free_commas fun s hs => by
            obtain ⟨x, _, rfl⟩ := List.mem_map.1 hs
            exact free_quote hp x
          free
      · split at hs
        · cases hs
        · rw [List.mem_singleton] at hs; subst hs
          have : Free (commas (f.results.map (quote pr))) := free_commas fun s hs => by
            obtain ⟨x, _, rfl⟩ := List.mem_map.1 hs
            exact free_quote hp x
          free
    · split
      · exact free_nil
      · decide
  · have h := hd.intfs t ht
    refine free_define hn h (free_makeLiteral hp hn h1 _ _ _ _ _ ?_) free_nil free_nil
    intro s hs
    have hq := free_quote hp t.name
    simp only [List.mem_cons, List.not_mem_nil, or_false] at hs
    rcases hs with rfl | rfl <;> free

omit hp in
theorem free_regCode {init : Str} (hi : Free init) {ls : List Literal} (h : ∀ l ∈ ls, FreeLit l) : Free (regCode init ls) := by
  have h1 : Free (join (ls.map (·.varDef))) := free_join fun s hs => by
    obtain ⟨l, hl, rfl⟩ := List.mem_map.1 hs; exact (h l hl).1
  have h2 : Free (join (ls.map (·.varReg))) := free_join fun s hs => by
    obtain ⟨l, hl, rfl⟩ := List.mem_map.1 hs; exact (h l hl).2.1
  have h3 : Free (join (ls.map (·.delayInit))) := free_join fun s hs => by
    obtain ⟨l, hl, rfl⟩ := List.mem_map.1 hs; exact (h l hl).2.2
  unfold regCode
  simp only
  refine free_join fun s hs => ?_
  simp only [List.mem_cons, List.not_mem_nil, or_false] at hs
  rcases hs with rfl | rfl | rfl
  · exact h1
  · split
    · exact free_nil
    · free
  · refine free_app (free_app (by decide) (free_join fun s hs => ?_)) (by decide)
    simp only [List.mem_cons, List.not_mem_nil, or_false] at hs
    rcases hs with rfl | rfl
    · exact free_app hi (by decide)
    · exact h2

theorem free_stubs (pkgPath : Str) {n : RegCode.Names} (hn : FreeNames n) : ∀ s ∈ pkgStubs pr pkgPath n, Free s := by
  intro s hs
  have h0 := free_quote hp pkgPath
  have h1 := hn.register
  have h2 := hn.trapFunc
  have h3 := hn.trapVar
  have h4 := hn.trapVarPtr
  have h5 := hn.infoType
  have h6 := hn.pkgVar
  have h7 : Free (semis infoFields) := by decide +kernel
  unfold pkgStubs at hs
  simp only [List.mem_cons, List.not_mem_nil, or_false] at hs
  rcases hs with rfl | rfl | rfl | rfl | rfl | rfl <;> free

theorem free_register {i : Nat} {pkgPath absFile : Str} {stdlib : Bool} {d : Decls} (hd : FreeDecls d) {a b : Str}
    (h : register pr i pkgPath absFile stdlib d = some (a, b)) : Free a := by
  unfold register at h
  simp only at h
  split at h
  · cases h
  · have h := congrArg Prod.fst (Option.some.inj h)
    simp only at h
    subst h
    have hfv : Free (fileVar i) := by unfold fileVar; free
    have hfvv : Free (fileVarForVar i) := by unfold fileVarForVar; free
    have hn := free_names i
    refine free_cons (by decide) (free_join fun s hs => ?_)
    have hq := free_quote hp absFile
    simp only [List.mem_cons, List.not_mem_nil, or_false] at hs
    rcases hs with rfl | rfl | rfl | rfl
    · exact free_join (free_stubs hp pkgPath hn)
    · unfold fileStub; free
    · unfold fileStub; free
    · exact free_regCode hn.init (free_literals hp hn stdlib hfv hfvv hd)

end texts

/-! ### The edits -/

theorem free_fieldNames {pre : Str} (h : Free pre) : ∀ (fs : List (List Str)) (i : Nat), (∀ l ∈ fs, ∀ n ∈ l, Free n) →
    ∀ n ∈ fieldNames pre fs i, Free n := by
  intro fs
  induction fs with
  | nil => intro i _ n hn; cases hn
  | cons l fs ih =>
    intro i hf n hn
    have hf' := fun l hl => hf l (List.mem_cons_of_mem _ hl)
    cases l with
    | nil =>
      rw [fieldNames] at hn
      rcases List.mem_cons.1 hn with rfl | hn
      · exact free_app h (free_dec i)
      · exact ih _ hf' n hn
    | cons a l =>
      rw [fieldNames] at hn
      rcases List.mem_append.1 hn with hn | hn
      · obtain ⟨x, hx, rfl⟩ := List.mem_map.1 hn
        split
        · exact free_app h (free_dec _)
        · exact hf _ List.mem_cons_self _ (List.fst_mem_of_mem_zipIdx hx)
      · exact ih _ hf' n hn

theorem free_namesOf {pre : Str} (h : Free pre) {fs : List Field} (hf : ∀ x ∈ fs, ∀ n ∈ x.names, Free n.name) :
    ∀ n ∈ namesOf pre fs, Free n := by
  refine free_fieldNames h _ 0 ?_
  intro l hl n hn
  obtain ⟨x, hx, rfl⟩ := List.mem_map.1 hl
  obtain ⟨m, hm, rfl⟩ := List.mem_map.1 hn
  exact hf x hx m hm

theorem free_recvPrefix : Free recvPrefix := by decide
theorem free_paramPrefix : Free paramPrefix := by decide
theorem free_resultPrefix : Free resultPrefix := by decide

/-- What the naming of parameters does: it inserts, or it replaces a blank name. -/
theorem fieldOps_cases {pre : Str} (h : Free pre) (wrap : Option (Nat × Nat)) : ∀ (fs : List Field) (i : Nat),
    ∀ o ∈ fieldOps pre wrap fs i, (∃ (p : Nat) (t : Str), o = .insert p t ∧ Free t) ∨
      ∃ x ∈ fs, ∃ n ∈ x.names, blank n.name = true ∧ ∃ t, o = .replace n.start n.stop t ∧ Free t := by
  intro fs
  induction fs with
  | nil => intro i o ho; cases ho
  | cons f fs ih =>
    intro i o ho
    rw [fieldOps.eq_def] at ho
    simp only at ho
    have lift : ∀ k, o ∈ fieldOps pre wrap fs k → (∃ (p : Nat) (t : Str), o = .insert p t ∧ Free t) ∨
        ∃ x ∈ f :: fs, ∃ n ∈ x.names, blank n.name = true ∧ ∃ t, o = .replace n.start n.stop t ∧ Free t := by
      intro k hk
      rcases ih k o hk with h | ⟨x, hx, r⟩
      · exact .inl h
      · exact .inr ⟨x, List.mem_cons_of_mem _ hx, r⟩
    split at ho
    · rcases List.mem_append.1 ho with ho | ho
      · cases wrap with
        | none => cases ho
        | some w =>
          simp only [List.mem_cons, List.not_mem_nil, or_false] at ho
          rcases ho with rfl | rfl
          · exact .inl ⟨_, _, rfl, by decide⟩
          · exact .inl ⟨_, _, rfl, by decide⟩
      · rcases List.mem_cons.1 ho with rfl | ho
        · exact .inl ⟨_, _, rfl, by free⟩
        · exact lift _ ho
    · rcases List.mem_append.1 ho with ho | ho
      · obtain ⟨x, hx, hs⟩ := List.mem_filterMap.1 ho
        split at hs
        · rename_i hb
          cases hs
          exact .inr ⟨f, List.mem_cons_self, x.1, List.fst_mem_of_mem_zipIdx hx, hb, _, rfl, free_app h (free_dec _)⟩
        · cases hs
      · exact lift _ ho

theorem free_recvAddr {l : List Str} (h : ∀ n ∈ l, Free n) : Free (recvAddr l) := by
  cases l with
  | nil => decide
  | cons a l =>
    rw [recvAddr]
    split
    · decide
    · exact free_cons (by decide) (h a List.mem_cons_self)

theorem free_trapText {i line : Nat} {info recv : Str} {ps rs : List Str} (h1 : Free info) (h2 : Free recv) (h3 : ∀ n ∈ ps, Free n)
    (h4 : ∀ n ∈ rs, Free n) : Free (trapText i line info recv ps rs) := by
  have h5 : Free (commas (ps.map ('&' :: ·))) := free_commas fun s hs => by
    obtain ⟨x, hx, rfl⟩ := List.mem_map.1 hs
    exact free_cons (by decide) (h3 x hx)
  have h6 : Free (commas (rs.map ('&' :: ·))) := free_commas fun s hs => by
    obtain ⟨x, hx, rfl⟩ := List.mem_map.1 hs
    exact free_cons (by decide) (h4 x hx)
  unfold trapText
  free

theorem blank_cases {n : Str} (h : blank n = true) : n = [] ∨ n = "_".toList := by
  rw [blank, Bool.or_eq_true, decide_eq_true_eq, decide_eq_true_eq] at h; exact h

/-- What the edits of a function do. -/
theorem funcOps_cases {s : Src} (hs : Spec.Names s) {f : FuncSrc} (hf : f ∈ s.funcs) (i j : Nat) :
    ∀ o ∈ funcOps i j f, (∃ (p : Nat) (t : Str), o = .insert p t ∧ Free t) ∨
      ∃ x ∈ f.recv ++ f.params ++ f.results, ∃ n ∈ x.names, blank n.name = true ∧ ∃ t, o = .replace n.start n.stop t ∧ Free t := by
  intro o ho
  have hx := hs.fields f hf
  have h1 : ∀ x ∈ f.recv, ∀ n ∈ x.names, Free n.name := fun x hx' n hn =>
    (hx x (List.mem_append_left _ (List.mem_append_left _ hx')) n hn).1
  have h2 : ∀ x ∈ f.params, ∀ n ∈ x.names, Free n.name := fun x hx' n hn =>
    (hx x (List.mem_append_left _ (List.mem_append_right _ hx')) n hn).1
  have h3 : ∀ x ∈ f.results, ∀ n ∈ x.names, Free n.name := fun x hx' n hn =>
    (hx x (List.mem_append_right _ hx') n hn).1
  rw [funcOps, List.mem_append, List.mem_append, List.mem_append] at ho
  rcases ho with ((ho | ho) | ho) | ho
  · rcases fieldOps_cases free_recvPrefix _ _ _ o ho with h | ⟨x, hx, r⟩
    · exact .inl h
    · exact .inr ⟨x, List.mem_append_left _ (List.mem_append_left _ hx), r⟩
  · rcases fieldOps_cases free_paramPrefix _ _ _ o ho with h | ⟨x, hx, r⟩
    · exact .inl h
    · exact .inr ⟨x, List.mem_append_left _ (List.mem_append_right _ hx), r⟩
  · rcases fieldOps_cases free_resultPrefix _ _ _ o ho with h | ⟨x, hx, r⟩
    · exact .inl h
    · exact .inr ⟨x, List.mem_append_right _ hx, r⟩
  · rw [List.mem_singleton] at ho
    subst ho
    exact .inl ⟨_, _, rfl, free_trapText (free_name2 (by decide) _ _) (free_recvAddr (free_namesOf free_recvPrefix h1))
      (free_namesOf free_paramPrefix h2) (free_namesOf free_resultPrefix h3)⟩

/-- What the edits of a use of a variable do. -/
theorem refOps_cases {s : Src} (hs : Spec.Names s) {r : Ref} (hr : r ∈ s.refs) :
    ∀ o ∈ refOps r, (∃ (p : Nat) (t : Str), o = .insert p t ∧ Free t) ∨
      ∃ a b, r.addr = some (a, b) ∧ r.fieldAccess = false ∧ o = .delete (a : Nat) (b : Nat) := by
  intro o ho
  rw [refOps, List.mem_append, List.mem_append] at ho
  rcases ho with (ho | ho) | ho
  · cases ha : r.addr with
    | none => rw [ha] at ho; cases ho
    | some ab =>
      rw [ha] at ho
      simp only at ho
      split at ho
      · cases ho
      · rename_i hfa
        rw [List.mem_singleton] at ho
        exact .inr ⟨ab.1, ab.2, rfl, by simpa using hfa, ho⟩
  · split at ho
    · cases ho
    · rw [List.mem_singleton] at ho
      exact .inl ⟨_, _, ho, hs.refs r hr⟩
  · rw [List.mem_singleton] at ho
    refine .inl ⟨_, _, ho, ?_⟩
    split <;> decide

theorem decls_free {s : Src} (hs : Spec.Names s) : FreeDecls s.decls := by
  constructor
  · intro f hf
    obtain ⟨x, hx, rfl⟩ := List.mem_map.1 hf
    exact ⟨(hs.funcs x.1 (List.fst_mem_of_mem_zipIdx hx)).2, free_name2 (by decide) _ _⟩
  · intro v hv
    obtain ⟨x, hx, rfl⟩ := List.mem_map.1 hv
    exact ⟨(hs.vars x.1 (List.fst_mem_of_mem_zipIdx hx)).1, free_name2 (by decide) _ _⟩
  · intro v hv
    obtain ⟨x, hx, rfl⟩ := List.mem_map.1 hv
    exact free_name2 (by decide) _ _

/-! ### Counting what they add -/

theorem count_free {s : Str} (h : Free s) : s.count '\n' = 0 := List.count_eq_zero.2 h

set_option simprocs false in
theorem count_getters (i : Nat) {pre name info : Str} (typ : Str) (h1 : Free pre) (h2 : Free name) (h3 : Free info) :
    (getters i pre name info typ).count '\n' = 2 * lines typ := by
  unfold getters lines
  simp only [List.count_append, count_free h1, count_free h2, count_free h3, count_free (free_dec i),
    count_free (show Free ('(' :: info) from free_cons (by decide) h3),
    count_free (show Free "func ".toList by decide), count_free (show Free "_xgo_get() ".toList by decide),
    count_free (show Free " {__mock_res := ".toList by decide), count_free (show Free ";__xgo_trap_var_".toList by decide),
    count_free (show Free ",&".toList by decide), count_free (show Free ",&__mock_res);return __mock_res;};func ".toList by decide),
    count_free (show Free "_xgo_get_addr() *".toList by decide), count_free (show Free " {__mock_res := &".toList by decide),
    count_free (show Free ";__xgo_trap_varptr_".toList by decide), count_free (show Free ",&__mock_res);return __mock_res;}".toList by decide)]
  omega

/-- What an edit adds before `i`. -/
def adds (i : Nat) (o : Op Char) : Nat := weight '\n' i (editOf o)

theorem adds_free {i : Nat} {o : Op Char} (h : Free (editOf o).new) : adds i o = 0 := by
  unfold adds weight
  split
  · exact count_free h
  · rfl

theorem sum_zero {i : Nat} {l : List (Op Char)} (h : ∀ o ∈ l, adds i o = 0) : (l.map (adds i)).sum = 0 := by
  induction l with
  | nil => rfl
  | cons a l ih =>
    rw [List.map_cons, List.sum_cons, h a List.mem_cons_self, ih fun o ho => h o (List.mem_cons_of_mem _ ho)]

theorem sum_vars (i k : Nat) (vs : List VarSrc) (idx : Nat) (h : ∀ v ∈ vs, Free v.name ∧ Free v.pre) :
    ((((vs.zipIdx k).map fun x => varOps idx x.2 x.1).flatten).map (adds i)).sum =
      ((vs.filter fun v => v.declEnd ≤ i).map fun v => 2 * lines v.typ).sum := by
  induction vs generalizing k with
  | nil => rfl
  | cons v vs ih =>
    have hv := h v List.mem_cons_self
    rw [List.zipIdx_cons, List.map_cons, List.flatten_cons, List.map_append, List.sum_append,
      ih _ fun x hx => h x (List.mem_cons_of_mem _ hx), List.filter_cons]
    have h0 : ((varOps idx k v).map (adds i)).sum = if v.declEnd ≤ i then 2 * lines v.typ else 0 := by
      have e1 : adds i (Op.insert (v.declEnd : Nat) ";".toList) = 0 := adds_free (show Free ";".toList by decide)
      have e2 : adds i (Op.insert (v.declEnd : Nat) (getters idx v.pre v.name (name2 "__xgo_var_info".toList idx k) v.typ)) =
          if v.declEnd ≤ i then 2 * lines v.typ else 0 := by
        have := count_getters idx v.typ hv.2 hv.1 (free_name2 (p := "__xgo_var_info".toList) (by decide) idx k)
        unfold adds weight
        show (if v.declEnd ≤ i then List.count '\n' (getters idx v.pre v.name _ v.typ) else 0) = _
        rw [this]
      show (List.map (adds i) [_, _]).sum = _
      simp only [List.map_cons, List.map_nil, List.sum_cons, List.sum_nil, e1, e2]
      omega
    rw [h0]
    by_cases hd : v.declEnd ≤ i
    · simp [hd]
    · simp [hd]

variable {pr : Char → Bool}

/-- What the edits of a file are: insertions at offsets, and removals. -/
theorem ops_cases {s : Src} (hs : Spec.Names s) : ∀ o ∈ s.ops pr, (∃ (p : Nat) (t : Str), o = .insert p t) ∨
    ∃ (a b : Nat), (∀ p, a ≤ p → p < b → Removed s p) ∧ (o = .delete a b ∨ ∃ t, o = .replace a b t) := by
  intro o ho
  rw [Src.ops, List.mem_append, List.mem_append, List.mem_append, List.mem_append] at ho
  rcases ho with (((ho | ho) | ho) | ho) | ho
  · obtain ⟨m, _, rfl⟩ := List.mem_map.1 ho
    exact .inl ⟨_, _, rfl⟩
  · obtain ⟨l, hl, ho⟩ := List.mem_flatten.1 ho
    obtain ⟨x, _, rfl⟩ := List.mem_map.1 hl
    simp only [varOps, List.mem_cons, List.not_mem_nil, or_false] at ho
    rcases ho with rfl | rfl <;> exact .inl ⟨_, _, rfl⟩
  · obtain ⟨l, hl, ho⟩ := List.mem_flatten.1 ho
    obtain ⟨r, hr, rfl⟩ := List.mem_map.1 hl
    rcases refOps_cases hs hr o ho with ⟨p, t, rfl, _⟩ | ⟨a, b, h1, h2, rfl⟩
    · exact .inl ⟨_, _, rfl⟩
    · exact .inr ⟨a, b, fun p h3 h4 => .inl ⟨r, hr, a, b, h1, h2, h3, h4⟩, .inl rfl⟩
  · obtain ⟨l, hl, ho⟩ := List.mem_flatten.1 ho
    obtain ⟨x, hx, rfl⟩ := List.mem_map.1 hl
    have hf := List.fst_mem_of_mem_zipIdx hx
    rcases funcOps_cases hs hf _ _ o ho with ⟨p, t, rfl, _⟩ | ⟨y, hy, n, hn, hb, t, rfl, _⟩
    · exact .inl ⟨_, _, rfl⟩
    · exact .inr ⟨n.start, n.stop, fun p h3 h4 => .inr ⟨x.1, hf, y, hy, n, hn, blank_cases hb, h3, h4⟩, .inr ⟨t, rfl⟩⟩
  · unfold regOps at ho
    split at ho
    · cases ho
    · simp only [List.mem_cons, List.not_mem_nil, or_false] at ho
      rcases ho with rfl | rfl <;> exact .inl ⟨_, _, rfl⟩

/-- How many lines the edits add before an offset in the declarations. -/
theorem sum_ops {s : Src} (hp : pr '\n' = false) (hs : Spec.Names s) {i : Nat} (hi : i < s.declsEnd) :
    ((s.ops pr).map (adds i)).sum = shift s i := by
  rw [Src.ops, List.map_append, List.map_append, List.map_append, List.map_append, List.sum_append, List.sum_append, List.sum_append,
    List.sum_append, sum_vars i 0 s.vars s.index hs.vars]
  have h1 : ((s.imports.map (importOps s.nameEnd pr)).map (adds i)).sum = 0 := sum_zero fun o ho => by
    obtain ⟨m, hm, rfl⟩ := List.mem_map.1 ho
    have hn := hs.pkg m hm
    have hq := free_quote hp m.2
    refine adds_free ?_
    show Free (";import ".toList ++ m.1 ++ ' ' :: quote pr m.2)
    have hn : Free m.1 := hn
    free
  have h2 : (((s.refs.map refOps).flatten).map (adds i)).sum = 0 := sum_zero fun o ho => by
    obtain ⟨l, hl, ho⟩ := List.mem_flatten.1 ho
    obtain ⟨r, hr, rfl⟩ := List.mem_map.1 hl
    rcases refOps_cases hs hr o ho with ⟨p, t, rfl, ht⟩ | ⟨a, b, h1, h2, rfl⟩
    · exact adds_free ht
    · exact adds_free free_nil
  have h3 : (((s.funcs.zipIdx.map fun x => funcOps s.index x.2 x.1).flatten).map (adds i)).sum = 0 := sum_zero fun o ho => by
    obtain ⟨l, hl, ho⟩ := List.mem_flatten.1 ho
    obtain ⟨x, hx, rfl⟩ := List.mem_map.1 hl
    rcases funcOps_cases hs (List.fst_mem_of_mem_zipIdx hx) _ _ o ho with ⟨p, t, rfl, ht⟩ | ⟨y, hy, n, hn, hb, t, rfl, ht⟩
    · exact adds_free ht
    · exact adds_free ht
  have h4 : ((regOps pr s).map (adds i)).sum = 0 := sum_zero fun o ho => by
    unfold regOps at ho
    split at ho
    · cases ho
    · rename_i a b hr
      simp only [List.mem_cons, List.not_mem_nil, or_false] at ho
      rcases ho with rfl | rfl
      · exact adds_free (free_register hp (decls_free hs) hr)
      · unfold adds weight
        exact if_neg (show ¬ s.declsEnd ≤ i by omega)
  rw [h1, h2, h3, h4, shift]
  omega

theorem slice_get {text : Str} {a b p : Nat} (h1 : a ≤ p) (h2 : p < b) : (slice text a b)[p - a]? = text[p]? := by
  unfold slice
  rw [List.getElem?_take_of_lt (by omega), List.getElem?_drop, show a + (p - a) = p by omega]

/-- **C88.** In the file that is compiled, every character of the user's code is there, in its order; it is on the line it has in the
    source, if the types xgo writes for the variables declared above it have no line breaks, and otherwise lower by twice the number of
    their line breaks. Missing (see `C88_types`, `C88_ampersand`): the property holds without an exception only where types are on one line,
    and where an `&` that is taken out is on the line of its operand. -/
theorem C88_lines_partial (s : Src) (hp : pr '\n' = false) (hs : Spec.Names s)
    (ha : ∀ r ∈ s.refs, ∀ a b, r.addr = some (a, b) → r.fieldAccess = false → OneLine (slice s.text a b))
    (out : Str) (h : instrumented pr s = some out) :
    (∃ pos, Placed s out (shift s) pos) ∧
    ((∀ v ∈ s.vars, OneLine v.typ) → ∃ pos, Placed s out (fun _ => 0) pos) := by
  obtain ⟨b, hb, hout⟩ := Option.bind_eq_some_iff.1 h
  have hr := runOps_reachable _ .new hb
  have hplain : ∀ o ∈ s.ops pr, Plain o := by
    intro o ho
    rcases ops_cases hs o ho with ⟨p, t, rfl⟩ | ⟨a, b, _, rfl | ⟨t, rfl⟩⟩
    · exact Int.natCast_nonneg p
    · exact ⟨Int.natCast_nonneg a, Int.natCast_nonneg b⟩
    · exact ⟨Int.natCast_nonneg a, Int.natCast_nonneg b⟩
  have hq := runOps_q _ hplain hb
  rw [show (Buffer.mk' s.text : Buffer Char).q = [] from rfl, List.nil_append] at hq
  obtain ⟨h27a, h27b⟩ := C27_bytes hr
  have hcomp : Compatible b.q := Classical.byContradiction fun hn => by rw [h27b hn] at hout; cases hout
  have hed : out = edited s.text b.q := by rw [h27a hcomp] at hout; exact (Option.some.inj hout).symm
  have hv : ∀ e ∈ b.q, e.start ≤ e.stop := fun e he => ((reachable_valid hr).2 e he).1
  have hcov : ∀ p, covered b.q p = true → Removed s p := by
    intro p hc
    obtain ⟨e, he, hc⟩ := List.any_eq_true.1 hc
    rw [Bool.and_eq_true, decide_eq_true_eq, decide_eq_true_eq] at hc
    rw [hq] at he
    obtain ⟨o, ho, rfl⟩ := List.mem_map.1 he
    rcases ops_cases hs o ho with ⟨q, t, rfl⟩ | ⟨a, b, hrem, rfl | ⟨t, rfl⟩⟩
    · simp only [editOf] at hc; omega
    · exact hrem p hc.1 hc.2
    · exact hrem p hc.1 hc.2
  have hnl : ∀ p, covered b.q p = true → s.text[p]? ≠ some '\n' := by
    intro p hc hx
    rcases hcov p hc with ⟨r, hr, a, b, h1, h2, h3, h4⟩ | ⟨f, hf, x, hx', n, hn, _, h3, h4⟩
    · have := ha r hr a b h1 h2
      rw [← slice_get h3 h4] at hx
      exact this (List.mem_of_getElem? hx)
    · obtain ⟨h5, h6⟩ := hs.fields f hf x hx' n hn
      rw [← slice_get h3 h4, h6] at hx
      exact h5 (List.mem_of_getElem? hx)
  have key : ∃ pos, Placed s out (shift s) pos := by
    refine ⟨fun i => (before s.text b.q i).length, ?_, ?_⟩
    · intro i j hi hj hij
      have hc : covered b.q i = false := by
        rw [Bool.eq_false_iff]; exact fun hc => hi.2.2 (hcov i hc)
      exact before_mono s.text b.q hij hi.2.1 hc
    · intro i hi
      have hc : covered b.q i = false := by
        rw [Bool.eq_false_iff]; exact fun hc => hi.2.2 (hcov i hc)
      obtain ⟨rest, he⟩ := edited_around s.text b.q i hi.2.1 hc
      rw [hed, he]
      constructor
      · simp [List.getElem?_eq_getElem hi.2.1]
      · rw [List.take_left', lines, count_before '\n' s.text b.q i hi.2.1 hv hc hnl, hq, List.map_map,
          show (weight '\n' i ∘ editOf) = adds i from rfl, sum_ops hp hs hi.1]
        · rfl
        · rfl
  refine ⟨key, fun hone => ?_⟩
  obtain ⟨pos, h1, h2⟩ := key
  refine ⟨pos, h1, fun i hi => ?_⟩
  have h0 : shift s i = 0 := by
    unfold shift
    have : ∀ l : List VarSrc, (∀ v ∈ l, OneLine v.typ) → (l.map fun v => 2 * lines v.typ).sum = 0 := by
      intro l hl
      induction l with
      | nil => rfl
      | cons v l ih =>
        rw [List.map_cons, List.sum_cons, ih fun x hx => hl x (List.mem_cons_of_mem _ hx), lines,
          List.count_eq_zero.2 (hl v List.mem_cons_self)]
    exact this _ fun v hv => hone v (List.mem_filter.1 hv).1
  have := h2 i hi
  rw [h0] at this
  exact this

/-! ### Cases -/

/-- A character that occurs once is where it is. -/
theorem unique_at {c : Char} {a b : Str} (ha : c ∉ a) (hb : c ∉ b) {p : Nat} (h : (a ++ c :: b)[p]? = some c) : p = a.length := by
  rcases Nat.lt_trichotomy p a.length with hl | hl | hl
  · rw [List.getElem?_append_left hl] at h
    exact absurd (List.mem_of_getElem? h) ha
  · exact hl
  · rw [List.getElem?_append_right (Nat.le_of_lt hl)] at h
    obtain ⟨k, hk⟩ := Nat.exists_eq_add_of_lt hl
    rw [show p - a.length = k + 1 by omega, List.getElem?_cons_succ] at h
    exact absurd (List.mem_of_getElem? h) hb

/-- If a character of the user's code occurs once in the new text, on another line, the code is not left on its lines. -/
theorem not_placed {s : Src} {out : Str} (i : Nat) (c : Char) (hc : Code s i) (hi : s.text[i]? = some c)
    (hin : c ∈ out) (ha : c ∉ (out.dropWhile (· != c)).tail) (hn : lines (out.takeWhile (· != c)) ≠ lines (s.text.take i)) :
    ¬ ∃ pos, Placed s out (fun _ => 0) pos := by
  rintro ⟨pos, _, h⟩
  obtain ⟨h1, h2⟩ := h i hc
  rw [hi] at h1
  have hsp : out = out.takeWhile (· != c) ++ c :: (out.dropWhile (· != c)).tail := by
    have h0 := List.takeWhile_append_dropWhile (p := (· != c)) (l := out)
    cases hd : out.dropWhile (· != c) with
    | nil =>
      rw [hd, List.append_nil] at h0
      have := List.all_takeWhile (p := (· != c)) (l := out)
      rw [h0, List.all_eq_true] at this
      have := this c hin
      simp at this
    | cons x l =>
      have hx : x = c := by
        have := List.head?_dropWhile_not (p := (· != c)) (l := out)
        rw [hd] at this
        simpa using this
      rw [hd, hx] at h0
      exact h0.symm
  have hf : c ∉ out.takeWhile (· != c) := by
    intro hm
    have := List.all_takeWhile (p := (· != c)) (l := out)
    rw [List.all_eq_true] at this
    have := this c hm
    simp at this
  have hp : pos i = (out.takeWhile (· != c)).length := unique_at hf ha (by rw [← hsp]; exact h1)
  apply hn
  rw [Nat.add_zero] at h2
  rw [← h2, hp]
  congr 1
  have h3 := congrArg (List.take (out.takeWhile (· != c)).length) hsp
  rw [List.take_left' rfl] at h3
  exact h3.symm

theorem some_getD {α} {o : Option α} {d : α} (h : o.isSome = true) : o = some (o.getD d) := by
  cases o with
  | none => cases h
  | some x => rfl

/-- A printable ASCII character. -/
def ascii (c : Char) : Bool := ' ' ≤ c && c ≤ '~'

/-- A function with a blank parameter and an unnamed result. -/
def fGet : FuncSrc where
  name := "get".toList
  identity := "get".toList
  recvType := none
  recvGeneric := false
  genericParams := false
  line := 5
  bodyLine := 5
  recv := []
  params := [⟨[⟨31, 32, "_".toList⟩], 33⟩]
  results := [⟨[], 38⟩]
  paren := false
  paramsEnd := 37
  lbrace := 42

/-- A function without parameters. -/
def fPtr : FuncSrc where
  name := "ptr".toList
  identity := "ptr".toList
  recvType := none
  recvGeneric := false
  genericParams := false
  line := 9
  bodyLine := 9
  recv := []
  params := []
  results := [⟨[], 68⟩]
  paren := false
  paramsEnd := 67
  lbrace := 73

/-- A file with a variable, its uses, and a blank parameter. -/
def srcA : Src where
  text := "package a\n\nvar n int\n\nfunc get(_ int) int {\n\treturn n\n}\n\nfunc ptr() *int {\n\treturn & n\n}\n\nconst Z = 1\n".toList
  index := 2
  pkgPath := "example.com/a".toList
  absFile := "/w/a.go".toList
  stdlib := false
  nameEnd := 9
  firstEnd := 20
  declsEnd := 101
  vars := [{ pre := [], name := "n".toList, line := 3, declEnd := 20, typ := "int".toList }]
  refs := [{ pre := [], nameStart := 52, nameEnd := 53, addr := none, fieldAccess := false, needPtr := false },
    { pre := [], nameStart := 85, nameEnd := 86, addr := some (83, 85), fieldAccess := false, needPtr := true }]
  imports := []
  funcs := [fGet, fPtr]
  intfs := []

/-- The hypotheses of `C88_lines_partial` are met by a file with all kinds of edits, and the edits are made. -/
example : Spec.Names srcA ∧
    (∀ r ∈ srcA.refs, ∀ a b, r.addr = some (a, b) → r.fieldAccess = false → OneLine (slice srcA.text a b)) ∧
    (∀ v ∈ srcA.vars, OneLine v.typ) ∧ (instrumented ascii srcA).isSome = true ∧ (srcA.ops ascii).length = 16 ∧ Code srcA 96 := by
  refine ⟨⟨?_, ?_, ?_, ?_, ?_, ?_⟩, ?_, ?_, ?_, ?_, ?_⟩
  · unfold OneLine; decide
  · unfold OneLine; decide
  · unfold OneLine; decide
  · unfold OneLine; decide
  · unfold OneLine; decide
  · unfold OneLine; decide
  · intro r hr a b h1 h2
    rcases List.mem_cons.1 hr with rfl | hr
    · cases h1
    · rcases List.mem_cons.1 hr with rfl | hr
      · cases h1; unfold OneLine; decide
      · cases hr
  · unfold OneLine; decide
  · decide +kernel
  · decide +kernel
  · refine ⟨by decide, by decide, ?_⟩
    rintro (⟨r, hr, a, b, h1, h2, h3, h4⟩ | ⟨f, hf, x, hx, n, hn, h1, h3, h4⟩)
    · rcases List.mem_cons.1 hr with rfl | hr
      · cases h1
      · rcases List.mem_cons.1 hr with rfl | hr
        · cases h1; omega
        · cases hr
    · have : ∀ f ∈ srcA.funcs, ∀ x ∈ f.recv ++ f.params ++ f.results, ∀ n ∈ x.names, n.stop ≤ 96 := by decide
      have := this f hf x hx n hn
      omega

/-- A file whose variable has a type of several lines. -/
def srcB : Src where
  text := "package a\n\nvar v struct {\n\tA int\n}\n\nconst Z = 1\n".toList
  index := 0
  pkgPath := "a".toList
  absFile := "/a.go".toList
  stdlib := false
  nameEnd := 9
  firstEnd := 34
  declsEnd := 47
  vars := [{ pre := [], name := "v".toList, line := 3, declEnd := 34, typ := "struct {\n\tA int\n}".toList }]
  refs := []
  imports := []
  funcs := []
  intfs := []

/-- **C88, types of several lines**: the code below a variable whose type is written over several lines does not stay on its lines. -/
theorem C88_types : ∃ (s : Src) (out : Str), Spec.Names s ∧ s.refs = [] ∧ instrumented ascii s = some out ∧
    ¬ ∃ pos, Placed s out (fun _ => 0) pos := by
  have hsome : (instrumented ascii srcB).isSome = true := by decide +kernel
  refine ⟨srcB, (instrumented ascii srcB).getD [], ⟨?_, ?_, ?_, ?_, ?_, ?_⟩, rfl, some_getD hsome, ?_⟩
  · unfold OneLine; decide
  · unfold OneLine; decide
  · unfold OneLine; decide
  · unfold OneLine; decide
  · unfold OneLine; decide
  · unfold OneLine; decide
  · refine not_placed 42 'Z' ⟨by decide, by decide, ?_⟩ (by decide) (by decide +kernel) (by decide +kernel) (by decide +kernel)
    rintro (⟨r, hr, _⟩ | ⟨f, hf, _⟩)
    · cases hr
    · cases hf

/-- A file with the address of a variable taken over two lines. -/
def srcC : Src where
  text := "package a\n\nvar n int\n\nfunc ptr() *int {\n\treturn &\n\t\tn\n}\n\nconst Z = 1\n".toList
  index := 0
  pkgPath := "a".toList
  absFile := "/a.go".toList
  stdlib := false
  nameEnd := 9
  firstEnd := 20
  declsEnd := 68
  vars := [{ pre := [], name := "n".toList, line := 3, declEnd := 20, typ := "int".toList }]
  refs := [{ pre := [], nameStart := 52, nameEnd := 53, addr := some (48, 52), fieldAccess := false, needPtr := true }]
  imports := []
  funcs := []
  intfs := []

/-- **C88, `&` at the end of a line**: the line break behind it is taken out with it, and the code below moves up. -/
theorem C88_ampersand : ∃ (s : Src) (out : Str), Spec.Names s ∧ (∀ v ∈ s.vars, OneLine v.typ) ∧ instrumented ascii s = some out ∧
    ¬ ∃ pos, Placed s out (fun _ => 0) pos := by
  have hsome : (instrumented ascii srcC).isSome = true := by decide +kernel
  refine ⟨srcC, (instrumented ascii srcC).getD [], ⟨?_, ?_, ?_, ?_, ?_, ?_⟩, ?_, some_getD hsome, ?_⟩
  · unfold OneLine; decide
  · unfold OneLine; decide
  · unfold OneLine; decide
  · unfold OneLine; decide
  · unfold OneLine; decide
  · unfold OneLine; decide
  · unfold OneLine; decide
  · refine not_placed 63 'Z' ⟨by decide, by decide, ?_⟩ (by decide) (by decide +kernel) (by decide +kernel) (by decide +kernel)
    rintro (⟨r, hr, a, b, h1, h2, h3, h4⟩ | ⟨f, hf, _⟩)
    · rcases List.mem_cons.1 hr with rfl | hr
      · cases h1; omega
      · cases hr
    · cases hf

end Verif.Instrument.SourceLines
