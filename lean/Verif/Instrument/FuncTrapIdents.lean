/-
Properties of generated package level identifiers (C53), of what is registered about a function (C54), and of the build
cache key (C51).
-/
import Verif.Instrument.FuncTrapNames

namespace Verif.Instrument.FuncTrap
open Verif.Support (Str)

/-! ### Identifiers as tags with numbers -/

/-- The identifiers that are declared. -/
inductive Ident
  | infoType (i : Nat) | register (i : Nat) | trap (i : Nat) | trapVar (i : Nat) | trapVarPtr (i : Nat) | pkg (i : Nat)
  | init (i : Nat) | file (i : Nat) | fileVar (i : Nat) | fileGc (i : Nat)
  | varInfo (i j : Nat) | funcInfo (i j : Nat) | intfInfo (i j : Nat)
  deriving DecidableEq

/-- The parts between the underscores. -/
def Ident.parts : Ident → List Str
  | .infoType i => ["func".toList, "info".toList, dec i]
  | .register i => ["register".toList, dec i]
  | .trap i => ["trap".toList, dec i]
  | .trapVar i => ["trap".toList, "var".toList, dec i]
  | .trapVarPtr i => ["trap".toList, "varptr".toList, dec i]
  | .pkg i => ["pkg".toList, dec i]
  | .init i => ["init".toList, dec i]
  | .file i => ["file".toList, dec i]
  | .fileVar i => ["file".toList, "var".toList, dec i]
  | .fileGc i => ["file".toList, "gc".toList, dec i]
  | .varInfo i j => ["var".toList, "info".toList, dec i, dec j]
  | .funcInfo i j => ["func".toList, "info".toList, dec i, dec j]
  | .intfInfo i j => ["intf".toList, "info".toList, dec i, dec j]

/-- The text of an identifier. -/
def Ident.text (x : Ident) : Str := "__xgo".toList ++ (x.parts.map ('_' :: ·)).flatten

theorem parts_free (x : Ident) : ∀ p ∈ x.parts, '_' ∉ p := by
  cases x <;> simp only [Ident.parts, List.mem_cons, List.not_mem_nil, or_false, forall_eq_or_imp, forall_eq] <;>
    refine ⟨by decide, ?_⟩ <;> first
      | exact dec_free
      | exact ⟨by decide, dec_free⟩
      | exact ⟨by decide, dec_free, dec_free⟩

theorem join_inj : ∀ (a b : List Str), (∀ p ∈ a, '_' ∉ p) → (∀ p ∈ b, '_' ∉ p) →
    (a.map ('_' :: ·)).flatten = (b.map ('_' :: ·)).flatten → a = b := by
  have head : ∀ (p q r s : Str), '_' ∉ p → '_' ∉ q → (r = [] ∨ r.head? = some '_') → (s = [] ∨ s.head? = some '_') →
      p ++ r = q ++ s → p = q ∧ r = s := by
    intro p
    induction p with
    | nil =>
      intro q r s _ hq hr hs h
      cases q with
      | nil => exact ⟨rfl, h⟩
      | cons c q =>
        rw [List.nil_append] at h
        subst h
        simp only [List.cons_append, List.head?_cons, reduceCtorEq, Option.some.injEq, false_or] at hr
        subst hr
        exact absurd List.mem_cons_self hq
    | cons c p ih =>
      intro q r s hp hq hr hs h
      cases q with
      | nil =>
        rw [List.nil_append] at h
        subst h
        simp only [List.cons_append, List.head?_cons, reduceCtorEq, Option.some.injEq, false_or] at hs
        subst hs
        exact absurd List.mem_cons_self hp
      | cons d q =>
        simp only [List.cons_append, List.cons.injEq] at h
        obtain ⟨h1, h2⟩ := ih q r s (fun hm => hp (List.mem_cons_of_mem _ hm)) (fun hm => hq (List.mem_cons_of_mem _ hm))
          hr hs h.2
        exact ⟨by rw [h.1, h1], h2⟩
  have tl : ∀ l : List Str, (l.map ('_' :: ·)).flatten = [] ∨ (l.map ('_' :: ·)).flatten.head? = some '_' := by
    intro l; cases l <;> simp
  intro a
  induction a with
  | nil =>
    intro b _ _ h
    cases b with
    | nil => rfl
    | cons q b => simp at h
  | cons p a ih =>
    intro b ha hb h
    cases b with
    | nil => simp at h
    | cons q b =>
      simp only [List.map_cons, List.flatten_cons, List.cons_append, List.cons.injEq, true_and] at h
      obtain ⟨h1, h2⟩ := head p q _ _ (ha p List.mem_cons_self) (hb q List.mem_cons_self) (tl a) (tl b) h
      rw [h1, ih b (fun x hx => ha x (List.mem_cons_of_mem _ hx)) (fun x hx => hb x (List.mem_cons_of_mem _ hx)) h2]

theorem parts_inj {x y : Ident} (h : x.parts = y.parts) : x = y := by
  have ne : ∀ {a b : String}, a ≠ b → ¬ a.toList = b.toList := fun h e => h (String.toList_inj.1 e)
  cases x <;> cases y <;> simp only [Ident.parts, List.cons.injEq, and_true, reduceCtorEq, and_false] at h <;> first
    | (rw [dec_inj h.2]; done)
    | (rw [dec_inj h.2.2]; done)
    | (rw [dec_inj h.2.2.1, dec_inj h.2.2.2]; done)
    | exact absurd h.1 (by decide)
    | exact absurd h.2.1 (by decide)

theorem text_inj {x y : Ident} (h : x.text = y.text) : x = y :=
  parts_inj (join_inj _ _ (parts_free x) (parts_free y) (List.append_cancel_left h))

/-- The identifiers declared for index `i`. -/
def stubIdents (i : Nat) : List Ident :=
  [.infoType i, .register i, .trap i, .trapVar i, .trapVarPtr i, .pkg i, .init i]

theorem stubNames_eq (i : Nat) : stubNames i = (stubIdents i).map Ident.text := by
  simp [stubNames, stubIdents, Ident.text, Ident.parts]

/-- The identifiers declared in file `i`. -/
def fileIdents (i : Nat) (r : FileRegs) : List Ident :=
  if r.funcs + r.vars + r.intfs = 0 then []
  else stubIdents i ++ [.file i, .fileVar i] ++ (List.range r.vars).map (.varInfo i) ++
    (List.range r.funcs).map (.funcInfo i) ++ (List.range r.intfs).map (.intfInfo i)

theorem name2_var (i j : Nat) : name2 "__xgo_var_info".toList i j = (Ident.varInfo i j).text := by
  simp [name2, Ident.text, Ident.parts]
theorem name2_func (i j : Nat) : name2 "__xgo_func_info".toList i j = (Ident.funcInfo i j).text := by
  simp [name2, Ident.text, Ident.parts]
theorem name2_intf (i j : Nat) : name2 "__xgo_intf_info".toList i j = (Ident.intfInfo i j).text := by
  simp [name2, Ident.text, Ident.parts]

theorem fileDeclares_eq (i : Nat) (r : FileRegs) : fileDeclares i r = (fileIdents i r).map Ident.text := by
  unfold fileDeclares fileIdents
  split
  · rfl
  · simp only [List.map_append, List.map_map, stubNames_eq]
    congr 1
    · congr 1
      · congr 1
        · congr 1
          simp [Ident.text, Ident.parts]
        · exact List.map_congr_left fun j _ => name2_var i j
      · exact List.map_congr_left fun j _ => name2_func i j
    · exact List.map_congr_left fun j _ => name2_intf i j

/-- The index of the file an identifier belongs to. -/
def Ident.fileOf : Ident → Nat
  | .infoType i | .register i | .trap i | .trapVar i | .trapVarPtr i | .pkg i | .init i | .file i | .fileVar i
  | .fileGc i => i
  | .varInfo i _ | .funcInfo i _ | .intfInfo i _ => i

theorem fileIdents_file {i : Nat} {r : FileRegs} {x : Ident} (h : x ∈ fileIdents i r) : x.fileOf = i := by
  unfold fileIdents at h
  split at h
  · exact absurd h (by simp)
  · simp only [stubIdents, List.mem_append, List.mem_cons, List.not_mem_nil, or_false, List.mem_map] at h
    rcases h with (((h | h) | ⟨j, _, rfl⟩) | ⟨j, _, rfl⟩) | ⟨j, _, rfl⟩
    · rcases h with rfl | rfl | rfl | rfl | rfl | rfl | rfl <;> rfl
    · rcases h with rfl | rfl <;> rfl
    · rfl
    · rfl
    · rfl

theorem fileIdents_nodup (i : Nat) (r : FileRegs) : (fileIdents i r).Nodup := by
  unfold fileIdents
  split
  · exact List.nodup_nil
  · have h1 : (stubIdents i ++ [Ident.file i, Ident.fileVar i]).Nodup := by
      simp [stubIdents]
    have nr : ∀ (f : Nat → Ident), (∀ a b, f a = f b → a = b) → ∀ n, ((List.range n).map f).Nodup := by
      intro f hf n
      rw [List.nodup_map_iff_inj_on List.nodup_range]
      exact fun a _ b _ => hf a b
    rw [List.nodup_append, List.nodup_append, List.nodup_append]
    refine ⟨⟨⟨h1, nr _ (fun a b h => by injection h) _, ?_⟩, nr _ (fun a b h => by injection h) _, ?_⟩,
      nr _ (fun a b h => by injection h) _, ?_⟩
    all_goals
      intro a ha b hb
      simp only [stubIdents, List.mem_append, List.mem_cons, List.not_mem_nil, or_false, List.mem_map] at ha hb
      grind

/-- **C53.** Packages rewritten in place: no identifier is declared twice, whatever is registered in the files. -/
theorem C53_distinct (files : List FileRegs) : (pkgDeclares files).Nodup := by
  have h : pkgDeclares files = ((files.zipIdx.map fun x => fileIdents x.2 x.1).flatten).map Ident.text := by
    unfold pkgDeclares
    rw [List.map_flatten, List.map_map]
    congr 1
    exact List.map_congr_left fun x _ => fileDeclares_eq _ _
  rw [h]
  refine List.Nodup.map (fun a b => text_inj) ?_
  suffices hs : ∀ k, ((files.zipIdx k).map fun x => fileIdents x.2 x.1).flatten.Nodup from hs 0
  clear h
  induction files with
  | nil => simp
  | cons f fs ih =>
    intro k
    rw [List.zipIdx_cons, List.map_cons, List.flatten_cons, List.nodup_append]
    refine ⟨fileIdents_nodup _ _, ih (k + 1), ?_⟩
    intro a ha b hb hab
    subst hab
    rw [List.mem_flatten] at hb
    obtain ⟨l, hl, hb⟩ := hb
    rw [List.mem_map] at hl
    obtain ⟨⟨g, j⟩, hm, rfl⟩ := hl
    have h1 := fileIdents_file ha
    have h2 := fileIdents_file hb
    have h3 := List.mem_zipIdx hm
    simp only at h2 h3 h1
    omega

set_option simprocs false in
/-- **C53.** Packages rewritten in place: every identifier used in a file is declared in that file. -/
theorem C53_declared (i : Nat) (r : FileRegs) : ∀ n ∈ fileUses i r, n ∈ fileDeclares i r := by
  intro n hn
  unfold fileUses at hn
  unfold fileDeclares
  by_cases h0 : r.funcs + r.vars + r.intfs = 0
  · have h1 : r.funcs = 0 := by omega
    have h2 : r.vars = 0 := by omega
    have h3 : r.intfs = 0 := by omega
    simp [h1, h2, h3] at hn
  · rw [if_neg h0]
    rw [if_neg h0] at hn
    rw [List.mem_append, List.mem_append, List.mem_append, List.mem_append, List.mem_append, List.mem_append] at hn
    rw [List.mem_append, List.mem_append, List.mem_append, List.mem_append]
    rcases hn with (((((hn | hn) | hn) | hn) | hn) | hn) | hn
    · split at hn
      · exact absurd hn (by simp)
      · refine Or.inl (Or.inl (Or.inl (Or.inl ?_)))
        rw [List.mem_singleton] at hn; simp [stubNames, hn]
    · split at hn
      · exact absurd hn (by simp)
      · refine Or.inl (Or.inl (Or.inl ?_))
        simp only [List.mem_cons, List.not_mem_nil, or_false] at hn
        rcases hn with rfl | rfl | rfl <;> simp [stubNames]
    · split at hn
      · exact absurd hn (by simp)
      · refine Or.inl (Or.inl (Or.inl (Or.inr ?_)))
        rw [List.mem_singleton] at hn; simp [hn]
    · refine Or.inl (Or.inl (Or.inl (Or.inl ?_)))
      simp only [List.mem_cons, List.not_mem_nil, or_false] at hn
      rcases hn with rfl | rfl | rfl | rfl <;> simp [stubNames]
    · exact Or.inl (Or.inl (Or.inr hn))
    · exact Or.inl (Or.inr hn)
    · exact Or.inr hn

example : (pkgDeclares [{ funcs := 2, vars := 1 }, {}, { intfs := 1 }]).length = 22 ∧
    "__xgo_func_info_0_1".toList ∈ fileUses 0 { funcs := 2, vars := 1 } := by decide +kernel

/-- The identifier a compiler registration declares. -/
def CReg.ident (r : CReg) : Ident := if r.intf then .intfInfo r.file r.decl else .funcInfo r.file r.decl

theorem infoVar_eq (r : CReg) : r.infoVar = r.ident.text := by
  unfold CReg.infoVar CReg.ident
  split
  · exact name2_intf _ _
  · exact name2_func _ _

theorem ident_inj {a b : CReg} (h : a.ident = b.ident) : a = b := by
  obtain ⟨f, d, i⟩ := a
  obtain ⟨f', d', i'⟩ := b
  cases i <;> cases i' <;> simp_all [CReg.ident]

/-- The identifiers the compiler declares. -/
def compIdents (files : List Nat) (regs : List CReg) (hasVarTrap : Bool) : List Ident :=
  if regs = [] then []
  else files.map .fileGc ++ (if hasVarTrap then [] else stubIdents 0) ++ regs.map CReg.ident

theorem compilerDeclares_eq (files : List Nat) (regs : List CReg) (v : Bool) :
    compilerDeclares files regs v = (compIdents files regs v).map Ident.text := by
  unfold compilerDeclares compIdents
  by_cases h : regs = []
  · rw [if_pos h, if_pos h]; rfl
  · rw [if_neg h, if_neg h, List.map_append, List.map_append, List.map_map, List.map_map]
    congr 1
    · congr 1
      · refine List.map_congr_left fun i _ => ?_
        simp [Ident.text, Ident.parts]
      · cases v
        · exact stubNames_eq 0
        · rfl
    · exact List.map_congr_left fun r _ => infoVar_eq r

theorem compIdents_nodup {files : List Nat} {regs : List CReg} (v : Bool) (hf : files.Nodup) (hr : regs.Nodup) :
    (compIdents files regs v).Nodup := by
  unfold compIdents
  split
  · exact List.nodup_nil
  · have h1 : (files.map Ident.fileGc).Nodup := List.Nodup.map (fun a b h => by injection h) hf
    have h2 : (regs.map CReg.ident).Nodup := List.Nodup.map (fun a b => ident_inj) hr
    have h3 : (if v = true then [] else stubIdents 0).Nodup := by cases v <;> simp [stubIdents]
    have hs : ∀ {x}, x ∈ (if v = true then [] else stubIdents 0) → x ∈ stubIdents 0 := by
      intro x hx; cases v <;> simp_all
    rw [List.nodup_append, List.nodup_append]
    refine ⟨⟨h1, h3, ?_⟩, h2, ?_⟩
    · intro a ha b hb
      have hb := hs hb
      simp only [stubIdents, List.mem_cons, List.not_mem_nil, or_false, List.mem_map] at ha hb
      grind
    · intro a ha b hb
      rw [List.mem_append, List.mem_map] at ha
      rw [List.mem_map] at hb
      obtain ⟨r, _, rfl⟩ := hb
      rcases ha with ⟨i, _, rfl⟩ | ha
      · unfold CReg.ident; split <;> simp
      · have ha := hs ha
        simp only [stubIdents, List.mem_cons, List.not_mem_nil, or_false] at ha
        unfold CReg.ident
        split <;> rcases ha with rfl | rfl | rfl | rfl | rfl | rfl | rfl <;> simp

/-- The identifiers declared in the files of a package. -/
def pkgIdents (files : List FileRegs) : List Ident := (files.zipIdx.map fun x => fileIdents x.2 x.1).flatten

theorem pkgDeclares_eq (files : List FileRegs) : pkgDeclares files = (pkgIdents files).map Ident.text := by
  unfold pkgDeclares pkgIdents
  rw [List.map_flatten, List.map_map]
  congr 1
  exact List.map_congr_left fun x _ => fileDeclares_eq _ _

/-- **C53.** Packages handled by the compiler, possibly with intercepted variables: no identifier is declared twice. -/
theorem C53_compiler_distinct {mockedVars : Nat} (vars : List Nat) {files : List Nat} {regs : List CReg}
    (hv : (∃ v ∈ vars, 0 < v) → 0 < mockedVars) (hf : files.Nodup) (hr : regs.Nodup) :
    (depDeclares mockedVars vars files regs).Nodup := by
  have hp := C53_distinct (vars.map fun v => { vars := v })
  unfold depDeclares
  rw [compilerDeclares_eq, List.nodup_append]
  refine ⟨hp, List.Nodup.map (fun a b => text_inj) (compIdents_nodup _ hf hr), ?_⟩
  intro a ha b hb hab
  rw [pkgDeclares_eq, List.mem_map] at ha
  rw [List.mem_map] at hb
  obtain ⟨x, hx, rfl⟩ := ha
  obtain ⟨y, hy, hyx⟩ := hb
  have hxy : y = x := text_inj (hyx.trans hab.symm)
  subst hxy
  unfold pkgIdents at hx
  rw [List.mem_flatten] at hx
  obtain ⟨l, hl, hx⟩ := hx
  rw [List.mem_map] at hl
  obtain ⟨⟨r, i⟩, hm, rfl⟩ := hl
  have hm := List.fst_mem_of_mem_zipIdx hm
  rw [List.mem_map] at hm
  obtain ⟨v, hmv, rfl⟩ := hm
  unfold fileIdents at hx
  split at hx
  · exact absurd hx (by simp)
  · rename_i hpos
    have hv0 : 0 < v := by simp at hpos; omega
    rw [decide_eq_true (hv ⟨v, hmv, hv0⟩)] at hy
    unfold compIdents at hy
    split at hy
    · exact absurd hy (by simp)
    · simp only [if_true, List.append_nil, List.mem_append, List.mem_map] at hy
      simp only [List.range_zero, List.map_nil, List.append_nil, List.mem_append, List.mem_map, stubIdents,
        List.mem_cons, List.not_mem_nil, or_false] at hx
      rcases hy with ⟨j, _, rfl⟩ | ⟨c, _, rfl⟩
      · grind
      · unfold CReg.ident at hx
        split at hx <;> grind

set_option simprocs false in
/-- **C53 (part).** Packages handled by the compiler: every identifier used by the code the compiler adds is declared,
    provided no variable is mocked, or one of the package's first file is intercepted.
    Missing: packages with intercepted variables in other files only, see `C53_counterexample`, or none at all, see
    `C53_counterexample_type`. -/
theorem C53_compiler_declared_partial (mockedVars : Nat) (vars : List Nat) (files : List Nat) (regs : List CReg)
    (hfiles : ∀ r ∈ regs, r.file ∈ files)
    (hvars : mockedVars = 0 ∨ ∃ v vs, vars = v :: vs ∧ 0 < v) :
    ∀ n ∈ compilerUses regs, n ∈ depDeclares mockedVars vars files regs := by
  intro n hn
  unfold compilerUses at hn
  split at hn
  · exact absurd hn (by simp)
  · rename_i hne
    unfold depDeclares compilerDeclares
    rw [if_neg hne]
    rw [List.mem_append, List.mem_append] at hn
    rw [List.mem_append, List.mem_append, List.mem_append]
    rcases hn with (hn | hn) | hn
    · rw [List.mem_map] at hn
      obtain ⟨r, hr, rfl⟩ := hn
      exact Or.inr (Or.inl (Or.inl (List.mem_map.2 ⟨r.file, hfiles r hr, rfl⟩)))
    · exact Or.inr (Or.inr hn)
    · have hs : n ∈ stubNames 0 := by
        simp only [List.mem_cons, List.not_mem_nil, or_false] at hn
        rcases hn with rfl | rfl | rfl | rfl | rfl <;> simp [stubNames]
      rcases hvars with rfl | ⟨v, vs, rfl, hv⟩
      · exact Or.inr (Or.inl (Or.inr hs))
      · left
        unfold pkgDeclares
        rw [List.map_cons, List.zipIdx_cons, List.map_cons, List.flatten_cons, List.mem_append]
        left
        unfold fileDeclares
        rw [if_neg (by simp; omega), List.mem_append, List.mem_append, List.mem_append, List.mem_append]
        exact Or.inl (Or.inl (Or.inl (Or.inl hs)))

example : "__xgo_trap_0".toList ∈ compilerUses [⟨1, 0, false⟩] ∧
    "__xgo_trap_0".toList ∈ depDeclares 0 [0, 0] [1] [⟨1, 0, false⟩] ∧
    "__xgo_trap_0".toList ∈ depDeclares 1 [1, 0] [1] [⟨1, 0, false⟩] := by decide +kernel

/-- **C53 is false in general:** when a function of a dependency and a variable declared in its second file are mocked,
    `__xgo_trap_0` is called but declared nowhere, so the package does not compile. -/
theorem C53_counterexample : ∃ (vars files : List Nat) (regs : List CReg),
    (∀ r ∈ regs, r.file ∈ files) ∧ vars = [0, 1] ∧ "__xgo_trap_0".toList ∈ compilerUses regs ∧
    "__xgo_trap_0".toList ∉ depDeclares 1 vars files regs :=
  ⟨[0, 1], [0], [⟨0, 2, false⟩], by decide +kernel⟩

/-- The same happens if the type of the only mocked variable cannot be determined, so that it is not intercepted. -/
theorem C53_counterexample_type : ∃ (vars files : List Nat) (regs : List CReg),
    (∀ r ∈ regs, r.file ∈ files) ∧ vars = [0] ∧ "__xgo_trap_0".toList ∈ compilerUses regs ∧
    "__xgo_trap_0".toList ∉ depDeclares 1 vars files regs :=
  ⟨[0], [0], [⟨0, 2, false⟩], by decide +kernel⟩

/-! ### Getters of variables -/

theorem append_inj_of_len {a b c d : Str} (h : a ++ c = b ++ d) (hl : c.length = d.length) : a = b ∧ c = d :=
  List.append_inj' h hl

/-- The prefix of the getters of a variable. -/
def getterPrefix (file n : Str) : Str :=
  if "_test.go".toList.isSuffixOf file && "Test".toList.isPrefixOf n then "T_".toList else []

set_option simprocs false in
/-- **C53 (part).** The getters generated for two variables of a package have different names, unless one of them is a
    variable `Test…` of a test file and the other is called `T_Test…`.
    Missing: that case, see `C53_counterexample_getter`; and names ending in `_xgo_get` that the program declares. -/
theorem C53_getters_partial {file₁ file₂ n₁ n₂ : Str} (hne : n₁ ≠ n₂) (h₁ : ¬ "T_Test".toList.isPrefixOf n₁)
    (h₂ : ¬ "T_Test".toList.isPrefixOf n₂) :
    ∀ a ∈ getterNames file₁ n₁, ∀ b ∈ getterNames file₂ n₂, a ≠ b := by
  have key : ∀ (m₁ m₂ s : Str), m₁ ++ "_xgo_get".toList ≠ m₂ ++ "_xgo_get_addr".toList := by
    intro m₁ m₂ s h
    have h1 := congrArg List.getLast? h
    have hl : ∀ (m w : Str) (c : Char), (m ++ (w ++ [c])).getLast? = some c := by
      intro m w c; rw [← List.append_assoc, List.getLast?_concat]
    have h2 : "_xgo_get".toList = "_xgo_ge".toList ++ ['t'] := by decide
    have h3 : "_xgo_get_addr".toList = "_xgo_get_add".toList ++ ['r'] := by decide
    rw [h2, h3, hl, hl] at h1
    exact absurd h1 (by decide)
  have pre : ∀ (f₁ f₂ : Str), getterPrefix f₁ n₁ ++ n₁ ≠ getterPrefix f₂ n₂ ++ n₂ := by
    intro f₁ f₂ h
    unfold getterPrefix at h
    split at h <;> split at h
    · exact hne (List.append_cancel_left h)
    · rename_i ha hb
      refine h₂ ?_
      rw [List.nil_append] at h
      rw [← h]
      simp only [Bool.and_eq_true, List.isPrefixOf_iff_prefix] at ha
      obtain ⟨r, hr⟩ := ha.2
      rw [List.isPrefixOf_iff_prefix]
      exact ⟨r, by rw [← hr, ← List.append_assoc]; rfl⟩
    · rename_i ha hb
      refine h₁ ?_
      rw [List.nil_append] at h
      rw [h]
      simp only [Bool.and_eq_true, List.isPrefixOf_iff_prefix] at hb
      obtain ⟨r, hr⟩ := hb.2
      rw [List.isPrefixOf_iff_prefix]
      exact ⟨r, by rw [← hr, ← List.append_assoc]; rfl⟩
    · exact hne h
  intro a ha b hb hab
  have e : ∀ f n, getterNames f n =
      [(getterPrefix f n ++ n) ++ "_xgo_get".toList, (getterPrefix f n ++ n) ++ "_xgo_get_addr".toList] := fun _ _ => rfl
  rw [e, List.mem_cons, List.mem_singleton] at ha hb
  rcases ha with rfl | rfl <;> rcases hb with rfl | rfl
  · exact pre _ _ (List.append_cancel_right hab)
  · exact key _ _ [] hab
  · exact key _ _ [] hab.symm
  · exact pre _ _ (List.append_cancel_right hab)

example : getterNames "a_test.go".toList "TestData".toList =
      ["T_TestData_xgo_get".toList, "T_TestData_xgo_get_addr".toList] ∧
    getterNames "a.go".toList "Data".toList = ["Data_xgo_get".toList, "Data_xgo_get_addr".toList] := by decide +kernel

set_option simprocs false in
/-- **C53.** The two getters of a variable have different names. -/
theorem C53_getter_pair (file n : Str) : (getterNames file n).Nodup := by
  have e : getterNames file n =
      [(getterPrefix file n ++ n) ++ "_xgo_get".toList, (getterPrefix file n ++ n) ++ "_xgo_get_addr".toList] := rfl
  rw [e, List.nodup_cons, List.mem_singleton]
  refine ⟨fun h => absurd (List.append_cancel_left h) (by decide), List.nodup_singleton _⟩

/-- Variables `TestX` of a test file and `T_TestX` of any file get getters with the same names. -/
theorem C53_counterexample_getter : ∃ (file₁ file₂ n₁ n₂ : Str), n₁ ≠ n₂ ∧
    ∃ a ∈ getterNames file₁ n₁, a ∈ getterNames file₂ n₂ :=
  ⟨"a_test.go".toList, "a.go".toList, "TestX".toList, "T_TestX".toList, by decide +kernel,
    "T_TestX_xgo_get".toList, by decide +kernel⟩

/-! ### What is registered about a function -/

/-- **C54 (part).** For a method of a package rewritten in place, the registered receiver name is the name it has in
    the source, or a generated one if it has none.
    Missing: methods handled by the compiler, see `C54_counterexample`. -/
theorem C54_receiver_partial (s : Sig) (n : Str) (hn : n ≠ [] ∧ n ≠ "_".toList) (hr : s.recv = [[n]]) :
    inPlaceRecvName s = some n := by
  unfold inPlaceRecvName sigNames
  rw [hr]
  have hb : blank n = false := by
    unfold blank
    rw [decide_eq_false hn.1, decide_eq_false hn.2]; rfl
  simp [fieldNames, hb]

example : inPlaceRecvName { recv := [["c".toList]] } = some "c".toList ∧
    inPlaceRecvName { recv := [[]] } = some "__xgo_auto_rcv_0".toList := by decide +kernel

/-- **C54 is false for methods handled by the compiler:** the receiver of `func (c *Counter) Add()` is registered under
    the name `Counter`, not `c`, and two methods with differently named receivers get the same name. -/
theorem C54_counterexample : ∃ d : FuncDecl, d.recv = some (.star (.ident "Counter".toList)) ∧
    (compilerRecv d).map compilerRecvName = some (some "Counter".toList) :=
  ⟨{ name := "Add".toList, recv := some (.star (.ident "Counter".toList)) }, by decide +kernel⟩

/-! ### The build cache key -/

/-- **C51 (part).** Mocking one more function of a file (and none less) changes the key under which the compiled package
    is stored, if the hash has no collisions.
    Missing: sets of functions in general, see `C51_counterexample`. -/
theorem C51_more_functions_partial {hash : Str → Str} (hinj : ∀ a b, hash a = hash b → a = b)
    (before after : List TrapFile) (file : Str) (funcs more intfs : List Str) (v : Bool)
    (hmore : more.flatten ≠ []) :
    trapSum hash (before ++ ⟨file, funcs, intfs⟩ :: after) v ≠
      trapSum hash (before ++ ⟨file, funcs ++ more, intfs⟩ :: after) v := by
  intro h
  have h := congrArg List.length (hinj _ _ h)
  have hl : 0 < more.flatten.length := List.length_pos_iff.2 hmore
  unfold trapText at h
  simp only [List.map_append, List.map_cons, List.flatten_append, List.flatten_cons, List.length_append] at h
  omega

example : trapText [⟨"a.go".toList, ["Get".toList], []⟩] false ≠
    trapText [⟨"a.go".toList, ["Get".toList, "Set".toList], []⟩] false := by decide +kernel

/-- **C51 (part).** Mocking a variable in addition changes the key. -/
theorem C51_variable_partial {hash : Str → Str} (hinj : ∀ a b, hash a = hash b → a = b) (files : List TrapFile) :
    trapSum hash files true ≠ trapSum hash files false := by
  intro h
  have h := List.append_cancel_left (hinj _ _ h)
  exact absurd h (by decide)

/-- **C51 is false in general:** the names are hashed without separators, so a package with functions `Get`, `All` and
    `GetAll` has the same key whether `GetAll` is intercepted or `Get` and `All` are. With a shared build cache, the
    second build reuses the first one's package and the mocks of `Get` and `All` have no effect. -/
theorem C51_counterexample : ∃ (file : Str) (funcs₁ funcs₂ : List Str),
    (∃ f ∈ funcs₁, f ∉ funcs₂) ∧ (∃ f ∈ funcs₂, f ∉ funcs₁) ∧
    ∀ (hash : Str → Str) (v : Bool), trapSum hash [⟨file, funcs₁, []⟩] v = trapSum hash [⟨file, funcs₂, []⟩] v :=
  ⟨"a.go".toList, ["Get".toList, "All".toList], ["GetAll".toList], by decide +kernel, by decide +kernel,
    fun _ _ => rfl⟩

end Verif.Instrument.FuncTrap
