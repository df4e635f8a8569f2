/-
Properties of the table of functions (C38) and of mocking by name (C55).
-/
import Verif.Runtime.FunctabProps

namespace Verif.Runtime.Functab
open Spec

/-- The struct after registration: its full name is filled in. -/
def filled (sym : Nat → Str) (i : Info) : Info := { i with fullName := pcFullName sym i }

theorem registerAll_append (sym : Nat → Str) (a b : List Info) (t : Tab) :
    registerAll sym (a ++ b) t = (registerAll sym a t).bind (registerAll sym b) := by
  induction a generalizing t with
  | nil => rfl
  | cons i a ih =>
    simp only [List.cons_append, registerAll]
    cases register sym t i with
    | none => rfl
    | some t' => simp [ih]

/-- What a table that results from registrations looks like. -/
structure Good (t : Tab) : Prop where
  byName : ∀ p n, t.byName p n = lastWith t.infos fun i => i.identity ≠ [] ∧ i.pkg = p ∧ i.identity = n
  byPC : ∀ pc, t.byPC pc = lastWith t.infos fun i => i.generic = false ∧ pcOf i ≠ 0 ∧ pcOf i = pc
  byAddr : ∀ a, t.byAddr a = lastWith t.infos fun i => i.kind = .var ∧ i.var = some a
  byFull : ∀ n, t.byFull n = lastWith t.infos fun i => i.fullName ≠ [] ∧ i.fullName = n
  intfs : ∀ p n, t.intfs p n = lastWith t.infos fun i => i.isInterface ∧ i.recvType ≠ [] ∧ i.pkg = p ∧ i.recvType = n

theorem lastWith_snoc (l : List Info) (i : Info) (p : Info → Bool) :
    lastWith (l ++ [i]) p = if p i = true then some i else lastWith l p := by
  unfold lastWith
  rw [List.filter_append]
  cases h : p i <;> simp [h]

theorem ite_cond_congr {α : Type} {p q : Prop} [Decidable p] [Decidable q] {x y : α} (h : p = q) :
    (if p then x else y) = if q then x else y := by
  subst h
  congr

theorem flip2 {P : Prop} {α : Type} {a b : α} : (P ∧ a = b) ↔ (P ∧ b = a) :=
  ⟨fun h => ⟨h.1, h.2.symm⟩, fun h => ⟨h.1, h.2.symm⟩⟩
theorem flip3 {P Q : Prop} {α : Type} {a b : α} : (P ∧ Q ∧ a = b) ↔ (P ∧ Q ∧ b = a) :=
  ⟨fun h => ⟨h.1, h.2.1, h.2.2.symm⟩, fun h => ⟨h.1, h.2.1, h.2.2.symm⟩⟩
theorem flip4 {P : Prop} {α β : Type} {a b : α} {c d : β} : (P ∧ a = b ∧ c = d) ↔ (P ∧ b = a ∧ d = c) :=
  ⟨fun h => ⟨h.1, h.2.1.symm, h.2.2.symm⟩, fun h => ⟨h.1, h.2.1.symm, h.2.2.symm⟩⟩
theorem flip5 {P Q : Prop} {α β : Type} {a b : α} {c d : β} : (P ∧ Q ∧ a = b ∧ c = d) ↔ (P ∧ Q ∧ b = a ∧ d = c) :=
  ⟨fun h => ⟨h.1, h.2.1, h.2.2.1.symm, h.2.2.2.symm⟩, fun h => ⟨h.1, h.2.1, h.2.2.1.symm, h.2.2.2.symm⟩⟩

theorem good_register {sym : Nat → Str} {t t' : Tab} {i : Info} (hg : Good t) (h : register sym t i = some t') :
    Good t' ∧ t'.infos = t.infos ++ [filled sym i] ∧ t'.typeMethods = t.typeMethods := by
  unfold register at h
  split at h
  · cases h
  · injection h with h
    subst h
    refine ⟨⟨?_, ?_, ?_, ?_, ?_⟩, rfl, rfl⟩
    all_goals
      intros
      simp only [lastWith_snoc, hg.byName, hg.byPC, hg.byAddr, hg.byFull, hg.intfs, decide_eq_true_eq]
      try (refine ite_cond_congr (propext ?_); exact flip2)
      try (refine ite_cond_congr (propext ?_); exact flip3)
      try (refine ite_cond_congr (propext ?_); exact flip4)
      try (refine ite_cond_congr (propext ?_); exact flip5)

theorem good_all {sym : Nat → Str} : ∀ (is : List Info) {t t' : Tab}, Good t → registerAll sym is t = some t' →
    Good t' ∧ t'.infos = t.infos ++ is.map (filled sym) ∧ t'.typeMethods = t.typeMethods := by
  intro is
  induction is with
  | nil => intro t t' hg h; cases h; exact ⟨hg, by simp, rfl⟩
  | cons i is ih =>
    intro t t' hg h
    simp only [registerAll] at h
    cases hr : register sym t i with
    | none => rw [hr] at h; cases h
    | some t1 =>
      rw [hr] at h
      obtain ⟨g1, e1, m1⟩ := good_register hg hr
      obtain ⟨g2, e2, m2⟩ := ih g1 h
      exact ⟨g2, by rw [e2, e1]; simp, m2.trans m1⟩

theorem good_empty : Good {} := by
  constructor <;> intros <;> rfl

/-- **C38.** After any sequence of registrations, each lookup gives the last function registered that has the name,
    entry point, address or interface type in question, and nothing if there is none. -/
theorem C38_registered (sym : Nat → Str) (is : List Info) (t : Tab) (h : registerAll sym is {} = some t) :
    t.infos = is.map (filled sym) ∧
    (∀ p n, t.byName p n = lastWith t.infos fun i => i.identity ≠ [] ∧ i.pkg = p ∧ i.identity = n) ∧
    (∀ pc, infoPC t pc = lastWith t.infos fun i => i.generic = false ∧ pcOf i ≠ 0 ∧ pcOf i = pc) ∧
    (∀ a, infoVar t a = lastWith t.infos fun i => i.kind = .var ∧ i.var = some a) ∧
    (∀ n, t.byFull n = lastWith t.infos fun i => i.fullName ≠ [] ∧ i.fullName = n) ∧
    (∀ p n, t.intfs p n = lastWith t.infos fun i => i.isInterface ∧ i.recvType ≠ [] ∧ i.pkg = p ∧ i.recvType = n) := by
  obtain ⟨g, e, -⟩ := good_all is good_empty h
  exact ⟨by simpa using e, g.byName, g.byPC, g.byAddr, g.byFull, g.intfs⟩

/-- **C38.** Registration never panics for functions whose full name is left to the table, and the table then has all of
    them, in the order of registration. -/
theorem C38_succeeds (sym : Nat → Str) (is : List Info) (hn : ∀ i ∈ is, i.fullName = []) (t : Tab) :
    ∃ t', registerAll sym is t = some t' ∧ t'.infos.length = t.infos.length + is.length := by
  induction is generalizing t with
  | nil => exact ⟨t, rfl, rfl⟩
  | cons i is ih =>
    have h0 := hn i (List.mem_cons_self ..)
    have hr : ∃ t1, register sym t i = some t1 ∧ t1.infos.length = t.infos.length + 1 := by
      unfold register
      rw [if_neg (by simp [h0])]
      exact ⟨_, rfl, by simp⟩
    obtain ⟨t1, h1, l1⟩ := hr
    obtain ⟨t2, h2, l2⟩ := ih (fun j hj => hn j (List.mem_cons_of_mem _ hj)) t1
    exact ⟨t2, by simp only [registerAll, h1]; exact h2, by rw [l2, l1, List.length_cons]; omega⟩

/-- **C38.** `GetFuncByPkg(pkg, "T.f")`: the method `T.f`, or else `(*T).f`; a name without a dot is looked up as it is. -/
theorem C38_by_package (sym : Nat → Str) (is : List Info) (t : Tab) (h : registerAll sym is {} = some t) (pkg : Str) :
    (∀ n, '.' ∉ n → getFuncByPkg t pkg n =
      lastWith t.infos fun i => i.identity ≠ [] ∧ i.pkg = pkg ∧ i.identity = n) ∧
    (∀ ty f, '.' ∉ ty → ¬ "(".toList.isPrefixOf ty →
      getFuncByPkg t pkg (ty ++ '.' :: f) =
        ((lastWith t.infos fun i => i.identity ≠ [] ∧ i.pkg = pkg ∧ i.identity = ty ++ '.' :: f).orElse fun _ =>
          lastWith t.infos fun i => i.identity ≠ [] ∧ i.pkg = pkg ∧
            i.identity = "(*".toList ++ ty ++ ").".toList ++ f)) := by
  obtain ⟨-, hb, -⟩ := C38_registered sym is t h
  constructor
  · intro n hn
    unfold getFuncByPkg
    rw [← hb pkg n]
    cases t.byName pkg n with
    | some i => rfl
    | none => simp [hn]
  · intro ty f hd hp
    unfold getFuncByPkg
    rw [← hb, ← hb]
    cases t.byName pkg (ty ++ '.' :: f) with
    | some i => rfl
    | none =>
      have hp2 : ¬ "(".toList.isPrefixOf (ty ++ '.' :: f) = true := by
        cases ty with
        | nil => simp
        | cons c ty => simpa using hp
      have htw : (ty ++ '.' :: f).takeWhile (· ≠ '.') = ty := by
        rw [List.takeWhile_append_of_pos]
        · simp
        · intro c hc; simp only [decide_eq_true_eq]; rintro rfl; exact hd hc
      have hdw : ((ty ++ '.' :: f).dropWhile (· ≠ '.')).drop 1 = f := by
        rw [List.dropWhile_append_of_pos]
        · simp
        · intro c hc; simp only [decide_eq_true_eq]; rintro rfl; exact hd hc
      simp only
      rw [if_neg hp2, if_neg (by simp), htw, hdw]
      rfl

/-- A small program: two versions of a function, a pointer method, a generic method, an interface. -/
def sampleSym : Nat → Str := fun pc =>
  if pc = 8 then "m/p.F".toList else if pc = 16 then "m/p.(*T).M".toList else if pc = 17 then "m/p.(*T).M-fm".toList
  else if pc = 24 then "m/p.(*G[int]).Get-fm".toList else if pc = 32 then "m/p.I.Do-fm".toList else []
def sampleInfos : List Info :=
  [{ id := 0, pkg := "m/p".toList, identity := "F".toList, name := "F".toList, func := some (8, 0) },
   { id := 1, pkg := "m/p".toList, identity := "(*T).M".toList, name := "M".toList, recvType := "T".toList,
     func := some (16, 5) },
   { id := 2, pkg := "m/p".toList, identity := "(*G).Get".toList, name := "Get".toList, recvType := "G".toList,
     generic := true },
   { id := 3, pkg := "m/p".toList, identity := "I".toList, name := "I".toList, recvType := "I".toList,
     isInterface := true },
   { id := 4, kind := .var, pkg := "m/p".toList, identity := "v".toList, name := "v".toList, var := some 100 }]
def sampleTab : Tab := (registerAll sampleSym sampleInfos {}).getD {}

example : (registerAll sampleSym sampleInfos {}).isSome = true ∧
    ((getFuncByPkg sampleTab "m/p".toList "T.M".toList).map (·.id)) = some 1 ∧
    ((infoPC sampleTab 8).map (·.id)) = some 0 ∧ ((infoVar sampleTab 100).map (·.id)) = some 4 := by decide +kernel

/-- **C38.** `GetFuncByFullName` of a name under which some function is registered gives the last such function. -/
theorem C38_full_name (sym : Nat → Str) (is : List Info) (t : Tab) (h : registerAll sym is {} = some t) (n : Str)
    (i : Info) (hi : lastWith t.infos (fun i => i.fullName ≠ [] ∧ i.fullName = n) = some i) :
    getFuncByFullName t n = some (some i) := by
  obtain ⟨-, -, -, -, hf, -⟩ := C38_registered sym is t h
  unfold getFuncByFullName
  rw [hf n, hi]

/-- How a function is named inside its package. -/
def FullNameIdentity (f : FullName) : Str :=
  match f.recv with
  | none => f.name
  | some (false, t, _) => t ++ '.' :: f.name
  | some (true, t, _) => "(*".toList ++ t ++ ").".toList ++ f.name

/-- **C38.** An instance of a generic function or method is found under the name the Go runtime gives it, whatever its
    type arguments. (Restricted as `C37_parse_partial` is, see the counterexamples there.) -/
theorem C38_generic_partial (sym : Nat → Str) (is : List Info) (t : Tab) (h : registerAll sym is {} = some t)
    (f : FullName) (hf : f.Valid) (hgen : f.args ≠ none ∨ ∃ p ty a, f.recv = some (p, ty, some a))
    (hnot : ∀ i ∈ t.infos, i.fullName ≠ f.text) (i : Info)
    (hi : lastWith t.infos (fun i => i.identity ≠ [] ∧ i.pkg = f.pkg ∧ i.identity = FullNameIdentity f) = some i)
    (hone : ∀ ty a, f.recv = some (true, ty, a) → ∀ j ∈ t.infos, ¬ (j.pkg = f.pkg ∧ j.identity = ty ++ '.' :: f.name)) :
    getFuncByFullName t f.text = some (some i) := by
  have hreg := C38_registered sym is t h
  obtain ⟨-, hb, -, -, hfull, -⟩ := hreg
  have hnone : t.byFull f.text = none := by
    rw [hfull, lastWith, List.getLast?_eq_none_iff, List.filter_eq_nil_iff]
    intro j hj
    simp only [decide_eq_true_eq]
    exact fun hc => hnot j hj hc.2
  unfold getFuncByFullName getInterfaceOrGeneric
  rw [hnone]
  simp only [C37_parse_partial f hf, Option.map_some]
  have hne : ((f.recv.bind fun r => r.2.2)).getD [] ≠ [] ∨ f.args.getD [] ≠ [] := by
    rcases hgen with hgen | ⟨p, ty, a, hr⟩
    · cases ha : f.args with
      | none => exact absurd ha hgen
      | some a => exact Or.inr (by simpa using (hf.2.2.2.2.2.2.1 a ha).1)
    · refine Or.inl ?_
      rw [hr]
      simpa using ((hf.2.2.2.2.2.1 p ty (some a) hr).2 a rfl).1
  rw [if_pos hne]
  have hname : Ident f.name := hf.2.2.2.2.1
  have hdn : '.' ∉ f.name := ident_not hname (by decide)
  obtain ⟨hpl, hdot⟩ := C38_by_package sym is t h f.pkg
  congr 1
  cases hr : f.recv with
  | none =>
    simp only [Option.map_none, Option.getD_none, ne_eq, not_true_eq_false, if_false]
    rw [hpl _ hdn]
    simpa [FullNameIdentity, hr] using hi
  | some r =>
    obtain ⟨p, ty, a⟩ := r
    have hty : Ident ty := (hf.2.2.2.2.2.1 p ty a hr).1
    simp only [Option.map_some, Option.getD_some]
    rw [if_pos hty.1, hdot ty f.name (ident_not hty (by decide))]
    · cases p with
      | false =>
        have : lastWith t.infos (fun i => i.identity ≠ [] ∧ i.pkg = f.pkg ∧ i.identity = ty ++ '.' :: f.name) = some i := by
          simpa [FullNameIdentity, hr] using hi
        rw [this]
        rfl
      | true =>
        have h1 : lastWith t.infos (fun i => i.identity ≠ [] ∧ i.pkg = f.pkg ∧ i.identity = ty ++ '.' :: f.name) = none := by
          rw [lastWith, List.getLast?_eq_none_iff, List.filter_eq_nil_iff]
          intro j hj
          simp only [decide_eq_true_eq]
          exact fun hc => hone ty a hr j hj hc.2
        rw [h1]
        simpa [FullNameIdentity, hr] using hi
    · cases ty with
      | nil => exact absurd rfl hty.1
      | cons c ty =>
        have : c ≠ '(' := by rintro rfl; exact hty.2 '(' (List.mem_cons_self ..) (by decide)
        simpa using Ne.symm this

/-- **C38.** A method of an interface is found under the name the Go runtime gives it. -/
theorem C38_interface (sym : Nat → Str) (is : List Info) (t : Tab) (h : registerAll sym is {} = some t)
    (pkg intf method : Str) (hf : (FullName.mk pkg (some (false, intf, none)) method none).Valid)
    (hnot : ∀ i ∈ t.infos, i.fullName ≠ pkg ++ '.' :: (intf ++ '.' :: method)) :
    getFuncByFullName t (pkg ++ '.' :: (intf ++ '.' :: method)) = some (lastWith t.infos fun i =>
      i.isInterface ∧ i.recvType ≠ [] ∧ i.pkg = pkg ∧ i.recvType = intf) := by
  obtain ⟨-, -, -, -, hfull, hint⟩ := C38_registered sym is t h
  have htext : (FullName.mk pkg (some (false, intf, none)) method none).text = pkg ++ '.' :: (intf ++ '.' :: method) := by
    simp [FullName.text, bracket]
  have hnone : t.byFull (pkg ++ '.' :: (intf ++ '.' :: method)) = none := by
    rw [hfull, lastWith, List.getLast?_eq_none_iff, List.filter_eq_nil_iff]
    intro j hj
    simp only [decide_eq_true_eq]
    exact fun hc => hnot j hj hc.2
  have hp := C37_parse_partial _ hf
  rw [htext] at hp
  unfold getFuncByFullName getInterfaceOrGeneric
  rw [hnone]
  simp only [hp, Option.map_some]
  have hti : intf ≠ [] := (hf.2.2.2.2.2.1 false intf none rfl).1.1
  simp [hti, hint]

/-- **C38.** A method with a pointer receiver that is not registered is not mistaken for a method of an interface. -/
theorem C38_pointer_method (sym : Nat → Str) (is : List Info) (t : Tab) (h : registerAll sym is {} = some t)
    (pkg ty method : Str) (hf : (FullName.mk pkg (some (true, ty, none)) method none).Valid)
    (hnot : ∀ i ∈ t.infos, i.fullName ≠ pkg ++ ".(*".toList ++ ty ++ ").".toList ++ method) :
    getFuncByFullName t (pkg ++ ".(*".toList ++ ty ++ ").".toList ++ method) = some none := by
  obtain ⟨-, -, -, -, hfull, hint⟩ := C38_registered sym is t h
  have htext : (FullName.mk pkg (some (true, ty, none)) method none).text =
      pkg ++ ".(*".toList ++ ty ++ ").".toList ++ method := by
    simp [FullName.text, bracket]
  have hnone : t.byFull (pkg ++ ".(*".toList ++ ty ++ ").".toList ++ method) = none := by
    rw [hfull, lastWith, List.getLast?_eq_none_iff, List.filter_eq_nil_iff]
    intro j hj
    simp only [decide_eq_true_eq]
    exact fun hc => hnot j hj hc.2
  have hp := C37_parse_partial _ hf
  rw [htext] at hp
  unfold getFuncByFullName getInterfaceOrGeneric
  rw [hnone]
  simp only [hp, Option.map_some]
  simp

example : getFuncByFullName sampleTab "m/p.(*I).Do".toList = some none := by decide +kernel

/-- **C38.** Functions and method values, as `mock.Patch` gets them: a function is found by its entry point; the value of
    a method `x.M`, whose name in the Go runtime is that of the method with `-fm` added, leads to the method. -/
theorem C38_inspect (sym : Nat → Str) (is : List Info) (t : Tab) (h : registerAll sym is {} = some t) (pc : Nat) :
    (∀ i, lastWith t.infos (fun i => i.generic = false ∧ pcOf i ≠ 0 ∧ pcOf i = pc) = some i →
      inspect t sym pc = some (some (i, false))) ∧
    (∀ n i, (∀ j ∈ t.infos, pcOf j ≠ pc) → sym pc = n ++ "-fm".toList →
      lastWith t.infos (fun i => i.fullName ≠ [] ∧ i.fullName = n) = some i →
      inspect t sym pc = some (some (i, true))) := by
  obtain ⟨-, -, hpc, -⟩ := C38_registered sym is t h
  constructor
  · intro i hi
    have := hpc pc
    unfold infoPC at this
    unfold inspect
    rw [this, hi]
  · intro n i hno hs hi
    have hnone : t.byPC pc = none := by
      have := hpc pc
      unfold infoPC at this
      rw [this, lastWith, List.getLast?_eq_none_iff, List.filter_eq_nil_iff]
      intro j hj
      simp only [decide_eq_true_eq]
      exact fun hc => hno j hj hc.2.2
    have hsuf : "-fm".toList.isSuffixOf (sym pc) = true := by
      rw [hs, List.isSuffixOf_iff_suffix]
      exact ⟨n, rfl⟩
    have htake : (sym pc).take ((sym pc).length - 3) = n := by
      rw [hs]
      simp
    unfold inspect
    rw [hnone]
    simp only [hsuf, if_true, htake]
    rw [C38_full_name sym is t h n i hi]
    rfl

example : inspect sampleTab sampleSym 17 = (infoPC sampleTab 16).map (fun i => some (i, true)) ∧
    ((getFuncByFullName sampleTab "m/p.(*G[int]).Get".toList).bind id).map (·.id) = some 2 ∧
    ((getFuncByFullName sampleTab "m/p.I.Do".toList).bind id).map (·.id) = some 3 := by decide +kernel

/-- Runs of `xgoRegister`. -/
def stageAll (sym : Nat → Str) : List Info → Staging → Option Staging
  | [], s => some s
  | i :: is, s => (xgoRegister sym s i).bind (stageAll sym is)

/-- **C38.** It does not matter whether functions register before or after package functab is initialised: the table
    is the same as if all had registered with it directly, in the same order. -/
theorem C38_staging (sym : Nat → Str) (before after : List Info) :
    (((stageAll sym before {}).bind (setup sym)).bind (stageAll sym after)).bind (·.tab) =
      registerAll sym (before ++ after) {} := by
  have h1 : ∀ (l st : List Info), stageAll sym l { staged := st } = some { staged := st ++ l } := by
    intro l
    induction l with
    | nil => intro st; simp [stageAll]
    | cons i l ih =>
      intro st
      simp only [stageAll, xgoRegister, Option.bind_some]
      rw [ih]
      simp
  have h2 : ∀ (l : List Info) (t : Tab), (stageAll sym l { tab := some t }).bind (·.tab) = registerAll sym l t := by
    intro l
    induction l with
    | nil => intro t; rfl
    | cons i l ih =>
      intro t
      simp only [stageAll, xgoRegister, registerAll]
      cases register sym t i with
      | none => rfl
      | some t' => simpa using ih t'
  rw [h1 before []]
  simp only [Option.bind_some, setup, List.nil_append, registerAll_append]
  cases registerAll sym before {} with
  | none => rfl
  | some t => simpa using h2 after t

example : (((stageAll sampleSym (sampleInfos.take 2) {}).bind (setup sampleSym)).bind
    (stageAll sampleSym (sampleInfos.drop 2))).isSome = true := by decide +kernel

/-! ### Mocking by name -/

/-- Functions by type and method name. -/
def methodWith (infos : List Info) (ty : Nat) (method : Str) : Option Info :=
  lastWith infos fun i => i.kind = .func ∧ i.generic = false ∧ i.isInterface = false ∧ i.recvType ≠ [] ∧
    i.name ≠ [] ∧ i.name = method ∧ i.func.map (·.2) = some ty

theorem addTypeMethod_foldl (infos : List Info) (ty : Nat) (n : Str) :
    infos.foldl addTypeMethod (fun _ _ => none) ty n = methodWith infos ty n := by
  have key : ∀ (l : List Info), l.reverse.foldl addTypeMethod (fun _ _ => none) ty n = methodWith l.reverse ty n := by
    intro l
    induction l with
    | nil => rfl
    | cons i l ih =>
      rw [List.reverse_cons, List.foldl_append]
      unfold methodWith at ih ⊢
      rw [lastWith_snoc, ← ih]
      simp only [List.foldl_cons, List.foldl_nil]
      generalize l.reverse.foldl addTypeMethod (fun _ _ => none) = m
      unfold addTypeMethod
      by_cases hc : i.kind ≠ .func ∨ i.generic = true ∨ i.isInterface = true ∨ i.recvType = [] ∨ i.name = []
      · rw [if_pos hc, if_neg]
        simp only [decide_eq_true_eq]
        rintro ⟨h1, h2, h3, h4, h5, -⟩
        rcases hc with hc | hc | hc | hc | hc
        · exact hc h1
        · rw [h2] at hc; cases hc
        · rw [h3] at hc; cases hc
        · exact h4 hc
        · exact h5 hc
      · rw [if_neg hc]
        simp only [not_or, Bool.not_eq_true, ne_eq, Decidable.not_not] at hc
        obtain ⟨h1, h2, h3, h4, h5⟩ := hc
        cases hfn : i.func with
        | none => simp
        | some f =>
          refine ite_cond_congr (propext ?_)
          simp only [decide_eq_true_eq, Option.map_some, Option.some.injEq]
          exact ⟨fun ⟨a, b⟩ => ⟨h1, h2, h3, h4, h5, b.symm, a.symm⟩, fun ⟨_, _, _, _, _, b, a⟩ => ⟨a.symm, b.symm⟩⟩
  have := key infos.reverse
  rwa [List.reverse_reverse] at this

/-- **C55 (part).** `PatchMethodByName(instance, method, …)` finds the last method registered for the instance's type,
    if all functions were registered before the first such call.
    Missing: functions registered later, see `C55_counterexample_late`. -/
theorem C55_method_partial (sym : Nat → Str) (is : List Info) (t : Tab) (h : registerAll sym is {} = some t) (ty : Nat)
    (m : Str) :
    (getMethodByName t ty m).1 = (match methodWith t.infos ty m with
      | some i => Found.ok i
      | none => .notFound) ∧
    -- and so do the following calls
    ∀ ty' m', (getMethodByName (getMethodByName t ty m).2 ty' m').1 = (match methodWith t.infos ty' m' with
      | some i => Found.ok i
      | none => .notFound) := by
  have hm : t.typeMethods = none := (good_all is good_empty h).2.2
  have h1 : getTypeMethod t ty m =
      (methodWith t.infos ty m, { t with typeMethods := some (t.infos.foldl addTypeMethod (fun _ _ => none)) }) := by
    unfold getTypeMethod
    rw [hm]
    simp only [addTypeMethod_foldl]
  have h2 : (getMethodByName t ty m).2 =
      { t with typeMethods := some (t.infos.foldl addTypeMethod (fun _ _ => none)) } := by
    unfold getMethodByName
    rw [h1]
    cases methodWith t.infos ty m <;> rfl
  constructor
  · unfold getMethodByName
    rw [h1]
    cases methodWith t.infos ty m <;> rfl
  · intro ty' m'
    rw [h2]
    unfold getMethodByName getTypeMethod
    simp only [addTypeMethod_foldl]
    cases methodWith t.infos ty' m' <;> rfl

example : ((getMethodByName sampleTab 5 "M".toList).1) = (match infoPC sampleTab 16 with
    | some i => Found.ok i
    | none => .notFound) ∧ (infoPC sampleTab 16).isSome = true := by decide +kernel

/-- A method registered late. -/
def lateInfo : Info :=
  { id := 9, pkg := "m/q".toList, identity := "U.N".toList, name := "N".toList, recvType := "U".toList,
    func := some (40, 6) }

/-- **C55 is false** for functions registered after the first call of `PatchMethodByName`: a package whose `init` mocks a
    method makes the methods of all packages initialised after it unknown to `PatchMethodByName`. -/
theorem C55_counterexample_late : ∃ (sym : Nat → Str) (is : List Info) (late : Info) (t t' : Tab),
    registerAll sym is {} = some t ∧ register sym (getMethodByName t 5 "M".toList).2 late = some t' ∧
    methodWith t'.infos 6 "N".toList = some (filled sym late) ∧ (getMethodByName t' 6 "N".toList).1 = .notFound := by
  exact ⟨sampleSym, sampleInfos.take 2, lateInfo, _, _, rfl, rfl, by decide +kernel, by decide +kernel⟩

/-- **C55 (part).** `PatchByName(pkg, name, …)` affects the last function or variable registered in the package under
    that name, and for `T.f` otherwise `(*T).f`; with `*v`, the variable `v`. If there is none, it panics with a message
    that says so. Missing: `*v` for a missing `v`, see `C55_counterexample`. -/
theorem C55_by_name_partial (t : Tab) (pkg name : Str) :
    ((∀ rest, name ≠ '*' :: rest) → getFuncByName t pkg name = (match getFuncByPkg t pkg name with
      | some i => Found.ok i
      | none => .notFound)) ∧
    (∀ i, getFuncByPkg t pkg name = some i → i.kind = .var → getFuncByName t pkg ('*' :: name) = .ok i) ∧
    -- there are no pointers to functions
    (∀ i, getFuncByPkg t pkg name = some i → i.kind ≠ .var → getFuncByPkg t pkg ('*' :: name) = none →
      getFuncByName t pkg ('*' :: name) = .notFound) := by
  refine ⟨?_, ?_, ?_⟩
  · intro hn
    unfold getFuncByName
    cases name with
    | nil => rfl
    | cons c rest =>
      have hc : c ≠ '*' := fun h => hn rest (by rw [h])
      show (match c :: rest with
        | '*' :: rest' => _
        | _ => _) = _
      split
      · rename_i h; injection h with h1 _; exact absurd h1 hc
      · rfl
  · intro i hi hk
    unfold getFuncByName
    simp only [hi, hk, if_true]
  · intro i hi hk hn
    unfold getFuncByName
    simp only [hi, hk, if_false, hn]

example : getFuncByName sampleTab "m/p".toList "*F".toList = .notFound ∧
    ((getFuncByPkg sampleTab "m/p".toList "F".toList).map (·.kind)) = some .func := by decide +kernel

example : getFuncByName sampleTab "m/p".toList "*v".toList = (match infoVar sampleTab 100 with
    | some i => Found.ok i
    | none => .notFound) ∧ getFuncByName sampleTab "m/p".toList "nope".toList = .notFound := by decide +kernel

/-- **C55 is false** for a pointer to a variable that does not exist (or is not instrumented): instead of the panic that
    names it there is a nil pointer dereference. -/
theorem C55_counterexample : getFuncByName sampleTab "m/p".toList "*w".toList = .crash := by decide +kernel

end Verif.Runtime.Functab
