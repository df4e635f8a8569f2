/-
Properties of the selection of intercepted functions (C47).
-/
import Verif.Instrument.FuncTrapSpec
import Verif.Instrument.RulesProps
import Mathlib.Data.List.Forall2

namespace Verif.Instrument.FuncTrap
open Verif.Support (Str)
open Verif.Instrument.Rules (pkgWithinModule)

/-! ### Single tests -/

theorem isPrefixOf_iff_append (p s : Str) : p.isPrefixOf s = true ↔ ∃ rest, s = p ++ rest := by
  rw [List.isPrefixOf_iff_prefix]
  exact ⟨fun ⟨t, h⟩ => ⟨t, h.symm⟩, fun ⟨t, h⟩ => ⟨t, h.symm⟩⟩

set_option simprocs false in
theorem eligible_iff (pkgPath : Str) (d : FuncDecl) : eligible pkgPath d = true ↔ Spec.Interceptable pkgPath d := by
  unfold eligible Spec.Interceptable
  have e : ("" : String).toList = ([] : Str) := rfl
  rw [e]
  have hdoc : (!d.doc.any fun c => "//go:nosplit".toList.isPrefixOf c) = true ↔
      ∀ line ∈ d.doc, ¬ ∃ rest, line = "//go:nosplit".toList ++ rest := by
    rw [Bool.not_eq_true', ← Bool.not_eq_true, List.any_eq_true]
    constructor
    · intro h line hl hr
      exact h ⟨line, hl, (isPrefixOf_iff_append _ _).2 hr⟩
    · rintro h ⟨line, hl, hp⟩
      exact h line hl ((isPrefixOf_iff_append _ _).1 hp)
  have hmem : d.name ∈ ["XgoRealNow".toList, "XgoRealSleep".toList] ↔
      (d.name = "XgoRealNow".toList ∨ d.name = "XgoRealSleep".toList) := by
    simp only [List.mem_cons, List.not_mem_nil, or_false]
  rw [hmem, ← hdoc]
  split
  · rename_i h; simp only [Bool.not_eq_true'] at h; simp only [h, Bool.false_eq_true, false_and]
  · rename_i h
    simp only [Bool.not_eq_true', Bool.not_eq_false] at h
    split
    · rename_i h2
      constructor
      · intro h; exact absurd h (by decide)
      · rintro ⟨_, a, b, _⟩; exact (h2.elim a b).elim
    · rename_i h2
      split
      · rename_i h3
        constructor
        · intro h; exact absurd h (by decide)
        · rintro ⟨_, _, _, c, _⟩; exact absurd h3 c
      · rename_i h3
        split
        · rename_i h4
          constructor
          · intro h; exact absurd h (by decide)
          · rintro ⟨_, _, _, _, _, c⟩; exact absurd h4 c
        · rename_i h4
          constructor
          · intro h5
            exact ⟨h, fun x => h2 (Or.inl x), fun x => h2 (Or.inr x), h3, h5, h4⟩
          · rintro ⟨_, _, _, _, h5, _⟩; exact h5

/-- The receiver as parsed. -/
def recvInfo (d : FuncDecl) : Option RecvInfo := (parseReceiver d).getD none

theorem parse_plain {d : FuncDecl} (h : Spec.PlainRecv d) :
    parseReceiver d = some (recvInfo d) ∧ identityOf (recvInfo d) d.name = Spec.identity d ∧
    (∀ e p t, d.recv = some e → Spec.recvOf e = some (p, t) → ∃ g, recvInfo d = some ⟨p, g, t⟩) ∧
    (d.recv = none → recvInfo d = none) := by
  unfold recvInfo parseReceiver Spec.identity
  cases hr : d.recv with
  | none => simp [identityOf]
  | some e =>
    have hs := h e hr
    have key : ∀ p t g, parseReceiverType e = some ⟨p, g, t⟩ → Spec.recvOf e = some (p, t) →
        Option.map some (parseReceiverType e) = some ((Option.map some (parseReceiverType e)).getD none) ∧
        identityOf ((Option.map some (parseReceiverType e)).getD none) d.name =
          (match Spec.recvOf e with
           | some (false, t) => t ++ ".".toList ++ d.name
           | some (true, t) => "(*".toList ++ t ++ ").".toList ++ d.name
           | none => []) ∧
        (∀ e' p t, some e = some e' → Spec.recvOf e' = some (p, t) →
          ∃ g, (Option.map some (parseReceiverType e)).getD none = some ⟨p, g, t⟩) ∧
        (some e = none → (Option.map some (parseReceiverType e)).getD none = none) := by
      intro p t g h1 h2
      rw [h1, h2]
      refine ⟨rfl, ?_, ?_, fun h => nomatch h⟩
      · cases p <;> rfl
      · intro e' p' t' he hp
        cases he
        rw [h2] at hp
        cases hp
        exact ⟨g, rfl⟩
    cases e with
    | ident t => exact key false t false rfl rfl
    | index x =>
      cases x with
      | ident t => exact key false t true rfl rfl
      | _ => exact absurd hs (by simp [Spec.recvOf])
    | star x =>
      cases x with
      | ident t => exact key true t false rfl rfl
      | index y =>
        cases y with
        | ident t => exact key true t true rfl rfl
        | _ => exact absurd hs (by simp [Spec.recvOf])
      | _ => exact absurd hs (by simp [Spec.recvOf])
    | _ => exact absurd hs (by simp [Spec.recvOf])

theorem exported_iff (upper : Char → Bool) (n : Str) : exported upper n = true ↔ Spec.Exported upper n := by
  unfold exported Spec.Exported
  cases n with
  | nil => simp
  | cons c cs => simp

theorem hit_iff (r : Recorder) (d : FuncDecl) (h : Spec.PlainRecv d) :
    hitRecorder r d (recvInfo d) = true ↔ Spec.Mocked r d ∨ Spec.Namesake r d := by
  obtain ⟨_, _, h3, h4⟩ := parse_plain h
  unfold hitRecorder Spec.Mocked Spec.Namesake
  cases hr : d.recv with
  | none =>
    rw [h4 hr]
    simp
  | some e =>
    have hs := h e hr
    obtain ⟨⟨p, t⟩, hp⟩ := Option.isSome_iff_exists.1 hs
    obtain ⟨g, hg⟩ := h3 e p t hr hp
    rw [hg]
    simp only [Bool.or_eq_true, List.contains_iff_mem, reduceCtorEq, false_and, false_or, ne_eq, not_false_eq_true,
      true_and, Option.some.injEq]
    constructor
    · rintro (h | h)
      · exact Or.inr h
      · exact Or.inl ⟨e, p, t, rfl, hp, h⟩
    · rintro (⟨e', p', t', rfl, hp', h⟩ | h)
      · rw [hp] at hp'
        cases hp'
        exact Or.inr h
      · exact Or.inl h

theorem listed_iff (c : PkgConfig) (d : FuncDecl) (h : Spec.PlainRecv d) :
    (c.whitelist.contains (identityOf (recvInfo d) d.name) ||
      matchAnyPrefix c.prefixes (identityOf (recvInfo d) d.name)) = true ↔ Spec.Listed c d := by
  rw [(parse_plain h).2.1]
  unfold matchAnyPrefix Spec.Listed
  simp only [Bool.or_eq_true, List.contains_iff_mem, List.any_eq_true, Bool.and_eq_true, decide_eq_true_eq,
    isPrefixOf_iff_append]

/-! ### One file -/

/-- The declarations that pass both tests. -/
def chosen (o : Opts) (d : FuncDecl) : Bool := eligible o.pkgPath d && wanted o d (recvInfo d)

/-- The identity name as computed. -/
def idOf (d : FuncDecl) : Str := identityOf (recvInfo d) d.name

theorem trapLoop_eq (o : Opts) (ds : List FuncDecl) (hp : ∀ d ∈ ds, Spec.PlainRecv d) : ∀ t : FileTraps,
    trapLoop o ds t =
      if o.main then some { t with inPlace := t.inPlace ++ (ds.filter (chosen o)).map fun d => (d, idOf d) }
      else if o.mode = .all then some { t with extra := t.extra ++ (ds.filter (chosen o)).map idOf }
      else some { t with
        extra := t.extra ++ ((ds.filter (chosen o)).map idOf).take (min (maxPerFile - t.extra.length) t.quota)
        quota := t.quota - min (ds.filter (chosen o)).length (maxPerFile - t.extra.length) } := by
  induction ds with
  | nil => intro t; simp [trapLoop]
  | cons d ds ih =>
    intro t
    have ih := ih fun x hx => hp x (List.mem_cons_of_mem _ hx)
    rw [trapLoop, (parse_plain (hp d List.mem_cons_self)).1]
    by_cases he : eligible o.pkgPath d
    · rw [if_neg (by simp [he])]
      simp only
      by_cases hw : wanted o d (recvInfo d)
      · have hc : chosen o d = true := by simp [chosen, he, hw]
        rw [if_neg (by simp [hw]), List.filter_cons_of_pos hc]
        by_cases hm : o.main
        · simp [hm, ih, idOf]
        · rw [if_neg hm]
          by_cases ha : o.mode = .all
          · rw [if_pos ha, ih]
            simp [hm, ha, idOf]
          · rw [if_neg ha]
            by_cases hl : t.extra.length < maxPerFile
            · rw [if_pos hl]
              by_cases hq : t.quota = 0
              · rw [if_pos hq, ih]
                simp [hm, ha, hq]
              · rw [if_neg hq, ih]
                simp only [hm, ha, if_false, Bool.false_eq_true, List.length_append, List.length_cons, List.length_nil,
                  List.map_cons, Option.some.injEq, FileTraps.mk.injEq, true_and]
                have h1 : min (maxPerFile - t.extra.length) t.quota =
                    min (maxPerFile - (t.extra.length + (0 + 1))) (t.quota - 1) + 1 := by omega
                rw [h1, List.take_succ_cons]
                refine ⟨by simp [idOf], by omega⟩
            · rw [if_neg hl, ih]
              have h0 : maxPerFile - t.extra.length = 0 := by omega
              simp [hm, ha, h0]
      · have hc : ¬ chosen o d = true := by simp [chosen, hw]
        rw [if_pos (by simp [hw]), List.filter_cons_of_neg hc, ih]
    · have hc : ¬ chosen o d = true := by simp [chosen, he]
      rw [if_pos (by simp [he]), List.filter_cons_of_neg hc, ih]

/-! ### Packages -/

theorem testFile_iff (n : Str) : "_test.go".toList.isSuffixOf n = true ↔ Spec.TestFile n := by
  rw [List.isSuffixOf_iff_suffix]
  exact ⟨fun ⟨t, h⟩ => ⟨t, h.symm⟩, fun ⟨t, h⟩ => ⟨t, h.symm⟩⟩

/-- Every function of the package is free of parenthesised receivers. -/
def PlainPkg (p : Pkg) : Prop := ∀ f ∈ p.files, ∀ d ∈ f.decls, Spec.PlainRecv d

theorem chosen_all {o : Opts} (h : o.mode = .all) (d : FuncDecl) : chosen o d = eligible o.pkgPath d := by
  simp [chosen, wanted, h]

theorem mode_other {p : Pkg} (hm : p.main = false) (hi : p.initial = false) (trapAll : Bool) :
    checkInstrumentMode p.stdlib p.main p.initial trapAll =
      if p.stdlib = false ∧ trapAll = true then .exported else .none := by
  unfold checkInstrumentMode
  rw [hm, hi]
  cases p.stdlib <;> cases trapAll <;> rfl

theorem chosen_dep {upper : Char → Bool} {r : Recorder} {trapAll : Bool} {p : Pkg} (hm : p.main = false)
    (hi : p.initial = false) (d : FuncDecl) (hd : Spec.PlainRecv d) :
    chosen (pkgOpts upper r trapAll p) d = true ↔
      Spec.Interceptable p.path d ∧ Spec.Requested upper r trapAll p d := by
  unfold chosen
  rw [Bool.and_eq_true, show eligible (pkgOpts upper r trapAll p).pkgPath d = eligible p.path d from rfl, eligible_iff]
  refine and_congr_right fun _ => ?_
  unfold wanted Spec.Requested
  have hne : (pkgOpts upper r trapAll p).mode ≠ .all := by
    simp only [pkgOpts, mode_other hm hi]
    split <;> simp
  rw [if_neg hne]
  have hh := hit_iff (pkgOpts upper r trapAll p).recorder d hd
  rw [show (pkgOpts upper r trapAll p).recorder = r from rfl] at hh ⊢
  rw [show (pkgOpts upper r trapAll p).cfg = getPkgConfig p.path from rfl]
  by_cases h1 : hitRecorder r d (recvInfo d) = true
  · rw [if_pos h1]
    refine ⟨fun _ => ?_, fun _ => rfl⟩
    rcases hh.1 h1 with h | h
    · exact Or.inl h
    · exact Or.inr (Or.inl h)
  · rw [if_neg h1]
    have h2 : ¬ (Spec.Mocked r d ∨ Spec.Namesake r d) := fun h => h1 (hh.2 h)
    rw [← or_assoc, or_iff_right h2]
    cases getPkgConfig p.path with
    | some c => exact listed_iff c d hd
    | none =>
      simp only [pkgOpts, mode_other hm hi, Bool.and_eq_true, exported_iff, decide_eq_true_eq]
      by_cases hs : p.stdlib = false ∧ trapAll = true
      · rw [if_pos hs]; simp [hs.1, hs.2]
      · rw [if_neg hs]
        simp only [ne_eq, not_true_eq_false, false_and, false_iff]
        intro h; exact hs ⟨h.1, h.2.1⟩

/-- The result for one file of a package that is not main. -/
theorem fileLoop_nonmain (o : Opts) (ho : o.main = false) :
    ∀ (fs : List SrcFile) (q : Nat), (∀ f ∈ fs, ∀ d ∈ f.decls, Spec.PlainRecv d) →
    ∃ rs, fileLoop o fs q = some rs ∧
      rs.map (·.name) = (fs.map (·.name)).filter (fun n => !"_test.go".toList.isSuffixOf n) ∧
      (∀ r ∈ rs, r.inPlace = []) ∧
      List.Forall₂ (fun (r : FileResult) (f : SrcFile) =>
        r.extra <+: (f.decls.filter (chosen o)).map idOf ∧
        (o.mode = .all → r.extra = (f.decls.filter (chosen o)).map idOf)) rs
        (fs.filter fun f => !"_test.go".toList.isSuffixOf f.name) ∧
      ((∀ f ∈ fs, ¬ "_test.go".toList.isSuffixOf f.name = true → (f.decls.filter (chosen o)).length ≤ maxPerFile) →
        ((fs.filter fun f => !"_test.go".toList.isSuffixOf f.name).map
          fun f => (f.decls.filter (chosen o)).length).sum ≤ q →
        rs.map (·.extra) = (fs.filter fun f => !"_test.go".toList.isSuffixOf f.name).map
          fun f => (f.decls.filter (chosen o)).map idOf) := by
  intro fs
  induction fs with
  | nil => intro q _; exact ⟨[], rfl, rfl, by simp, List.Forall₂.nil, by simp⟩
  | cons f fs ih =>
    intro q hp
    have hp' : ∀ f ∈ fs, ∀ d ∈ f.decls, Spec.PlainRecv d := fun x hx => hp x (List.mem_cons_of_mem _ hx)
    rw [fileLoop, ho]
    by_cases ht : "_test.go".toList.isSuffixOf f.name = true
    · rw [if_pos (by rw [ht]; rfl)]
      obtain ⟨rs, h1, h2, h3, h4, h5⟩ := ih q hp'
      have hf : (f :: fs).filter (fun f => !"_test.go".toList.isSuffixOf f.name) =
          fs.filter (fun f => !"_test.go".toList.isSuffixOf f.name) :=
        List.filter_cons_of_neg (by rw [ht]; simp)
      rw [hf]
      refine ⟨rs, h1, ?_, h3, h4, ?_⟩
      · rw [h2, List.map_cons, List.filter_cons_of_neg (by rw [ht]; simp)]
      · intro ha hb
        exact h5 (fun x hx => ha x (List.mem_cons_of_mem _ hx)) hb
    · rw [if_neg (by rw [Bool.eq_false_iff.2 ht]; simp)]
      have hf : (f :: fs).filter (fun f => !"_test.go".toList.isSuffixOf f.name) =
          f :: fs.filter (fun f => !"_test.go".toList.isSuffixOf f.name) :=
        List.filter_cons_of_pos (by rw [Bool.eq_false_iff.2 ht]; rfl)
      rw [hf, trapFuncs, trapLoop_eq o f.decls (hp f List.mem_cons_self), ho, if_neg (by simp)]
      by_cases ha : o.mode = .all
      · rw [if_pos ha]
        obtain ⟨rs, h1, h2, h3, h4, h5⟩ := ih q hp'
        simp only [h1, Option.map_some]
        refine ⟨_, rfl, ?_, ?_, ?_, ?_⟩
        · rw [List.map_cons, h2, List.map_cons, List.filter_cons_of_pos (by rw [Bool.eq_false_iff.2 ht]; rfl)]
        · intro r hr
          rcases List.mem_cons.1 hr with rfl | hr
          · rfl
          · exact h3 r hr
        · refine List.Forall₂.cons ⟨?_, fun _ => ?_⟩ h4
          · exact List.prefix_refl _
          · rfl
        · intro hb hc
          rw [List.map_cons, List.map_cons, h5 (fun x hx => hb x (List.mem_cons_of_mem _ hx))]
          · rfl
          · simp only [List.map_cons, List.sum_cons] at hc; omega
      · rw [if_neg ha]
        simp only [List.length_nil, Nat.sub_zero, List.nil_append]
        obtain ⟨rs, h1, h2, h3, h4, h5⟩ := ih (q - min (f.decls.filter (chosen o)).length maxPerFile) hp'
        simp only [h1, Option.map_some]
        refine ⟨_, rfl, ?_, ?_, ?_, ?_⟩
        · rw [List.map_cons, h2, List.map_cons, List.filter_cons_of_pos (by rw [Bool.eq_false_iff.2 ht]; rfl)]
        · intro r hr
          rcases List.mem_cons.1 hr with rfl | hr
          · rfl
          · exact h3 r hr
        · refine List.Forall₂.cons ⟨?_, fun h => absurd h ha⟩ h4
          exact List.take_prefix _ _
        · intro hb hc
          simp only [List.map_cons, List.sum_cons] at hc
          have hb1 := hb f List.mem_cons_self ht
          rw [List.map_cons, List.map_cons, h5 (fun x hx => hb x (List.mem_cons_of_mem _ hx)) (by omega)]
          congr 1
          exact List.take_of_length_le (by rw [List.length_map]; omega)

theorem fileLoop_main (o : Opts) (ho : o.main = true) :
    ∀ (fs : List SrcFile) (q : Nat), (∀ f ∈ fs, ∀ d ∈ f.decls, Spec.PlainRecv d) →
    fileLoop o fs q = some (fs.map fun f =>
      { name := f.name, inPlace := (f.decls.filter (chosen o)).map fun d => (d, idOf d), extra := [],
        interfaces := [] }) := by
  intro fs
  induction fs with
  | nil => intro q _; rfl
  | cons f fs ih =>
    intro q hp
    rw [fileLoop, ho, if_neg (by simp), trapFuncs, trapLoop_eq o f.decls (hp f List.mem_cons_self), ho, if_pos rfl]
    simp only
    rw [ih q fun x hx => hp x (List.mem_cons_of_mem _ hx)]
    simp [extraInterfaces]

set_option simprocs false in
theorem xgo_iff (pkgPath : Str) : isXgoRuntimePkg pkgPath = true ↔
    Rules.Spec.Within pkgPath "github.com/xhd2015/xgo/runtime".toList ∧
      ¬ Rules.Spec.Within pkgPath "github.com/xhd2015/xgo/runtime/test".toList := by
  unfold isXgoRuntimePkg
  have hw := Rules.C45_within pkgPath runtimeModule
  have e : "github.com/xhd2015/xgo/runtime/test".toList = runtimeModule ++ '/' :: "test".toList := by decide
  rw [e]
  change _ ↔ Rules.Spec.Within pkgPath runtimeModule ∧ _
  rw [← hw.1]
  cases h : pkgWithinModule pkgPath runtimeModule with
  | none => simp
  | some s =>
    simp only [Option.isSome_some, true_and]
    have h2 := Rules.C45_within s "test".toList
    rw [← Option.not_isSome, Bool.not_eq_true', ← Bool.not_eq_true, h2.1]
    refine not_congr ?_
    unfold Rules.Spec.Within
    have hlen : ∀ a b : Str, runtimeModule ≠ runtimeModule ++ '/' :: a ++ b := by
      intro a b h
      have := congrArg List.length h
      simp at this
    rcases hw.2 s h with ⟨rfl, rfl⟩ | rfl
    · constructor
      · rintro (h | ⟨r, h⟩)
        · exact absurd h (by decide)
        · have := congrArg List.length h
          rw [List.length_append, List.length_cons, List.length_nil] at this
          omega
      · rintro (h | ⟨r, h⟩)
        · exact absurd h (by simpa using hlen "test".toList [])
        · exact absurd h (hlen _ _)
    · constructor
      · rintro (rfl | ⟨r, rfl⟩)
        · exact Or.inl rfl
        · exact Or.inr ⟨r, by simp⟩
      · rintro (h | ⟨r, h⟩)
        · exact Or.inl (by simpa using h)
        · exact Or.inr ⟨r, by simpa using h⟩

set_option simprocs false in
theorem allow_iff (pkgPath : Str) : (checkInstrument pkgPath).2 = true ↔ ¬ Spec.Untouchable pkgPath := by
  unfold checkInstrument Spec.Untouchable
  rw [← xgo_iff, ← (Rules.C45_within pkgPath "runtime".toList).1, ← (Rules.C45_within pkgPath "internal".toList).1,
    ← (Rules.C45_within pkgPath "vendor".toList).1]
  have hrt : pkgPath = "runtime".toList → (pkgWithinModule pkgPath "runtime".toList).isSome = true :=
    fun h => (Rules.C45_within _ _).1.2 (Or.inl h)
  have hl : neverInstrumentPkgs.contains pkgPath = true ↔ pkgPath = "runtime".toList ∨
      pkgPath ∈ ["unsafe".toList, "syscall".toList, "reflect".toList, "sync".toList, "sync/atomic".toList,
        "testing".toList] := by
    rw [List.contains_iff_mem, neverInstrumentPkgs]
    simp only [List.map_cons, List.map_nil, List.mem_cons, List.not_mem_nil, or_false]
    constructor
    · rintro (h | h | h | h | h | h | h) <;> simp [h]
    · rintro (h | h | h | h | h | h | h) <;> simp [h]
  split
  · rename_i h; simp [h]
  · rename_i h
    split
    · rename_i h2; simp [h2]
    · rename_i h2
      split
      · rename_i h3; simp [h3]
      · rename_i h3
        split
        · rename_i h4; simp [h4]
        · rename_i h4
          split
          · rename_i h5
            have := (hl.1 h5).resolve_left fun x => h (hrt x)
            constructor
            · intro h; exact absurd h (by simp)
            · intro hh; exact absurd (Or.inr (Or.inr (Or.inr (Or.inr this)))) hh
          · rename_i h5
            refine ⟨fun _ => ?_, fun _ => rfl⟩
            rintro (x | x | x | x | x)
            · exact h x
            · exact h2 x
            · exact h3 x
            · exact h4 x
            · exact h5 (hl.2 (Or.inr x))

open Classical in
theorem dep_filter {upper : Char → Bool} {r : Recorder} {trapAll : Bool} {p : Pkg} (hm : p.main = false)
    (hi : p.initial = false) (ds : List FuncDecl) (hp : ∀ d ∈ ds, Spec.PlainRecv d) :
    ds.filter (chosen (pkgOpts upper r trapAll p)) = ds.filter fun d =>
      decide (Spec.Interceptable p.path d ∧ Spec.Requested upper r trapAll p d) := by
  refine List.filter_congr fun d hd => ?_
  rw [Bool.eq_iff_iff, decide_eq_true_eq]
  exact chosen_dep hm hi d (hp d hd)

open Classical in
theorem dep_names {upper : Char → Bool} {r : Recorder} {trapAll : Bool} {p : Pkg} (hm : p.main = false)
    (hi : p.initial = false) (ds : List FuncDecl) (hp : ∀ d ∈ ds, Spec.PlainRecv d) :
    (ds.filter (chosen (pkgOpts upper r trapAll p))).map idOf = (ds.filter fun d =>
      decide (Spec.Interceptable p.path d ∧ Spec.Requested upper r trapAll p d)).map Spec.identity := by
  rw [dep_filter hm hi ds hp]
  exact List.map_congr_left fun d hd => (parse_plain (hp d (List.mem_filter.1 hd).1)).2.1

/-! ### The properties -/

/-- **C47.** Nothing is intercepted in untouchable packages, everything else is looked at. -/
theorem C47_untouchable (upper : Char → Bool) (r : Recorder) (trapAll : Bool) (p : Pkg) :
    (Spec.Untouchable p.path → instrumentPkg upper r trapAll p = some []) ∧
    (¬ Spec.Untouchable p.path → (checkInstrument p.path).2 = true) := by
  refine ⟨fun h => ?_, (allow_iff _).2⟩
  unfold instrumentPkg
  rw [if_pos]
  rw [Bool.not_eq_true', ← Bool.not_eq_true, allow_iff]
  exact fun x => x h

example : ¬ Spec.Untouchable "github.com/xhd2015/xgo/runtime/test/x".toList := by
  rw [← allow_iff]; decide +kernel
example : Spec.Untouchable "github.com/xhd2015/xgo/runtime/testing".toList ∧ Spec.Untouchable "runtime/debug".toList ∧
    ¬ Spec.Untouchable "runtimex".toList := by
  refine ⟨Classical.byContradiction fun h => ?_, Classical.byContradiction fun h => ?_, ?_⟩
  · rw [← allow_iff] at h; exact absurd h (by decide +kernel)
  · rw [← allow_iff] at h; exact absurd h (by decide +kernel)
  · rw [← allow_iff]; decide +kernel

open Classical in
/-- **C47**, the packages under test (main module): every interceptable function is intercepted, no other, and each
    under its own name; this does not depend on what is mocked nor on the number of functions. -/
theorem C47_under_test (upper : Char → Bool) (r : Recorder) (trapAll : Bool) (p : Pkg) (hm : p.main = true)
    (ha : ¬ Spec.Untouchable p.path) (hp : PlainPkg p) :
    ∃ rs, instrumentPkg upper r trapAll p = some rs ∧
      rs.map (fun f => (f.name, f.inPlace)) =
        p.files.map (fun f => (f.name, (f.decls.filter fun d => decide (Spec.Interceptable p.path d)).map
          fun d => (d, Spec.identity d))) ∧
      ∀ f ∈ rs, f.extra = [] := by
  unfold instrumentPkg
  rw [if_neg (by rw [(allow_iff _).2 ha]; simp), fileLoop_main _ hm _ _ hp]
  refine ⟨_, rfl, ?_, ?_⟩
  · rw [List.map_map]
    refine List.map_congr_left fun f hf => ?_
    have hfil : f.decls.filter (chosen (pkgOpts upper r trapAll p)) =
        f.decls.filter fun d => decide (Spec.Interceptable p.path d) := by
      refine List.filter_congr fun d _ => ?_
      rw [chosen_all (by simp [pkgOpts, checkInstrumentMode, hm])]
      rw [Bool.eq_iff_iff, decide_eq_true_eq]
      exact eligible_iff _ _
    simp only [Function.comp_apply, hfil, Prod.mk.injEq, true_and]
    refine List.map_congr_left fun d hd => ?_
    rw [idOf, (parse_plain (hp f hf d (List.mem_filter.1 hd).1)).2.1]
  · intro f hf
    rw [List.mem_map] at hf
    obtain ⟨g, _, rfl⟩ := hf
    rfl

open Classical in
/-- **C47**, other packages named on the command line: the same, except that their test files are left alone; the
    functions are handed to the compiler by name. -/
theorem C47_named_packages (upper : Char → Bool) (r : Recorder) (trapAll : Bool) (p : Pkg) (hm : p.main = false)
    (hi : p.initial = true) (ha : ¬ Spec.Untouchable p.path) (hp : PlainPkg p) :
    ∃ rs, instrumentPkg upper r trapAll p = some rs ∧
      List.Forall₂ (fun (f : FileResult) (src : SrcFile) => f.name = src.name ∧ f.inPlace = [] ∧
          f.extra = (src.decls.filter fun d => decide (Spec.Interceptable p.path d)).map Spec.identity) rs
        (p.files.filter fun f => decide (¬ Spec.TestFile f.name)) := by
  unfold instrumentPkg
  rw [if_neg (by rw [(allow_iff _).2 ha]; simp)]
  have hall : (pkgOpts upper r trapAll p).mode = .all := by simp [pkgOpts, checkInstrumentMode, hi]
  obtain ⟨rs, h1, h2, h3, h4, -⟩ := fileLoop_nonmain (pkgOpts upper r trapAll p) hm p.files maxPerPkg hp
  have hflt : (p.files.filter fun f => !"_test.go".toList.isSuffixOf f.name) =
      p.files.filter fun f => decide (¬ Spec.TestFile f.name) := by
    refine List.filter_congr fun f _ => ?_
    rw [Bool.eq_iff_iff, decide_eq_true_eq, Bool.not_eq_true', ← Bool.not_eq_true, testFile_iff]
  have hnames : rs.map (·.name) = (p.files.filter fun f => !"_test.go".toList.isSuffixOf f.name).map (·.name) := by
    rw [h2, List.filter_map]; rfl
  refine ⟨rs, h1, ?_⟩
  rw [← hflt]
  have hsub : ∀ f ∈ (p.files.filter fun f => !"_test.go".toList.isSuffixOf f.name), f ∈ p.files :=
    fun f hf => (List.mem_filter.1 hf).1
  generalize (p.files.filter fun f => !"_test.go".toList.isSuffixOf f.name) = fs at h4 hnames hsub
  clear h1 h2 hflt
  induction h4 with
  | nil => exact List.Forall₂.nil
  | @cons f src rs fs hh _ ih =>
    simp only [List.map_cons, List.cons.injEq] at hnames
    refine List.Forall₂.cons ⟨hnames.1, h3 f List.mem_cons_self, ?_⟩
      (ih (fun x hx => h3 x (List.mem_cons_of_mem _ hx)) hnames.2 (fun x hx => hsub x (List.mem_cons_of_mem _ hx)))
    rw [hh.2 hall]
    have hfil : src.decls.filter (chosen (pkgOpts upper r trapAll p)) =
        src.decls.filter fun d => decide (Spec.Interceptable p.path d) := by
      refine List.filter_congr fun d _ => ?_
      rw [chosen_all hall, Bool.eq_iff_iff, decide_eq_true_eq]
      exact eligible_iff _ _
    rw [hfil]
    exact List.map_congr_left fun d hd =>
      (parse_plain (hp src (hsub src List.mem_cons_self) d (List.mem_filter.1 hd).1)).2.1

/-- Which interface types are handed to the compiler: none of the packages under test (they are registered in place), all of the other
    packages named on the command line, and those of other dependencies that are exported, if everything is to be intercepted. -/
def Spec.HandedInterface (upper : Char → Bool) (trapAll : Bool) (p : Pkg) (n : Str) : Prop :=
  p.main = false ∧ (p.initial = true ∨ (p.stdlib = false ∧ trapAll = true ∧ exported upper n = true))

theorem fileLoop_interfaces (o : Opts) : ∀ (fs : List SrcFile) (q : Nat) (rs : List FileResult), fileLoop o fs q = some rs →
    List.Forall₂ (fun (f : FileResult) (src : SrcFile) => f.name = src.name ∧ f.interfaces = extraInterfaces o.upper o.mode o.main src) rs
      (fs.filter fun f => o.main || !"_test.go".toList.isSuffixOf f.name) := by
  intro fs
  induction fs with
  | nil => intro q rs h; cases h; exact .nil
  | cons f fs ih =>
    intro q rs h
    rw [fileLoop] at h
    split at h
    · rename_i hc
      rw [Bool.and_eq_true, Bool.not_eq_true'] at hc
      rw [List.filter_cons_of_neg (by
        show ¬ (o.main || !"_test.go".toList.isSuffixOf f.name) = true
        rw [hc.1, hc.2]; decide)]
      exact ih q rs h
    · rename_i hc
      rw [List.filter_cons_of_pos (by
        show (o.main || !"_test.go".toList.isSuffixOf f.name) = true
        revert hc
        generalize o.main = m
        generalize "_test.go".toList.isSuffixOf f.name = t
        cases m <;> cases t <;> decide)]
      split at h
      · cases h
      · obtain ⟨rs', h1, rfl⟩ := Option.map_eq_some_iff.1 h
        exact .cons ⟨rfl, rfl⟩ (ih _ rs' h1)

open Classical in
/-- **C47**, interface types: of each file that is looked at, exactly the ones above are handed to the compiler, in the order of the
    source, with the name of the file. -/
theorem C47_interfaces (upper : Char → Bool) (r : Recorder) (trapAll : Bool) (p : Pkg) (ha : ¬ Spec.Untouchable p.path)
    (rs : List FileResult) (h : instrumentPkg upper r trapAll p = some rs) :
    List.Forall₂ (fun (f : FileResult) (src : SrcFile) => f.name = src.name ∧
        f.interfaces = src.interfaces.filter fun n => decide (Spec.HandedInterface upper trapAll p n)) rs
      (p.files.filter fun f => decide (p.main = true ∨ ¬ Spec.TestFile f.name)) := by
  unfold instrumentPkg at h
  rw [if_neg (by rw [(allow_iff _).2 ha]; simp)] at h
  have h := fileLoop_interfaces _ _ _ _ h
  have hflt : (p.files.filter fun f => (pkgOpts upper r trapAll p).main || !"_test.go".toList.isSuffixOf f.name) =
      p.files.filter fun f => decide (p.main = true ∨ ¬ Spec.TestFile f.name) := by
    refine List.filter_congr fun f _ => ?_
    rw [Bool.eq_iff_iff, decide_eq_true_eq, Bool.or_eq_true, Bool.not_eq_true', ← Bool.not_eq_true, testFile_iff]
    exact Iff.rfl
  rw [hflt] at h
  refine h.imp fun f src hh => ⟨hh.1, hh.2.trans ?_⟩
  show extraInterfaces upper (checkInstrumentMode p.stdlib p.main p.initial trapAll) p.main src = _
  unfold extraInterfaces Spec.HandedInterface checkInstrumentMode
  cases p.main <;> cases p.initial <;> cases p.stdlib <;> cases trapAll <;> simp

example :
    let p : Pkg := { path := "d/e".toList, main := false, initial := false, stdlib := false, files := [{ name := "a.go".toList, interfaces := ["Foo".toList, "bar".toList] }] }
    (instrumentPkg Char.isUpper {} true p).map (·.map (·.interfaces)) = some [["Foo".toList]] := by
  decide +kernel

open Classical in
/-- **C47**, dependencies: only requested functions are intercepted, in the order of the source. -/
theorem C47_dependency_only (upper : Char → Bool) (r : Recorder) (trapAll : Bool) (p : Pkg) (hm : p.main = false)
    (hi : p.initial = false) (ha : ¬ Spec.Untouchable p.path) (hp : PlainPkg p) :
    ∃ rs, instrumentPkg upper r trapAll p = some rs ∧
      List.Forall₂ (fun (f : FileResult) (src : SrcFile) => f.name = src.name ∧ f.inPlace = [] ∧
          f.extra <+: (src.decls.filter fun d =>
            decide (Spec.Interceptable p.path d ∧ Spec.Requested upper r trapAll p d)).map Spec.identity) rs
        (p.files.filter fun f => decide (¬ Spec.TestFile f.name)) := by
  unfold instrumentPkg
  rw [if_neg (by rw [(allow_iff _).2 ha]; simp)]
  obtain ⟨rs, h1, h2, h3, h4, -⟩ := fileLoop_nonmain (pkgOpts upper r trapAll p) hm p.files maxPerPkg hp
  have hflt : (p.files.filter fun f => !"_test.go".toList.isSuffixOf f.name) =
      p.files.filter fun f => decide (¬ Spec.TestFile f.name) := by
    refine List.filter_congr fun f _ => ?_
    rw [Bool.eq_iff_iff, decide_eq_true_eq, Bool.not_eq_true', ← Bool.not_eq_true, testFile_iff]
  have hnames : rs.map (·.name) = (p.files.filter fun f => !"_test.go".toList.isSuffixOf f.name).map (·.name) := by
    rw [h2, List.filter_map]; rfl
  refine ⟨rs, h1, ?_⟩
  rw [← hflt]
  have hsub : ∀ f ∈ (p.files.filter fun f => !"_test.go".toList.isSuffixOf f.name), f ∈ p.files :=
    fun f hf => (List.mem_filter.1 hf).1
  generalize (p.files.filter fun f => !"_test.go".toList.isSuffixOf f.name) = fs at h4 hnames hsub
  clear h1 h2 hflt
  induction h4 with
  | nil => exact List.Forall₂.nil
  | @cons f src rs fs hh _ ih =>
    simp only [List.map_cons, List.cons.injEq] at hnames
    refine List.Forall₂.cons ⟨hnames.1, h3 f List.mem_cons_self, ?_⟩
      (ih (fun x hx => h3 x (List.mem_cons_of_mem _ hx)) hnames.2 (fun x hx => hsub x (List.mem_cons_of_mem _ hx)))
    have hf := hsub src List.mem_cons_self
    rw [← dep_names hm hi src.decls (hp src hf)]
    exact hh.1

open Classical in
/-- **C47**, dependencies: as long as no file has more than 16 requested functions and the package not more than 96, the
    intercepted functions of a dependency are exactly the requested ones.

    Missing from the full property: beyond these limits requested functions are silently left out, see
    `C47_counterexample`. -/
theorem C47_dependency_partial (upper : Char → Bool) (r : Recorder) (trapAll : Bool) (p : Pkg) (hm : p.main = false)
    (hi : p.initial = false) (ha : ¬ Spec.Untouchable p.path) (hp : PlainPkg p)
    (h16 : ∀ f ∈ p.files, ¬ Spec.TestFile f.name →
      (f.decls.filter fun d =>
        decide (Spec.Interceptable p.path d ∧ Spec.Requested upper r trapAll p d)).length ≤ 16)
    (h96 : ((p.files.filter fun f => decide (¬ Spec.TestFile f.name)).map fun f =>
      (f.decls.filter fun d =>
        decide (Spec.Interceptable p.path d ∧ Spec.Requested upper r trapAll p d)).length).sum ≤ 96) :
    ∃ rs, instrumentPkg upper r trapAll p = some rs ∧
      rs.map (fun f => (f.name, f.extra)) =
        (p.files.filter fun f => decide (¬ Spec.TestFile f.name)).map fun src =>
          (src.name, (src.decls.filter fun d =>
            decide (Spec.Interceptable p.path d ∧ Spec.Requested upper r trapAll p d)).map Spec.identity) := by
  unfold instrumentPkg
  rw [if_neg (by rw [(allow_iff _).2 ha]; simp)]
  obtain ⟨rs, h1, h2, -, -, h5⟩ := fileLoop_nonmain (pkgOpts upper r trapAll p) hm p.files maxPerPkg hp
  have hflt : (p.files.filter fun f => !"_test.go".toList.isSuffixOf f.name) =
      p.files.filter fun f => decide (¬ Spec.TestFile f.name) := by
    refine List.filter_congr fun f _ => ?_
    rw [Bool.eq_iff_iff, decide_eq_true_eq, Bool.not_eq_true', ← Bool.not_eq_true, testFile_iff]
  have hnames : rs.map (·.name) = (p.files.filter fun f => !"_test.go".toList.isSuffixOf f.name).map (·.name) := by
    rw [h2, List.filter_map]; rfl
  refine ⟨rs, h1, ?_⟩
  rw [hflt] at h5 hnames
  have hfil : ∀ f ∈ p.files, f.decls.filter (chosen (pkgOpts upper r trapAll p)) = f.decls.filter fun d =>
      decide (Spec.Interceptable p.path d ∧ Spec.Requested upper r trapAll p d) := fun f hf =>
    dep_filter hm hi f.decls (hp f hf)
  have h6 := h5 (fun f hf ht => by
      rw [hfil f hf]; exact h16 f hf fun x => ht ((testFile_iff _).2 x)) (by
      refine Nat.le_trans (Nat.le_of_eq ?_) h96
      exact congrArg List.sum (List.map_congr_left fun f hf => by rw [hfil f (List.mem_filter.1 hf).1]))
  have h7 : rs.map (fun f => (f.name, f.extra)) = (rs.map (·.name)).zip (rs.map (·.extra)) := by
    rw [List.zip_map']
  rw [h7, hnames, h6, List.zip_map']
  refine List.map_congr_left fun f hf => ?_
  rw [dep_names hm hi f.decls (hp f (List.mem_filter.1 hf).1)]

/-! Examples for the theorems above -/

/-- ASCII upper case letters. -/
def asciiUpper (c : Char) : Bool := decide (65 ≤ c.toNat) && decide (c.toNat ≤ 90)

/-- A package with a function, an `init` function, a method, a nosplit function, and a test file. -/
def demoFiles : List SrcFile :=
  [{ name := "a.go".toList,
     decls := [{ name := "F".toList }, { name := "init".toList },
       { name := "g".toList, recv := some (.star (.index (.ident "T".toList))) },
       { name := "h".toList, doc := ["// h".toList, "//go:nosplit".toList] }] },
   { name := "a_test.go".toList, decls := [{ name := "TestF".toList }] }]

theorem demo_plain (p : Pkg) (h : p.files = demoFiles) : PlainPkg p := by
  intro f hf d hd e he
  rw [h] at hf
  simp only [demoFiles, List.mem_cons, List.not_mem_nil, or_false] at hf
  rcases hf with rfl | rfl
  · simp only [List.mem_cons, List.not_mem_nil, or_false] at hd
    rcases hd with rfl | rfl | rfl | rfl <;> cases he
    rfl
  · simp only [List.mem_cons, List.not_mem_nil, or_false] at hd
    subst hd
    cases he

example : PlainPkg { path := "m/a".toList, main := true, files := demoFiles } ∧
    (instrumentPkg asciiUpper {} false { path := "m/a".toList, main := true, files := demoFiles }).map
      (·.map fun f => f.inPlace.map (·.2)) = some [["F".toList, "(*T).g".toList], ["TestF".toList]] :=
  ⟨demo_plain _ rfl, by decide +kernel⟩

example : (instrumentPkg asciiUpper {} false { path := "d".toList, initial := true, files := demoFiles }).map
      (·.map (·.extra)) = some [["F".toList, "(*T).g".toList]] := by decide +kernel

example : (instrumentPkg asciiUpper { methods := [("T".toList, "g".toList)] } false
      { path := "d".toList, files := demoFiles }).map (·.map (·.extra)) = some [["(*T).g".toList]] ∧
    (instrumentPkg asciiUpper {} true { path := "d".toList, files := demoFiles }).map (·.map (·.extra)) =
      some [["F".toList]] := by decide +kernel

/-- A file of a dependency with seventeen exported functions. -/
def manyFuncs : Pkg :=
  { path := "d".toList
    files := [{ name := "a.go".toList, decls := "ABCDEFGHIJKLMNOPQ".toList.map fun c => { name := [c] } }] }

/-- **C47**, counterexample: with `--trap-all` (or an interceptor for all functions) the 17th function of a file of a
    dependency is not intercepted although the program mocks it. -/
theorem C47_counterexample :
    ∃ d ∈ (manyFuncs.files.map (·.decls)).flatten,
      Spec.Interceptable manyFuncs.path d ∧ Spec.Mocked { funcs := ["Q".toList] } d ∧
      ∀ rs, instrumentPkg asciiUpper { funcs := ["Q".toList] } true manyFuncs = some rs →
        ∀ f ∈ rs, Spec.identity d ∉ f.extra := by
  refine ⟨{ name := "Q".toList }, ?_, ?_, Or.inl ⟨rfl, List.mem_cons_self⟩, ?_⟩
  · decide +kernel
  · rw [← eligible_iff]; decide +kernel
  · intro rs h f hf
    have h2 : (instrumentPkg asciiUpper { funcs := ["Q".toList] } true manyFuncs).map
        (·.all fun f => !f.extra.contains "Q".toList) = some true := by decide +kernel
    rw [h] at h2
    simp only [Option.map_some, Option.some.injEq, List.all_eq_true] at h2
    have h3 := h2 f hf
    intro h4
    rw [show Spec.identity { name := "Q".toList } = "Q".toList from rfl] at h4
    rw [List.contains_iff_mem.2 h4] at h3
    exact absurd h3 (by decide)

/-- **C47**, counterexample: a method with a parenthesised receiver, `func (t (T)) f() {}`, anywhere in a package that
    is looked at, makes xgo panic, even if nothing in that package is to be intercepted. -/
theorem C47_counterexample_panic :
    ¬ Spec.Untouchable "d".toList ∧
    instrumentPkg asciiUpper {} false
      { path := "d".toList,
        files := [{ name := "a.go".toList,
                    decls := [{ name := "f".toList, recv := some (.paren (.ident "T".toList)) }] }] } = none :=
  ⟨by rw [← allow_iff]; decide +kernel, by decide +kernel⟩

/-! ### The standard library -/

theorem listed_std (path : Str) (d : FuncDecl) :
    (∃ c, getPkgConfig path = some c ∧ Spec.Listed c d) ↔ Spec.StdListed path (Spec.identity d) := by
  generalize hi : Spec.identity d = f
  have ex : ∀ (q : Str), (∃ rest, f = q ++ rest) ↔ q <+: f := fun q => ⟨fun ⟨t, h⟩ => ⟨t, h.symm⟩, fun ⟨t, h⟩ => ⟨t, h.symm⟩⟩
  unfold Spec.StdListed Spec.Listed
  rw [hi]
  simp only [ex]
  by_cases hk : path ∈ stdPkgConfig.map (·.1)
  · have hk' : path = "os".toList ∨ path = "io".toList ∨ path = "io/ioutil".toList ∨ path = "time".toList ∨ path = "os/exec".toList ∨
        path = "net/http".toList ∨ path = "net".toList := by simpa [stdPkgConfig] using hk
    rcases hk' with h | h | h | h | h | h | h <;> subst h
    all_goals simp [getPkgConfig, stdPkgConfig]
  · have : getPkgConfig path = none := by
      rw [getPkgConfig, List.find?_eq_none.2 fun x hx => ?_]
      · rfl
      · simp only [decide_eq_true_eq]; rintro rfl; exact hk (List.mem_map_of_mem hx)
    rw [this]
    simp only [stdPkgConfig, List.map_cons, List.map_nil, List.mem_cons, not_or] at hk
    constructor
    · rintro ⟨c, h, -⟩; cases h
    · rintro (h | ⟨p, hp, h, -⟩)
      · simp at h; simp_all
      · simp at hp; rcases hp with rfl | rfl | rfl <;> simp_all

/-- **C47** (standard library) Of a package of the standard library that the program only uses, these functions are intercepted, whatever the
    flags: those the program mocks by name (with their namesakes), and those of the documented list. -/
theorem C47_stdlib (upper : Char → Bool) (r : Recorder) (trapAll : Bool) (p : Pkg) (hs : p.stdlib = true) (d : FuncDecl) :
    Spec.Requested upper r trapAll p d ↔ Spec.Mocked r d ∨ Spec.Namesake r d ∨ Spec.StdListed p.path (Spec.identity d) := by
  rw [← listed_std]
  unfold Spec.Requested
  cases getPkgConfig p.path with
  | none => simp [hs]
  | some c => simp

/-- `os.Getenv`, `(*net.Dialer).DialContext` and `time.Now` are in the list; `os.Exit` and the method `Now` of another type are not. -/
example : Spec.StdListed "os".toList "Getenv".toList ∧ Spec.StdListed "net".toList "(*Dialer).DialContext".toList ∧
    Spec.StdListed "time".toList (Spec.identity { name := "Now".toList }) ∧
    ¬ Spec.StdListed "os".toList "Exit".toList ∧ ¬ Spec.StdListed "time".toList "T.Now".toList := by
  unfold Spec.StdListed
  decide +kernel
/-! ### The compiler -/

theorem compilerRecv_plain {d : FuncDecl} (h : Spec.PlainRecv d) : compilerRecv d = some (recvInfo d) := by
  unfold compilerRecv recvInfo parseReceiver
  cases hr : d.recv with
  | none => rfl
  | some e =>
    have hs := h e hr
    cases e with
    | ident t => rfl
    | index x =>
      cases x with
      | ident t => rfl
      | _ => exact absurd hs (by simp [Spec.recvOf])
    | star x =>
      cases x with
      | ident t => rfl
      | index y =>
        cases y with
        | ident t => rfl
        | _ => exact absurd hs (by simp [Spec.recvOf])
      | _ => exact absurd hs (by simp [Spec.recvOf])
    | _ => exact absurd hs (by simp [Spec.recvOf])

theorem compilerTakes_eq {funcs : List Str} {d : FuncDecl} (h : Spec.PlainRecv d) :
    compilerTakes funcs d = some (d.hasBody && !decide (d.name = [] ∨ d.name = "_".toList ∨ d.name = "init".toList) &&
      funcs.contains (Spec.identity d)) := by
  unfold compilerTakes
  rw [compilerRecv_plain h]
  split
  · rename_i hb; simp only [Bool.not_eq_true'] at hb; rw [hb]; rfl
  · rename_i hb
    simp only [Bool.not_eq_true', Bool.not_eq_false] at hb
    rw [hb]
    split
    · rename_i hn
      rw [decide_eq_true hn]; rfl
    · rename_i hn
      rw [decide_eq_false hn, Option.map_some, (parse_plain h).2.1]
      rfl

/-- **C47**, the compiler's part: given the names of the selected functions of a file, the compiler puts traps exactly
    into these functions, if no two functions of the file have the same name (Go's rule), none of them is a method
    called `init`, and the program does not use the name of the trap.

    Missing from the full property: see `C47_counterexample_init`. -/
theorem C47_compiler_partial (pkgPath : Str) (sel : FuncDecl → Bool) (ds : List CDecl)
    (hp : ∀ c ∈ ds, Spec.PlainRecv c.decl)
    (hsel : ∀ c ∈ ds, sel c.decl = true → Spec.Interceptable pkgPath c.decl ∧ c.decl.name ≠ "init".toList)
    (huniq : ∀ a ∈ ds, ∀ b ∈ ds, a.decl.name ∉ ["_".toList, "init".toList] →
      Spec.identity a.decl = Spec.identity b.decl → a.decl = b.decl)
    (hfree : ∀ c ∈ ds, "__xgo_trap_0".toList ∉ c.names) :
    compilerTraps (((ds.map (·.decl)).filter sel).map Spec.identity) ds = some ((ds.map (·.decl)).filter sel) := by
  have key : ∀ c ∈ ds, compilerTakes (((ds.map (·.decl)).filter sel).map Spec.identity) c.decl = some (sel c.decl) := by
    intro c hc
    rw [compilerTakes_eq (hp c hc), Option.some.injEq, Bool.eq_iff_iff]
    constructor
    · intro h
      simp only [Bool.and_eq_true, Bool.not_eq_true', decide_eq_false_iff_not, not_or, List.contains_iff_mem,
        List.mem_map, List.mem_filter] at h
      obtain ⟨⟨_, h2, h3, h4⟩, a, ⟨⟨b, hb, rfl⟩, hsb⟩, he⟩ := h
      rw [← huniq c hc b hb (by
        intro hmem
        rcases List.mem_cons.1 hmem with h | h
        · exact h3 h
        · exact h4 (List.mem_singleton.1 h)) he.symm] at hsb
      exact hsb
    · intro h
      obtain ⟨⟨h1, h2, h3, _⟩, h5⟩ := hsel c hc h
      simp only [Bool.and_eq_true, Bool.not_eq_true', decide_eq_false_iff_not, not_or, List.contains_iff_mem,
        List.mem_map, List.mem_filter]
      exact ⟨⟨h1, h2, h3, h5⟩, c.decl, ⟨⟨c, hc, rfl⟩, h⟩, rfl⟩
  generalize (((ds.map (·.decl)).filter sel).map Spec.identity) = funcs at key
  clear hsel huniq hp
  induction ds with
  | nil => rfl
  | cons c ds ih =>
    rw [compilerTraps, key c List.mem_cons_self]
    simp only
    rw [ih (fun x hx => hfree x (List.mem_cons_of_mem _ hx)) fun x hx => key x (List.mem_cons_of_mem _ hx)]
    have hf : (!c.names.contains "__xgo_trap_0".toList) = true := by
      rw [Bool.not_eq_true', ← Bool.not_eq_true, List.contains_iff_mem]
      exact hfree c List.mem_cons_self
    rw [Option.map_some, hf, Bool.and_true, List.map_cons]
    cases hs : sel c.decl with
    | true => rw [List.filter_cons_of_pos hs]; rfl
    | false => rw [List.filter_cons_of_neg (by rw [hs]; simp)]; rfl

example : compilerTraps ["F".toList, "(*T).g".toList]
    (((demoFiles.map (·.decls)).flatten).map fun d => { decl := d }) =
    some [{ name := "F".toList }, { name := "g".toList, recv := some (.star (.index (.ident "T".toList))) }] := by
  decide +kernel

/-- **C47**, counterexample: a method called `init` of a dependency is selected when it is mocked, but the compiler
    takes it for an `init` function. -/
theorem C47_counterexample_init :
    ∃ d : FuncDecl, Spec.PlainRecv d ∧ Spec.Interceptable "d".toList d ∧
      (instrumentPkg asciiUpper { methods := [("T".toList, "init".toList)] } false
        { path := "d".toList, files := [{ name := "a.go".toList, decls := [d] }] }).map (·.map (·.extra)) =
          some [[Spec.identity d]] ∧
      compilerTraps [Spec.identity d] [{ decl := d }] = some [] :=
  ⟨{ name := "init".toList, recv := some (.ident "T".toList) },
    by intro e he; cases he; rfl, by rw [← eligible_iff]; decide +kernel, by decide +kernel, by decide +kernel⟩

/-- Splitting the registrations over several files loses, repeats and reorders nothing, and no part exceeds the limit
    of the compiler. -/
theorem splitLoop_spec {α : Type} (batch : Nat) (hb : 0 < batch) : ∀ (l cur : List α), cur.length < batch →
    (splitLoop batch l cur).flatten = cur ++ l ∧ ∀ x ∈ splitLoop batch l cur, x ≠ [] ∧ x.length ≤ batch := by
  intro l
  induction l with
  | nil =>
    intro cur h
    rw [splitLoop]
    split
    · rename_i h2
      simp only [List.flatten_cons, List.flatten_nil, List.mem_singleton]
      refine ⟨by simp, ?_⟩
      rintro x rfl
      exact ⟨by intro e; simp [e] at h2, by omega⟩
    · rename_i h2
      have : cur = [] := List.length_eq_zero_iff.1 (by omega)
      simp [this]
  | cons a l ih =>
    intro cur h
    rw [splitLoop]
    split
    · obtain ⟨h1, h2⟩ := ih [] (by simpa using hb)
      rw [List.flatten_cons, h1]
      refine ⟨by simp, ?_⟩
      intro x hx
      rcases List.mem_cons.1 hx with rfl | hx
      · exact ⟨by simp, by simp; omega⟩
      · exact h2 x hx
    · rename_i h3
      obtain ⟨h1, h2⟩ := ih (cur ++ [a]) (by omega)
      rw [h1]
      exact ⟨by simp, h2⟩

/-- **C47**, the compiler's part: the registrations are split into batches without loss, repetition or reordering, and
    no batch exceeds the limit. -/
theorem C47_batches {α : Type} (batch : Nat) (hb : 0 < batch) (l : List α) :
    (splitBatch batch l).flatten = l ∧ ∀ x ∈ splitBatch batch l, x.length ≤ batch := by
  unfold splitBatch
  split
  · rename_i h
    simp only [List.flatten_cons, List.flatten_nil, List.append_nil, List.mem_singleton, true_and]
    rintro x rfl
    exact h
  · obtain ⟨h1, h2⟩ := splitLoop_spec batch hb l [] (by simpa using hb)
    exact ⟨by simpa using h1, fun x hx => (h2 x hx).2⟩

example : splitBatch 2 [1, 2, 3, 4, 5] = [[1, 2], [3, 4], [5]] := by decide +kernel

end Verif.Instrument.FuncTrap
