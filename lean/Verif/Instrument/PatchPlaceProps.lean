/-
C57: positioning commands of a patch file point to the place they name.
-/
import Verif.Instrument.PatchApplySpec

namespace Verif.Instrument.PatchApply
open Verif.Text Spec

/-! ### Searching -/

theorem cut_first {t s a b : Str} (h : cut t s = some (a, b)) :
    s = a ++ t ++ b ∧ ∀ x y, s = x ++ t ++ y → a.length ≤ x.length := by
  refine ⟨cut_eq h, ?_⟩
  induction s generalizing a b with
  | nil =>
    intro x y _
    have := cut_length h
    simp at this
    omega
  | cons c s ih =>
    intro x y hx
    unfold cut at h
    split at h
    · injection h with h; injection h with ha hb; subst ha; simp
    · rename_i hp
      cases x with
      | nil =>
        exact absurd (List.isPrefixOf_iff_prefix.2 ⟨y, by simpa using hx.symm⟩) hp
      | cons d x =>
        cases hc : cut t s with
        | none => rw [hc] at h; simp at h
        | some p =>
          rw [hc] at h
          simp only [Option.map_some, Option.some.injEq, Prod.mk.injEq] at h
          obtain ⟨rfl, rfl⟩ := h
          simp only [List.cons_append, List.cons.injEq] at hx
          have := ih hc x y hx.2
          simp
          omega

theorem index_iff {t s : Str} {a b i : Nat} :
    (index t (slice s a b)).map (a + ·) = some i ↔ FirstAt s a b t i := by
  unfold index slice FirstAt
  generalize (s.take b).drop a = l
  constructor
  · intro h
    cases hc : cut t l with
    | none => rw [hc] at h; simp at h
    | some p =>
      rw [hc] at h
      simp only [Option.map_some, Option.some.injEq] at h
      obtain ⟨h1, h2⟩ := cut_first hc
      subst h
      exact ⟨⟨_, _, h1, rfl⟩, fun x y hx => Nat.add_le_add_left (h2 x y hx) a⟩
  · rintro ⟨⟨x, y, hx, rfl⟩, h2⟩
    cases hc : cut t l with
    | none => exact absurd ⟨x, y, hx.symm⟩ (cut_none.1 hc)
    | some p =>
      obtain ⟨h1, h3⟩ := cut_first hc
      have h4 := h2 _ _ h1
      have h5 := h3 _ _ hx
      simp only [Option.map_some, Option.some.injEq]
      omega

theorem lastIndex_spec (t : Str) : ∀ s, match lastIndex t s with
    | none => ¬ t <:+: s
    | some i => (∃ x y, s = x ++ t ++ y ∧ i = x.length) ∧ ∀ x y, s = x ++ t ++ y → x.length ≤ i := by
  intro s
  induction s with
  | nil =>
    unfold lastIndex
    by_cases ht : t = []
    · subst ht
      simp only [if_true, List.append_nil]
      refine ⟨⟨[], [], rfl, rfl⟩, ?_⟩
      intro x y h
      cases x <;> simp_all
    · simp [ht]
  | cons c s ih =>
    unfold lastIndex
    cases h : lastIndex t s with
    | some i =>
      rw [h] at ih
      obtain ⟨⟨x, y, hx, hi⟩, h2⟩ := ih
      refine ⟨⟨c :: x, y, by simp [hx], by simp [hi]⟩, ?_⟩
      intro x y hx
      cases x with
      | nil => simp
      | cons d x =>
        simp only [List.cons_append, List.cons.injEq] at hx
        have := h2 x y hx.2
        simp
        omega
    | none =>
      rw [h] at ih
      by_cases hp : t.isPrefixOf (c :: s)
      · simp only [hp, if_true]
        obtain ⟨y, hy⟩ := List.isPrefixOf_iff_prefix.1 hp
        refine ⟨⟨[], y, by simpa using hy.symm, rfl⟩, ?_⟩
        intro x z hx
        cases x with
        | nil => simp
        | cons d x =>
          simp only [List.cons_append, List.cons.injEq] at hx
          exact absurd ⟨x, z, hx.2.symm⟩ ih
      · simp only [hp, Bool.false_eq_true, if_false]
        rintro ⟨x, y, hx⟩
        cases x with
        | nil => exact hp (List.isPrefixOf_iff_prefix.2 ⟨y, by simpa using hx⟩)
        | cons d x =>
          simp only [List.cons_append, List.cons.injEq] at hx
          exact ih ⟨x, y, hx.2⟩

theorem lastIndex_iff {t s : Str} {a b i : Nat} :
    (lastIndex t (slice s a b)).map (a + ·) = some i ↔ LastAt s a b t i := by
  unfold slice LastAt
  generalize (s.take b).drop a = l
  have h := lastIndex_spec t l
  cases hc : lastIndex t l with
  | none =>
    rw [hc] at h
    simp only [Option.map_none, reduceCtorEq, false_iff]
    rintro ⟨⟨x, y, hx, -⟩, -⟩
    exact h ⟨x, y, hx.symm⟩
  | some j =>
    rw [hc] at h
    obtain ⟨⟨x, y, hx, rfl⟩, h2⟩ := h
    simp only [Option.map_some, Option.some.injEq]
    constructor
    · rintro rfl
      exact ⟨⟨x, y, hx, rfl⟩, fun x' y' h' => Nat.add_le_add_left (h2 _ _ h') a⟩
    · rintro ⟨⟨x', y', hx', rfl⟩, h3⟩
      have := h2 _ _ hx'
      have := h3 _ _ hx
      omega

theorem lastIndex_none {t s : Str} {a b : Nat} : lastIndex t (slice s a b) = none ↔ NotIn s a b t := by
  unfold slice NotIn
  have h := lastIndex_spec t ((s.take b).drop a)
  cases hc : lastIndex t ((s.take b).drop a) with
  | none => rw [hc] at h; simpa using h
  | some j =>
    rw [hc] at h
    obtain ⟨⟨x, y, hx, -⟩, -⟩ := h
    simp only [reduceCtorEq, false_iff, Classical.not_not]
    exact ⟨x, y, hx.symm⟩

theorem find_iff {α : Type} {p : α → Bool} {l : List α} {x : α} : l.find? p = some x ↔ FirstOf (fun x => p x = true) l x := by
  rw [List.find?_eq_some_iff_append]
  unfold FirstOf
  constructor
  · rintro ⟨h1, as, bs, h2, h3⟩
    exact ⟨as, bs, h2, h1, fun y hy => by simpa using h3 y hy⟩
  · rintro ⟨as, bs, h2, h1, h3⟩
    exact ⟨h1, as, bs, h2, fun y hy => by simpa using h3 y hy⟩

theorem firstOf_congr {α : Type} {p q : α → Prop} {l : List α} {x : α} (h : ∀ y, p y ↔ q y) : FirstOf p l x ↔ FirstOf q l x := by
  have : p = q := funext fun y => propext (h y)
  rw [this]

/-! ### Nodes -/

theorem has_iff {sp : Span} {pos : Nat} : sp.has pos = true ↔ In sp pos := by simp [Span.has, In]

theorem find_unique {α : Type} {sp : α → Span} {l : List α} (h : Separate (l.map sp)) {pos : Nat} {x : α} :
    l.find? (fun y => (sp y).has pos) = some x ↔ x ∈ l ∧ In (sp x) pos := by
  induction l with
  | nil => simp
  | cons y l ih =>
    unfold Separate at h ih
    rw [List.map_cons, List.pairwise_cons] at h
    by_cases hy : (sp y).has pos
    · rw [List.find?_cons_of_pos (p := fun y => (sp y).has pos) hy]
      simp only [Option.some.injEq, List.mem_cons]
      constructor
      · rintro rfl; exact ⟨Or.inl rfl, has_iff.1 hy⟩
      · rintro ⟨rfl | hx, hi⟩
        · rfl
        · have h1 := h.1 (sp x) (List.mem_map_of_mem hx)
          have h2 := has_iff.1 hy
          unfold In at hi h2
          omega
    · rw [List.find?_cons_of_neg (p := fun y => (sp y).has pos) hy, ih h.2]
      simp only [List.mem_cons]
      constructor
      · rintro ⟨h1, h2⟩; exact ⟨Or.inr h1, h2⟩
      · rintro ⟨rfl | h1, h2⟩
        · exact absurd (has_iff.2 h2) hy
        · exact ⟨h1, h2⟩

theorem cursorNode_nodeAt {file : File} (hw : WellFormed file) (pos : Nat) : NodeAt file pos (cursorNode file pos) := by
  unfold cursorNode
  cases h : file.find? (fun d => d.span.has pos) with
  | none =>
    refine .file ?_
    intro d hd hi
    have := List.find?_eq_none.1 h d hd
    exact this (has_iff.2 hi)
  | some d =>
    obtain ⟨hm, hi⟩ := (find_unique hw.decls).1 h
    cases d with
    | func f => exact .func hm hi
    | types sp specs =>
      simp only [nodeOfDecl]
      cases h2 : specs.find? (fun t => t.span.has pos) with
      | none => exact .types hm hi fun t ht hj => List.find?_eq_none.1 h2 t ht (has_iff.2 hj)
      | some t =>
        obtain ⟨hm2, hi2⟩ := (find_unique (hw.types _ _ hm)).1 h2
        simp only [nodeOfTypeSpec]
        split
        · rename_i h3; exact .type hm hi hm2 hi2 (has_iff.1 h3)
        · rename_i h3; exact .typeSpec hm hi hm2 hi2 fun h4 => h3 (has_iff.2 h4)
    | values sp specs =>
      simp only [nodeOfDecl]
      cases h2 : specs.find? (fun t => t.has pos) with
      | none => exact .values hm hi fun t ht hj => List.find?_eq_none.1 h2 t ht (has_iff.2 hj)
      | some t =>
        obtain ⟨hm2, hi2⟩ := (find_unique (sp := id) (by simpa using hw.values _ _ hm)).1 h2
        exact .valueSpec hm hi hm2 hi2

theorem nodeAt_iff {file : File} (hw : WellFormed file) {pos : Nat} {nd : Node} :
    NodeAt file pos nd ↔ cursorNode file pos = nd := by
  refine ⟨?_, fun h => h ▸ cursorNode_nodeAt hw pos⟩
  intro h
  have hd : ∀ {d : Decl}, d ∈ file → In d.span pos → cursorNode file pos = nodeOfDecl pos d := by
    intro d hm hi
    unfold cursorNode
    rw [(find_unique hw.decls).2 ⟨hm, hi⟩]
  cases h with
  | file h =>
    unfold cursorNode
    rw [List.find?_eq_none.2 fun d hd hi => h d hd (has_iff.1 hi)]
  | func hm hi => rw [hd hm hi]; rfl
  | type hm h ht hi hj =>
    rw [hd hm h]
    simp only [nodeOfDecl, (find_unique (hw.types _ _ hm)).2 ⟨ht, hi⟩, nodeOfTypeSpec, has_iff.2 hj, if_true]
  | typeSpec hm h ht hi hj =>
    rw [hd hm h]
    have h3 : ¬ (_ : Span).has pos = true := fun h => hj (has_iff.1 h)
    simp only [nodeOfDecl, (find_unique (hw.types _ _ hm)).2 ⟨ht, hi⟩, nodeOfTypeSpec, h3, Bool.false_eq_true, if_false]
  | types hm h ht =>
    rw [hd hm h]
    simp only [nodeOfDecl]
    rw [List.find?_eq_none.2 fun t hm hi => ht t hm (has_iff.1 hi)]
  | valueSpec hm h ht hi =>
    rw [hd hm h]
    simp only [nodeOfDecl]
    rw [show (fun s : Span => s.has pos) = fun y => (id y : Span).has pos from rfl,
      (find_unique (sp := id) (by simpa using hw.values _ _ hm)).2 ⟨ht, hi⟩]
  | values hm h ht =>
    rw [hd hm h]
    simp only [nodeOfDecl]
    rw [List.find?_eq_none.2 fun t hm hi => ht t hm (has_iff.1 hi)]

theorem scopeOf_iff {s : Str} {nd : Node} {a b : Nat} : ScopeOf s nd a b ↔ scopeOf s nd = (a, b) := by
  constructor
  · intro h; cases h <;> rfl
  · intro h
    cases nd <;> (simp only [scopeOf, Prod.mk.injEq] at h; obtain ⟨rfl, rfl⟩ := h; constructor)

theorem braces_iff {nd : Node} {l r : Nat} : Braces nd l r ↔ bracesOf nd = some (l, r) := by
  constructor
  · intro h
    cases h with
    | func h => exact h
    | struct h => simp only [bracesOf, h]
    | iface h => simp only [bracesOf, h]
  · intro h
    match nd, h with
    | .decl (.func f), h => exact .func h
    | .typeSpec t, h =>
      simp only [bracesOf] at h
      split at h
      · rename_i e; simp only [Option.some.injEq, Prod.mk.injEq] at h; obtain ⟨rfl, rfl⟩ := h; exact .struct e
      · rename_i e; simp only [Option.some.injEq, Prod.mk.injEq] at h; obtain ⟨rfl, rfl⟩ := h; exact .iface e
      · cases h

/-! ### Targets of `goto` -/

theorem lit_opening : "opening {".toList = ['o', 'p', 'e', 'n', 'i', 'n', 'g', ' ', '{'] := by decide
theorem lit_closing : "closing }".toList = ['c', 'l', 'o', 's', 'i', 'n', 'g', ' ', '}'] := by decide
theorem lit_field : "field ".toList = ['f', 'i', 'e', 'l', 'd', ' '] := by decide
theorem lit_struct : "struct ".toList = ['s', 't', 'r', 'u', 'c', 't', ' '] := by decide
theorem lit_interface : "interface ".toList = ['i', 'n', 't', 'e', 'r', 'f', 'a', 'c', 'e', ' '] := by decide
theorem lit_func : "func ".toList = ['f', 'u', 'n', 'c', ' '] := by decide

theorem after_eq {p s r : Str} : after? p s = some r ↔ s = p ++ r := by
  unfold after?
  constructor
  · intro h
    split at h
    · rename_i hp
      obtain ⟨y, rfl⟩ := List.isPrefixOf_iff_prefix.1 hp
      simp only [List.drop_left, Option.some.injEq] at h
      rw [h]
    · cases h
  · rintro rfl
    rw [if_pos (List.isPrefixOf_iff_prefix.2 ⟨r, rfl⟩), List.drop_left]

theorem after_append (p r : Str) : after? p (p ++ r) = some r := after_eq.2 rfl

theorem evalGoto_opening (s : Str) (file : File) (c : Cursor) :
    evalGoto s file c "opening {".toList = evalGotoBrace file c true := by unfold evalGoto; rw [if_pos rfl]

theorem evalGoto_closing (s : Str) (file : File) (c : Cursor) :
    evalGoto s file c "closing }".toList = evalGotoBrace file c false := by
  unfold evalGoto
  rw [if_neg (by decide), if_pos rfl]

theorem evalGoto_field (s : Str) (file : File) (c : Cursor) (r : Str) :
    evalGoto s file c ("field ".toList ++ r) = evalGotoField file c (trimSpace r) := by
  unfold evalGoto
  rw [if_neg (by rw [lit_field, lit_opening]; simp), if_neg (by rw [lit_field, lit_closing]; simp), after_append]

theorem evalGoto_struct (s : Str) (file : File) (c : Cursor) (r : Str) :
    evalGoto s file c ("struct ".toList ++ r) = evalGotoDecl file (trimSpace r) TypeSpec.isStruct := by
  unfold evalGoto
  rw [if_neg (by rw [lit_struct, lit_opening]; simp), if_neg (by rw [lit_struct, lit_closing]; simp),
    show after? "field ".toList ("struct ".toList ++ r) = none by
      rw [lit_field, lit_struct]; simp [after?, List.isPrefixOf]]
  simp only [after_append]

theorem evalGoto_interface (s : Str) (file : File) (c : Cursor) (r : Str) :
    evalGoto s file c ("interface ".toList ++ r) = evalGotoDecl file (trimSpace r) TypeSpec.isInterface := by
  unfold evalGoto
  rw [if_neg (by rw [lit_interface, lit_opening]; simp), if_neg (by rw [lit_interface, lit_closing]; simp),
    show after? "field ".toList ("interface ".toList ++ r) = none by
      rw [lit_field, lit_interface]; simp [after?, List.isPrefixOf]]
  simp only [after_append]
  rw [show after? "struct ".toList ("interface ".toList ++ r) = none by
      rw [lit_struct, lit_interface]; simp [after?, List.isPrefixOf]]

theorem evalGoto_func (s : Str) (file : File) (c : Cursor) (r : Str) :
    evalGoto s file c ("func ".toList ++ r) = evalGotoFunc s file (trimSpace r) := by
  unfold evalGoto
  rw [if_neg (by rw [lit_func, lit_opening]; simp), if_neg (by rw [lit_func, lit_closing]; simp),
    show after? "field ".toList ("func ".toList ++ r) = none by
      rw [lit_field, lit_func]; simp [after?, List.isPrefixOf]]
  simp only [after_append]
  rw [show after? "struct ".toList ("func ".toList ++ r) = none by
      rw [lit_struct, lit_func]; simp [after?, List.isPrefixOf]]
  simp only
  rw [show after? "interface ".toList ("func ".toList ++ r) = none by
      rw [lit_interface, lit_func]; simp [after?, List.isPrefixOf]]

theorem evalGoto_cases {s : Str} {file : File} {c c' : Cursor} {t : Str} (h : evalGoto s file c t = some c') :
    t = "opening {".toList ∨ t = "closing }".toList ∨ (∃ r, t = "field ".toList ++ r) ∨
    (∃ r, t = "struct ".toList ++ r) ∨ (∃ r, t = "interface ".toList ++ r) ∨ (∃ r, t = "func ".toList ++ r) := by
  unfold evalGoto at h
  split at h
  · exact Or.inl ‹_›
  · split at h
    · exact Or.inr (Or.inl ‹_›)
    · split at h
      · rename_i e; exact Or.inr (Or.inr (Or.inl ⟨_, after_eq.1 e⟩))
      · split at h
        · rename_i e; exact Or.inr (Or.inr (Or.inr (Or.inl ⟨_, after_eq.1 e⟩)))
        · split at h
          · rename_i e; exact Or.inr (Or.inr (Or.inr (Or.inr (Or.inl ⟨_, after_eq.1 e⟩))))
          · split at h
            · rename_i e; exact Or.inr (Or.inr (Or.inr (Or.inr (Or.inr ⟨_, after_eq.1 e⟩))))
            · cases h

/-! ### Declarations -/

theorem typeSpecs_eq (file : File) : typeSpecs file = typesOf file := by
  induction file with
  | nil => rfl
  | cons d l ih =>
    unfold typeSpecs at *
    rw [List.flatMap_cons, ih]
    cases d <;> rfl

theorem funcs_eq (file : File) : funcs file = funcsOf file := by
  induction file with
  | nil => rfl
  | cons d l ih =>
    unfold funcs at *
    rw [List.filterMap_cons, ih]
    cases d <;> rfl

theorem isStruct_iff {t : TypeSpec} : t.isStruct = true ↔ IsStruct t := by
  unfold TypeSpec.isStruct IsStruct
  cases h : t.type <;> simp

theorem isInterface_iff {t : TypeSpec} : t.isInterface = true ↔ IsInterface t := by
  unfold TypeSpec.isInterface IsInterface
  cases h : t.type <;> simp

theorem evalGotoDecl_iff {file : File} {n : Str} {chk : TypeSpec → Bool} {q : TypeSpec → Prop} (hq : ∀ t, chk t = true ↔ q t)
    {c' : Cursor} : evalGotoDecl file n chk = some c' ↔
      ∃ t, FirstOf (fun t => t.name = n ∧ q t) (typesOf file) t ∧ c' = ⟨t.span.pos, t.span.pos, false⟩ := by
  unfold evalGotoDecl
  rw [Option.map_eq_some_iff]
  simp only [find_iff, typeSpecs_eq]
  have : ∀ t, FirstOf (fun t => (decide (t.name = n) && chk t) = true) (typesOf file) t ↔
      FirstOf (fun t => t.name = n ∧ q t) (typesOf file) t := fun t => firstOf_congr fun y => by simp [hq]
  simp only [this]
  constructor <;> (rintro ⟨t, h1, h2⟩; exact ⟨t, h1, h2.symm⟩)

theorem recvMatches_none {s : Str} {f : FuncDecl} : recvMatches s none f = true ↔ ∀ sp, f.recv ≠ some (sp, true) := by
  unfold recvMatches
  cases f.recv with
  | none => simp
  | some p => obtain ⟨sp, b⟩ := p; cases b <;> simp

theorem recvMatches_some {s w : Str} {f : FuncDecl} : recvMatches s (some w) f = true ↔
    ∃ sp, f.recv = some (sp, true) ∧ w <:+: trimSpace ((s.take sp.fin).drop sp.pos) := by
  unfold recvMatches
  cases f.recv with
  | none => simp
  | some p =>
    obtain ⟨sp, b⟩ := p
    cases b
    · simp
    · simp only [Bool.true_and, contains_iff, Option.some.injEq, Prod.mk.injEq, and_true, exists_eq_left', slice]

theorem cut_char {c : Char} {w x : Str} (h : c ∉ w) : cut [c] (w ++ [c] ++ x) = some (w, x) :=
  cut_append (by simp) (by
    unfold NotBefore
    rw [List.dropLast_concat]
    intro hi
    exact h (hi.subset (by simp)))

theorem cut_char_eq {c : Char} {s w x : Str} (h : cut [c] s = some (w, x)) : s = w ++ [c] ++ x ∧ c ∉ w := by
  obtain ⟨h1, h2⟩ := cut_first h
  refine ⟨h1, fun hc => ?_⟩
  obtain ⟨a, b, hab⟩ := List.append_of_mem hc
  have := h2 a (b ++ [c] ++ x) (by rw [h1, hab]; simp)
  rw [hab] at this
  simp at this
  omega

theorem evalGotoFunc_name {s : Str} {file : File} {n : Str} (hp : n.head? ≠ some '(') {c' : Cursor} :
    evalGotoFunc s file n = some c' ↔
      ∃ f, FirstOf (fun f => f.name = n ∧ ∀ sp, f.recv ≠ some (sp, true)) (funcsOf file) f ∧
        c' = ⟨f.span.pos, f.span.pos, false⟩ := by
  have e : evalGotoFunc s file n = ((funcs file).find? fun f => decide (f.name = n) && recvMatches s none f).map fun f =>
      (⟨f.span.pos, f.span.pos, false⟩ : Cursor) := by
    unfold evalGotoFunc
    split
    · simp at hp
    · rfl
  rw [e, Option.map_eq_some_iff]
  simp only [find_iff, funcs_eq]
  have : ∀ t, FirstOf (fun f : FuncDecl => (decide (f.name = n) && recvMatches s none f) = true) (funcsOf file) t ↔
      FirstOf (fun f => f.name = n ∧ ∀ sp, f.recv ≠ some (sp, true)) (funcsOf file) t :=
    fun t => firstOf_congr fun y => by rw [Bool.and_eq_true, recvMatches_none]; simp
  simp only [this]
  constructor <;> (rintro ⟨t, h1, h2⟩; exact ⟨t, h1, h2.symm⟩)

theorem evalGotoFunc_method {s : Str} {file : File} {r : Str} {c' : Cursor} :
    evalGotoFunc s file ('(' :: r) = some c' ↔
      ∃ w x f, r = w ++ [')'] ++ x ∧ ')' ∉ w ∧ FirstOf (fun f => f.name = trimSpace x ∧ ∃ sp, f.recv = some (sp, true) ∧
        w <:+: trimSpace ((s.take sp.fin).drop sp.pos)) (funcsOf file) f ∧ c' = ⟨f.span.pos, f.span.pos, false⟩ := by
  have key : ∀ w x, ((((funcs file).find? fun f => decide (f.name = trimSpace x) && recvMatches s (some w) f).map fun f =>
      (⟨f.span.pos, f.span.pos, false⟩ : Cursor)) = some c') ↔
      ∃ f, FirstOf (fun f => f.name = trimSpace x ∧ ∃ sp, f.recv = some (sp, true) ∧
        w <:+: trimSpace ((s.take sp.fin).drop sp.pos)) (funcsOf file) f ∧ c' = ⟨f.span.pos, f.span.pos, false⟩ := by
    intro w x
    rw [Option.map_eq_some_iff]
    simp only [find_iff, funcs_eq]
    have : ∀ t, FirstOf (fun f : FuncDecl => (decide (f.name = trimSpace x) && recvMatches s (some w) f) = true) (funcsOf file) t ↔
        FirstOf (fun f => f.name = trimSpace x ∧ ∃ sp, f.recv = some (sp, true) ∧
        w <:+: trimSpace ((s.take sp.fin).drop sp.pos)) (funcsOf file) t :=
      fun t => firstOf_congr fun y => by rw [Bool.and_eq_true, recvMatches_some]; simp
    simp only [this]
    constructor <;> (rintro ⟨t, h1, h2⟩; exact ⟨t, h1, h2.symm⟩)
  unfold evalGotoFunc
  simp only
  cases hc : cut [')'] r with
  | none =>
    simp only [reduceCtorEq, false_iff]
    rintro ⟨w, x, f, rfl, hw, -⟩
    rw [cut_char hw] at hc
    cases hc
  | some p =>
    obtain ⟨w, x⟩ := p
    obtain ⟨h1, h2⟩ := cut_char_eq hc
    simp only [key]
    constructor
    · rintro ⟨f, h3, h4⟩; exact ⟨w, x, f, h1, h2, h3, h4⟩
    · rintro ⟨w', x', f, h3, h4, h5, h6⟩
      rw [h3, cut_char h4] at hc
      injection hc with hc; injection hc with ha hb
      subst ha hb
      exact ⟨f, h5, h6⟩

/-! ### All positioning commands -/

/-- What the engine does for a positioning command (apply_engine.go:55-80). -/
def place (s : Str) (file : File) (c : Cursor) : Command → Option Cursor
  | .goto t => evalGoto s file c t
  | .search t => evalMatch s file c t false
  | .findForReplace t => evalMatch s file c t true
  | _ => none

theorem place_of_points {s : Str} {file : File} (hw : WellFormed file) {c c' : Cursor} {cmd : Command}
    (h : Points s file c cmd c') : place s file c cmd = some c' := by
  cases h with
  | func hn hp h =>
    rw [place]
    rw [evalGoto_func, hn]
    exact (evalGotoFunc_name hp).2 ⟨_, h, rfl⟩
  | method hn hw hx h =>
    rw [place]
    rw [evalGoto_func, hn]
    exact evalGotoFunc_method.2 ⟨_, _, _, rfl, hw, by rw [hx]; exact h, rfl⟩
  | struct hn h =>
    rw [place]
    rw [evalGoto_struct, hn]
    exact (evalGotoDecl_iff fun _ => isStruct_iff).2 ⟨_, h, rfl⟩
  | iface hn h =>
    rw [place]
    rw [evalGoto_interface, hn]
    exact (evalGotoDecl_iff fun _ => isInterface_iff).2 ⟨_, h, rfl⟩
  | opening hn h =>
    rw [place]
    rw [evalGoto_opening, evalGotoBrace, (nodeAt_iff hw).1 hn, braces_iff.1 h]
    rfl
  | closing hn h =>
    rw [place]
    rw [evalGoto_closing, evalGotoBrace, (nodeAt_iff hw).1 hn, braces_iff.1 h]
    rfl
  | field hn ht hs h =>
    rw [place]
    rw [evalGoto_field, evalGotoField, (nodeAt_iff hw).1 ht, hn]
    simp only [hs]
    rw [find_iff.2 ((firstOf_congr fun y => by simp).1 h)]
    rfl
  | search hn hs h =>
    rw [place]
    have h1 := index_iff.2 h
    rw [Option.map_eq_some_iff] at h1
    obtain ⟨j, h1, rfl⟩ := h1
    simp only [evalMatch, (nodeAt_iff hw).1 hn, scopeOf_iff.1 hs, Bool.false_eq_true, false_and, if_false, h1, Option.map_some]
  | findBack hn hs hc h =>
    rw [place]
    have h1 := lastIndex_iff.2 h
    rw [Option.map_eq_some_iff] at h1
    obtain ⟨j, h1, rfl⟩ := h1
    simp only [evalMatch, (nodeAt_iff hw).1 hn, scopeOf_iff.1 hs, hc, and_self, if_true, h1]
  | find hn hs hc h =>
    rw [place]
    have h1 := index_iff.2 h
    rw [Option.map_eq_some_iff] at h1
    obtain ⟨j, h1, rfl⟩ := h1
    simp only [evalMatch, (nodeAt_iff hw).1 hn, scopeOf_iff.1 hs, true_and, h1, Option.map_some]
    split
    · rename_i hx
      rw [lastIndex_none.2 (hc hx)]
    · rfl

theorem points_of_place {s : Str} {file : File} (hw : WellFormed file) {c c' : Cursor} {cmd : Command}
    (h : place s file c cmd = some c') : Points s file c cmd c' := by
  have first : ∀ {a b t r}, (index t (slice s a b)).map (fun i => (⟨a + i, a + i + t.length, r⟩ : Cursor)) = some c' →
      ∃ i, FirstAt s a b t i ∧ c' = ⟨i, i + t.length, r⟩ := by
    intro a b t r h
    rw [Option.map_eq_some_iff] at h
    obtain ⟨j, h1, rfl⟩ := h
    exact ⟨a + j, index_iff.1 (by rw [h1]; rfl), rfl⟩
  cases cmd with
  | goto t =>
    simp only [place] at h
    rcases evalGoto_cases h with rfl | rfl | ⟨r, rfl⟩ | ⟨r, rfl⟩ | ⟨r, rfl⟩ | ⟨r, rfl⟩
    · rw [evalGoto_opening, evalGotoBrace, Option.map_eq_some_iff] at h
      obtain ⟨⟨l, r⟩, h1, rfl⟩ := h
      exact .opening (cursorNode_nodeAt hw _) (braces_iff.2 h1)
    · rw [evalGoto_closing, evalGotoBrace, Option.map_eq_some_iff] at h
      obtain ⟨⟨l, r⟩, h1, rfl⟩ := h
      exact .closing (cursorNode_nodeAt hw _) (braces_iff.2 h1)
    · rw [evalGoto_field, evalGotoField] at h
      have hn := cursorNode_nodeAt hw c.offset
      cases hc : cursorNode file c.offset with
      | typeSpec t =>
        rw [hc] at h hn
        simp only at h
        cases ht : t.type with
        | struct sp l rb names =>
          rw [ht] at h
          simp only at h
          rw [Option.map_eq_some_iff] at h
          obtain ⟨p, h1, rfl⟩ := h
          exact .field rfl hn ht ((firstOf_congr fun y => by simp).2 (find_iff.1 h1))
        | iface => rw [ht] at h; cases h
        | other => rw [ht] at h; cases h
      | file => rw [hc] at h; cases h
      | decl => rw [hc] at h; cases h
      | valueSpec => rw [hc] at h; cases h
      | type => rw [hc] at h; cases h
    · rw [evalGoto_struct] at h
      obtain ⟨t, h1, rfl⟩ := (evalGotoDecl_iff fun _ => isStruct_iff).1 h
      exact .struct rfl h1
    · rw [evalGoto_interface] at h
      obtain ⟨t, h1, rfl⟩ := (evalGotoDecl_iff fun _ => isInterface_iff).1 h
      exact .iface rfl h1
    · rw [evalGoto_func] at h
      cases hr : trimSpace r with
      | nil =>
        rw [hr] at h
        obtain ⟨f, h1, rfl⟩ := (evalGotoFunc_name (by simp)).1 h
        exact .func hr (by simp) h1
      | cons ch r' =>
        by_cases hch : ch = '('
        · subst hch
          rw [hr] at h
          obtain ⟨w, x, f, rfl, h2, h3, rfl⟩ := evalGotoFunc_method.1 h
          exact .method hr h2 rfl h3
        · rw [hr] at h
          obtain ⟨f, h1, rfl⟩ := (evalGotoFunc_name (by simpa using hch)).1 h
          exact .func hr (by simpa using hch) h1
  | search t =>
    simp only [place, evalMatch, Bool.false_eq_true, false_and, if_false] at h
    obtain ⟨i, h1, rfl⟩ := first h
    exact .search (cursorNode_nodeAt hw _) (scopeOf_iff.2 rfl) h1
  | findForReplace t =>
    simp only [place, evalMatch, true_and] at h
    split at h
    · rename_i hx
      cases hl : lastIndex t (slice s (scopeOf s (cursorNode file c.offset)).1 c.offset) with
      | some i =>
        rw [hl] at h
        simp only [Option.some.injEq] at h
        subst h
        have h2 : (lastIndex t (slice s (scopeOf s (cursorNode file c.offset)).1 c.offset)).map
          ((scopeOf s (cursorNode file c.offset)).1 + ·) = some ((scopeOf s (cursorNode file c.offset)).1 + i) := by rw [hl]; rfl
        exact .findBack (cursorNode_nodeAt hw _) (scopeOf_iff.2 rfl) hx (lastIndex_iff.1 h2)
      | none =>
        rw [hl] at h
        obtain ⟨i, h1, rfl⟩ := first h
        exact .find (cursorNode_nodeAt hw _) (scopeOf_iff.2 rfl) (fun _ => lastIndex_none.1 hl) h1
    · rename_i hx
      obtain ⟨i, h1, rfl⟩ := first h
      exact .find (cursorNode_nodeAt hw _) (scopeOf_iff.2 rfl) (fun h => absurd h hx) h1
  | insertBefore => cases h
  | insertAfter => cases h
  | replace => cases h
  | newline => cases h
  | copyFunc => cases h
  | replaceDirective => cases h
  | insertAfterLine => cases h

/-- Positioning commands move the cursor where they say, and nowhere else. -/
theorem place_iff {s : Str} {file : File} (hw : WellFormed file) {c c' : Cursor} {cmd : Command} :
    place s file c cmd = some c' ↔ Points s file c cmd c' := ⟨points_of_place hw, place_of_points hw⟩

end Verif.Instrument.PatchApply
