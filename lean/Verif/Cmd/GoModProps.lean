import Verif.Cmd.GoModSpec
import Verif.Cmd.VendorProps
/-
C74: the module of a directory.
-/
namespace Verif.Cmd.GoMod
open Spec
open Verif.Cmd.Vendor (isSpace trimSpace fieldsFrom fieldsFrom_word)

/-! ### The nearest go.mod -/

theorem findLoop_ok {fs : FS} (he : ∀ d, fs d ≠ .error) (h0 : fs [] ≠ .file) : ∀ (d sub : List Str),
    (∃ r t, findLoop fs d.reverse sub = .ok (r, t ++ sub.reverse) ∧ IsRoot fs d r ∧ r ++ t = d) ∨
    (findLoop fs d.reverse sub = .notFound ∧ ∀ r, ¬ IsRoot fs d r) := by
  intro d
  generalize hn : d.reverse = u
  induction u generalizing d with
  | nil =>
    intro sub
    have : d = [] := by simpa using hn
    subst this
    right
    refine ⟨rfl, fun r hr => h0 ?_⟩
    have := hr.1
    rw [List.prefix_nil] at this
    rw [← this]; exact hr.2.1
  | cons b up ih =>
    intro sub
    have hd : d = up.reverse ++ [b] := by rw [← List.reverse_cons, ← hn, List.reverse_reverse]
    have hr : (b :: up).reverse = d := by rw [← hn, List.reverse_reverse]
    rw [findLoop, hr]
    cases hf : fs d with
    | error => exact absurd hf (he d)
    | file =>
      left
      refine ⟨d, [], by simp, ⟨List.prefix_refl d, hf, fun q h1 h2 _ => ?_⟩, by simp⟩
      exact (h2.eq_of_length (Nat.le_antisymm h2.length_le h1.length_le))
    | dir | absent =>
      simp only
      have key : ∀ r, IsRoot fs d r ↔ IsRoot fs up.reverse r := by
        intro r
        constructor
        · rintro ⟨h1, h2, h3⟩
          have hne : r ≠ d := fun h => by rw [h, hf] at h2; cases h2
          have h1' : r <+: up.reverse := by
            rw [hd, List.prefix_concat_iff] at h1
            rcases h1 with h1 | h1
            · exact absurd (h1.trans hd.symm) hne
            · exact h1
          exact ⟨h1', h2, fun q hq1 hq2 hq3 => h3 q hq1 (hq2.trans (by rw [hd]; exact List.prefix_append _ _)) hq3⟩
        · rintro ⟨h1, h2, h3⟩
          refine ⟨h1.trans (by rw [hd]; exact List.prefix_append _ _), h2, fun q hq1 hq2 hq3 => ?_⟩
          refine h3 q hq1 ?_ hq3
          rw [hd, List.prefix_concat_iff] at hq2
          rcases hq2 with hq2 | hq2
          · rw [hq2, ← hd, hf] at hq3; cases hq3
          · exact hq2
      rcases ih up.reverse (by simp) (sub ++ [b]) with ⟨r, t, g1, g2, g3⟩ | ⟨g1, g2⟩
      · exact Or.inl ⟨r, t ++ [b], by rw [g1]; simp, (key r).mpr g2, by rw [← List.append_assoc, g3, hd]⟩
      · exact Or.inr ⟨g1, fun r hr => g2 r ((key r).mp hr)⟩

theorem root_unique {fs : FS} {d r r' : List Str} (h : IsRoot fs d r) (h' : IsRoot fs d r') : r = r' := by
  rcases List.prefix_or_prefix_of_prefix h.1 h'.1 with hp | hp
  · exact (h.2.2 r' hp h'.1 h'.2.1).symm
  · exact h'.2.2 r hp h.1 h.2.1

/-! ### Paths -/

theorem step_ordinary {x : Str} (h : Ordinary x) (a : Bool) (st : List Str) : cleanStep a st x = st ++ [x] := by
  unfold cleanStep
  rw [if_neg (by rintro (e | e); exact h.1 e; exact h.2.1 e), if_neg h.2.2]

theorem fold_ordinary {a : Bool} : ∀ (os : List Str), (∀ x ∈ os, Ordinary x) → ∀ st, os.foldl (cleanStep a) st = st ++ os := by
  intro os
  induction os with
  | nil => intro _ st; simp
  | cons x os ih =>
    intro h st
    rw [List.foldl_cons, step_ordinary (h x (by simp)), ih (fun y hy => h y (by simp [hy]))]
    simp

theorem last_ordinary {st : List Str} (h : ∀ x ∈ st, Ordinary x) : st.getLast? ≠ some "..".toList := by
  intro e
  exact (h _ (List.mem_of_getLast? e)).2.2 rfl

theorem step_true {st : List Str} (h : ∀ x ∈ st, Ordinary x) (y : Str) : ∀ x ∈ cleanStep true st y, Ordinary x := by
  intro x hx
  unfold cleanStep at hx
  split at hx
  · exact h x hx
  · rename_i h1
    split at hx
    · split at hx
      · exact h x hx
      · exact h x (List.dropLast_subset _ hx)
    · rename_i h2
      rcases List.mem_append.mp hx with hx | hx
      · exact h x hx
      · rw [List.mem_singleton] at hx
        rw [hx]
        exact ⟨fun e => h1 (Or.inl e), fun e => h1 (Or.inr e), h2⟩

theorem fold_true : ∀ (p : Path) (st : List Str), (∀ x ∈ st, Ordinary x) → ∀ x ∈ p.foldl (cleanStep true) st, Ordinary x := by
  intro p
  induction p with
  | nil => intro st h; exact h
  | cons y p ih => intro st h; exact ih _ (step_true h y)

/-- `..` goes up. -/
theorem step_up {st : List Str} (h : ∀ x ∈ st, Ordinary x) : cleanStep true st "..".toList = st.dropLast := by
  unfold cleanStep
  rw [if_neg (by decide), if_pos rfl]
  by_cases he : st = []
  · subst he; rfl
  · rw [if_neg]
    rintro (e | e)
    · exact he (List.getLast?_eq_none_iff.mp e)
    · exact last_ordinary h e

/-- A relative path, cleaned, leads to the same directory. -/
theorem fold_false : ∀ (p : Path) (base st : List Str), (∀ x ∈ base, Ordinary x) → (∀ x ∈ st, x ≠ [] ∧ x ≠ ".".toList) →
    (∀ x ∈ p.foldl (cleanStep false) st, x ≠ [] ∧ x ≠ ".".toList) ∧
    (p.foldl (cleanStep false) st).foldl (cleanStep true) base = p.foldl (cleanStep true) (st.foldl (cleanStep true) base) := by
  intro p
  induction p with
  | nil => intro base st hb hs; exact ⟨hs, rfl⟩
  | cons y p ih =>
    intro base st hb hs
    have hB : ∀ x ∈ st.foldl (cleanStep true) base, Ordinary x := fold_true st base hb
    rw [List.foldl_cons, List.foldl_cons]
    have key : (∀ x ∈ cleanStep false st y, x ≠ [] ∧ x ≠ ".".toList) ∧
        (cleanStep false st y).foldl (cleanStep true) base = cleanStep true (st.foldl (cleanStep true) base) y := by
      by_cases h1 : y = [] ∨ y = ".".toList
      · have e : ∀ a s, cleanStep a s y = s := fun a s => by unfold cleanStep; rw [if_pos h1]
        rw [e, e]; exact ⟨hs, rfl⟩
      by_cases h2 : y = "..".toList
      · have e : cleanStep false st "..".toList =
            if st.getLast? = none ∨ st.getLast? = some "..".toList then st ++ ["..".toList] else st.dropLast := by
          unfold cleanStep
          rw [if_neg (by decide), if_pos rfl]
          rfl
        rw [h2, step_up hB, e]
        by_cases hl : st.getLast? = none ∨ st.getLast? = some "..".toList
        · rw [if_pos hl, List.foldl_append, List.foldl_cons, List.foldl_nil]
          refine ⟨fun x hx => ?_, step_up hB⟩
          rcases List.mem_append.mp hx with hx | hx
          · exact hs x hx
          · rw [List.mem_singleton] at hx; rw [hx]; decide
        · rw [if_neg hl]
          refine ⟨fun x hx => hs x (List.dropLast_subset _ hx), ?_⟩
          have hne : st ≠ [] := fun e => hl (Or.inl (by rw [e]; rfl))
          have hsplit := List.dropLast_concat_getLast hne
          have hord : Ordinary (st.getLast hne) := by
            refine ⟨(hs _ (List.getLast_mem hne)).1, (hs _ (List.getLast_mem hne)).2, fun e => hl (Or.inr ?_)⟩
            rw [List.getLast?_eq_some_getLast hne, e]
          conv => rhs; rw [← hsplit, List.foldl_append, List.foldl_cons, List.foldl_nil, step_ordinary hord, List.dropLast_concat]
      · have ho : Ordinary y := ⟨fun e => h1 (Or.inl e), fun e => h1 (Or.inr e), h2⟩
        rw [step_ordinary ho, step_ordinary ho, List.foldl_append, List.foldl_cons, List.foldl_nil, step_ordinary ho]
        refine ⟨fun x hx => ?_, rfl⟩
        rcases List.mem_append.mp hx with hx | hx
        · exact hs x hx
        · rw [List.mem_singleton] at hx; rw [hx]; exact ⟨ho.1, ho.2.1⟩
    rw [← key.2]
    exact ih base _ hb key.1

theorem isAbs_cons {a : Str} {l : Path} (h : l ≠ []) : isAbs (a :: l) = (a == []) := by
  cases l with
  | nil => exact absurd rfl h
  | cons b l => rfl

/-- A cleaned path leads to the same directory. -/
theorem abs_clean {cwd : List Str} (hc : ∀ x ∈ cwd, Ordinary x) (p : Path) : abs cwd (clean p) = abs cwd p := by
  unfold clean
  cases ha : isAbs p with
  | true =>
    simp only [if_true]
    have ho : ∀ x ∈ p.foldl (cleanStep true) [], Ordinary x := fold_true p [] (by simp)
    have hf : abs cwd p = p.foldl (cleanStep true) [] := by unfold abs; rw [ha]; rfl
    rw [hf]
    by_cases hl : p.foldl (cleanStep true) [] = []
    · rw [if_pos hl, hl]; rfl
    · rw [if_neg hl]
      unfold abs
      rw [isAbs_cons hl, if_pos (by rfl), List.foldl_cons]
      have : cleanStep true [] [] = [] := rfl
      rw [this, fold_ordinary _ ho]; rfl
  | false =>
    have hf : abs cwd p = (cwd ++ p).foldl (cleanStep true) [] := by unfold abs; rw [ha]; rfl
    simp only [Bool.false_eq_true, if_false]
    rw [hf, List.foldl_append]
    have hcw : cwd.foldl (cleanStep true) [] = cwd := by rw [fold_ordinary cwd hc]; rfl
    obtain ⟨k1, k2⟩ := fold_false p cwd [] hc (by simp)
    rw [hcw, show p.foldl (cleanStep true) cwd = (p.foldl (cleanStep false) []).foldl (cleanStep true) cwd from k2.symm]
    by_cases hl : p.foldl (cleanStep false) [] = []
    · rw [if_pos hl, hl]
      unfold abs
      rw [show isAbs [".".toList] = false from rfl]
      simp only [Bool.false_eq_true, if_false]
      rw [List.foldl_append, hcw]; rfl
    · rw [if_neg hl]
      unfold abs
      have hna : isAbs (p.foldl (cleanStep false) []) = false := by
        cases hq : p.foldl (cleanStep false) [] with
        | nil => rfl
        | cons a l =>
          cases l with
          | nil => rfl
          | cons b l =>
            rw [hq] at k1
            exact beq_eq_false_iff_ne.mpr (k1 a (by simp)).1
      rw [hna]
      simp only [Bool.false_eq_true, if_false]
      rw [List.foldl_append, hcw]

theorem abs_dir {cwd : List Str} (hc : ∀ x ∈ cwd, Ordinary x) (q : Path) {x : Str} (hx : Ordinary x) :
    abs cwd (q ++ [x]) = abs cwd (dir (q ++ [x])) ++ [x] := by
  unfold dir
  rw [abs_clean hc, List.dropLast_concat]
  have hi : isAbs (q ++ [[]]) = isAbs (q ++ [x]) := by
    cases q with
    | nil => rfl
    | cons a q => rw [List.cons_append, List.cons_append, isAbs_cons (by simp), isAbs_cons (by simp)]
  unfold abs
  rw [hi]
  have e : ∀ st, cleanStep true st [] = st := fun st => rfl
  split
  · rw [List.foldl_append, List.foldl_append, List.foldl_cons, List.foldl_nil, step_ordinary hx, List.foldl_cons, List.foldl_nil, e]
  · rw [← List.append_assoc, ← List.append_assoc, List.foldl_append (l := cwd ++ q) (l' := [x]), List.foldl_append (l := cwd ++ q) (l' := [[]]),
      List.foldl_cons, List.foldl_nil, step_ordinary hx, List.foldl_cons, List.foldl_nil, e]

/-- The directory of a path still ends as the path did. -/
theorem dir_tail (pre os : List Str) (x : Str) (ho : ∀ x ∈ os, Ordinary x) : ∃ pre', dir (pre ++ os ++ [x]) = pre' ++ os := by
  unfold dir
  rw [List.dropLast_concat]
  cases os with
  | nil => exact ⟨_, (List.append_nil _).symm⟩
  | cons o os =>
    unfold clean
    have hf : ∀ a, (pre ++ (o :: os) ++ [[]]).foldl (cleanStep a) [] = pre.foldl (cleanStep a) [] ++ (o :: os) := by
      intro a
      rw [List.foldl_append, List.foldl_append, fold_ordinary _ ho]; rfl
    simp only [hf]
    have hne : ∀ a, pre.foldl (cleanStep a) [] ++ (o :: os) ≠ [] := by intro a; simp
    split
    · rename_i h; rw [h, if_neg (hne _)]; exact ⟨[] :: pre.foldl (cleanStep true) [], rfl⟩
    · rename_i h; rw [if_neg (hne _)]; exact ⟨_, rfl⟩

theorem projectRoot_abs {cwd : List Str} (hc : ∀ x ∈ cwd, Ordinary x) : ∀ (n : Nat) (pre os : List Str), (∀ x ∈ os, Ordinary x) → n ≤ os.length →
    abs cwd (projectRoot (pre ++ os) n) ++ os.drop (os.length - n) = abs cwd (pre ++ os) := by
  intro n
  induction n with
  | zero => intro pre os _ _; simp [projectRoot]
  | succ n ih =>
    intro pre os ho hn
    have hne : os ≠ [] := fun e => by rw [e] at hn; simp at hn
    obtain ⟨os', x, rfl⟩ : ∃ os' x, os = os' ++ [x] := ⟨os.dropLast, os.getLast hne, (List.dropLast_concat_getLast hne).symm⟩
    have hx : Ordinary x := ho x (by simp)
    have ho' : ∀ y ∈ os', Ordinary y := fun y hy => ho y (by simp [hy])
    rw [projectRoot, ← List.append_assoc]
    obtain ⟨pre', hp⟩ := dir_tail pre os' x ho'
    rw [abs_dir hc _ hx, hp]
    have hn' : n ≤ os'.length := by simpa using hn
    have := ih pre' os' ho' hn'
    rw [← this, List.append_assoc]
    congr 1
    have hlen : (os' ++ [x]).length - (n + 1) = os'.length - n := by simp
    rw [hlen, List.drop_append_of_le_length (by omega)]

end Verif.Cmd.GoMod
