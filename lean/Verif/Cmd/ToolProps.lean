/-
C103: `xgo tool NAME` runs the tool of that name, with the arguments, and no other program.
-/
import Verif.Cmd.Tool
import Verif.Cmd.GoModMain

namespace Verif.Cmd.Tool
open Verif.Cmd.GoMod.Spec (Ordinary)
open Verif.Cmd.GoMod (Str Path isAbs clean cleanStep dir abs step_ordinary fold_ordinary fold_false isAbs_cons abs_clean abs_dir)

/-! ### Paths -/

/-- A clean relative path: some `..`, then names. -/
def Shape (l : List Str) : Prop := ∃ n os, l = List.replicate n "..".toList ++ os ∧ ∀ x ∈ os, Ordinary x

theorem shape_step {st : List Str} (h : Shape st) (x : Str) : Shape (cleanStep false st x) := by
  obtain ⟨n, os, rfl, ho⟩ := h
  unfold cleanStep
  by_cases h1 : x = [] ∨ x = ".".toList
  · rw [if_pos h1]; exact ⟨n, os, rfl, ho⟩
  rw [if_neg h1]
  by_cases h2 : x = "..".toList
  · rw [if_pos h2]
    rcases List.eq_nil_or_concat os with rfl | ⟨os', y, rfl⟩
    · cases n with
      | zero => simp only [List.replicate_zero, List.append_nil, List.getLast?_nil, true_or, if_true, Bool.false_eq_true, if_false]
                exact ⟨1, [], by simp [h2], by simp⟩
      | succ n =>
        have : (List.replicate (n + 1) "..".toList ++ []).getLast? = some "..".toList := by
          rw [List.append_nil, List.replicate_succ', List.getLast?_append, List.getLast?_singleton]; rfl
        rw [if_pos (.inr this), if_neg (by decide)]
        exact ⟨n + 2, [], by rw [h2, List.append_nil, List.append_nil, ← List.replicate_succ'], by simp⟩
    · rw [List.concat_eq_append] at *
      have hy := ho y (by simp)
      have e : (List.replicate n "..".toList ++ (os' ++ [y])).getLast? = some y := by
        rw [← List.append_assoc, List.getLast?_append, List.getLast?_singleton]; rfl
      rw [e, if_neg (by
        rintro (h | h)
        · cases h
        · exact hy.2.2 (Option.some.inj h)), ← List.append_assoc, List.dropLast_concat]
      exact ⟨n, os', rfl, fun z hz => ho z (by simp [hz])⟩
  · rw [if_neg h2]
    refine ⟨n, os ++ [x], by rw [List.append_assoc], fun z hz => ?_⟩
    rcases List.mem_append.1 hz with hz | hz
    · exact ho z hz
    · rw [List.mem_singleton.1 hz]
      exact ⟨fun e => h1 (.inl e), fun e => h1 (.inr e), h2⟩

theorem shape_fold : ∀ (p st : List Str), Shape st → Shape (p.foldl (cleanStep false) st)
  | [], _, h => h
  | x :: p, _, h => shape_fold p _ (shape_step h x)

theorem fold_up : ∀ (m n : Nat), (List.replicate m "..".toList).foldl (cleanStep false) (List.replicate n "..".toList) =
    List.replicate (n + m) "..".toList
  | 0, n => rfl
  | m + 1, n => by
    rw [List.replicate_succ, List.foldl_cons]
    have : cleanStep false (List.replicate n "..".toList) "..".toList = List.replicate (n + 1) "..".toList := by
      unfold cleanStep
      rw [if_neg (by decide), if_pos rfl]
      cases n with
      | zero => rfl
      | succ n =>
        have : (List.replicate (n + 1) "..".toList).getLast? = some "..".toList := by
          rw [List.replicate_succ', List.getLast?_append, List.getLast?_singleton]; rfl
        rw [if_pos (.inr this), if_neg (by decide), ← List.replicate_succ']
    rw [this, fold_up m (n + 1)]
    congr 1
    omega

theorem fold_shape {l : List Str} (h : Shape l) : l.foldl (cleanStep false) [] = l := by
  obtain ⟨n, os, rfl, ho⟩ := h
  rw [List.foldl_append]
  have := fold_up n 0
  rw [List.replicate_zero, Nat.zero_add] at this
  rw [this, fold_ordinary os ho]

theorem isAbs_snoc {q : Path} (h : q ≠ []) (x : Str) (hq : q ≠ [[]]) : isAbs (q ++ [x]) = isAbs q := by
  cases q with
  | nil => exact absurd rfl h
  | cons a l =>
    cases l with
    | nil =>
      show (a == []) = false
      exact beq_eq_false_iff_ne.2 (fun e => hq (by rw [e]))
    | cons b l => rfl

theorem clean_abs {p : Path} (h : isAbs p = true) :
    clean p = if p.foldl (cleanStep true) [] = [] then [[], []] else [] :: p.foldl (cleanStep true) [] := by
  unfold clean; rw [h]; rfl

/-- The program beside: in the directory of a cleaned path. -/
theorem clean_snoc (r : Path) {x : Str} (hx : Ordinary x) :
    (clean r = [".".toList] ∧ clean (clean r ++ [x]) = [x]) ∨ ∃ l, l ≠ [] ∧ clean (clean r ++ [x]) = l ++ [x] := by
  cases ha : isAbs r with
  | true =>
    right
    have e : clean r = if r.foldl (cleanStep true) [] = [] then [[], []] else [] :: r.foldl (cleanStep true) [] := by
      unfold clean; rw [ha]; rfl
    have hc : ∃ l, clean r = [] :: l ∧ l ≠ [] := by
      rw [e]
      by_cases h : r.foldl (cleanStep true) [] = []
      · rw [if_pos h]; exact ⟨_, rfl, by simp⟩
      · rw [if_neg h]; exact ⟨_, rfl, h⟩
    obtain ⟨l, hl, hne⟩ := hc
    refine ⟨[] :: (([] :: l : Path).foldl (cleanStep true) []), by simp, ?_⟩
    have hi : isAbs (clean r ++ [x]) = true := by rw [hl, List.cons_append, isAbs_cons (by simp)]; rfl
    rw [clean_abs hi, hl, List.foldl_append, List.foldl_cons (l := []), List.foldl_nil, step_ordinary hx, if_neg (by simp)]
    rfl
  | false =>
    have e : clean r = if r.foldl (cleanStep false) [] = [] then [".".toList] else r.foldl (cleanStep false) [] := by
      unfold clean; rw [ha]; rfl
    by_cases h : r.foldl (cleanStep false) [] = []
    · left
      rw [if_pos h] at e
      refine ⟨e, ?_⟩
      rw [e]
      show (if ([".".toList, x] : Path).foldl (cleanStep false) [] = [] then _ else ([".".toList, x] : Path).foldl (cleanStep false) []) = _
      rw [List.foldl_cons, List.foldl_cons, List.foldl_nil]
      have : cleanStep false [] ".".toList = [] := rfl
      rw [this, step_ordinary hx, if_neg (by simp)]
      rfl
    · right
      rw [if_neg h] at e
      have hs := shape_fold r [] ⟨0, [], rfl, by simp⟩
      have hn : ∀ y ∈ r.foldl (cleanStep false) [], y ≠ [] ∧ y ≠ ".".toList := (fold_false r [] [] (by simp) (by simp)).1
      refine ⟨clean r, by rw [e]; exact h, ?_⟩
      rw [e]
      generalize r.foldl (cleanStep false) [] = l at *
      have hi : isAbs (l ++ [x]) = false := by
        cases l with
        | nil => exact absurd rfl h
        | cons a l => rw [List.cons_append, isAbs_cons (by simp)]; exact beq_eq_false_iff_ne.2 (hn a (by simp)).1
      unfold clean
      rw [hi]
      simp only [Bool.false_eq_true, if_false]
      rw [List.foldl_append, fold_shape hs, List.foldl_cons, List.foldl_nil, step_ordinary hx, if_neg (by simp)]

theorem clean_ne (r : Path) : clean r ≠ [] ∧ clean r ≠ [[]] := by
  unfold clean
  dsimp only
  cases ha : isAbs r with
  | true =>
    rw [if_pos rfl]
    split
    · exact ⟨by decide, by decide⟩
    · rename_i h
      exact ⟨by simp, by simpa using h⟩
  | false =>
    rw [if_neg (by decide)]
    split
    · exact ⟨by decide, by decide⟩
    · rename_i h
      refine ⟨h, fun e => ?_⟩
      have := (fold_false r [] [] (by simp) (by simp)).1 [] (by rw [e]; simp)
      exact this.1 rfl

theorem place {cwd : List Str} (hc : ∀ x ∈ cwd, Ordinary x) (r : Path) {x : Str} (hx : Ordinary x) :
    abs cwd (clean (clean r ++ [x])) = abs cwd r ++ [x] := by
  rw [abs_clean hc, ← abs_clean hc r]
  unfold abs
  rw [isAbs_snoc (clean_ne r).1 x (clean_ne r).2]
  cases isAbs (clean r)
  · simp only [Bool.false_eq_true, if_false]
    rw [← List.append_assoc, List.foldl_append, List.foldl_cons, List.foldl_nil, step_ordinary hx]
  · simp only [if_true]
    rw [List.foldl_append, List.foldl_cons, List.foldl_nil, step_ordinary hx]

theorem base_last {l : Path} {x : Str} (hx : x ≠ []) : base (l ++ [x]) = [x] := by
  unfold base stripEnd
  rw [List.reverse_append, List.reverse_singleton, List.singleton_append, List.dropWhile_cons_of_neg (by simpa using hx),
    List.reverse_cons, List.reverse_reverse, List.getLast?_append, List.getLast?_singleton]
  rfl

theorem base_one {x : Str} (hx : x ≠ []) : base [x] = [x] := base_last (l := []) hx

theorem base_ne {l : Path} {x : Str} (hx : x ≠ []) (hl : l ≠ []) : base (l ++ [x]) ≠ l ++ [x] := by
  rw [base_last hx]
  intro e
  have := congrArg List.length e
  simp only [List.length_append, List.length_singleton] at this
  exact hl (List.length_eq_zero_iff.1 (by omega))

theorem abs_snoc {cwd : List Str} {d : Path} (h : d ≠ []) (hd : d ≠ [[]]) {x : Str} (hx : Ordinary x) : abs cwd (d ++ [x]) = abs cwd d ++ [x] := by
  unfold abs
  rw [isAbs_snoc h x hd]
  cases isAbs d
  · simp only [Bool.false_eq_true, if_false]
    rw [← List.append_assoc, List.foldl_append, List.foldl_cons, List.foldl_nil, step_ordinary hx]
  · simp only [if_true]
    rw [List.foldl_append, List.foldl_cons, List.foldl_nil, step_ordinary hx]

theorem clean_isAbs (p : Path) : isAbs (clean p) = isAbs p := by
  cases h : isAbs p with
  | true =>
    rw [clean_abs h]
    by_cases e : p.foldl (cleanStep true) [] = []
    · rw [if_pos e]; rfl
    · rw [if_neg e, isAbs_cons e]; rfl
  | false =>
    have e : clean p = if p.foldl (cleanStep false) [] = [] then [".".toList] else p.foldl (cleanStep false) [] := by
      unfold clean; rw [h]; rfl
    have hn : ∀ y ∈ p.foldl (cleanStep false) [], y ≠ [] ∧ y ≠ ".".toList := (fold_false p [] [] (by simp) (by simp)).1
    rw [e]
    generalize p.foldl (cleanStep false) [] = l at hn
    split
    · rfl
    · cases l with
      | nil => rfl
      | cons a l =>
        cases l with
        | nil => rfl
        | cons b l => exact beq_eq_false_iff_ne.2 (hn a (by simp)).1

/-- The clean form of a path of two parts or more, the last of which is a name, still has a slash; its last part is the name. -/
theorem clean_last {d : Path} {x : Str} (hx : Ordinary x) : ∃ l, clean (d ++ [x]) = l ++ [x] := by
  cases h : isAbs (d ++ [x]) with
  | true =>
    rw [clean_abs h, List.foldl_append, List.foldl_cons, List.foldl_nil, step_ordinary hx, if_neg (by simp)]
    exact ⟨[] :: _, rfl⟩
  | false =>
    refine ⟨d.foldl (cleanStep false) [], ?_⟩
    unfold clean
    dsimp only
    rw [h, List.foldl_append, List.foldl_cons, List.foldl_nil, step_ordinary hx]
    simp

end Verif.Cmd.Tool
