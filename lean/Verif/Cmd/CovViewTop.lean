/-
C92: a concrete view, and where the view does not say what one would expect.
-/
import Verif.Cmd.CovViewMain

namespace Verif.Cmd.CovView
open Spec

/-- `func F(x int) { if x > 0 { a() } else { b() } }` on lines 3 to 9: the body, the first branch (lines 4 to 6), the other one (6 to 8). -/
def demo : Input where
  mod := "m".toList
  listed := ["a.go".toList, "b.go".toList]
  keep _ := true
  static f := if f = "a.go".toList then [⟨3, 15, 4, 11⟩, ⟨4, 11, 6, 3⟩, ⟨6, 9, 8, 3⟩] else [⟨3, 10, 5, 2⟩]
  empty f := if f = "a.go".toList then [8] else []
  profile := [⟨"m/a.go".toList, ⟨3, 15, 4, 11⟩, 1, 2⟩, ⟨"m/a.go".toList, ⟨4, 11, 6, 3⟩, 1, 0⟩, ⟨"m/a.go".toList, ⟨6, 9, 8, 3⟩, 1, 2⟩,
    ⟨"m/b.go".toList, ⟨3, 10, 5, 2⟩, 1, 1⟩]
  info f := if f = "a.go".toList then some ⟨false, true, some (changes [.same [1, 2, 3, 4], .edit [5] [50], .same [6, 7, 8]])⟩
    else some ⟨false, false, none⟩
  only := false

theorem demo_clean : Clean demo where
  once := by
    have : ∀ e ∈ demo.profile, ∀ e' ∈ demo.profile, e.file = e'.file → e.block = e'.block → e = e' := by
      unfold demo; decide +kernel
    exact this
  named := by
    have : ∀ f ∈ demo.listed, f ≠ [] := by unfold demo; decide +kernel
    exact this
  below := by
    intro e he _
    have : e.file = "m".toList ++ '/' :: "a.go".toList ∨ e.file = "m".toList ++ '/' :: "b.go".toList := by
      revert e
      have : ∀ e ∈ demo.profile, e.file = "m".toList ++ '/' :: "a.go".toList ∨ e.file = "m".toList ++ '/' :: "b.go".toList := by
        unfold demo; decide +kernel
      intro e he _; exact this e he
    rcases this with h | h
    · exact ⟨_, by decide, h⟩
    · exact ⟨_, by decide, h⟩

/-- Lines 3 and 4 and 7 of a.go ran; line 5 did not; line 6 (`} else {`) belongs to the branch that ends there; line 8 has no code. -/
example : demo.summary = (⟨8, 6⟩, ⟨1, 0⟩) ∧ (List.range 10).filter (demo.coverable "a.go".toList) = [3, 4, 5, 6, 7] ∧
    (List.range 10).filter (demo.covered "a.go".toList) = [3, 4, 7, 8] := by decide +kernel

/-- **C92**, where it fails (`C92_else_counterexample`): code on a line ran and the line is shown as not covered (`} else {` when only the other
    branch ran); and the other way round, code on it did not run and the line is shown as covered. -/
theorem C92_else_counterexample :
    (∃ i f l b, Clean i ∧ Ran i f b ∧ On b l ∧ i.coverable f l = true ∧ i.covered f l = false) ∧
    ∃ i f l b, Clean i ∧ Code i f b ∧ ¬ Ran i f b ∧ On b l ∧ i.covered f l = true := by
  constructor
  · refine ⟨demo, "a.go".toList, 6, ⟨6, 9, 8, 3⟩, demo_clean, ?_, by unfold On; decide, by decide +kernel, by decide +kernel⟩
    unfold Ran path demo; decide +kernel
  · refine ⟨demo, "a.go".toList, 4, ⟨4, 11, 6, 3⟩, demo_clean, ?_, ?_, by unfold On; decide, by decide +kernel⟩
    · unfold Code path demo; decide +kernel
    · unfold Ran path demo; decide +kernel

/-- **C92**, where it fails (`C92_total_counterexample`): without `--full` the total is that of the changed files alone. -/
theorem C92_total_counterexample : ∃ i : Input, Clean i ∧ i.keep = (fun _ => true) ∧
    ¬ Count (fun x : Str × Nat => x.1 ∈ i.listed ∧ Coverable i x.1 x.2) i.summary.1.total := by
  have hc : Clean { demo with only := true } := ⟨demo_clean.once, demo_clean.named, demo_clean.below⟩
  refine ⟨{ demo with only := true }, hc, rfl, fun ⟨L, h1, h2, h3⟩ => ?_⟩
  have e : ({ demo with only := true } : Input).summary.1.total = 5 := by decide +kernel
  rw [e] at h3
  have hm : ∀ f l, f ∈ demo.listed → f ≠ [] → ({ demo with only := true } : Input).coverable f l = true → (f, l) ∈ L :=
    fun f l h h' h'' => (h2 _).2 ⟨h, (coverable_iff hc h').1 h''⟩
  have : 6 ≤ L.length := nodup_le (L := [("b.go".toList, 3), ("a.go".toList, 3), ("a.go".toList, 4), ("a.go".toList, 5),
    ("a.go".toList, 6), ("a.go".toList, 7)]) (by decide +kernel) (by
      intro x hx
      simp only [List.mem_cons, List.not_mem_nil, or_false] at hx
      rcases hx with rfl | rfl | rfl | rfl | rfl | rfl
      · exact hm "b.go".toList 3 (by decide +kernel) (by decide) (by decide +kernel)
      · exact hm "a.go".toList 3 (by decide +kernel) (by decide) (by decide +kernel)
      · exact hm "a.go".toList 4 (by decide +kernel) (by decide) (by decide +kernel)
      · exact hm "a.go".toList 5 (by decide +kernel) (by decide) (by decide +kernel)
      · exact hm "a.go".toList 6 (by decide +kernel) (by decide) (by decide +kernel)
      · exact hm "a.go".toList 7 (by decide +kernel) (by decide) (by decide +kernel))
  omega

/-- **C92** (`C92_absent`): no line of a file that is not in the profile is shown as covered, though its lines are counted; so the test files
    of the packages, which `go test` never puts into the profile, make the coverage smaller. -/
theorem C92_absent (i : Input) (hi : Clean i) (f : Str) (hf : f ≠ []) (h : ∀ e ∈ i.profile, e.file ≠ path i f) (l : Nat) :
    i.covered f l = false ∧ (f ∈ i.listed → (∃ b ∈ i.static f, On b l) → l ∉ i.empty f → i.coverable f l = true) := by
  constructor
  · cases hc : i.covered f l with
    | false => rfl
    | true =>
      obtain ⟨_, _, e, he, h', _⟩ := (covered_iff hi hf).1 hc
      exact absurd h' (h e he)
  · rintro hl ⟨b, hb, ho⟩ he
    exact (coverable_iff hi hf).2 ⟨fun h => he h.2, b, .inl ⟨hl, hb⟩, ho⟩

/-- **C92**, where it fails (`C92_renamed_counterexample`): a file that git takes for a renamed one is shown as unchanged, whatever was
    changed in it. -/
theorem C92_renamed_counterexample (i : Input) (r : Repo) (diff : Str → Str → Changes) (f : Str) (l : Nat)
    (hi : i.info f = r.info diff f) (hd : r.dir = []) (ht : r.tracked f = true) (hr : r.renamed f = true) (hb : r.base f = none) :
    i.fileChanged f = false ∧ i.changed f l = false := by
  have e : r.detail f = some {} := by
    unfold Repo.detail Repo.inNew Repo.inOld Repo.untracked Repo.added Repo.modified
    simp [hd, ht, hr, hb]
  have e' : r.info diff f = some ⟨false, false, none⟩ := by rw [Repo.info, e]; rfl
  unfold Input.fileChanged Input.changed Input.fileInfo
  rw [hi, e']
  by_cases h : f ∈ i.listed
  · rw [if_pos h]; exact ⟨rfl, rfl⟩
  · rw [if_neg h]; exact ⟨rfl, rfl⟩

/-- **C92**, where it fails (`C92_subdir_counterexample`): when the module is not at the top of its repository, no line of a file of the commit is
    ever marked as changed (unless the top has a file of the same name), and a file that is not tracked is not shown as new. -/
theorem C92_subdir_counterexample (i : Input) (r : Repo) (diff : Str → Str → Changes) (f : Str) (l : Nat)
    (hi : i.info f = r.info diff f) (hd : r.dir.isPrefixOf f = false) (htop : r.base f = none)
    (h : (r.tracked (r.dir ++ f) = true ∧ (r.base (r.dir ++ f)).isSome = true) ∨ r.tracked (r.dir ++ f) = false) :
    i.changed f l = false := by
  have e : ∀ d, r.info diff f = some d → d.isNew = false ∧ d.changes = none := by
    intro d hd'
    unfold Repo.info at hd'
    have hn : ∀ x, r.detail f = some x → x.isNew = false := by
      intro x hx
      unfold Repo.detail Repo.untracked Repo.added Repo.modified at hx
      rcases h with ⟨h1, h2⟩ | h1
      · simp only [hd, h1, Bool.false_and, if_false, Bool.true_and] at hx
        have h3 : (r.base (r.dir ++ f)).isNone = false := by
          cases hb : r.base (r.dir ++ f) with
          | none => rw [hb] at h2; cases h2
          | some _ => rfl
        simp only [h3, Bool.false_and] at hx
        simp [Repo.inNew, h1] at hx
        split at hx <;> (cases hx; rfl)
      · simp only [hd, h1, Bool.false_and] at hx
        simp at hx
        split at hx
        · cases hx; rfl
        · split at hx
          · cases hx; rfl
          · cases hx
    cases hx : r.detail f with
    | none => rw [hx] at hd'; cases hd'
    | some x =>
      rw [hx] at hd'
      simp only at hd'
      split at hd'
      · cases hd'
      · cases hd'
        refine ⟨hn x hx, ?_⟩
        simp only [Repo.diffFile, htop]
        split
        · cases r.work (r.dir ++ f) <;> rfl
        · rfl
  unfold Input.changed Input.fileInfo
  split
  · rfl
  · rename_i d hd'
    split at hd'
    · rw [hi] at hd'
      obtain ⟨h1, h2⟩ := e d hd'
      rw [h1, h2]; rfl
    · cases hd'

/-- A module in `sub/`, with a tracked file that was changed and one that is not tracked. -/
def subRepo : Repo where
  dir := "sub/".toList
  base f := if f = "sub/a.go".toList then some "x".toList else none
  work f := if f = "sub/a.go".toList then some "y".toList else if f = "sub/b.go".toList then some "z".toList else none
  tracked f := f = "sub/a.go".toList
  renamed _ := false

example : (subRepo.detail "a.go".toList = some { changed := true }) ∧ (subRepo.detail "b.go".toList = some {}) ∧
    (subRepo.diffFile (fun _ _ => ⟨1, 1, [⟨1, 1, 1, 1⟩]⟩) "a.go".toList).isNone := by decide +kernel

/-- A module at the top: a changed file, a new one, one that is not tracked. -/
def topRepo : Repo where
  dir := []
  base f := if f = "a.go".toList then some "x".toList else none
  work f := if f = "a.go".toList then some "y".toList else if f = "b.go".toList then some "z".toList else
    if f = "c.go".toList then some "u".toList else none
  tracked f := f = "a.go".toList || f = "b.go".toList
  renamed _ := false

example : topRepo.detail "a.go".toList = some { changed := true } ∧ topRepo.detail "b.go".toList = some { isNew := true } ∧
    topRepo.detail "c.go".toList = some { isNew := true } := by decide +kernel

/-- **C92**, where it fails (`C92_prefix_counterexample`): files of another module whose path begins with the name of the module are taken for
    files of the module. -/
theorem C92_prefix_counterexample (mod r : Str) (hr : r ≠ []) : rel mod (mod ++ 'x' :: r) = some ('x' :: r) := by
  unfold rel
  have : mod.isPrefixOf (mod ++ 'x' :: r) = true := List.isPrefixOf_iff_prefix.2 ⟨_, rfl⟩
  simp [this]

end Verif.Cmd.CovView
