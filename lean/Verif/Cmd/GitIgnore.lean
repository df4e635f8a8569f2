/-
C52: the entry that xgo adds to `.gitignore`.

Source: cmd/xgo/instrument.go:603-658 (`gitignoreAdd`, `isDirectiveEnd`). Simplification: bytes are characters.
-/
import Verif.Text.Cut

namespace Verif.Cmd.GitIgnore
open Verif.Text

/-- `isDirectiveEnd` (instrument.go:634-655): `rest` is the content from the end of the pattern on. (The code asks whether the
    rest of the *file* ends in `#` or a newline.) -/
def isDirectiveEnd (rest : Str) : Bool :=
  let r := rest.dropWhile fun c => c = ' ' || c = '\t'
  decide (r = []) || decide (r.getLast? = some '#') || decide (r.getLast? = some '\n')

/-- Whether the pattern is taken to be present (instrument.go:623-624): only its first occurrence counts. -/
def isPresent (content pattern : Str) : Bool :=
  match cut pattern content with
  | some (_, rest) => isDirectiveEnd rest
  | none => false

/-- `gitignoreAdd` (instrument.go:622-632): the new content and whether it has been changed. -/
def gitignoreAdd (content pattern : Str) : Str × Bool :=
  if isPresent content pattern then (content, false)
  else
    let sep := if content ≠ [] ∧ content.getLast? ≠ some '\n' then ['\n'] else []
    (content ++ (sep ++ pattern ++ ['\n']), true)

/-! ### Specification -/

/-- The pattern is a line of the file. -/
def HasLine (content line : Str) : Prop :=
  ∃ a b, content = a ++ line ++ b ∧ (a = [] ∨ a.getLast? = some '\n') ∧ (b = [] ∨ b.head? = some '\n')

/-! ### Properties -/

/-- **C52.** If the file is changed, all of it is still there and the pattern is a line after it; if it is not, the pattern
    occurs somewhere in it. -/
theorem C52_added (content pattern : Str) :
    (∃ sep, (sep = [] ∨ sep = ['\n']) ∧ gitignoreAdd content pattern = (content ++ sep ++ pattern ++ ['\n'], true) ∧
      HasLine (content ++ sep ++ pattern ++ ['\n']) pattern) ∨
    (gitignoreAdd content pattern = (content, false) ∧ pattern <:+: content) := by
  unfold gitignoreAdd
  dsimp only
  split
  · rename_i h
    right
    refine ⟨rfl, ?_⟩
    unfold isPresent at h
    cases hc : cut pattern content with
    | none => rw [hc] at h; cases h
    | some p => exact ⟨p.1, p.2, (cut_eq hc).symm⟩
  · left
    split
    · rename_i hs
      refine ⟨['\n'], Or.inr rfl, by simp only [List.append_assoc], ?_⟩
      exact ⟨content ++ ['\n'], ['\n'], rfl, Or.inr (by simp), Or.inr rfl⟩
    · rename_i hs
      refine ⟨[], Or.inl rfl, by simp only [List.append_assoc, List.nil_append, List.append_nil], ?_⟩
      refine ⟨content, ['\n'], by simp, ?_, Or.inr rfl⟩
      by_cases hc : content = []
      · exact Or.inl hc
      · right
        by_cases hl : content.getLast? = some '\n'
        · exact hl
        · exact absurd ⟨hc, hl⟩ hs

/-- **C52.** The second time nothing changes. -/
theorem C52_idempotent (content pattern : Str) :
    gitignoreAdd (gitignoreAdd content pattern).1 pattern = ((gitignoreAdd content pattern).1, false) := by
  rcases C52_added content pattern with ⟨sep, -, h, -⟩ | ⟨h, -⟩
  · rw [h]
    dsimp only
    have hp : isPresent (content ++ sep ++ pattern ++ ['\n']) pattern = true := by
      unfold isPresent
      cases hc : cut pattern (content ++ sep ++ pattern ++ ['\n']) with
      | none => exact absurd ⟨content ++ sep, ['\n'], rfl⟩ (cut_none.1 hc)
      | some p =>
        obtain ⟨x, r⟩ := p
        have he := cut_eq hc
        dsimp only
        unfold isDirectiveEnd
        dsimp only
        obtain ⟨y, hy⟩ := List.dropWhile_suffix (l := r) fun c => decide (c = ' ') || decide (c = '\t')
        generalize hz : (r.dropWhile fun c => decide (c = ' ') || decide (c = '\t')) = z at hy
        by_cases hz0 : z = []
        · simp [hz0]
        · have : z.getLast? = some '\n' := by
            have hl := congrArg List.getLast? he
            rw [List.getLast?_concat, ← hy, ← List.append_assoc] at hl
            rw [List.getLast?_append, List.getLast?_eq_some_getLast hz0] at hl
            rw [List.getLast?_eq_some_getLast hz0]
            exact hl.symm
          rw [this]
          simp
    unfold gitignoreAdd
    rw [hp]
    rfl
  · rw [h]
    exact h

/-- **C52 (part).** Afterwards the pattern is a line of the file. Missing: files in which it occurs as part of another line,
    see the counterexample. -/
theorem C52_ignored_partial (content pattern : Str) (h : pattern <:+: content → HasLine content pattern) :
    HasLine (gitignoreAdd content pattern).1 pattern := by
  rcases C52_added content pattern with ⟨sep, -, h1, h2⟩ | ⟨h1, h2⟩
  · rw [h1]; exact h2
  · rw [h1]; exact h h2

example : gitignoreAdd "bin/".toList "**/.xgo/gen".toList = ("bin/\n**/.xgo/gen\n".toList, true) := by decide +kernel
example : gitignoreAdd "**/.xgo/gen # generated\nbin".toList "**/.xgo/gen".toList =
    ("**/.xgo/gen # generated\nbin\n**/.xgo/gen\n".toList, true) := by decide +kernel
example : HasLine "bin/\n**/.xgo/gen\n".toList "**/.xgo/gen".toList :=
  ⟨"bin/\n".toList, "\n".toList, by decide, Or.inr (by decide), Or.inr (by decide)⟩

/-- **C52 is false** if the pattern is the beginning of another one: it is taken to be there, and is not. -/
theorem C52_counterexample : ∃ content pattern, gitignoreAdd content pattern = (content, false) ∧ ¬ HasLine content pattern := by
  refine ⟨"**/.xgo/generated\n".toList, "**/.xgo/gen".toList, by decide +kernel, ?_⟩
  rintro ⟨a, b, h, -, hb⟩
  have hc : a ++ "**/.xgo/gen".toList ++ b = [] ++ "**/.xgo/gen".toList ++ "erated\n".toList := by rw [← h]; decide
  -- `*` is only at the beginning, so `a` is empty
  have ha : a = [] := by
    cases a with
    | nil => rfl
    | cons x a =>
      exfalso
      have h2 : "*/.xgo/generated\n".toList = a ++ "**/.xgo/gen".toList ++ b := by
        have : "**/.xgo/generated\n".toList = '*' :: "*/.xgo/generated\n".toList := by decide
        rw [this] at h
        injection h
      have : cut "**/.xgo/gen".toList "*/.xgo/generated\n".toList = none := by decide +kernel
      rw [cut_none] at this
      exact this ⟨a, b, h2.symm⟩
  subst ha
  rw [List.nil_append] at hc
  have hb' := List.append_cancel_left hc
  subst hb'
  rcases hb with hb | hb <;> revert hb <;> decide

end Verif.Cmd.GitIgnore
