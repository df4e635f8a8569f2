/-
C103: `xgo tool NAME` runs the tool of that name, with the arguments, and no other program.
-/
import Verif.Cmd.ToolProps
import Verif.Cmd.ToolSpec

namespace Verif.Cmd.Tool
open Verif.Cmd.GoMod.Spec (Ordinary)
open Verif.Cmd.GoMod (Str Path isAbs clean cleanStep dir abs step_ordinary fold_ordinary fold_false isAbs_cons abs_clean abs_dir abs_here)
open Spec

theorem clean_tail {d os : Path} (ho : ∀ x ∈ os, Ordinary x) (h : os ≠ []) : ∃ l, clean (d ++ os) = l ++ os := by
  cases ha : isAbs (d ++ os) with
  | true =>
    rw [clean_abs ha, List.foldl_append, fold_ordinary os ho, if_neg (by simp [h])]
    exact ⟨[] :: _, rfl⟩
  | false =>
    refine ⟨d.foldl (cleanStep false) [], ?_⟩
    unfold clean
    dsimp only
    rw [ha, List.foldl_append, fold_ordinary os ho]
    simp [h]

theorem abs_tail {cwd : List Str} {d : Path} (h : d ≠ []) (hd : d ≠ [[]]) : ∀ {os : List Str}, (∀ x ∈ os, Ordinary x) → abs cwd (d ++ os) = abs cwd d ++ os := by
  intro os ho
  have : isAbs (d ++ os) = isAbs d := by
    cases d with
    | nil => exact absurd rfl h
    | cons a l =>
      cases l with
      | nil =>
        cases os with
        | nil => rfl
        | cons o os => exact beq_eq_false_iff_ne.2 (fun e => hd (by rw [e]))
      | cons b l => rfl
  unfold abs
  rw [this]
  cases isAbs d
  · simp only [Bool.false_eq_true, if_false]
    rw [← List.append_assoc, List.foldl_append, fold_ordinary os ho]
  · simp only [if_true]
    rw [List.foldl_append, fold_ordinary os ho]

theorem execute_slash {w : World} {l : Path} {x : Str} (hx : x ≠ []) (hl : l ≠ []) (args : List Str) :
    execute w (l ++ [x]) args = if w.stat (abs w.cwd (l ++ [x])) = .file true then .run (abs w.cwd (l ++ [x])) args else .noStart := by
  unfold execute
  rw [if_neg (base_ne hx hl)]

theorem handle_name {w : World} {me x : Str} (hn : Name me x) {q : Path} (h0 : w.argv0 = q ++ [me]) (hm : Ordinary me) (args : List Str) :
    handleTool w (some ([x], args)) =
      match w.stat (abs w.cwd (clean (dir w.argv0 ++ [x]))) with
      | .failed => .unknown
      | .missing => tryHome w [x] args
      | .dir => tryHome w [x] args
      | .file _ => execute w (clean (dir w.argv0 ++ [x])) args := by
  have ho := hn.own
  simp only [List.mem_cons, List.not_mem_nil, or_false, not_or] at ho
  have e : ∀ {s : Str}, x ≠ s → ([x] : Path) ≠ [s] := fun h h' => h (List.cons.inj h').1
  unfold handleTool
  dsimp only
  rw [if_neg (fun h => h.elim (e ho.1) (fun h => h.elim (e ho.2.1) (e ho.2.2.1))), if_neg (e ho.2.2.2.1), if_neg (e ho.2.2.2.2.1),
    if_neg (e ho.2.2.2.2.2.1), if_neg (e ho.2.2.2.2.2.2)]
  unfold tryTool
  rw [if_neg (by rw [base_one hn.ordinary.1]; exact fun h => h rfl), base_one hn.ordinary.1, h0, base_last hm.1, if_neg (e hn.other)]
  rfl

theorem home_of {w : World} {home : List Str} (h : Home w home) (hc : ∀ x ∈ w.cwd, Ordinary x) {x : Str} (hx : Ordinary x) (args : List Str) :
    tryHome w [x] args =
      match w.stat (home ++ [".xgo".toList, "bin".toList, x]) with
      | .file true => .run (home ++ [".xgo".toList, "bin".toList, x]) args
      | .file false => .noStart
      | _ => .unknown := by
  obtain ⟨p, hp, h1, h2, rfl⟩ := h
  have ho : ∀ y ∈ [".xgo".toList, "bin".toList, x], Ordinary y := by
    intro y hy
    simp only [List.mem_cons, List.not_mem_nil, or_false] at hy
    rcases hy with rfl | rfl | rfl
    · decide
    · decide
    · exact hx
  have e : p ++ [".xgo".toList, "bin".toList] ++ [x] = p ++ [".xgo".toList, "bin".toList, x] := by simp
  obtain ⟨l, hl⟩ := clean_tail (d := p) ho (by simp)
  have ha : abs w.cwd (clean (p ++ [".xgo".toList, "bin".toList, x])) = abs w.cwd p ++ [".xgo".toList, "bin".toList, x] := by
    rw [abs_clean hc, abs_tail h1 h2 ho]
  unfold tryHome
  rw [hp]
  dsimp only
  rw [e, ha]
  have hx' : execute w (clean (p ++ [".xgo".toList, "bin".toList, x])) args =
      if w.stat (abs w.cwd p ++ [".xgo".toList, "bin".toList, x]) = .file true then .run (abs w.cwd p ++ [".xgo".toList, "bin".toList, x]) args
      else .noStart := by
    rw [← ha, hl]
    have : l ++ [".xgo".toList, "bin".toList, x] = (l ++ [".xgo".toList, "bin".toList]) ++ [x] := by simp
    rw [this]
    exact execute_slash hx.1 (by simp) args
  rw [hx']
  generalize w.stat (abs w.cwd p ++ [".xgo".toList, "bin".toList, x]) = s
  cases s with
  | file b => cases b <;> rfl
  | _ => rfl

/-- The words that `xgo tool` knows do not depend on the disk: without a word, or with `help`, `-h`, `--help`, the help; `list`, the list;
    `trace`, `coverage`, `test-explorer`, the tools of `xgo` itself, with the arguments after the word. -/
theorem C103_builtin (w : World) (args : List Str) :
    handleTool w none = .help ∧ handleTool w (some (["help".toList], args)) = .help ∧ handleTool w (some (["-h".toList], args)) = .help ∧
    handleTool w (some (["--help".toList], args)) = .help ∧ handleTool w (some (["list".toList], args)) = .list ∧
    handleTool w (some (["trace".toList], args)) = .trace args ∧ handleTool w (some (["coverage".toList], args)) = .coverage args ∧
    handleTool w (some (["test-explorer".toList], args)) = .explorer args :=
  ⟨rfl, rfl, rfl, rfl, rfl, rfl, rfl, rfl⟩

/-- Another name, `xgo` having been started by a path that has a directory, other than `./xgo`: the program of that name that is beside
    `xgo` is run, with the arguments; if there is none, or a directory, that in `~/.xgo/bin`; if there is none there either, the tool is
    unknown. A file that may not be executed is found, and not started. -/
theorem C103_runs_partial {w : World} {d : List Str} {me x : Str} (hs : Started w d me) (hd : dir w.argv0 ≠ [".".toList]) (hn : Name me x)
    (args : List Str) :
    (w.stat (d ++ [x]) = .file true → handleTool w (some ([x], args)) = .run (d ++ [x]) args) ∧
    (w.stat (d ++ [x]) = .file false → handleTool w (some ([x], args)) = .noStart) ∧
    (w.stat (d ++ [x]) = .failed → handleTool w (some ([x], args)) = .unknown) ∧
    (w.stat (d ++ [x]) = .missing ∨ w.stat (d ++ [x]) = .dir →
      (w.home = none → handleTool w (some ([x], args)) = .unknown) ∧
      ∀ home, Home w home →
        (w.stat (home ++ [".xgo".toList, "bin".toList, x]) = .file true →
          handleTool w (some ([x], args)) = .run (home ++ [".xgo".toList, "bin".toList, x]) args) ∧
        (w.stat (home ++ [".xgo".toList, "bin".toList, x]) = .file false → handleTool w (some ([x], args)) = .noStart) ∧
        ((∀ b, w.stat (home ++ [".xgo".toList, "bin".toList, x]) ≠ .file b) → handleTool w (some ([x], args)) = .unknown)) := by
  obtain ⟨q, h0⟩ := hs.last
  have hp : d = abs w.cwd (dir w.argv0) := by
    have := abs_dir hs.cwd q hs.name
    rw [← h0, hs.place] at this
    exact List.append_cancel_right this
  have ha : abs w.cwd (clean (dir w.argv0 ++ [x])) = d ++ [x] := by
    rw [hp]
    have := place hs.cwd (w.argv0.dropLast ++ [[]]) hn.ordinary
    rw [show dir w.argv0 = clean (w.argv0.dropLast ++ [[]]) from rfl, this, abs_clean hs.cwd]
  have hx : execute w (clean (dir w.argv0 ++ [x])) args = if w.stat (d ++ [x]) = .file true then .run (d ++ [x]) args else .noStart := by
    rw [← ha]
    rcases clean_snoc (w.argv0.dropLast ++ [[]]) hn.ordinary with ⟨h, _⟩ | ⟨l, hl, e⟩
    · exact absurd h hd
    · rw [show dir w.argv0 = clean (w.argv0.dropLast ++ [[]]) from rfl, e]
      exact execute_slash hn.ordinary.1 hl args
  have main := handle_name hn h0 hs.name args
  rw [ha, hx] at main
  refine ⟨fun h => ?_, fun h => ?_, fun h => ?_, fun h => ?_⟩
  · rw [main, h]; rfl
  · rw [main, h]; rfl
  · rw [main, h]
  · have main : handleTool w (some ([x], args)) = tryHome w [x] args := by
      rw [main]; rcases h with h | h <;> rw [h]
    refine ⟨fun e => by rw [main]; unfold tryHome; rw [e], fun home hh => ?_⟩
    rw [main, home_of hh hs.cwd hn.ordinary]
    refine ⟨fun h => by rw [h], fun h => by rw [h], fun h => ?_⟩
    generalize w.stat (home ++ [".xgo".toList, "bin".toList, x]) = s at h
    cases s with
    | file b => exact absurd rfl (h b)
    | _ => rfl

theorem lookPath_iff {w : World} (hc : ∀ y ∈ w.cwd, Ordinary y) {x : Str} (hx : Ordinary x) : ∀ {path : List Path}, (∀ d ∈ path, d ≠ []) →
    ∀ q, lookPath w x path = some q ↔ ∃ before d after, path = before ++ d :: after ∧
      (∀ b ∈ before, w.stat (abs w.cwd b ++ [x]) ≠ .file true) ∧ isAbs d = true ∧ q = clean (d ++ [x]) ∧ abs w.cwd q = abs w.cwd d ++ [x] ∧
      w.stat (abs w.cwd q) = .file true := by
  intro path
  induction path with
  | nil => intro _ q; exact ⟨(fun h => (by cases h)), (fun ⟨b, d, a, h, _⟩ => (by simp at h))⟩
  | cons d rest ih =>
    intro hp q
    have hd := hp d (by simp)
    have he : abs w.cwd (clean ((if d = [[]] then [".".toList] else d) ++ [x])) = abs w.cwd d ++ [x] := by
      rw [abs_clean hc]
      by_cases h : d = [[]]
      · rw [if_pos h, abs_snoc (by decide) (by decide) hx, h]
        congr 1
        rw [abs_here hc]
        have := abs_clean hc [[]]
        rw [abs_here hc] at this
        exact this
      · rw [if_neg h, abs_snoc hd h hx]
    have hi : isAbs (clean ((if d = [[]] then [".".toList] else d) ++ [x])) = isAbs d := by
      rw [clean_isAbs]
      by_cases h : d = [[]]
      · rw [if_pos h, h]; rfl
      · rw [if_neg h, isAbs_snoc hd x h]
    unfold lookPath
    dsimp only
    rw [he, hi]
    by_cases hf : w.stat (abs w.cwd d ++ [x]) = .file true
    · rw [if_pos hf]
      cases ha : isAbs d with
      | false =>
        simp only [Bool.false_eq_true, if_false]
        refine ⟨(fun h => (by cases h)), ?_⟩
        rintro ⟨b, d', a, h, hb, h1, -⟩
        cases b with
        | nil => injection h with h _; rw [← h, ha] at h1; cases h1
        | cons b0 b =>
          injection h with h _
          exact absurd hf (h ▸ hb b0 (by simp))
      | true =>
        have hne : d ≠ [[]] := by rintro rfl; cases ha
        rw [if_neg hne] at he ⊢
        simp only [if_true, Option.some.injEq]
        constructor
        · rintro rfl
          exact ⟨[], d, rest, rfl, by simp, ha, rfl, he, by rw [he]; exact hf⟩
        · rintro ⟨b, d', a, h, hb, h1, h2, -⟩
          cases b with
          | nil => injection h with h _; rw [h2, h]
          | cons b0 b =>
            injection h with h _
            exact absurd hf (h ▸ hb b0 (by simp))
    · rw [if_neg hf, ih (fun d h => hp d (by simp [h]))]
      constructor
      · rintro ⟨b, d', a, h, hb, r⟩
        refine ⟨d :: b, d', a, by rw [h]; rfl, ?_, r⟩
        intro y hy
        rcases List.mem_cons.1 hy with rfl | hy
        · exact hf
        · exact hb y hy
      · rintro ⟨b, d', a, h, hb, h1, h2, h3, h4⟩
        cases b with
        | nil =>
          injection h with h _
          rw [h3, ← h] at h4
          exact absurd h4 hf
        | cons b0 b =>
          injection h with _ h
          exact ⟨b, d', a, h, fun y hy => hb y (by simp [hy]), h1, h2, h3, h4⟩

/-- But when `xgo` is started by its name alone (the usual way), or as `./xgo`, the directory of `os.Args[0]` is `.`. What is beside `xgo`
    is then not looked at. If the working directory has no file of the tool's name, that in `~/.xgo/bin` is run. If it has one, neither this
    file nor that in `~/.xgo/bin` is run, but the first program of that name on PATH, wherever it is, or none. -/
theorem C103_by_name {w : World} (hc : ∀ y ∈ w.cwd, Ordinary y) (hp : ∀ d ∈ w.path, d ≠ []) {me x : Str} (hm : Ordinary me) {q : Path}
    (h0 : w.argv0 = q ++ [me]) (hd : dir w.argv0 = [".".toList]) (hn : Name me x) (args : List Str) :
    (w.stat (w.cwd ++ [x]) = .missing ∨ w.stat (w.cwd ++ [x]) = .dir → ∀ home, Home w home →
      (w.stat (home ++ [".xgo".toList, "bin".toList, x]) = .file true →
        handleTool w (some ([x], args)) = .run (home ++ [".xgo".toList, "bin".toList, x]) args) ∧
      ((∀ b, w.stat (home ++ [".xgo".toList, "bin".toList, x]) ≠ .file b) → handleTool w (some ([x], args)) = .unknown)) ∧
    (∀ b, w.stat (w.cwd ++ [x]) = .file b →
      (∀ e, FirstOnPath w x e → handleTool w (some ([x], args)) = .run e args) ∧
      ((∀ e, ¬ FirstOnPath w x e) → handleTool w (some ([x], args)) = .noStart)) := by
  have main := handle_name hn h0 hm args
  have e : clean (dir w.argv0 ++ [x]) = [x] := by
    rw [hd]
    rcases clean_snoc ([".".toList]) hn.ordinary with ⟨_, h⟩ | ⟨l, hl, h⟩
    · exact h
    · rw [show clean [".".toList] = [".".toList] from rfl] at h
      have := step_ordinary hn.ordinary false []
      unfold clean at h ⊢
      dsimp only at h ⊢
      rw [show isAbs ([".".toList] ++ [x]) = false from rfl, List.foldl_append, show [".".toList].foldl (cleanStep false) [] = [] from rfl,
        List.foldl_cons, List.foldl_nil, this]
      simp
  have ea : abs w.cwd [x] = w.cwd ++ [x] := by
    unfold abs
    rw [show isAbs [x] = false from rfl]
    simp only [Bool.false_eq_true, if_false]
    rw [List.foldl_append, fold_ordinary _ hc, List.nil_append, List.foldl_cons, List.foldl_nil, step_ordinary hn.ordinary]
  rw [e, ea] at main
  refine ⟨fun h home hh => ?_, fun b h => ?_⟩
  · have main : handleTool w (some ([x], args)) = tryHome w [x] args := by
      rw [main]; rcases h with h | h <;> rw [h]
    rw [main, home_of hh hc hn.ordinary]
    refine ⟨fun h => by rw [h], fun h => ?_⟩
    generalize w.stat (home ++ [".xgo".toList, "bin".toList, x]) = s at h
    cases s with
    | file b => exact absurd rfl (h b)
    | _ => rfl
  · have main : handleTool w (some ([x], args)) =
        match lookPath w x w.path with
        | none => .noStart
        | some q => .run (abs w.cwd q) args := by
      rw [main, h]
      dsimp only
      unfold execute
      rw [if_pos (base_one hn.ordinary.1)]
      rfl
    refine ⟨?_, fun hno => ?_⟩
    · rintro e ⟨before, d, after, h1, h2, h3, h4, h5⟩
      have hd' : d ≠ [] := hp d (by rw [h1]; simp)
      have hne : d ≠ [[]] := by rintro rfl; cases h3
      have ha : abs w.cwd (clean (d ++ [x])) = abs w.cwd d ++ [x] := by rw [abs_clean hc, abs_snoc hd' hne hn.ordinary]
      have := (lookPath_iff hc hn.ordinary hp (clean (d ++ [x]))).2 ⟨before, d, after, h1, h2, h3, rfl, ha, by rw [ha, ← h4]; exact h5⟩
      rw [main, this, h4, ← ha]
    · rw [main]
      cases hl : lookPath w x w.path with
      | none => rfl
      | some q =>
        obtain ⟨before, d, after, h1, h2, h3, h4, h5, h6⟩ := (lookPath_iff hc hn.ordinary hp q).1 hl
        exact absurd ⟨before, d, after, h1, h2, h3, rfl, by rw [← h5]; exact h6⟩ (hno (abs w.cwd d ++ [x]))

/-- Nothing else is run: what is run may be executed, gets the arguments of the command as they are, and is the file of that name beside
    `xgo`, or that in `~/.xgo/bin` when there is no file beside `xgo`. -/
theorem C103_only {w : World} {d : List Str} {me x : Str} (hs : Started w d me) (hd : dir w.argv0 ≠ [".".toList]) (hn : Name me x)
    {home : List Str} (hh : Home w home) {args args' : List Str} {e : List Str} (h : handleTool w (some ([x], args)) = .run e args') :
    args' = args ∧ w.stat e = .file true ∧
    (e = d ++ [x] ∨ ((∀ b, w.stat (d ++ [x]) ≠ .file b) ∧ e = home ++ [".xgo".toList, "bin".toList, x])) := by
  obtain ⟨h1, h2, h3, h4⟩ := C103_runs_partial hs hd hn args
  have fin : ∀ {e0 : List Str}, handleTool w (some ([x], args)) = .run e0 args → e = e0 ∧ args' = args := by
    intro e0 h0
    rw [h0] at h
    injection h with ha hb
    exact ⟨ha.symm, hb.symm⟩
  have home_case : (w.stat (d ++ [x]) = .missing ∨ w.stat (d ++ [x]) = .dir) → args' = args ∧ w.stat e = .file true ∧
      (e = d ++ [x] ∨ ((∀ b, w.stat (d ++ [x]) ≠ .file b) ∧ e = home ++ [".xgo".toList, "bin".toList, x])) := fun hm => by
    obtain ⟨g1, g2, g3⟩ := (h4 hm).2 home hh
    generalize hS : w.stat (home ++ [".xgo".toList, "bin".toList, x]) = s at g1 g2 g3
    cases s with
    | file b =>
      cases b with
      | true =>
        obtain ⟨rfl, rfl⟩ := fin (g1 rfl)
        refine ⟨rfl, hS, .inr ⟨fun b hb => ?_, rfl⟩⟩
        rcases hm with hm | hm <;> rw [hm] at hb <;> cases hb
      | false => rw [g2 rfl] at h; cases h
    | _ => rw [g3 (fun b hb => by cases hb)] at h; cases h
  cases hst : w.stat (d ++ [x]) with
  | missing => rw [← hst]; exact home_case (.inl hst)
  | dir => rw [← hst]; exact home_case (.inr hst)
  | failed => rw [h3 hst] at h; cases h
  | file b =>
    cases b with
    | true =>
      obtain ⟨rfl, rfl⟩ := fin (h1 hst)
      exact ⟨rfl, hst, .inl rfl⟩
    | false => rw [h2 hst] at h; cases h

/-- A name with a slash in it is unknown, whatever is on the disk. -/
theorem C103_slash (w : World) {tool : Path} (h : 2 ≤ tool.length) (hr : tool ≠ [[], []]) (args : List Str) :
    handleTool w (some (tool, args)) = .unknown := by
  have hone : ∀ s : Str, tool ≠ [s] := by rintro s rfl; simp at h
  unfold handleTool
  dsimp only
  rw [if_neg (by rintro (e | e | e) <;> exact hone _ e), if_neg (hone _), if_neg (hone _), if_neg (hone _), if_neg (hone _)]
  unfold tryTool
  rw [if_pos ?_]
  unfold base
  split
  · exact fun e => hone _ e.symm
  · split
    · exact fun e => hone _ e.symm
    · exact fun e => hr e.symm

/-- `xgo` does not run itself as its own tool, wherever it is. -/
theorem C103_itself (w : World) {me : Str} (hm : Ordinary me) {q : Path} (h0 : w.argv0 = q ++ [me])
    (hn : me ∉ ["help".toList, "-h".toList, "--help".toList, "list".toList, "trace".toList, "coverage".toList, "test-explorer".toList])
    (args : List Str) : handleTool w (some ([me], args)) = .unknown := by
  simp only [List.mem_cons, List.not_mem_nil, or_false, not_or] at hn
  have e : ∀ {s : Str}, me ≠ s → ([me] : Path) ≠ [s] := fun h h' => h (List.cons.inj h').1
  unfold handleTool
  dsimp only
  rw [if_neg (fun h => h.elim (e hn.1) (fun h => h.elim (e hn.2.1) (e hn.2.2.1))), if_neg (e hn.2.2.2.1), if_neg (e hn.2.2.2.2.1),
    if_neg (e hn.2.2.2.2.2.1), if_neg (e hn.2.2.2.2.2.2)]
  unfold tryTool
  rw [if_neg (by rw [base_one hm.1]; exact fun h => h rfl), if_pos (by rw [base_one hm.1, h0, base_last hm.1])]

/-! ### Examples -/

/-- `/go/bin/xgo` and `/go/bin/lint`, `/home/u/.xgo/bin/lint`, `/usr/bin/lint`, and a file `/src/lint` in the working directory `/src`. -/
def sample (argv0 : Path) (cwd : List Str) : World where
  stat p := if p ∈ [["go".toList, "bin".toList, "xgo".toList], ["go".toList, "bin".toList, "lint".toList],
      ["home".toList, "u".toList, ".xgo".toList, "bin".toList, "lint".toList], ["usr".toList, "bin".toList, "lint".toList]] then .file true
    else if p = ["src".toList, "lint".toList] then .file false else .missing
  cwd := cwd
  argv0 := argv0
  home := some ["".toList, "home".toList, "u".toList]
  path := [["".toList, "usr".toList, "bin".toList], ["".toList, "go".toList, "bin".toList]]

/-- Started by its path: the tool beside `xgo`. -/
example : Started (sample ["".toList, "go".toList, "bin".toList, "xgo".toList] ["src".toList]) ["go".toList, "bin".toList] "xgo".toList ∧
    dir (sample ["".toList, "go".toList, "bin".toList, "xgo".toList] ["src".toList]).argv0 ≠ [".".toList] ∧
    Name "xgo".toList "lint".toList ∧ Home (sample ["".toList, "go".toList, "bin".toList, "xgo".toList] ["src".toList]) ["home".toList, "u".toList] ∧
    handleTool (sample ["".toList, "go".toList, "bin".toList, "xgo".toList] ["src".toList]) (some (["lint".toList], ["-v".toList])) =
      .run ["go".toList, "bin".toList, "lint".toList] ["-v".toList] := by
  refine ⟨⟨by decide, by decide, ⟨["".toList, "go".toList, "bin".toList], rfl⟩, by decide⟩, by decide, ⟨by decide, by decide, by decide⟩,
    ⟨_, rfl, by decide, by decide, by decide⟩, by decide⟩

/-- Started by its name, in `/src`, which has a file `lint`: not the tool beside `xgo`, nor that in `~/.xgo/bin`, but that of `/usr/bin`. -/
theorem C103_other_program :
    Started (sample ["xgo".toList] ["src".toList]) ["src".toList] "xgo".toList ∧
    handleTool (sample ["xgo".toList] ["src".toList]) (some (["lint".toList], [])) = .run ["usr".toList, "bin".toList, "lint".toList] [] ∧
    FirstOnPath (sample ["xgo".toList] ["src".toList]) "lint".toList ["usr".toList, "bin".toList, "lint".toList] ∧
    dir (sample ["xgo".toList] ["src".toList]).argv0 = [".".toList] ∧
    handleTool (sample ["xgo".toList] ["tmp".toList]) (some (["lint".toList], [])) =
      .run ["home".toList, "u".toList, ".xgo".toList, "bin".toList, "lint".toList] [] := by
  refine ⟨⟨by decide, by decide, ⟨[], rfl⟩, by decide⟩, by decide, ⟨[], _, _, rfl, by simp, by decide, by decide, by decide⟩, by decide, by decide⟩

end Verif.Cmd.Tool
