import Verif.Cmd.Shadow
import Verif.Cmd.GoModProps
/-
The shadow go (C79): specification and theorems.
-/
namespace Verif.Cmd.Shadow

open Verif.Cmd.GoMod (Str Path isAbs clean dir abs cleanStep fold_ordinary fold_true isAbs_cons)
open Verif.Cmd.GoMod.Spec (Ordinary)

/-! ### Specification -/

/-- A directory has an executable `go`. -/
def HasGo (fs : FS) (cwd : List Str) (d : Path) : Prop := (fs (abs cwd d)).isSome

instance (fs : FS) (cwd : List Str) (d : Path) : Decidable (HasGo fs cwd d) := inferInstanceAs (Decidable (_ = true))

/-- A directory written the usual way: `/a/b`. -/
def Plain (d : Path) : Prop := ∃ parts, d = [] :: parts ∧ parts ≠ [] ∧ ∀ x ∈ parts, Ordinary x

/-- The file `go` in the directory. -/
def goIn (d : Path) : Path := d ++ [goName]

/-- The directories on PATH are written the usual way, the shadow is in `sh`, which is on PATH, and PATH reaches the shadow
    under this name only. -/
structure Setup (fs : FS) (cwd : List Str) (path : List Path) (sh : Path) : Prop where
  plain : ∀ d ∈ path, Plain d
  on : sh ∈ path
  shadow : fs (abs cwd sh) = some .shadow
  only : ∀ d ∈ path, fs (abs cwd d) = some .shadow → d = sh

/-- `r` is the directory in which go would be found if the shadow were not installed. -/
def FirstReal (fs : FS) (cwd : List Str) (path : List Path) (sh r : Path) : Prop :=
  ∃ a b, path = a ++ r :: b ∧ r ≠ sh ∧ HasGo fs cwd r ∧ ∀ d ∈ a, d = sh ∨ ¬ HasGo fs cwd d

/-- The shadow is called `go` when its directory is the first on PATH that has a go, or by its path. -/
def Called (fs : FS) (cwd : List Str) (path : List Path) (sh argv0 : Path) : Prop :=
  argv0 = goIn sh ∨
  (argv0 = [goName] ∧ ∃ a b, path = a ++ sh :: b ∧ ∀ d ∈ a, ¬ HasGo fs cwd d)

/-! ### Paths -/

theorem ordinary_go : Ordinary goName := by decide

theorem clean_plain {parts : List Str} (hne : parts ≠ []) (h : ∀ x ∈ parts, Ordinary x) : clean ([] :: parts) = [] :: parts := by
  unfold clean
  rw [isAbs_cons hne]
  have hb : (([] : Str) == []) = true := rfl
  simp only [hb, if_true]
  rw [List.foldl_cons]
  have : cleanStep true [] [] = [] := rfl
  rw [this, fold_ordinary parts h, List.nil_append, if_neg hne]

theorem clean_goIn {d : Path} (h : Plain d) : clean (goIn d) = goIn d := by
  obtain ⟨parts, rfl, hne, ho⟩ := h
  have : goIn ([] :: parts) = [] :: (parts ++ [goName]) := rfl
  rw [this]
  refine clean_plain (by simp) ?_
  intro x hx
  rcases List.mem_append.mp hx with hx | hx
  · exact ho x hx
  · rw [List.mem_singleton] at hx; rw [hx]; exact ordinary_go

theorem isAbs_goIn {d : Path} (h : Plain d) : isAbs (goIn d) = true := by
  obtain ⟨parts, rfl, hne, ho⟩ := h
  have : goIn ([] :: parts) = [] :: (parts ++ [goName]) := rfl
  rw [this, isAbs_cons (by simp)]
  rfl

theorem goIn_ne {d : Path} (h : Plain d) : goIn d ≠ [goName] := by
  obtain ⟨parts, rfl, hne, ho⟩ := h
  intro he
  have := congrArg List.length he
  simp [goIn] at this

theorem dir_goIn {d : Path} (h : Plain d) : dir (goIn d) = d := by
  obtain ⟨parts, rfl, hne, ho⟩ := h
  unfold dir goIn
  rw [List.dropLast_concat]
  unfold clean
  have e : [] :: parts ++ [[]] = [] :: (parts ++ [[]]) := rfl
  rw [e, isAbs_cons (by simp)]
  have hb : (([] : Str) == []) = true := rfl
  simp only [hb, if_true]
  rw [List.foldl_cons]
  have h0 : cleanStep true [] [] = [] := rfl
  rw [h0, List.foldl_append, fold_ordinary parts ho, List.nil_append]
  have h1 : List.foldl (cleanStep true) parts [[]] = parts := rfl
  rw [h1, if_neg hne]

theorem plain_ne {d : Path} (h : Plain d) : d ≠ [[]] := by
  obtain ⟨parts, rfl, hne, ho⟩ := h
  intro he
  exact hne (List.cons.inj he).2

/-! ### Looking for go -/

theorem lookGo_skip (fs : FS) (cwd : List Str) (a rest : List Path) (hp : ∀ d ∈ a, Plain d)
    (hn : ∀ d ∈ a, ¬ HasGo fs cwd d) : lookGo fs cwd (a ++ rest) = lookGo fs cwd rest := by
  induction a with
  | nil => rfl
  | cons d a ih =>
    rw [List.cons_append, lookGo]
    simp only [if_neg (plain_ne (hp d (by simp)))]
    have : (fs (abs cwd d)).isSome = false := by
      have := hn d (by simp)
      simpa [HasGo] using this
    rw [this]
    exact ih (fun x hx => hp x (by simp [hx])) (fun x hx => hn x (by simp [hx]))

theorem lookGo_first (fs : FS) (cwd : List Str) (a b : List Path) (r : Path) (hp : ∀ d ∈ a, Plain d) (hr : Plain r)
    (hn : ∀ d ∈ a, ¬ HasGo fs cwd d) (hg : HasGo fs cwd r) : lookGo fs cwd (a ++ r :: b) = some (goIn r) := by
  rw [lookGo_skip fs cwd a _ hp hn, lookGo]
  simp only [if_neg (plain_ne hr)]
  have hg' : (fs (abs cwd r)).isSome = true := hg
  rw [if_pos hg']
  have : r ++ [goName] = goIn r := rfl
  rw [this, clean_goIn hr, isAbs_goIn hr]
  rfl

theorem exclude_mem {d : Path} {l : List Path} (h : d ∈ l) : excludeInList d l = some (l.filter (fun x => x != d)) := by
  unfold excludeInList
  simp only
  rw [if_neg]
  intro he
  have := (List.length_filter_eq_length_iff.mp he) d h
  simp at this

theorem exclude_other {d : Path} {l : List Path} (h : d ∉ l) : excludeInList d l = none := by
  unfold excludeInList
  simp only
  rw [if_pos]
  refine List.length_filter_eq_length_iff.mpr ?_
  intro x hx
  have : x ≠ d := fun e => h (e ▸ hx)
  simpa using this

theorem rejoin_plain {l : List Path} (h : ∀ d ∈ l, Plain d) : rejoin l = l := by
  unfold rejoin
  rw [if_neg]
  intro he
  exact plain_ne (h [[]] (by rw [he]; simp)) rfl

theorem real_found {fs : FS} {cwd : List Str} {path : List Path} {sh r : Path} (hs : Setup fs cwd path sh)
    (hr : FirstReal fs cwd path sh r) : getRealGoPathExcludeDir fs cwd path sh = some (goIn r) := by
  obtain ⟨a, b, hpath, hne, hg, ha⟩ := hr
  unfold getRealGoPathExcludeDir
  rw [exclude_mem hs.on]
  simp only
  rw [rejoin_plain (fun d hd => hs.plain d (List.mem_filter.mp hd).1)]
  rw [hpath, List.filter_append, List.filter_cons]
  have hb : (r != sh) = true := by simpa using hne
  rw [if_pos hb]
  refine lookGo_first fs cwd _ _ r ?_ (hs.plain r (by rw [hpath]; simp)) ?_ hg
  · intro d hd
    exact hs.plain d (by rw [hpath]; exact List.mem_append_left _ (List.mem_filter.mp hd).1)
  · intro d hd
    obtain ⟨hd1, hd2⟩ := List.mem_filter.mp hd
    rcases ha d hd1 with h | h
    · rw [h] at hd2; simp at hd2
    · exact h

theorem real_path {fs : FS} {cwd : List Str} {path : List Path} {sh r argv0 : Path} (hs : Setup fs cwd path sh)
    (hr : FirstReal fs cwd path sh r) (hc : Called fs cwd path sh argv0) :
    getRealGoPath fs cwd path argv0 = some (goIn r) := by
  have hsp := hs.plain sh hs.on
  have hsg : HasGo fs cwd sh := by unfold HasGo; rw [hs.shadow]; rfl
  unfold getRealGoPath
  rcases hc with hc | ⟨hc, a, b, hpath, ha⟩
  · rw [hc, if_neg (goIn_ne hsp), isAbs_goIn hsp, dir_goIn hsp]
    simp only [if_true]
    exact real_found hs hr
  · rw [if_pos hc]
    have hl : lookGo fs cwd path = some (goIn sh) := by
      rw [hpath]
      exact lookGo_first fs cwd a b sh (fun d hd => hs.plain d (by rw [hpath]; simp [hd])) hsp ha hsg
    rw [hl]
    simp only
    rw [dir_goIn hsp]
    exact real_found hs hr

/-! ### Theorems -/

/-- The directory that `FirstReal` speaks of has a real go in it. -/
theorem real_prog {fs : FS} {cwd : List Str} {path : List Path} {sh r : Path} (hs : Setup fs cwd path sh)
    (hr : FirstReal fs cwd path sh r) : ∃ n, fs (abs cwd r) = some (.real n) := by
  obtain ⟨a, b, hpath, hne, hg, ha⟩ := hr
  unfold HasGo at hg
  cases h : fs (abs cwd r) with
  | none => rw [h] at hg; cases hg
  | some p =>
    cases p with
    | real n => exact ⟨n, rfl⟩
    | shadow => exact absurd (hs.only r (by rw [hpath]; simp) h) hne

/-- **C79.** If the first argument is `build`, `run` or `test` and XGO_SHADOW_BYPASS is not `true`, the shadow runs xgo with
    the same arguments and environment, and tells it to use the go that would be run without the shadow; this is a real go,
    and it is the one xgo then uses, so that xgo does not call the shadow again. -/
theorem C79_instruments_partial {fs : FS} {cwd : List Str} {env : Env} {sh r argv0 : Path} {sub : Str} {args : List Str}
    (hs : Setup fs cwd env.path sh) (hr : FirstReal fs cwd env.path sh r) (hc : Called fs cwd env.path sh argv0)
    (hsub : sub = "build".toList ∨ sub = "run".toList ∨ sub = "test".toList) (hb : env.bypass ≠ "true".toList) :
    ∃ env' stdin, shadowMain fs cwd argv0 (sub :: args) env = some (.xgo (sub :: args) env' stdin) ∧
      env'.path = env.path ∧ env'.bypass = env.bypass ∧ env'.other = env.other ∧
      nakedGo fs cwd env' = some (goIn r, goIn r) ∧ ∃ n, progAt fs cwd (goIn r) = some (.real n) := by
  have hin : instrumented (sub :: args) = true := by
    rcases hsub with h | h | h <;> rw [h] <;> rfl
  obtain ⟨n, hn⟩ := real_prog hs hr
  have hrp : Plain r := by
    obtain ⟨a, b, hpath, _⟩ := hr
    exact hs.plain r (by rw [hpath]; simp)
  refine ⟨{ env with realGo := some (goIn r) }, false, ?_, rfl, rfl, rfl, rfl, n, ?_⟩
  · unfold shadowMain
    rw [real_path hs hr hc]
    simp only
    rw [if_pos ⟨hb, hin⟩]
  · unfold progAt; rw [dir_goIn hrp]; exact hn

/-- **C79.** For all other commands, and with XGO_SHADOW_BYPASS=true, the shadow runs the go that would be run without it,
    with the same arguments and the same environment, and the chain of processes ends there. -/
theorem C79_passes_partial {fs : FS} {cwd : List Str} {env : Env} {sh r argv0 : Path} {args : List Str}
    (hs : Setup fs cwd env.path sh) (hr : FirstReal fs cwd env.path sh r) (hc : Called fs cwd env.path sh argv0)
    (ho : env.bypass = "true".toList ∨ args = [] ∨
      ∃ sub rest, args = sub :: rest ∧ sub ≠ "build".toList ∧ sub ≠ "run".toList ∧ sub ≠ "test".toList) :
    next fs cwd ⟨goIn sh, argv0, args, env⟩ = some ⟨goIn r, goIn r, args, env⟩ ∧
    next fs cwd ⟨goIn r, goIn r, args, env⟩ = none ∧ ∃ n, progAt fs cwd (goIn r) = some (.real n) := by
  have hno : ¬ (env.bypass ≠ "true".toList ∧ instrumented args = true) := by
    rintro ⟨h1, h2⟩
    rcases ho with ho | ho | ⟨sub, rest, ho, a, b, c⟩
    · exact h1 ho
    · rw [ho] at h2; cases h2
    · rw [ho] at h2
      simp [instrumented] at h2
      rcases h2 with (h2 | h2) | h2
      · exact a h2
      · exact b h2
      · exact c h2
  obtain ⟨n, hn⟩ := real_prog hs hr
  have hrp : Plain r := by
    obtain ⟨a, b, hpath, _⟩ := hr
    exact hs.plain r (by rw [hpath]; simp)
  have hp : progAt fs cwd (goIn r) = some (.real n) := by unfold progAt; rw [dir_goIn hrp]; exact hn
  refine ⟨?_, ?_, n, hp⟩
  · unfold next
    have : progAt fs cwd (goIn sh) = some .shadow := by
      unfold progAt; rw [dir_goIn (hs.plain sh hs.on)]; exact hs.shadow
    simp only
    rw [this, if_pos rfl]
    unfold shadowMain
    rw [real_path hs hr hc]
    simp only
    rw [if_neg hno]
  · unfold next
    simp only
    rw [hp, if_neg (by simp)]

/-- **C79.** The code with which the command ends is that of the shadow. -/
theorem C79_exit (c : Nat) : exitCode (some (some c)) = c ∧ exitCode none = 0 ∧ exitCode (some none) ≠ 0 := ⟨rfl, rfl, by decide⟩

/-- A machine with a shadow, an empty directory and two gos. -/
def demo : FS := fun d =>
  if d = ["home".toList, "u".toList, ".xgo".toList, "shadow".toList] then some .shadow
  else if d = ["usr".toList, "local".toList, "go".toList, "bin".toList] then some (.real 1)
  else if d = ["usr".toList, "bin".toList] then some (.real 2)
  else none

def shDir : Path := [[], "home".toList, "u".toList, ".xgo".toList, "shadow".toList]
def goDir : Path := [[], "usr".toList, "local".toList, "go".toList, "bin".toList]
def demoEnv : Env := ⟨[[[], "bin".toList], shDir, goDir, [[], "usr".toList, "bin".toList]], [], none, 0⟩

theorem plain_of (parts : List Str) (hne : parts ≠ []) (h : ∀ x ∈ parts, Ordinary x) : Plain ([] :: parts) := ⟨parts, rfl, hne, h⟩

theorem demo_setup : Setup demo [] demoEnv.path shDir := by
  refine ⟨?_, by decide, by decide, by decide⟩
  intro d hd
  simp only [demoEnv, List.mem_cons, List.not_mem_nil, or_false] at hd
  rcases hd with h | h | h | h <;> subst h <;> exact plain_of _ (by decide) (by decide)

example : Setup demo [] demoEnv.path shDir ∧ FirstReal demo [] demoEnv.path shDir goDir ∧
    Called demo [] demoEnv.path shDir [goName] ∧ Called demo [] demoEnv.path shDir (goIn shDir) :=
  ⟨demo_setup, ⟨[[[], "bin".toList], shDir], [[[], "usr".toList, "bin".toList]], rfl, by decide, by decide, by
      intro d hd
      simp only [List.mem_cons, List.not_mem_nil, or_false] at hd
      rcases hd with h | h
      · right; subst h; decide
      · left; exact h⟩,
    Or.inr ⟨rfl, [[[], "bin".toList]], [goDir, [[], "usr".toList, "bin".toList]], rfl, by
      intro d hd
      simp only [List.mem_singleton] at hd
      subst hd; decide⟩,
    Or.inl rfl⟩

/-! ### What is missing -/

/-- The directory of the shadow may be written in another way on PATH, as with a slash at its end: then every go command
    fails, as the shadow does not find itself. -/
theorem C79_other_spelling (fs : FS) (cwd : List Str) (env : Env) (sh : Path) (hp : Plain sh) (hno : sh ∉ env.path)
    (hl : lookGo fs cwd env.path = some (goIn sh)) (args : List Str) :
    shadowMain fs cwd ["go".toList] args env = none := by
  show shadowMain fs cwd [goName] args env = none
  unfold shadowMain getRealGoPath
  rw [if_pos rfl, hl]
  simp only
  rw [dir_goIn hp]
  unfold getRealGoPathExcludeDir
  rw [exclude_other hno]

/-- `PATH=/home/u/.xgo/shadow/:/usr/bin`. -/
def slashEnv : Env := ⟨[shDir ++ [[]], [[], "usr".toList, "bin".toList]], [], none, 0⟩

example : lookGo demo [] slashEnv.path = some (goIn shDir) ∧ shDir ∉ slashEnv.path ∧
    shadowMain demo [] [goName] ["version".toList] slashEnv = none := by decide

/-- If PATH leads to the shadow under two names (a symbolic link to the directory, a second installation), the two run each
    other forever: `go version` starts processes without end. -/
theorem C79_alias_loops {fs : FS} {cwd : List Str} {env : Env} {a b : Path} {rest : List Path} {args : List Str}
    (hpa : Plain a) (hpb : Plain b) (hne : a ≠ b) (hrest : ∀ d ∈ rest, Plain d)
    (hpath : env.path = a :: b :: rest) (ha : fs (abs cwd a) = some .shadow) (hb : fs (abs cwd b) = some .shadow)
    (ho : ¬ (env.bypass ≠ "true".toList ∧ instrumented args = true)) :
    ∀ n, (chain fs cwd n ⟨goIn a, goIn a, args, env⟩).isSome ∧ (chain fs cwd n ⟨goIn b, goIn b, args, env⟩).isSome := by
  have hga : HasGo fs cwd a := by unfold HasGo; rw [ha]; rfl
  have hgb : HasGo fs cwd b := by unfold HasGo; rw [hb]; rfl
  have step : ∀ x y : Path, Plain x → fs (abs cwd x) = some .shadow →
      getRealGoPathExcludeDir fs cwd env.path x = some (goIn y) →
      next fs cwd ⟨goIn x, goIn x, args, env⟩ = some ⟨goIn y, goIn y, args, env⟩ := by
    intro x y hx hsx hg
    unfold next
    have : progAt fs cwd (goIn x) = some .shadow := by unfold progAt; rw [dir_goIn hx]; exact hsx
    simp only
    rw [this, if_pos rfl]
    unfold shadowMain getRealGoPath
    rw [if_neg (goIn_ne hx), isAbs_goIn hx, dir_goIn hx]
    simp only [if_true]
    rw [hg]
    simp only
    rw [if_neg ho]
  have hall : ∀ d ∈ env.path, Plain d := by
    intro d hd
    rw [hpath] at hd
    simp only [List.mem_cons] at hd
    rcases hd with h | h | h
    · rw [h]; exact hpa
    · rw [h]; exact hpb
    · exact hrest d h
  have find : ∀ x y : Path, x ∈ env.path → (∃ l, env.path.filter (fun z => z != x) = y :: l) → Plain y → HasGo fs cwd y →
      getRealGoPathExcludeDir fs cwd env.path x = some (goIn y) := by
    intro x y hx hf hy hg
    obtain ⟨l, hf⟩ := hf
    unfold getRealGoPathExcludeDir
    rw [exclude_mem hx]
    simp only
    rw [rejoin_plain (fun d hd => hall d (List.mem_filter.mp hd).1), hf]
    exact lookGo_first fs cwd [] l y (by simp) hy (by simp) hg
  have hab := step a b hpa ha (find a b (by rw [hpath]; simp)
    ⟨rest.filter (fun z => z != a), by rw [hpath]; simp [Ne.symm hne]⟩ hpb hgb)
  have hba := step b a hpb hb (find b a (by rw [hpath]; simp)
    ⟨rest.filter (fun z => z != b), by rw [hpath]; simp [hne]⟩ hpa hga)
  intro n
  induction n with
  | zero => exact ⟨rfl, rfl⟩
  | succ n ih =>
    rw [chain, chain, hab, hba]
    exact ⟨ih.2, ih.1⟩

/-- The link `/home/u/bin/shadow` to the directory of the shadow. -/
def linked : FS := fun d => if d = ["home".toList, "u".toList, "bin".toList] then some .shadow else demo d

def linkedEnv : Env := ⟨[shDir, [[], "home".toList, "u".toList, "bin".toList], goDir], [], none, 0⟩

example : ∀ n, (chain linked [] n ⟨goIn shDir, goIn shDir, ["version".toList], linkedEnv⟩).isSome := fun n =>
  (C79_alias_loops (fs := linked) (cwd := []) (env := linkedEnv) (a := shDir)
    (b := [[], "home".toList, "u".toList, "bin".toList]) (rest := [goDir]) (args := ["version".toList])
    (plain_of _ (by decide) (by decide)) (plain_of _ (by decide) (by decide)) (by decide)
    (by intro d hd; rw [List.mem_singleton] at hd; subst hd; exact plain_of _ (by decide) (by decide))
    rfl (by decide) (by decide) (by decide) n).1

/-- The standard input is never passed on: a command that reads it finds it empty. -/
theorem C79_no_stdin (fs : FS) (cwd : List Str) (argv0 : Path) (args : List Str) (env : Env) (c : Child)
    (h : shadowMain fs cwd argv0 args env = some c) :
    (∃ exe e, c = .go exe args e false) ∨ ∃ e, c = .xgo args e false := by
  unfold shadowMain at h
  split at h
  · cases h
  · split at h
    · exact Or.inr ⟨_, (Option.some.inj h).symm⟩
    · exact Or.inl ⟨_, _, (Option.some.inj h).symm⟩

end Verif.Cmd.Shadow
