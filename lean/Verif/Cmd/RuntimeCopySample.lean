import Verif.Cmd.RuntimeCopyMain
/-
C71: two releases of xgo, for the examples, and counterexamples.
-/
namespace Verif.Cmd.RuntimeCopy
open Verif.Text Verif.Instrument.PatchText Spec

/-! ### Two releases -/

def oneAt (pre : Str) (lines : List Str) (i : Nat) : Bool :=
  match lines.drop i with
  | [] => false
  | l :: after => (lines.take i).all (fun l => !contains l pre) && pre.isPrefixOf l && !contains (l.drop pre.length) pre &&
      after.all fun l => !contains l pre

theorem one_at {pre : Str} {lines : List Str} (i : Nat) (h : oneAt pre lines i = true) : One pre lines := by
  unfold oneAt at h
  split at h
  · cases h
  · rename_i l after hl
    simp only [Bool.and_eq_true, List.all_eq_true, Bool.not_eq_true', List.isPrefixOf_iff_prefix] at h
    obtain ⟨⟨⟨h1, ⟨rest, h2⟩⟩, h3⟩, h4⟩ := h
    have no : ∀ {l : Str}, contains l pre = false → ¬ pre <:+: l := fun h h' => by
      rw [contains_iff.2 h'] at h; cases h
    refine ⟨lines.take i, rest, after, ?_, fun l hl => no (h1 l hl), ?_, fun l hl => no (h4 l hl)⟩
    · rw [h2, ← hl, List.take_append_drop]
    · rw [← h2, List.drop_left] at h3; exact no h3

namespace Sample

def versionLines (number : Str) : List Str := ["package core".toList, "const VERSION = \"1.2.2\"".toList, "const REVISION = \"c56\"".toList,
  "const NUMBER = ".toList ++ number, "const XGO_VERSION = \"\"".toList, "const XGO_REVISION = \"\"".toList,
  "const XGO_NUMBER = 0".toList, "func checkVersion() error {".toList, "\treturn nil".toList, "}".toList]

def flagsLines : List Str := ["package flags".toList, "const COLLECT_TEST_TRACE = false".toList,
  "const COLLECT_TEST_TRACE_DIR = \"\"".toList, "const XGO_RACE_SAFE = false".toList]

/-- An older and a newer xgo; their trace.go and trap.go are not the same. -/
def xgo (new : Bool) : Xgo where
  files := [("core/version.go".toList, unlines (versionLines (if new then "642".toList else "641".toList))),
    ("go.mod.txt".toList, "module runtime".toList),
    ("internal/flags/flags.go".toList, unlines flagsLines), ("internal/runtime/runtime_link.go".toList, "stub".toList),
    ("internal/runtime/runtime_link_template.go".toList, "//\n//go:build ignore\npackage runtime".toList),
    ("trace/trace.go".toList, if new then "Tn".toList else "To".toList), ("trap/trap.go".toList, if new then "n".toList else "o".toList)]
  version := if new then "1.2.2".toList else "1.2.1".toList
  revision := "ab1+1".toList
  number := if new then 673 else 670
  trap := fun cover t => t ++ (if cover then ['c'] else []) ++ ['!']

def release (new : Bool) : Release (xgo new) where
  version := versionLines (if new then "642".toList else "641".toList)
  flags := flagsLines
  number := if new then 642 else 641
  core := "1.2.2".toList
  template := "//\n//go:build ignore\npackage runtime".toList
  link := "//\npackage runtime".toList
  trace := if new then "Tn".toList else "To".toList
  mod := "module runtime".toList

theorem wf (new : Bool) : (release new).WF where
  nodup := by cases new <;> decide +kernel
  hversion := by cases new <;> decide +kernel
  hflags := by cases new <;> decide +kernel
  htemplate := by cases new <;> decide +kernel
  hlink := ⟨"stub".toList, by cases new <;> decide +kernel⟩
  htrace := by cases new <;> decide +kernel
  hmod := by cases new <;> decide +kernel
  nomod := by
    intro c hc
    have h : "go.mod".toList ∈ (xgo new).files.map Prod.fst := List.mem_map.2 ⟨_, hc, rfl⟩
    revert h
    cases new <;> decide +kernel
  plainVersion := by unfold Plain; cases new <;> decide +kernel
  plainRevision := by unfold Plain; cases new <;> decide +kernel
  versionLines := by cases new <;> decide +kernel
  flagsLines := by cases new <;> decide +kernel
  oneVersion := one_at 4 (by cases new <;> decide +kernel)
  oneRevision := one_at 5 (by cases new <;> decide +kernel)
  oneNumber := one_at 6 (by cases new <;> decide +kernel)
  number_pos := by cases new <;> decide
  coreNumber := one_at 3 (by cases new <;> decide +kernel)
  hnumber := by cases new <;> decide +kernel
  coreVersion := one_at 1 (by cases new <;> decide +kernel)
  hcore := by cases new <;> decide +kernel
  core_plain := by cases new <;> decide +kernel
  core_new := by cases new <;> decide +kernel
  check := one_at 7 (by cases new <;> decide +kernel)
  hcheck := by cases new <;> decide +kernel
  unmarked := by
    have : ∀ l ∈ (release new).version, contains l "/*<begin bypass_version_check>*/".toList = false ∧
        contains l "/*<end bypass_version_check>*/".toList = false := by cases new <;> decide +kernel
    intro l hl
    obtain ⟨h1, h2⟩ := this l hl
    exact ⟨fun h => Bool.noConfusion ((contains_iff.2 h).symm.trans h1), fun h => Bool.noConfusion ((contains_iff.2 h).symm.trans h2)⟩
  oneCollect := one_at 1 (by cases new <;> decide +kernel)
  oneDir := one_at 2 (by cases new <;> decide +kernel)
  oneRace := one_at 3 (by cases new <;> decide +kernel)
  off := by cases new <;> decide +kernel
  ignore := ⟨"//\n".toList, "package runtime".toList, by cases new <;> decide +kernel, by noinfix, by decide +kernel,
    by cases new <;> decide +kernel⟩

/-- `xgo test --strace --strace-dir='a"b'`, and `xgo test`. -/
def traced : Opts := { force := false, collect := true, dir := "a\"b".toList, race := false, cover := true }
def plain : Opts := { force := false, collect := false, dir := [], race := false, cover := false }

/-- A run of the older or the newer xgo. -/
def go (new strace : Bool) : Run := ⟨xgo new, release new, if strace then traced else plain⟩

theorem good (new strace : Bool) : Good (go new strace) := by
  refine ⟨wf new, ?_⟩
  have h1 : DirOk traced := by unfold DirOk; noinfix
  have h2 : DirOk plain := by unfold DirOk; noinfix
  cases strace
  · exact h2
  · exact h1

end Sample
open Sample

/-! ### The theorems apply -/

example : runs ([go false true, go false false, go true true].map fun n => (n.x, n.o)) (fun _ => none) =
    some (after (go false true) [go false false, go true true]) :=
  C71_history_partial _ _ (good _ _) (fun n hn => by
    rcases List.mem_cons.1 hn with rfl | hn
    · exact good _ _
    · rw [List.mem_singleton.1 hn]; exact good _ _) _ (Or.inr rfl)

/-- The last run of these, of the newer xgo, extracts its runtime: every file is its own. -/
example : (after (go false true) [go false false, go true true]) "trap/trap.go".toList = some "n".toList ∧
    (after (go false true) [go false false, go true true]) "trace/trace.go".toList = some "Tnc!".toList ∧
    (after (go false true) [go false false, go true true]) "internal/flags/flags.go".toList = some (unlines ["package flags".toList,
      "const COLLECT_TEST_TRACE = true".toList, "const COLLECT_TEST_TRACE_DIR = \"a\\\"b\"".toList, "const XGO_RACE_SAFE = false".toList]) := by
  decide +kernel

example : runs ((go false true :: ([go false false] ++ [go true false])).map fun n => (n.x, n.o)) (fun _ => none) =
    some (copy (release true) (release true) plain false) := by
  rw [C71_history_partial _ _ (good _ _) (fun n hn => by
    rcases List.mem_cons.1 hn with rfl | hn
    · exact good _ _
    · rw [List.mem_singleton.1 hn]; exact good _ _) _ (Or.inr rfl)]
  rfl

example : runs ((go false false :: ([go false false] ++ [go true false])).map fun n => (n.x, n.o)) (fun _ => none) =
    some (copy (release true) (release true) plain false) :=
  C71_own_partial (go false false) [go false false] (go true false) (good _ _)
    (fun n hn => by rw [List.mem_singleton.1 hn]; exact good _ _) (good _ _) _ (Or.inr rfl)
    (fun n hn => by
      have : n = go false false := by simpa using hn
      subst this
      exact ⟨by decide, fun h => absurd h (by decide)⟩)
    (Or.inr (Or.inr fun n hn => by
      have : n = go false false := by simpa using hn
      subst this
      decide))

example (d : Dir) : run (xgo true) { traced with force := true } d = some (copy (release true) (release true) { traced with force := true } true) :=
  C71_forced ⟨xgo true, release true, { traced with force := true }⟩ ⟨wf true, (good true true).2⟩ rfl d

example : needCopy (xgo true) (fun _ => none) = some true := (C71_first _ (release true) (wf true) _).1 rfl

/-- A directory left by the older xgo, the newer one interrupted while it links. -/
example : ∃ ops ops', extractOps (xgo true) false (copy (release false) (release false) traced true) = some ops ∧
    linkOps (xgo true) plain (applyAll ops (copy (release false) (release false) traced true)) = some ops' :=
  let ⟨ops, ops', h1, h2, _⟩ := C71_crash_partial ⟨go false true, traced⟩ (go false true) (go true false) (go true false) (good _ _)
    (good true true).2 (good _ _) (good _ _) (good _ _) _ rfl
  ⟨ops, ops', h1, h2⟩

/-! ### Where it fails -/

/-- The flags of an earlier run stay: `xgo test --strace`, then `xgo test` with the same xgo. The program of the second run
    collects traces. -/
theorem C71_flags_counterexample : ∃ d, runs [((go true true).x, (go true true).o), ((go true false).x, (go true false).o)] (fun _ => none) = some d ∧
    d "internal/flags/flags.go".toList = some (unlines ["package flags".toList, "const COLLECT_TEST_TRACE = true".toList,
      "const COLLECT_TEST_TRACE_DIR = \"a\\\"b\"".toList, "const XGO_RACE_SAFE = false".toList]) :=
  ⟨_, C71_history_partial (go true true) [go true false] (good _ _) (fun n hn => by rw [List.mem_singleton.1 hn]; exact good _ _) _ (Or.inr rfl),
    by decide +kernel⟩

/-- After the newer xgo the older one compiles its own trace.go into the runtime of the newer one. -/
theorem C71_downgrade_counterexample : ∃ d, runs [((go true false).x, (go true false).o), ((go false false).x, (go false false).o)] (fun _ => none) = some d ∧
    d "trap/trap.go".toList = some "n".toList ∧ d "trace/trace.go".toList = some "To!".toList :=
  ⟨_, C71_history_partial (go true false) [go false false] (good _ _) (fun n hn => by rw [List.mem_singleton.1 hn]; exact good _ _) _ (Or.inr rfl),
    by decide +kernel, by decide +kernel⟩

theorem crash_ops : (extractOps (xgo true) false (fun _ => none)).isSome = true := by decide +kernel
theorem crash_run :
    (run (xgo true) plain (applyAll (((extractOps (xgo true) false (fun _ => none)).get crash_ops).take 2) (fun _ => none))).isSome = true := by
  decide +kernel

/-- A run interrupted in the extraction, after core/version.go: the version in the directory says that it is complete, so the
    next run, and every later one of that xgo, keeps it as it is. -/
theorem C71_crash_counterexample : ∃ ops, extractOps (xgo true) false (fun _ => none) = some ops ∧ ∃ d,
    run (xgo true) plain (applyAll (ops.take 2) (fun _ => none)) = some d ∧ d "go.mod".toList = none ∧ d "trap/trap.go".toList = none ∧
    needCopy (xgo true) d = some false := by
  exact ⟨_, (Option.some_get crash_ops).symm, _, (Option.some_get crash_run).symm, by decide +kernel, by decide +kernel, by decide +kernel⟩

/-- A trace directory whose name holds the text of a declaration: the wrong line is replaced. -/
theorem C71_dir_counterexample :
    injectFlags (unlines flagsLines) true "const XGO_RACE_SAFE = x".toList true = unlines ["package flags".toList,
      "const COLLECT_TEST_TRACE = true".toList, "const COLLECT_TEST_TRACE_DIR = \"const XGO_RACE_SAFE = true".toList,
      "const XGO_RACE_SAFE = false".toList] := by decide +kernel

end Verif.Cmd.RuntimeCopy
