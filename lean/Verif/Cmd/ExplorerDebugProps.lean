/-
C109: running and debugging an item of the test explorer.
-/
import Verif.Cmd.ExplorerDebugSpec
import Verif.Support.ServePortMain

namespace Verif.Cmd.ExplorerDebug
open Verif.Cmd.Explorer (Item Items Kind testPaths formatRunNames)
open Verif.Cmd.ExplorerDebug.Spec

/-! ### `go test` reads the command lines -/

theorem goTest_args (l : List Str) : goTest ("-args".toList :: l) = ⟨[], [], [], l, none⟩ := by
  rw [goTest.eq_def]; exact if_pos rfl

theorem goTest_v (l : List Str) : goTest ("-v".toList :: l) =
    { goTest l with test := ("v".toList, "true".toList) :: (goTest l).test } := by
  rw [goTest.eq_def]; dsimp only; rw [if_neg (by decide), if_pos rfl]

theorem goTest_skip {a : Str} (h : a ∈ ["-c".toList, "-json".toList, "--strace".toList]) (l : List Str) :
    goTest (a :: l) = goTest l := by
  simp only [List.mem_cons, List.not_mem_nil, or_false] at h
  rcases h with rfl | rfl | rfl <;> (rw [goTest.eq_def]; dsimp only; rw [if_neg (by decide), if_neg (by decide), if_pos (by decide)])

theorem goTest_run (v : Str) (l : List Str) : goTest ("-run".toList :: v :: l) =
    { goTest l with test := ("run".toList, v) :: (goTest l).test } := by
  rw [goTest, if_neg (by decide), if_neg (by decide), if_neg (by decide), if_pos (by decide)]
  dsimp only
  rw [if_neg (by decide), if_pos rfl]

theorem goTest_o (v : Str) (l : List Str) : goTest ("-o".toList :: v :: l) = { goTest l with output := some v } := by
  rw [goTest, if_neg (by decide), if_neg (by decide), if_neg (by decide), if_pos (by decide)]
  dsimp only
  rw [if_pos rfl]

theorem goTest_straceDir (v : Str) (l : List Str) : goTest ("--strace-dir".toList :: v :: l) = goTest l := by
  rw [goTest, if_neg (by decide), if_neg (by decide), if_neg (by decide), if_pos (by decide)]
  dsimp only
  rw [if_neg (by decide), if_neg (by decide)]

theorem plain_ne {a : Str} (h : Plain a) : a ≠ "-args".toList ∧ a ≠ "-v".toList ∧
    ¬(a = "-c".toList ∨ a = "-json".toList ∨ a = "--strace".toList) ∧
    ¬(a = "-o".toList ∨ a = "-run".toList ∨ a = "--strace-dir".toList) := by
  have h2 := h.2
  simp only [List.map_cons, List.map_nil, List.mem_cons, List.not_mem_nil, or_false, not_or] at h2
  obtain ⟨h1, h2, h3, h4, h5, h6, h7, h8⟩ := h2
  exact ⟨h1, h2, by rintro (h | h | h) <;> contradiction, by rintro (h | h | h) <;> contradiction⟩

theorem goTest_flags (fs l : List Str) (h : ∀ a ∈ fs, Plain a) : goTest (fs ++ l) =
    { goTest l with
      build := fs.filter (fun a => ¬ TestFlag a) ++ (goTest l).build
      test := (fs.filter (fun a => TestFlag a)).map setting ++ (goTest l).test } := by
  induction fs with
  | nil => rfl
  | cons a fs ih =>
    have ha := h a (.head _)
    obtain ⟨h1, h2, h3, h4⟩ := plain_ne ha
    rw [List.cons_append, goTest.eq_def]; dsimp only; rw [if_neg h1, if_neg h2, if_neg h3, if_neg h4, ih (fun b hb => h b (.tail _ hb))]
    by_cases ht : TestFlag a
    · rw [if_pos ht]; simp [ht]
    · rw [if_neg ht, if_pos ha.1]; simp [ht]

theorem goTest_trace (t : Option Str) (l : List Str) :
    goTest (traceFlags t ++ l) = goTest l := by
  cases t with
  | none => rfl
  | some d =>
    show goTest ("--strace".toList :: "--strace-dir".toList :: d :: l) = _
    rw [goTest_skip (by simp), goTest_straceDir]

theorem goTest_pkgs (ps : List Path) (l : List Str) : goTest (pathArgs ps ++ l) =
    { goTest l with pkgs := pathArgs ps ++ (goTest l).pkgs } := by
  induction ps with
  | nil => rfl
  | cons p ps ih =>
    have hd : ∀ b : Str, b.head? = some '-' → ("./".toList ++ relative p) ≠ b := by
      intro b hb hh
      rw [← hh] at hb
      cases hb
    show goTest (("./".toList ++ relative p) :: (pathArgs ps ++ l)) = _
    have ht : ¬ TestFlag ("./".toList ++ relative p) := by
      rintro ⟨n, v, hnv, _⟩
      unfold nameValue at hnv
      rw [if_neg (fun hh => by cases hh.1)] at hnv
      cases hnv
    rw [goTest.eq_def]; dsimp only; rw [if_neg (hd _ rfl), if_neg (hd _ rfl), if_neg, if_neg, if_neg ht, if_neg (fun hh => by cases hh), ih]
    · rfl
    · rintro (h | h | h)
      · exact hd _ rfl h
      · exact hd _ rfl h
      · exact hd _ rfl h
    · rintro (h | h | h)
      · exact hd _ rfl h
      · exact hd _ rfl h
      · exact hd _ rfl h

theorem goTest_nil : goTest [] = ⟨[], [], [], [], none⟩ := rfl

/-- The arguments behind `-args`. -/
def tailArgs (s : Session) : List Str := if s.progArgs = [] then [] else (if s.bypass then ["--".toList] else []) ++ s.progArgs

theorem goTest_tail (s : Session) : goTest (if s.progArgs = [] then [] else "-args".toList :: ((if s.bypass then ["--".toList] else []) ++ s.progArgs)) =
    ⟨[], [], [], tailArgs s, none⟩ := by
  unfold tailArgs
  by_cases h : s.progArgs = []
  · rw [if_pos h, if_pos h]; rfl
  · rw [if_neg h, if_neg h, goTest_args]

theorem goTest_json (b : Bool) (l : List Str) : goTest ((if b then ["-json".toList] else []) ++ l) = goTest l := by
  cases b
  · rfl
  · exact goTest_skip (by simp) l

theorem goTest_runNames (n : Str) (l : List Str) : goTest ((if n = [] then [] else ["-run".toList, n]) ++ l) =
    { goTest l with test := (if n = [] then [] else [("run".toList, n)]) ++ (goTest l).test } := by
  by_cases h : n = []
  · rw [if_pos h, if_pos h]; rfl
  · rw [if_neg h, if_neg h]; exact goTest_run n l

theorem run_read (s : Session) (hf : ∀ a ∈ s.testFlags, Plain a) : goTest (runTest s).args.tail =
    { build := s.testFlags.filter (fun a => ¬ TestFlag a)
      test := ("v".toList, "true".toList) :: ((s.testFlags.filter (fun a => TestFlag a)).map setting ++
        if runNames (testPaths s.item).2 = [] then [] else [("run".toList, runNames (testPaths s.item).2)])
      pkgs := pathArgs (testPaths s.item).1
      args := tailArgs s
      output := none } := by
  show goTest ("-v".toList :: (flags s false ++ joinTestArgs _ _ ++ _)) = _
  rw [goTest_v]
  unfold flags joinTestArgs
  simp only [List.append_assoc]
  rw [goTest_json, goTest_flags _ _ hf, goTest_trace, goTest_runNames, goTest_pkgs, goTest_tail]
  simp

theorem gcflags_plain : Plain "-gcflags=all=-N -l".toList := by
  unfold Plain; decide

theorem gcflags_build : ¬ TestFlag "-gcflags=all=-N -l".toList := by decide

theorem build_read (s : Session) (tmp : Path) (hf : ∀ a ∈ s.testFlags, Plain a) : goTest (build s tmp).args.tail =
    { build := "-gcflags=all=-N -l".toList :: s.testFlags.filter (fun a => ¬ TestFlag a)
      test := (s.testFlags.filter (fun a => TestFlag a)).map setting
      pkgs := pathArgs (testPaths s.item).1
      args := []
      output := some (absolute (binPath s tmp)) } := by
  show goTest ("-c".toList :: "-o".toList :: absolute (binPath s tmp) :: (["-gcflags=all=-N -l".toList] ++ flags s true ++ _)) = _
  rw [goTest_skip (by simp), goTest_o]
  have h1 : ∀ a ∈ ["-gcflags=all=-N -l".toList], Plain a := by
    intro a ha
    rw [List.mem_singleton.1 ha]; exact gcflags_plain
  have h2 := goTest_pkgs (testPaths s.item).1 []
  rw [List.append_nil] at h2
  unfold flags
  simp only [List.append_assoc]
  rw [goTest_flags _ _ h1, show (!true && !single s) = false from rfl, goTest_json, goTest_flags _ _ hf, goTest_trace, h2]
  have e1 : ["-gcflags=all=-N -l".toList].filter (fun a => ¬ TestFlag a) = ["-gcflags=all=-N -l".toList] := by decide
  have e2 : ["-gcflags=all=-N -l".toList].filter (fun a => TestFlag a) = [] := by decide
  rw [e1, e2, goTest_nil]
  simp

end Verif.Cmd.ExplorerDebug
