/-
C109, the theorems.
-/
import Verif.Cmd.ExplorerDebugProps

namespace Verif.Cmd.ExplorerDebug
open Verif.Cmd.Explorer (Item Items Kind testPaths formatRunNames)
open Verif.Cmd.ExplorerDebug.Spec
open Verif.Support.ServePort (Outcome)

/-! ### What the binary reads -/

theorem binary_v (l : List Str) : binary ("-test.v".toList :: l) = add ("v".toList, "true".toList) (binary l) := by
  rw [binary.eq_def]; dsimp only; rw [if_neg (by decide), if_pos rfl]

theorem binary_run (v : Str) (l : List Str) : binary ("-test.run".toList :: v :: l) = add ("run".toList, v) (binary l) := by
  rw [binary.eq_def]; dsimp only; rw [if_neg (by decide), if_neg (by decide), if_pos rfl]

theorem binary_stop (l : List Str) : binary ("--".toList :: l) = some ([], l) := by
  rw [binary.eq_def]; dsimp only; rw [if_pos rfl]

theorem takeWhile_eq_name (n v : Str) (h : '=' ∉ n) : (n ++ '=' :: v).takeWhile (· ≠ '=') = n := by
  induction n with
  | nil => rfl
  | cons c n ih =>
    have hc : c ≠ '=' := fun hh => h (hh ▸ .head _)
    simp only [List.cons_append, List.takeWhile_cons, decide_eq_true hc, if_true]
    rw [ih (fun hh => h (.tail _ hh))]

theorem dropWhile_eq_name (n v : Str) (h : '=' ∉ n) : (n ++ '=' :: v).dropWhile (· ≠ '=') = '=' :: v := by
  induction n with
  | nil => rfl
  | cons c n ih =>
    have hc : c ≠ '=' := fun hh => h (hh ▸ .head _)
    simp only [List.cons_append, List.dropWhile_cons, decide_eq_true hc, if_true]
    exact ih (fun hh => h (.tail _ hh))

theorem binary_setting (x : Str × Str) (l : List Str) (h : '=' ∉ x.1) :
    binary (("-test.".toList ++ x.1 ++ '=' :: x.2) :: l) = add x (binary l) := by
  have hm : '=' ∈ "-test.".toList ++ x.1 ++ '=' :: x.2 := by simp
  have hne : ∀ b : Str, '=' ∉ b → "-test.".toList ++ x.1 ++ '=' :: x.2 ≠ b := fun b hb hh => hb (hh ▸ hm)
  have hp : "-test.".toList.isPrefixOf ("-test.".toList ++ x.1 ++ '=' :: x.2) = true := by
    rw [List.append_assoc]
    exact List.isPrefixOf_iff_prefix.2 ⟨_, rfl⟩
  rw [binary.eq_def]; dsimp only
  rw [if_neg (hne _ (by decide)), if_neg (hne _ (by decide)), if_neg (hne _ (by decide)), if_pos ⟨hp, hm⟩]
  · have hd : ("-test.".toList ++ x.1 ++ '=' :: x.2).drop 6 = x.1 ++ '=' :: x.2 := by
      rw [List.append_assoc]; rfl
    rw [hd, takeWhile_eq_name _ _ h, dropWhile_eq_name _ _ h, List.drop_one, List.tail_cons]

theorem binary_started (test : List (Str × Str)) (args : List Str) (h : ∀ x ∈ test, '=' ∉ x.1) :
    binary (test.map (fun x => "-test.".toList ++ x.1 ++ '=' :: x.2) ++ args) = (binary args).map fun y => (test ++ y.1, y.2) := by
  induction test with
  | nil => cases hb : binary args <;> simp [hb]
  | cons x test ih =>
    rw [List.map_cons, List.cons_append, binary_setting x _ (h x (.head _)), ih (fun y hy => h y (.tail _ hy))]
    cases binary args <;> rfl

theorem binary_tail (s : Session) :
    binary ((if s.bypass then ["--".toList] else []) ++ s.progArgs) = binary (tailArgs s) := by
  unfold tailArgs
  by_cases h : s.progArgs = []
  · rw [if_pos h, h]
    cases s.bypass <;> rfl
  · rw [if_neg h]

theorem setting_noeq {a : Str} (h : TestFlag a) : '=' ∉ (setting a).1 := by
  obtain ⟨n, v, h1, h2⟩ := h
  unfold setting
  rw [h1]
  show '=' ∉ n
  intro hm
  have : ∀ n ∈ testFlagNames, '=' ∉ n := by decide
  exact this n h2 hm

/-! ### The debugger reads its command line -/

theorem dlv_read (s : Session) (tmp : Path) (port : Int) :
    dlvExec (dlv s tmp port).args = some ("localhost:".toList ++ (toString port).toList, absolute (binPath s tmp),
      "-test.v".toList :: "-test.run".toList :: runNames (testPaths s.item).2 ::
        ((if s.bypass then ["--".toList] else []) ++ s.progArgs)) := by
  show dlvExec.go none ("--api-version=2".toList :: "--check-go-version=false".toList :: "--headless".toList ::
    ("--listen=localhost:".toList ++ (toString port).toList) :: absolute (binPath s tmp) :: "--".toList :: _) = _
  have hopt : ∀ (o : Option Str) (a : Str) (l : List Str), ¬ "--listen=".toList.isPrefixOf a = true → a.head? = some '-' →
      dlvExec.go o (a :: l) = dlvExec.go o l := by
    intro o a l h1 h2
    rw [dlvExec.go.eq_def]; dsimp only; rw [if_neg h1, if_pos h2]
  rw [hopt _ _ _ (by decide) (by decide), hopt _ _ _ (by decide) (by decide), hopt _ _ _ (by decide) (by decide)]
  rw [dlvExec.go.eq_def]; dsimp only; rw [if_pos]
  · rw [dlvExec.go.eq_def]; dsimp only; rw [if_neg (fun hh => by cases hh), if_neg (fun hh => by cases hh)]
    rfl
  · exact List.isPrefixOf_iff_prefix.2 ⟨"localhost:".toList ++ (toString port).toList, rfl⟩

/-- **C109.** Cases are debugged, and nothing else. -/
theorem C109_only_cases (s : Session) : (start s true).isSome ↔ s.item.kind = .case ∧ s.dir ++ relOf s.item ≠ [] := by
  unfold start fileOf
  by_cases h1 : s.dir ++ relOf s.item = []
  · simp [h1]
  · by_cases h2 : s.item.kind = .case <;> simp [h1, h2]

/-- **C109.** The program that is debugged is the binary that was built; it is told to run the tests of the item and gets the arguments of
    the configuration: all of them, whatever they look like, if go's flags are bypassed; and otherwise those that do not begin with a flag.
    No argument is taken by the debugger, which listens at the port. -/
theorem C109_debugged (s : Session) (tmp : Path) (port : Int) (hs : (start s true).isSome) (hf : ∀ a ∈ s.testFlags, Plain a)
    (hargs : s.bypass = true ∨ s.progArgs = [] ∨ ∃ a rest, s.progArgs = a :: rest ∧ a.head? ≠ some '-') :
    ∃ bin args, dlvExec (dlv s tmp port).args = some ("localhost:".toList ++ (toString port).toList, bin, args) ∧
      (goTest (build s tmp).args.tail).output = some bin ∧
      binary args = some ([("v".toList, "true".toList), ("run".toList, selection s.item)], s.progArgs) := by
  have hsel : selection s.item = runNames (testPaths s.item).2 := by
    have hk := (C109_only_cases s).1 hs
    rcases hi : s.item with ⟨k, n, u, rel, h, cs⟩
    rw [hi] at hk
    cases hk.1
    rfl
  rw [hsel]
  refine ⟨_, _, dlv_read s tmp port, by rw [build_read s tmp hf], ?_⟩
  rw [binary_v, binary_run]
  have : binary ((if s.bypass then ["--".toList] else []) ++ s.progArgs) = some ([], s.progArgs) := by
    cases hb : s.bypass with
    | true => exact binary_stop _
    | false =>
      rcases hargs with h | h | ⟨a, rest, h, hd⟩
      · rw [hb] at h; cases h
      · rw [h]; rfl
      · rw [h]
        show binary (a :: rest) = _
        have hne : ∀ b : Str, b.head? = some '-' → a ≠ b := fun b hb hh => hd (hh ▸ hb)
        rw [binary.eq_def]; dsimp only
        rw [if_neg (hne _ rfl), if_neg (hne _ rfl), if_neg (hne _ rfl), if_neg, if_neg (fun hh => hd hh.1)]
        rintro ⟨hp, _⟩
        obtain ⟨t, ht⟩ := List.isPrefixOf_iff_prefix.1 hp
        exact hd (by rw [← ht]; rfl)
  rw [this]
  rfl

/-- **C109 (partial).** Debugging a case runs it as running it does: if the configuration has no flags for the test's binary,
    the binary is built with the same flags (and without optimisations) from the same package, has the same settings and the same arguments.
    Not with such flags: see `C109_flags_lost`. -/
theorem C109_same_partial (s : Session) (tmp : Path) (port : Int) (hs : (start s true).isSome)
    (hf : ∀ a ∈ s.testFlags, Plain a ∧ ¬ TestFlag a) :
    (goTest (build s tmp).args.tail).build = "-gcflags=all=-N -l".toList :: (goTest (runTest s).args.tail).build ∧
    (goTest (build s tmp).args.tail).pkgs = (goTest (runTest s).args.tail).pkgs ∧
    ∃ bin args, dlvExec (dlv s tmp port).args = some ("localhost:".toList ++ (toString port).toList, bin, args) ∧
      binary args = binary (started (goTest (runTest s).args.tail)) := by
  have hk := ((C109_only_cases s).1 hs).1
  have hp : ∀ a ∈ s.testFlags, Plain a := fun a ha => (hf a ha).1
  have hn : s.testFlags.filter (fun a => TestFlag a) = [] := List.filter_eq_nil_iff.2 fun a ha => by simpa using (hf a ha).2
  have hr : runNames (testPaths s.item).2 ≠ [] := by
    rcases hi : s.item with ⟨k, n, u, rel, h, cs⟩
    rw [hi] at hk
    cases hk
    intro hh; cases hh
  refine ⟨by rw [build_read s tmp hp, run_read s hp], by rw [build_read s tmp hp, run_read s hp], _, _, dlv_read s tmp port, ?_⟩
  rw [run_read s hp, hn, if_neg hr, binary_v, binary_run, binary_tail]
  unfold started
  rw [binary_started]
  · cases binary (tailArgs s) <;> rfl
  · intro x hx
    simp only [List.map_nil, List.nil_append, List.mem_cons, List.not_mem_nil, or_false] at hx
    rcases hx with rfl | rfl
    · show '=' ∉ "v".toList; decide
    · show '=' ∉ "run".toList; decide

/-- **C109.** The flags of the configuration that are for the test's binary are settings of a test that is run; what is debugged does not
    depend on them. -/
theorem C109_flags_lost (s : Session) (tmp : Path) (port : Int) (hf : ∀ a ∈ s.testFlags, Plain a) :
    (∀ a ∈ s.testFlags, TestFlag a → setting a ∈ (goTest (runTest s).args.tail).test) ∧
    ∀ fs, dlv { s with testFlags := fs } tmp port = dlv s tmp port := by
  refine ⟨fun a ha ht => ?_, fun _ => rfl⟩
  rw [run_read s hf]
  refine .tail _ (List.mem_append_left _ (List.mem_map.2 ⟨a, List.mem_filter.2 ⟨ha, by simpa using ht⟩, rfl⟩))

/-- **C109.** The environment of the configuration is there for a test that is run, from its build on; when it is debugged, the program has it
    and the build has not. -/
theorem C109_env (s : Session) (tmp : Path) (port : Int) :
    ∀ e ∈ s.env, e ∈ (runTest s).env ∧ e ∈ (dlv s tmp port).env ∧ e ∉ (build s tmp).env :=
  fun _ he => ⟨he, he, fun h => by cases h⟩

/-! ### Where it runs -/

theorem cut_name (n : Str) (h : '/' ∉ n) : ∀ acc, cut acc n = [acc ++ n] := by
  induction n with
  | nil => intro acc; rw [cut, List.append_nil]
  | cons c n ih =>
    intro acc
    rw [cut, if_neg (fun (hh : c = '/') => h (hh ▸ .head _)), ih (fun hh => h (.tail _ hh)), List.append_assoc]; rfl

theorem cut_slash (n s : Str) (h : '/' ∉ n) : ∀ acc, cut acc (n ++ '/' :: s) = (acc ++ n) :: cut [] s := by
  induction n with
  | nil => intro acc; rw [List.nil_append, cut, if_pos rfl, List.append_nil]
  | cons c n ih =>
    intro acc
    rw [List.cons_append, cut, if_neg (fun (hh : c = '/') => h (hh ▸ .head _)), ih (fun hh => h (.tail _ hh)), List.append_assoc]; rfl

theorem cut_slashes : ∀ p : Path, p ≠ [] → (∀ x ∈ p, Ordinary x) → cut [] (slashes p) = p
  | [], h, _ => (h rfl).elim
  | [n], _, h => by rw [slashes, cut_name n (h n (.head _)).2.2]; rfl
  | n :: m :: l, _, h => by
    rw [slashes, cut_slash n _ (h n (.head _)).2.2, cut_slashes (m :: l) (List.cons_ne_nil _ _) (fun x hx => h x (.tail _ hx))]; rfl

theorem resolve_arg (dir p : Path) (h : ∀ x ∈ p, Ordinary x) : resolve dir ("./".toList ++ relative p) = dir ++ p := by
  unfold resolve
  congr 1
  show (cut [] (".".toList ++ '/' :: relative p)).filter _ = p
  rw [cut_slash _ _ (by decide)]
  unfold relative
  by_cases hp : p = []
  · subst hp; decide
  · rw [if_neg hp, cut_slashes p hp h]
    have : (([] ++ ".".toList : Str) :: p).filter (fun x => x ≠ [] ∧ x ≠ ".".toList) = p.filter (fun x => x ≠ [] ∧ x ≠ ".".toList) := rfl
    rw [this, List.filter_eq_self]
    intro x hx
    exact decide_eq_true ⟨(h x hx).1, (h x hx).2.1⟩

/-- **C109.** A case is debugged in the directory of its package, as `go test` runs it: the directory of its file, which is that of the one
    package that is built. -/
theorem C109_where (s : Session) (tmp : Path) (port : Int) (hs : (start s true).isSome) (pkg : Path) (file : Str)
    (hr : relOf s.item = pkg ++ [file]) (hp : ∀ x ∈ pkg, Ordinary x) (hf : ∀ a ∈ s.testFlags, Plain a) :
    Buildable (goTest (build s tmp).args.tail) ∧ (build s tmp).dir = s.dir ∧
    (goTest (build s tmp).args.tail).pkgs.map (resolve s.dir) = [s.dir ++ pkg] ∧
    (goTest (runTest s).args.tail).pkgs.map (resolve s.dir) = [s.dir ++ pkg] ∧ (runTest s).dir = s.dir ∧
      (dlv s tmp port).dir = s.dir ++ pkg := by
  have hk := ((C109_only_cases s).1 hs).1
  have h1 : (testPaths s.item).1 = [pkg] := by
    rcases hi : s.item with ⟨k, n, u, rel, h, cs⟩
    rw [hi] at hk hr
    cases hk
    show [rel.dropLast] = _
    rw [show rel = pkg ++ [file] from hr, List.dropLast_concat]
  have h2 : (pathArgs [pkg]).map (resolve s.dir) = [s.dir ++ pkg] := by
    show [resolve s.dir ("./".toList ++ relative pkg)] = _
    rw [resolve_arg _ _ hp]
  refine ⟨?_, rfl, by rw [build_read s tmp hf, h1]; exact h2, by rw [run_read s hf, h1]; exact h2, rfl, ?_⟩
  · rw [build_read s tmp hf, h1]
    refine And.intro ?_ ?_
    · intro h; cases h
    · exact Nat.le_refl _
  · show (s.dir ++ relOf s.item).dropLast = _
    rw [hr, ← List.append_assoc, List.dropLast_concat]

/-- **C109.** The binary is written into the temporary directory. -/
theorem C109_binary (s : Session) (tmp : Path) (hs : (start s true).isSome) (ht : ∀ x ∈ tmp, Ordinary x)
    (ho : ∀ x ∈ s.dir ++ relOf s.item, Ordinary x) (hf : ∀ a ∈ s.testFlags, Plain a) :
    ∃ bin name, (goTest (build s tmp).args.tail).output = some bin ∧ bin.head? = some '/' ∧ resolve [] bin = tmp ++ [name] := by
  have hne := ((C109_only_cases s).1 hs).2
  have hl : (s.dir ++ relOf s.item).getLast? = some ((s.dir ++ relOf s.item).getLast hne) := List.getLast?_eq_some_getLast hne
  have hlo := ho _ (List.getLast_mem hne)
  generalize (s.dir ++ relOf s.item).getLast hne = f at hl hlo
  have hb : binPath s tmp = tmp ++ [f ++ "-debug.bin".toList] := by
    unfold binPath fileOf
    rw [hl]; rfl
  have hord : ∀ x ∈ binPath s tmp, Ordinary x := by
    intro x hx
    rw [hb, List.mem_append, List.mem_singleton] at hx
    rcases hx with hx | rfl
    · exact ht x hx
    · refine ⟨by simp, ?_, ?_⟩
      · intro hh
        have := congrArg List.length hh
        simp at this
      · intro hh
        rw [List.mem_append] at hh
        rcases hh with hh | hh
        · exact hlo.2.2 hh
        · revert hh; decide
  refine ⟨_, f ++ "-debug.bin".toList, by rw [build_read s tmp hf], rfl, ?_⟩
  unfold resolve absolute
  rw [List.nil_append, cut, if_pos rfl, cut_slashes _ (by rw [hb]; simp) hord]
  have : (([] : Str) :: binPath s tmp).filter (fun x => x ≠ [] ∧ x ≠ ".".toList) = (binPath s tmp).filter (fun x => x ≠ [] ∧ x ≠ ".".toList) := rfl
  rw [this, List.filter_eq_self.2 (fun x hx => decide_eq_true ⟨(hord x hx).1, (hord x hx).2.1⟩), hb]

/-- **C109.** The go command of the configuration runs and builds the tests, and `go` if there is none. -/
theorem C109_command (s : Session) (tmp : Path) :
    (s.goCmd = [] → (runTest s).prog = "go".toList ∧ (build s tmp).prog = "go".toList) ∧
    (s.goCmd ≠ [] → (runTest s).prog = s.goCmd ∧ (build s tmp).prog = s.goCmd) :=
  ⟨fun h => ⟨if_pos h, if_pos h⟩, fun h => ⟨if_neg h, if_neg h⟩⟩

/-! ### What is done -/

/-- **C109.** The temporary directory is made before everything else and removed after everything else, however it ends; in between the test is
    built, and only then debugged. -/
theorem C109_effects (s : Session) (tmp : Path) (built : Bool) (log : List (Int × Outcome)) :
    ∃ cs : List Command, debugTest s (some tmp) built log =
      [.mkdir tmp, .run (build s tmp)] ++ cs.map .run ++ [.remove tmp] ∧ (∀ c ∈ cs, c.prog = "dlv".toList) ∧ (built = false → cs = []) := by
  cases built with
  | false => exact ⟨[], rfl, fun _ h => (by cases h), fun _ => rfl⟩
  | true =>
    refine ⟨(log.filter fun x => x.2 ≠ .busy).map fun x => dlv s tmp x.1, ?_, ?_, fun h => by cases h⟩
    · show [_, _] ++ attempts s tmp log ++ [_] = _
      rw [List.map_map]; rfl
    · intro c hc
      obtain ⟨x, _, rfl⟩ := List.mem_map.1 hc
      rfl

theorem filter_busy {log : List (Int × Outcome)} (h1 : ∀ x ∈ log, Verif.Support.ServePort.taken x.2) (h2 : ∀ x ∈ log, x.2 ≠ .inUse) :
    (log.filter fun x => x.2 ≠ .busy) = [] ∧ ∀ x ∈ log, x.2 = .busy := by
  have hb : ∀ x ∈ log, x.2 = .busy := by
    intro x hx
    rcases h1 x hx with h | h
    · exact h
    · exact (h2 x hx h).elim
  exact ⟨List.filter_eq_nil_iff.2 fun x hx => by simp [hb x hx], hb⟩

/-- **C109.** Whatever other programs do with the ports: the debugger is started at most once, at the first port from 2345 on that nobody
    answered at. (An end of the debugger is never taken for a port in use: the error says that the program failed, with its exit code.)
    So if it loses the port to another program after the probe, the debugging fails. -/
theorem C109_once (s : Session) (tmp : Path) (built : Bool) (ls : List Verif.Support.ServePort.Label) (st : Verif.Support.ServePort.St)
    (h : Verif.Support.ServePort.run true (Verif.Support.ServePort.start 2345) ls = some st) (hu : ∀ x ∈ st.log, x.2 ≠ .inUse) :
    ∃ cs : List Command, debugTest s (some tmp) built st.log = [.mkdir tmp, .run (build s tmp)] ++ cs.map .run ++ [.remove tmp] ∧
      (cs = [] ∨ ∃ k : Nat, cs = [dlv s tmp (2345 + (k : Int))] ∧ ∀ i : Nat, i < k → (2345 + (i : Int), Outcome.busy) ∈ st.log) := by
  have hi := Verif.Support.ServePort.portInv_run h
  cases built with
  | false => exact ⟨[], rfl, .inl rfl⟩
  | true =>
    refine ⟨(st.log.filter fun x => x.2 ≠ .busy).map fun x => dlv s tmp x.1, ?_, ?_⟩
    · show [_, _] ++ attempts s tmp st.log ++ [_] = _
      rw [List.map_map]; rfl
    · by_cases hd : ∃ b, st.pc = .done b
      · obtain ⟨b, hb⟩ := hd
        obtain ⟨log, o, h1, h2, h3, _⟩ := hi.over b hb
        have hu' : ∀ x ∈ log, x.2 ≠ .inUse := fun x hx => hu x (by rw [h1]; exact List.mem_append_left _ hx)
        obtain ⟨hf, hbusy⟩ := filter_busy h2.2 hu'
        rw [h1, List.filter_append, hf, List.nil_append]
        by_cases ho : o = .busy
        · left; simp [ho]
        · right
          refine ⟨log.length, ?_, ?_⟩
          · simp [ho, h3]
          · intro i hlt
            refine List.mem_append_left _ ?_
            have e1 : log.map Prod.fst = _ := h2.1
            have e2 : (log.map Prod.fst)[i]? = some (2345 + (i : Int)) := by
              rw [e1]; simp [hlt]
            rw [List.getElem?_map] at e2
            obtain ⟨x, hx, hx2⟩ := Option.map_eq_some_iff.1 e2
            have hxm := List.mem_of_getElem? hx
            have := hbusy x hxm
            have hxe : x = (2345 + (i : Int), Outcome.busy) := by
              rw [← hx2, ← this]
            rw [← hxe]; exact hxm
      · obtain ⟨h1, _⟩ := hi.on (fun b hb => hd ⟨b, hb⟩)
        left
        rw [(filter_busy h1.2 hu).1]; rfl

/-! ### Cases -/

def exCase : Item := .mk .case "TestA".toList [] ["pkg".toList, "a_test.go".toList] false .nil
def exDir : Item := .mk .dir "pkg".toList [] ["pkg".toList] true (.cons (.mk .dir "sub".toList [] ["pkg".toList, "sub".toList] true .nil) .nil)

def exSession (i : Item) (flags : List Str) : Session where
  goCmd := []
  dir := ["w".toList, "proj".toList]
  testFlags := flags
  bypass := true
  progArgs := ["-mode".toList, "x".toList]
  env := ["GOOS=linux".toList]
  item := i
  traceDir := none

def exTmp : Path := ["tmp".toList, "go-test-debug1".toList]

example : (∀ a ∈ ["-tags=dev".toList], Plain a ∧ ¬ TestFlag a) ∧ TestFlag "-count=3".toList ∧ Plain "-count=3".toList := by
  unfold Plain; decide +kernel

/-- The commands for a case. -/
example : (build (exSession exCase ["-tags=dev".toList]) exTmp).args = ["test", "-c", "-o", "/tmp/go-test-debug1/a_test.go-debug.bin",
    "-gcflags=all=-N -l", "-tags=dev", "./pkg"].map String.toList := by decide +kernel
example : (dlv (exSession exCase ["-tags=dev".toList]) exTmp 2345).args = ["exec", "--api-version=2", "--check-go-version=false", "--headless",
    "--listen=localhost:2345", "/tmp/go-test-debug1/a_test.go-debug.bin", "--", "-test.v", "-test.run", "^TestA$", "--", "-mode", "x"].map
      String.toList := by decide +kernel
example : (dlv (exSession exCase []) exTmp 2345).dir = ["w", "proj", "pkg"].map String.toList := by decide +kernel
/-- A case that runs three times runs once when debugged. -/
example : binary (started (goTest (runTest (exSession exCase ["-count=3".toList])).args.tail)) =
      some ([("v".toList, "true".toList), ("count".toList, "3".toList), ("run".toList, "^TestA$".toList)], ["-mode".toList, "x".toList]) ∧
    binary ((dlvExec (dlv (exSession exCase ["-count=3".toList]) exTmp 2345).args).get!.2.2) =
      some ([("v".toList, "true".toList), ("run".toList, "^TestA$".toList)], ["-mode".toList, "x".toList]) := by decide +kernel
/-- Without the bypass, the binary does not know the program's flags, run or debugged. -/
example : binary (started (goTest (runTest { exSession exCase [] with bypass := false }).args.tail)) = none := by decide +kernel
example : (start (exSession exCase []) true).isSome = true ∧ (start (exSession exDir []) true).isSome = false ∧
    (start (exSession exDir []) false).isSome = true := by decide +kernel
/-- Port 2345 answers, 2346 is free. -/
example : ∃ st, Verif.Support.ServePort.run true (Verif.Support.ServePort.start 2345) [.probe true, .probe false, .ret .other] = some st ∧
    (∀ x ∈ st.log, x.2 ≠ .inUse) ∧
    debugTest (exSession exCase []) (some exTmp) true st.log = [.mkdir exTmp, .run (build (exSession exCase []) exTmp),
      .run (dlv (exSession exCase []) exTmp 2346), .remove exTmp] :=
  ⟨_, rfl, by decide, by decide +kernel⟩

end Verif.Cmd.ExplorerDebug
